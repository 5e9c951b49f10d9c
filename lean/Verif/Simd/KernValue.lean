import Verif.Simd.KernSingleLemmas
import Verif.Simd.MultProps
import Verif.Front.Values
/-
The values the generic kernel computes from packed matrices, to compare the SIMD kernels with.
-/
namespace Ruy.Simd.Kern
open Ruy.Mat Ruy.Mul
open Ruy.Front (ScalarType MulParams Quant intScalars kernelParams)
open Ruy.Multiplier (isI32 scaled)

variable {A : Type}

/-- The accumulator of `kernelEntry`. -/
def kernelAccum (ar : Arith A) (mp : Mul.Params A) (lhs rhs : PMat A) (i j : Nat) : C A := do
  let a0 ← forUpTo lhs.layout.rows (dotStep ar lhs rhs i j) ar.zero
  let a1 ← addBias ar mp.bias (channelOf mp.channelDim i j) a0
  let a2 ← subSum ar lhs.zp rhs j a1
  let a3 ← subSum ar rhs.zp lhs i a2
  addZpProduct ar lhs.zp rhs.zp lhs.layout.rows a3

theorem kernelEntry_eq (ar : Arith A) (mp : Mul.Params A) (lhs rhs : PMat A) (dzp : Int) (i j : Nat) :
    kernelEntry ar mp lhs rhs dzp i j =
      (kernelAccum ar mp lhs rhs i j >>= finish ar mp dzp (channelOf mp.channelDim i j)) := by
  unfold kernelEntry kernelAccum
  simp only [bind_assoc]

theorem pelem_at {p : PMat Int} (hp : PackedOk p.layout) {r c : Nat} {v : Int}
    (h : p.elem r c = .ok v) : v = pat p r c := by
  unfold PMat.elem at h
  obtain ⟨o, ho, h⟩ := C.bind_ok h
  rw [poffset_eq hp.kernel] at ho
  rw [(Buf.read_ok h).2, (C.int_ok ho).1]
  rfl

section
variable {R : Type} [CommRing R] {ar : Arith Int}

theorem subSum_value (h : ar.Hom (fun x : Int => (x : R))) {zp : Int} {o : PMat Int} {c : Nat} {a a' : Int}
    (hs : subSum ar zp o c a = .ok a') : (a' : R) = (a : R) - ((zp * psum o c : Int) : R) := by
  unfold subSum at hs
  split at hs
  · cases hs
    rename_i hz
    simp [hz]
  · obtain ⟨s, h1, hs⟩ := C.bind_ok hs
    obtain ⟨t, h2, hs⟩ := C.bind_ok hs
    have e1 := h.sub hs
    have e2 := h.mul h2
    have e3 := h.ofInt zp
    rw [e1, e2, e3]
    unfold readSum at h1
    unfold psum
    cases hsum : o.sums with
    | none => rw [hsum] at h1; cases h1
    | some b =>
      rw [hsum] at h1
      dsimp only at h1 ⊢
      rw [(Buf.read_ok h1).2]
      push_cast; rfl

theorem kernelAccum_value (h : ar.Hom (fun x : Int => (x : R))) {lhs rhs : PMat Int}
    {mp : MulParams Int} {P : Mul.Params Int} (hb : P.bias = mp.bias) (hch : P.channelDim = mp.channelDim)
    (hl : PackedOk lhs.layout) (hr : PackedOk rhs.layout) {i j : Nat} {a : Int}
    (hs : kernelAccum ar P lhs rhs i j = .ok a) : (a : R) = ((accOf lhs rhs mp i j : Int) : R) := by
  unfold kernelAccum at hs
  obtain ⟨a0, h0, hs⟩ := C.bind_ok hs
  obtain ⟨a1, h1, hs⟩ := C.bind_ok hs
  obtain ⟨a2, h2, hs⟩ := C.bind_ok hs
  obtain ⟨a3, h3, hs⟩ := C.bind_ok hs
  have e0 : (a0 : R) = ((dot lhs rhs i j lhs.layout.rows : Int) : R) := by
    refine forUpTo_inv (P := fun n (s : Int) => (s : R) = ((dot lhs rhs i j n : Int) : R)) ?_ ?_ h0
    · have := h.zero
      try dsimp only at this
      rw [this]; simp [dot]
    · intro k t t' _ ih hstep
      obtain ⟨x, hx, hstep⟩ := C.bind_ok hstep
      obtain ⟨y, hy, hstep⟩ := C.bind_ok hstep
      obtain ⟨z, hz, hstep⟩ := C.bind_ok hstep
      have f1 := h.add hstep
      have f2 := h.mul hz
      try dsimp only at f1 f2
      rw [f1, f2, ih, pelem_at hl hx, pelem_at hr hy]
      unfold dot
      rw [Finset.sum_range_succ]
      push_cast; rfl
  have e1 := addBias_value h h1
  have e2 := subSum_value h h2
  have e3 := subSum_value h h3
  have e4 := addZpProduct_value h hs
  try dsimp only at e1 e4
  rw [e4, e3, e2, e1, e0]
  have eb : biasOf (fun x : Int => (x : R)) P.bias (channelOf P.channelDim i j) =
      ((biasAt mp.bias (channelOf mp.channelDim i j) : Int) : R) := by
    unfold biasOf biasAt
    rw [hb, hch]
    cases mp.bias <;> simp
  rw [eb]
  unfold accOf
  push_cast
  ring

end

theorem kernelAccum_range {P : Mul.Params Int} {lhs rhs : PMat Int} {i j : Nat} {a : Int}
    (h : kernelAccum Front.wrap32 P lhs rhs i j = .ok a) : Front.InI32 a := by
  unfold kernelAccum at h
  obtain ⟨a0, h0, h⟩ := C.bind_ok h
  obtain ⟨a1, h1, h⟩ := C.bind_ok h
  obtain ⟨a2, h2, h⟩ := C.bind_ok h
  obtain ⟨a3, h3, h⟩ := C.bind_ok h
  have hsub : ∀ {zp : Int} {o : PMat Int} {c : Nat} {x y : Int}, Front.InI32 x →
      subSum Front.wrap32 zp o c x = .ok y → Front.InI32 y := by
    intro zp o c x y hx hy
    unfold subSum at hy
    split at hy
    · cases hy; exact hx
    · obtain ⟨_, _, hy⟩ := C.bind_ok hy
      obtain ⟨_, _, hy⟩ := C.bind_ok hy
      cases hy; exact Front.bmod_range _
  have r0 : Front.InI32 a0 := by
    refine forUpTo_inv (P := fun _ s => Front.InI32 s) (by unfold Front.InI32; simp [Front.wrap32]) ?_ h0
    intro k t t' _ _ hstep
    obtain ⟨_, _, hstep⟩ := C.bind_ok hstep
    obtain ⟨_, _, hstep⟩ := C.bind_ok hstep
    obtain ⟨_, _, hstep⟩ := C.bind_ok hstep
    cases hstep; exact Front.bmod_range _
  have r3 := hsub (hsub (Front.addBias_range r0 h1) h2) h3
  unfold addZpProduct at h
  split at h
  · cases h; exact r3
  · obtain ⟨_, _, h⟩ := C.bind_ok h
    obtain ⟨_, _, h⟩ := C.bind_ok h
    cases h; exact Front.bmod_range _

theorem wrap32_bmod (x : Int) : x.bmod (2 ^ 32) = wrap32 x := by
  have h1 := Front.bmod_range x
  have h2 := wrap32_range x
  have h3 : x.bmod (2 ^ 32) % (2 ^ 32 : Int) = x % (2 ^ 32 : Int) := by
    have := Int.bmod_emod (x := x) (m := 2 ^ 32)
    exact_mod_cast this
  unfold Front.InI32 at h1
  unfold wrap32 at *
  omega

theorem wrap32_zmod (x : Int) : ((wrap32 x : Int) : ZMod (2 ^ 32)) = (x : ZMod (2 ^ 32)) := by
  rw [← wrap32_bmod, Front.bmod_zmod]

theorem kernelAccum_wrap {P : Mul.Params Int} {lhs rhs : PMat Int} {mp : MulParams Int}
    (hb : P.bias = mp.bias) (hch : P.channelDim = mp.channelDim)
    (hl : PackedOk lhs.layout) (hr : PackedOk rhs.layout) {i j : Nat} {a : Int}
    (h : kernelAccum Front.wrap32 P lhs rhs i j = .ok a) : a = wrap32 (accOf lhs rhs mp i j) := by
  have e := kernelAccum_value Front.wrap32_hom hb hch hl hr h
  refine Front.eq_of_zmod (kernelAccum_range h) ?_ (e.trans (wrap32_zmod _).symm)
  have := wrap32_range (accOf lhs rhs mp i j)
  unfold Front.InI32
  omega

/-- Narrowing on storing is the conversion to the destination type. -/
theorem conv_wrap {t : ScalarType} (h1 : t ≠ .float) (h2 : t ≠ .int32) (x : Int) : conv t x = t.wrap x := by
  cases t with
  | float => exact absurd rfl h1
  | int32 => exact absurd rfl h2
  | uint8 => unfold conv byteAs ScalarType.wrap wrap8 ScalarType.lo ScalarType.hi; simp
  | int8 => unfold conv byteAs ScalarType.wrap wrap8 ScalarType.lo ScalarType.hi; simp; omega
  | int16 => unfold conv ScalarType.wrap wrap16 ScalarType.lo ScalarType.hi; simp; omega

/-- What the C++ types say about MulParams (mul_params.h:109-156, 259-296): int32 destinations have
neither multiplier nor clamp bounds; other destinations have both. -/
structure ParamsOk (dt : ScalarType) (mp : MulParams Int) : Prop where
  raw : dt = .int32 → mp.quant = none ∧ mp.clampMin = -2 ^ 31 ∧ mp.clampMax = 2 ^ 31 - 1
  narrow : dt ≠ .int32 → mp.quant.isSome = true ∧ Front.ClampOk dt mp

/-! ### Multipliers -/

/-- One lane of the x86 multiplier is the reference or one more. -/
theorem lane_near (x m e : Int) (hm0 : 0 ≤ m) (hm1 : isI32 m) (he0 : -31 ≤ e) (he1 : e ≤ 30)
    (hfit : isI32 (x * 2 ^ e.toNat)) :
    lane x m e = scaled x m e ∨ (e < 0 ∧ lane x m e = scaled x m e + 1) := by
  have hsh : sllv32 x (max e 0) = x * 2 ^ e.toNat := by
    unfold sllv32
    rw [cnt32_of (by omega) (by omega), show (max e 0).toNat = e.toNat by omega, if_pos (by omega)]
    have := hfit.1; have := hfit.2
    exact wrap32_of (by omega) (by omega)
  have hval := (lane_value x m e hm0 hm1 he0 (by unfold isI32; omega)).1
  rw [hsh] at hval
  rw [hval]
  unfold roundShift
  split
  · left
    rw [scaled_mul_pow]; congr 1; omega
  · rename_i hk
    obtain ⟨k, hk'⟩ : ∃ k : Nat, (-e).toNat = k + 1 := ⟨(-e).toNat - 1, by omega⟩
    have h0 : e.toNat = 0 := by omega
    rw [hk', h0, pow_zero, Int.mul_one, Nat.add_sub_cancel, ← scaled_zero]
    have hd := double_round (x * m) k
    simp only [] at hd
    rw [trunc_round_scaled x m k, show (-(k + 1 : Nat) : Int) = e by omega] at hd
    by_cases hh : ((x * m + 2 ^ 30) / 2 ^ 31 + 2 ^ k) / 2 ^ (k + 1) = scaled x m e
    · left; exact hh
    · right
      refine ⟨by omega, ?_⟩
      have h1 := hd.1
      have h2 := hd.2
      omega

theorem scaled_small (x m e : Int) (hx : isI32 x) (hm : isI32 m) (hm0 : 0 ≤ m) (he : e < 0) :
    -2 ^ 30 ≤ scaled x m e ∧ scaled x m e ≤ 2 ^ 30 := by
  rw [← Multiplier.ediv_eq_scaled x m e (by omega)]
  obtain ⟨n, hn⟩ : ∃ n : Nat, 31 - e = n + 32 := ⟨(-e - 1).toNat, by omega⟩
  have e1 : (31 - e - 1).toNat = n + 31 := by omega
  have e2 : (31 - e).toNat = n + 32 := by omega
  rw [e1, e2]
  have hp : (1 : Int) ≤ 2 ^ n := by exact_mod_cast Nat.one_le_two_pow
  have hq : (2 : Int) ^ (n + 32) = 2 ^ n * 2 ^ 32 := by rw [pow_add]
  have hh : (2 : Int) ^ (n + 31) = 2 ^ n * 2 ^ 31 := by rw [pow_add]
  have hpos : (0 : Int) < 2 ^ (n + 32) := by positivity
  unfold isI32 at *
  rw [hh]
  constructor
  · rw [Int.le_ediv_iff_mul_le hpos, hq]
    nlinarith [hx.1, hm.2]
  · rw [← Int.lt_add_one_iff, Int.ediv_lt_iff_lt_mul hpos, hq]
    nlinarith [hx.2, hm.2]

/-! ### The generic kernel as a whole -/

theorem strideOk_of {l : MatLayout} (ho : l.order = .colMajor) (hs : l.rows ≤ l.stride) : StrideOk l := by
  unfold StrideOk; rw [ho]; exact hs

theorem runKernel_ok {ar : Arith Int} {P : Mul.Params Int} {lhs rhs : PMat Int} {start stop : SidePair Nat}
    {dst d : Mul.Mat Int} (hst : StrideOk dst.layout)
    (h : runKernel ar P lhs rhs start stop dst = .ok d) :
    (start.lhs ≤ stop.lhs ∧ start.rhs ≤ stop.rhs) ∧ DSame dst d ∧
      DOutside (fun i j => start.lhs ≤ i ∧ i < min stop.lhs dst.layout.rows ∧ start.rhs ≤ j ∧
        j < min stop.rhs dst.layout.cols) dst d ∧
      ∀ i j, start.lhs ≤ i → i < min stop.lhs dst.layout.rows → start.rhs ≤ j →
        j < min stop.rhs dst.layout.cols → EntryDone (kernelEntry ar P lhs rhs dst.zp) d i j := by
  unfold runKernel at h
  obtain ⟨_, h1, h⟩ := C.bind_ok h
  obtain ⟨_, h2, h⟩ := C.bind_ok h
  unfold rangeChecks at h1 h2
  obtain ⟨_, h1, _⟩ := C.bind_ok h1
  obtain ⟨_, h2, _⟩ := C.bind_ok h2
  refine ⟨⟨C.check_ok h1, C.check_ok h2⟩, ?_⟩
  refine storeLoop_ok hst (Nat.min_le_right _ _) (Nat.min_le_right _ _) ?_ h
  intro i j t t' _ _ _ _ hs hstep
  unfold kernelStep at hstep
  obtain ⟨v, hv, hstep⟩ := C.bind_ok hstep
  rw [hs.zp] at hv
  exact ⟨v, hv, hstep⟩

/-- Destinations that agree on the written entries and on the rest are equal. -/
theorem mat_ext {S : Nat → Nat → Prop} {dst d d' : Mul.Mat Int} (h : DSame dst d) (h' : DSame dst d')
    (o : DOutside S dst d) (o' : DOutside S dst d')
    (he : ∀ i j, S i j → ∃ v, d.elem i j = .ok v ∧ d'.elem i j = .ok v) : d = d' := by
  have hb : d.data = d'.data := by
    have e1 : d.data.size = d'.data.size := h.size.trans h'.size.symm
    have e2 : d.data.val = d'.data.val := by
      funext x
      by_cases hx : ∀ i j, S i j → x ≠ off dst.layout i j
      · rw [o x hx, o' x hx]
      · push Not at hx
        obtain ⟨i, j, hS, rfl⟩ := hx
        obtain ⟨v, h1, h2⟩ := he i j hS
        have get : ∀ {m : Mul.Mat Int}, m.layout = dst.layout → m.elem i j = .ok v →
            m.data.val (off dst.layout i j) = v := by
          intro m hm hv
          unfold Mat.elem at hv
          obtain ⟨p, hp, hv⟩ := C.bind_ok hv
          rw [hm] at hp
          rw [← offset_ok hp]
          exact (Buf.read_ok hv).2.symm
        rw [get h.layout h1, get h'.layout h2]
    cases hd : d.data with
    | mk s v =>
      cases hd' : d'.data with
      | mk s' v' =>
        rw [hd, hd'] at e1 e2
        cases e1; cases e2; rfl
  cases d with
  | mk l b z =>
    cases d' with
    | mk l' b' z' =>
      have e1 := h.layout.trans h'.layout.symm
      have e2 := h.zp.trans h'.zp.symm
      cases e1; cases e2; cases hb; rfl

/-- `perChannel` reads the values the SIMD kernels read. -/
theorem fixedAt_eq {q : Quant} {ch : Nat} {m : Int} (h : Front.perChannel q.fixedPerChannel q.fixed ch = .ok m) :
    m = fixedAt (some q) ch := by
  rw [Front.perChannel_ok h]
  unfold Front.valueAt fixedAt
  dsimp only
  cases q.fixedPerChannel <;> rfl

theorem exponentAt_eq {q : Quant} {ch : Nat} {m : Int}
    (h : Front.perChannel q.exponentPerChannel q.exponent ch = .ok m) : m = exponentAt (some q) ch := by
  rw [Front.perChannel_ok h]
  unfold Front.valueAt exponentAt
  dsimp only
  cases q.exponentPerChannel <;> rfl

theorem clamp_eq (a lo hi : Int) :
    (if (decide ((if decide (hi < a) = true then hi else a) < lo)) = true then lo
      else if decide (hi < a) = true then hi else a) = max (min a hi) lo := by
  simp only [decide_eq_true_eq]
  split <;> split at * <;> omega

/-- The output stage with wrap-around arithmetic and the multiplication `ml`. -/
theorem finish_wrap {ty packed : SidePair ScalarType} {dt : ScalarType} {mp : MulParams Int}
    {ml : Int → Int → Int → Int} {dzp : Int} {ch : Nat} {a v : Int} (hp : ParamsOk dt mp) (hf : dt ≠ .float)
    (hz : dt = .int32 → dzp = 0) (ha : Front.InI32 a)
    (h : finish Front.wrap32 (kernelParams { intScalars Front.wrap32 ty packed dt with
      multiply := fun x m e => .ok (ml x m e) } mp) dzp ch a = .ok v) :
    v = if dt = .int32 then a
      else conv dt (max (min (wrap32 (ml a (fixedAt mp.quant ch) (exponentAt mp.quant ch) + dzp))
        mp.clampMax) mp.clampMin) := by
  unfold finish at h
  obtain ⟨a1, h1, h⟩ := C.bind_ok h
  obtain ⟨a2, h2, h⟩ := C.bind_ok h
  have e2 : (a1 + dzp).bmod (2 ^ 32) = a2 := Except.ok.inj h2
  have e3 : dt.wrap (max (min a2 mp.clampMax) mp.clampMin) = v := by
    have h := Except.ok.inj h
    rw [← h, ← clamp_eq]
    rfl
  have h1 : Front.applyMultiplier { intScalars Front.wrap32 ty packed dt with
      multiply := fun x m e => .ok (ml x m e) } mp.quant ch a = .ok a1 := h1
  by_cases h32 : dt = .int32
  · rw [if_pos h32]
    obtain ⟨q, lo, hi⟩ := hp.raw h32
    rw [q] at h1
    have e1 : a = a1 := Except.ok.inj h1
    rw [hz h32, Int.add_zero, ← e1, wrap32_bmod] at e2
    unfold Front.InI32 at ha
    rw [wrap32_of ha.1 (by omega)] at e2
    rw [← e3, lo, hi, ← e2, h32]
    have : max (min a (2 ^ 31 - 1)) (-2 ^ 31) = a := by omega
    rw [this]
    exact Front.wrap_of (t := .int32) (by show (-2 ^ 31 : Int) ≤ _; omega)
      (by show _ ≤ (2 ^ 31 - 1 : Int); omega)
  · rw [if_neg h32]
    obtain ⟨hq, -⟩ := hp.narrow h32
    obtain ⟨q, hq⟩ := Option.isSome_iff_exists.1 hq
    rw [hq] at h1 ⊢
    obtain ⟨m, hm, h1⟩ := C.bind_ok h1
    obtain ⟨e, he, h1⟩ := C.bind_ok h1
    have e1 : ml a m e = a1 := Except.ok.inj h1
    rw [conv_wrap hf h32, ← e3, ← e2, wrap32_bmod, ← e1, fixedAt_eq hm, exponentAt_eq he]

theorem kernelAccum_range32 {P : Mul.Params Int} {lhs rhs : PMat Int} {i j : Nat} {a : Int}
    (h : kernelAccum Arith.int32 P lhs rhs i j = .ok a) : Front.InI32 a := by
  have i32 : ∀ {x y : Int}, C.i32 x = .ok y → Front.InI32 y := by
    intro x y hx
    obtain ⟨e, h1, h2⟩ := C.i32_ok hx
    unfold Front.InI32
    omega
  unfold kernelAccum at h
  obtain ⟨a0, h0, h⟩ := C.bind_ok h
  obtain ⟨a1, h1, h⟩ := C.bind_ok h
  obtain ⟨a2, h2, h⟩ := C.bind_ok h
  obtain ⟨a3, h3, h⟩ := C.bind_ok h
  have hsub : ∀ {zp : Int} {o : PMat Int} {c : Nat} {x y : Int}, Front.InI32 x →
      subSum Arith.int32 zp o c x = .ok y → Front.InI32 y := by
    intro zp o c x y hx hy
    unfold subSum at hy
    split at hy
    · cases hy; exact hx
    · obtain ⟨_, _, hy⟩ := C.bind_ok hy
      obtain ⟨_, _, hy⟩ := C.bind_ok hy
      exact i32 hy
  have r0 : Front.InI32 a0 := by
    refine forUpTo_inv (P := fun _ s => Front.InI32 s) (by unfold Front.InI32; simp [Arith.int32]) ?_ h0
    intro k t t' _ _ hstep
    obtain ⟨_, _, hstep⟩ := C.bind_ok hstep
    obtain ⟨_, _, hstep⟩ := C.bind_ok hstep
    obtain ⟨_, _, hstep⟩ := C.bind_ok hstep
    exact i32 hstep
  have r1 : Front.InI32 a1 := by
    unfold addBias at h1
    split at h1
    · cases h1; exact r0
    · obtain ⟨_, _, h1⟩ := C.bind_ok h1
      exact i32 h1
  have r3 := hsub (hsub r1 h2) h3
  unfold addZpProduct at h
  split at h
  · cases h; exact r3
  · obtain ⟨_, _, h⟩ := C.bind_ok h
    obtain ⟨_, _, h⟩ := C.bind_ok h
    exact i32 h

/-- Multiplier and exponent of a channel as the x86 kernels support them, for the accumulator `a`. -/
def MultOk (q : Option Quant) (ch : Nat) (a : Int) : Prop :=
  0 ≤ fixedAt q ch ∧ fixedAt q ch < 2 ^ 31 ∧ -31 ≤ exponentAt q ch ∧ exponentAt q ch ≤ 30 ∧
    isI32 (a * 2 ^ (exponentAt q ch).toNat)

/-- The output stage against int32 arithmetic without overflow and the reference multiplier. -/
theorem finish_near {ty packed : SidePair ScalarType} {dt : ScalarType} {mp : MulParams Int}
    {ml : Int → Int → Int → Int} {dzp : Int} {ch : Nat} {a v : Int} (hp : ParamsOk dt mp) (hf : dt ≠ .float)
    (hz : dt = .int32 → dzp = 0) (ha : Front.InI32 a) (hzt : dt ≠ .int32 → -2 ^ 16 ≤ dzp ∧ dzp ≤ 2 ^ 16)
    (hml : ∀ x m e, 0 ≤ m → isI32 m → -31 ≤ e → isI32 e → ml x m e = lane x m e)
    (hm : dt ≠ .int32 → MultOk mp.quant ch a)
    (h : finish Arith.int32 (kernelParams (intScalars Arith.int32 ty packed dt) mp) dzp ch a = .ok v) :
    let w := if dt = .int32 then a
      else conv dt (max (min (wrap32 (ml a (fixedAt mp.quant ch) (exponentAt mp.quant ch) + dzp))
        mp.clampMax) mp.clampMin)
    v ≤ w ∧ w ≤ v + 1 ∧ (dt = .int32 ∨ 0 ≤ exponentAt mp.quant ch → w = v) := by
  intro w
  unfold Front.InI32 at ha
  by_cases h32 : dt = .int32
  · obtain ⟨q, lo, hi⟩ := hp.raw h32
    have hcl : Front.ClampOk dt mp := by
      rw [h32]
      exact ⟨by rw [lo]; decide, by rw [hi]; decide⟩
    have e := Front.finish_ok hcl h
    have hw : w = a := if_pos h32
    unfold Front.outSpec Front.scaleSpec at e
    rw [q, lo, hi, hz h32] at e
    dsimp only at e
    have : v = w := by omega
    omega
  · obtain ⟨hq, hcl⟩ := hp.narrow h32
    have e := Front.finish_ok hcl h
    have hw : w = conv dt (max (min (wrap32 (ml a (fixedAt mp.quant ch) (exponentAt mp.quant ch) + dzp))
        mp.clampMax) mp.clampMin) := if_neg h32
    obtain ⟨m0, m1, e0, e1, hfit⟩ := hm h32
    have hm1 : isI32 (fixedAt mp.quant ch) := by unfold isI32; omega
    obtain ⟨q, hq⟩ := Option.isSome_iff_exists.1 hq
    -- the reference does not overflow when the zero point is added
    have hs : ∃ r, r = scaled a (fixedAt mp.quant ch) (exponentAt mp.quant ch) ∧ isI32 (r + dzp) ∧
        v = max mp.clampMin (min mp.clampMax (dzp + r)) := by
      unfold finish at h
      obtain ⟨a1, h1, h⟩ := C.bind_ok h
      obtain ⟨a2, h2, h⟩ := C.bind_ok h
      obtain ⟨f1, f2, f3⟩ := C.i32_ok h2
      have f0 := Front.scale_ok h1
      refine ⟨a1, ?_, ?_, ?_⟩
      · rw [f0, hq]
        unfold Front.scaleSpec
        have g1 : Front.valueAt q.fixedPerChannel q.fixed ch = fixedAt (some q) ch := by
          unfold Front.valueAt fixedAt; dsimp only; cases q.fixedPerChannel <;> rfl
        have g2 : Front.valueAt q.exponentPerChannel q.exponent ch = exponentAt (some q) ch := by
          unfold Front.valueAt exponentAt; dsimp only; cases q.exponentPerChannel <;> rfl
        dsimp only
        rw [g1, g2]
      · have : a1 + dzp = a2 := f1.symm
        unfold isI32; omega
      · rw [e, f0]; rfl
    obtain ⟨r, hr, hri, hv⟩ := hs
    have hl := lane_near a (fixedAt mp.quant ch) (exponentAt mp.quant ch) m0 hm1 e0 e1 hfit
    rw [← hml _ _ _ m0 hm1 e0 (by unfold isI32; omega), ← hr] at hl
    have ht := hzt h32
    have hi32 : isI32 a := by unfold isI32; omega
    have hsm : exponentAt mp.quant ch < 0 → r ≤ 2 ^ 30 := fun hneg => by
      rw [hr]; exact (scaled_small _ _ _ hi32 hm1 m0 hneg).2
    have hc1 := hcl.min; have hc2 := hcl.max
    have hcv : ∀ x : Int, conv dt (max (min x mp.clampMax) mp.clampMin) =
        max (min x mp.clampMax) mp.clampMin := by
      intro x
      rw [conv_wrap hf h32, Front.wrap_of (by omega) (by omega)]
    rw [hcv] at hw
    unfold isI32 at hri
    rcases hl with hl | ⟨hneg, hl⟩
    · rw [hl, wrap32_of (by omega) (by omega)] at hw
      have : w = v := by omega
      omega
    · have := hsm hneg
      rw [hl, wrap32_of (by omega) (by omega)] at hw
      clear_value w
      refine ⟨by omega, by omega, fun hor => ?_⟩
      rcases hor with hor | hor
      · exact absurd hor h32
      · omega

end Ruy.Simd.Kern

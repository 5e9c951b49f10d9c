import Verif.Simd.KernValue
/-
Property C50: the 8-bit x86 kernels.

  c50_lanes               the depth loop of the AVX2, AVX and AVX-512 kernels puts the inner products,
                          modulo 2^32, into the lanes of the accumulators
  c50_agrees              the kernels, single-column ones included, store what the generic kernel
                          stores with wrap-around accumulators and the multiplier of the SIMD code
  c50_reference           against the generic kernel with int32 accumulators that do not overflow and
                          the reference multiplier: equal entries, or one more if the exponent is
                          negative
  c50_one_more, c50_zero_point, c50_stride   why the hypotheses and the tolerance are needed
-/
namespace Ruy.Simd.Kern
open Ruy.Mat Ruy.Mul
open Ruy.Front (ScalarType MulParams Quant intScalars kernelParams)
open Ruy.Multiplier (isI32 scaled)

/-- The x86 kernels with the function one lane of their multiplier computes. -/
def kernels : List (Single × (Int → Int → Int → Int)) :=
  [(single2, lane), (singleAvx, lane), (single512, lane512)]

theorem kernels_ok {s : Single} {ml : Int → Int → Int → Int} (h : (s, ml) ∈ kernels) : SingleOk s ml := by
  unfold kernels at h
  simp only [List.mem_cons, Prod.mk.injEq, List.not_mem_nil, or_false] at h
  rcases h with ⟨rfl, rfl⟩ | ⟨rfl, rfl⟩ | ⟨rfl, rfl⟩
  · exact single2_ok
  · exact singleAvx_ok
  · exact single512_ok

theorem kernels_lane {s : Single} {ml : Int → Int → Int → Int} (h : (s, ml) ∈ kernels) :
    ∀ x m e, 0 ≤ m → isI32 m → -31 ≤ e → isI32 e → ml x m e = lane x m e := by
  unfold kernels at h
  simp only [List.mem_cons, Prod.mk.injEq, List.not_mem_nil, or_false] at h
  intro x m e h1 h2 h3 h4
  rcases h with ⟨rfl, rfl⟩ | ⟨rfl, rfl⟩ | ⟨rfl, rfl⟩
  · rfl
  · rfl
  · exact (lane_value x m e h1 h2 h3 h4).2

/-! ### The depth loop -/

/-- Specification: the product of four consecutive depth levels in block `d`. -/
def quad (l r : Buf Int) (lp rp kc i j d : Nat) : Int :=
  ∑ t ∈ Finset.range 4, l.val (lp + 4 * kc * d + (4 * i + t)) * r.val (rp + 4 * kc * d + (4 * j + t))

/-- C50: from zero accumulators and buffers with `n` blocks of four depth levels, the depth loop
succeeds, and lane `i` of accumulator `j` is the sum of the products of LHS column `i` and RHS
column `j`, modulo 2^32.  Columns of a block are stored four elements at a time. -/
theorem c50_lanes {s : Single} {ml : Int → Int → Int → Int} (hs : (s, ml) ∈ kernels) (k : KParams)
    (lp rp n : Nat) (hl : lp + 4 * s.isa.kc * n ≤ k.lhs.size) (hr : rp + 4 * s.isa.kc * n ≤ k.rhs.size) :
    ∃ acc, forUpTo n (depthStep s.isa k lp rp) (fun _ _ => 0) = .ok acc ∧
      ∀ i j, i < s.isa.kc → j < s.isa.kc →
        acc j i = wrap32 (∑ d ∈ Finset.range n, quad k.lhs k.rhs lp rp s.isa.kc i j d) := by
  have ho := (kernels_ok hs).isa
  generalize s.isa = isa at *
  obtain ⟨a, e, hP⟩ := forUpTo_total (body := depthStep isa k lp rp) (s := fun _ _ => (0 : Int)) (n := n)
    (fun n (a : Nat → Reg) => ∀ i j, i < isa.kc → j < isa.kc →
        a j i = wrap32 (∑ d ∈ Finset.range n, quad k.lhs k.rhs lp rp isa.kc i j d))
    (fun i j _ _ => by simp [wrap32])
    (by
      intro d t hd ht
      have hm : 4 * isa.kc * d + 4 * isa.kc ≤ 4 * isa.kc * n := by
        calc 4 * isa.kc * d + 4 * isa.kc = 4 * isa.kc * (d + 1) := by ring
          _ ≤ 4 * isa.kc * n := Nat.mul_le_mul_left _ hd
      unfold depthStep
      rw [loadu_of (by omega), C.ok_bind, loadu_of (by omega), C.ok_bind]
      refine ⟨_, rfl, ?_⟩
      intro i j hi hj
      rw [ho.mac _ _ _ _ _ hi hj, ht i j hi hj, wrap32_add_left, Finset.sum_range_succ]
      have hexp : ∀ q, q < 4 → (if k.rhsSize = 1 then
          isa.expand (fun i => k.rhs.val (rp + 4 * isa.kc * d + i))
          else fun i => k.rhs.val (rp + 4 * isa.kc * d + i)) (4 * j + q) =
          k.rhs.val (rp + 4 * isa.kc * d + (4 * j + q)) := by
        intro q hq
        split
        · rw [ho.expand _ _ (by omega)]
        · rfl
      have h0 := hexp 0 (by omega)
      rw [Nat.add_zero] at h0
      rw [h0, hexp 1 (by omega), hexp 2 (by omega), hexp 3 (by omega)]
      unfold quad
      simp only [Finset.sum_range_succ, Finset.sum_range_zero, Nat.add_zero, Int.zero_add])
  exact ⟨a, e, hP⟩

/-! ### The kernels -/

/-- The biases are int32 values. -/
def BiasOk (mp : MulParams Int) : Prop := ∀ b ch, mp.bias = some b → ch < b.size → isI32 (b.val ch)

/-- C50 for whole kernels: whenever the generic kernel (kernel.h:196-240) succeeds with wrap-around
accumulators and the SIMD multiplier, on a block as TrMul passes it, the SIMD kernel succeeds with the
same destination. -/
theorem c50_agrees {s : Single} {ml : Int → Int → Int → Int} (hs : (s, ml) ∈ kernels)
    {ty packed : SidePair ScalarType} {rt dt : ScalarType} {lhs rhs : PMat Int} {mp : MulParams Int}
    {start stop : SidePair Nat} {dst d : Mul.Mat Int}
    (hf : Fits s.isa.kc rt dt lhs rhs mp start stop dst) (hb : BiasOk mp) (hp : ParamsOk dt mp)
    (hz : dt = .int32 → dst.zp = 0) (hne : start.rhs < stop.rhs)
    (h : runKernel Front.wrap32 (kernelParams { intScalars Front.wrap32 ty packed dt with
      multiply := fun x m e => .ok (ml x m e) } mp) lhs rhs start stop dst = .ok d) :
    runAll s rt dt lhs rhs mp start stop dst = .ok d := by
  obtain ⟨hle, g1, g2, g3⟩ := runKernel_ok (strideOk_of hf.dorder hf.dstride) h
  obtain ⟨d', e, s1, s2, s3⟩ := runAll_of (kernels_ok hs) hf hb hle.1 hne
  rw [e]
  congr 1
  refine mat_ext s1 g1 s3 g2 (fun i j hS => ?_)
  obtain ⟨v, v1, v2⟩ := g3 i j hS.1 hS.2.1 hS.2.2.1 hS.2.2.2
  refine ⟨v, ?_, v1⟩
  rw [s2 i j hS.1 hS.2.1 hS.2.2.1 hS.2.2.2]
  congr 1
  rw [kernelEntry_eq] at v2
  obtain ⟨a, ha, v2⟩ := C.bind_ok v2
  have ea := kernelAccum_wrap (mp := mp) rfl rfl hf.lp hf.rp ha
  have er := kernelAccum_range ha
  rw [finish_wrap hp hf.dtype hz er v2]
  unfold outOf
  dsimp only
  rw [← ea]
  rfl

/-- C50 for whole kernels, against the generic kernel with int32 accumulators (overflow undefined) and
the reference multiplier: the SIMD kernel succeeds, leaves everything outside the block unchanged, and
stores the reference value or one more; exactly the reference value for int32 destinations and for
channels whose exponent is not negative. -/
theorem c50_reference {s : Single} {ml : Int → Int → Int → Int} (hs : (s, ml) ∈ kernels)
    {ty packed : SidePair ScalarType} {rt dt : ScalarType} {lhs rhs : PMat Int} {mp : MulParams Int}
    {start stop : SidePair Nat} {dst d : Mul.Mat Int}
    (hf : Fits s.isa.kc rt dt lhs rhs mp start stop dst) (hb : BiasOk mp) (hp : ParamsOk dt mp)
    (hz : dt = .int32 → dst.zp = 0) (hzt : dt ≠ .int32 → dt.lo ≤ dst.zp ∧ dst.zp ≤ dt.hi)
    (hne : start.rhs < stop.rhs)
    (hm : dt ≠ .int32 → ∀ i j, start.lhs ≤ i → i < min stop.lhs dst.layout.rows → start.rhs ≤ j →
      j < min stop.rhs dst.layout.cols →
      MultOk mp.quant (channelOf mp.channelDim i j) (accOf lhs rhs mp i j))
    (h : runKernel Arith.int32 (kernelParams (intScalars Arith.int32 ty packed dt) mp) lhs rhs start stop
      dst = .ok d) :
    ∃ d', runAll s rt dt lhs rhs mp start stop dst = .ok d' ∧ DSame dst d' ∧
      DOutside (fun i j => start.lhs ≤ i ∧ i < min stop.lhs dst.layout.rows ∧ start.rhs ≤ j ∧
        j < min stop.rhs dst.layout.cols) dst d' ∧
      ∀ i j, start.lhs ≤ i → i < min stop.lhs dst.layout.rows → start.rhs ≤ j →
        j < min stop.rhs dst.layout.cols →
        ∃ v w, d.elem i j = .ok v ∧ d'.elem i j = .ok w ∧ v ≤ w ∧ w ≤ v + 1 ∧
          (dt = .int32 ∨ 0 ≤ exponentAt mp.quant (channelOf mp.channelDim i j) → w = v) := by
  obtain ⟨hle, g1, g2, g3⟩ := runKernel_ok (strideOk_of hf.dorder hf.dstride) h
  obtain ⟨d', e, s1, s2, s3⟩ := runAll_of (kernels_ok hs) hf hb hle.1 hne
  refine ⟨d', e, s1, s3, fun i j h1 h2 h3 h4 => ?_⟩
  obtain ⟨v, v1, v2⟩ := g3 i j h1 h2 h3 h4
  rw [kernelEntry_eq] at v2
  obtain ⟨a, ha, v2⟩ := C.bind_ok v2
  have ea : a = accOf lhs rhs mp i j := by
    have := kernelAccum_value (R := Int) (by simpa using Front.int32_hom) (mp := mp) rfl rfl hf.lp hf.rp ha
    simpa using this
  have er := kernelAccum_range32 ha
  have hdz : dt ≠ .int32 → -2 ^ 16 ≤ dst.zp ∧ dst.zp ≤ 2 ^ 16 := by
    intro h32
    have := hzt h32
    cases dt <;> simp only [ScalarType.lo, ScalarType.hi] at this <;>
      first | exact absurd rfl hf.dtype | exact absurd rfl h32 | omega
  have key := finish_near hp hf.dtype hz er hdz (kernels_lane hs)
    (fun h32 => by rw [ea]; exact hm h32 i j h1 h2 h3 h4) v2
  refine ⟨v, _, v1, s2 i j h1 h2 h3 h4, ?_⟩
  have ew : outOf ml dt lhs rhs mp dst.zp i j = if dt = .int32 then a
      else conv dt (max (min (wrap32 (ml a (fixedAt mp.quant (channelOf mp.channelDim i j))
        (exponentAt mp.quant (channelOf mp.channelDim i j)) + dst.zp)) mp.clampMax) mp.clampMin) := by
    unfold outOf
    dsimp only
    unfold Front.InI32 at er
    rw [← ea, wrap32_of er.1 (by omega)]
  rw [ew]
  exact key

/-! ### Examples and limits -/

/-- A packed matrix with 4 rows and kc columns whose column sums are right. -/
def exP (kc : Nat) (f : Nat → Int) (zp : Int) : PMat Int where
  layout := ⟨4, kc, 4, .colMajor, ⟨.colMajor, 4, kc⟩⟩
  data := ⟨4 * kc, f⟩
  sums := some ⟨kc, fun c => f (4 * c) + f (4 * c + 1) + f (4 * c + 2) + f (4 * c + 3)⟩
  zp := zp

/-- A destination with 3 rows and 2 columns. -/
def exD (zp : Int) : Mul.Mat Int := ⟨⟨3, 2, 5, .colMajor⟩, ⟨10, fun _ => 77⟩, zp⟩

/-- Per-channel multipliers. -/
def exMp : MulParams Int where
  bias := some ⟨16, fun i => 10 * i - 40⟩
  quant := some ⟨0, 0, some ⟨16, fun i => 2 ^ 30 + i⟩, some ⟨16, fun i => if i = 1 then 0 else -2⟩⟩
  channelDim := .row
  capacityRounding := 0
  clampMin := -100
  clampMax := 120

theorem exFits {kc : Nat} (hkc : kc = 8 ∨ kc = 16) {dt : ScalarType} (hdt : dt ≠ .float) (zp : Int) :
    Fits kc .int8 dt (exP kc (fun o => o % 7 - 3) 2) (exP kc (fun o => 5 - o % 11) (-3)) exMp ⟨0, 0⟩
      ⟨kc, kc⟩ (exD zp) where
  dtype := hdt
  lk := rfl
  rk := rfl
  lo := rfl
  ro := rfl
  lp := by rcases hkc with rfl | rfl <;> exact ⟨⟨⟨2, rfl⟩, by first | exact ⟨3, rfl⟩ | exact ⟨4, rfl⟩⟩, by decide, by decide, Nat.le_refl 4⟩
  rp := by rcases hkc with rfl | rfl <;> exact ⟨⟨⟨2, rfl⟩, by first | exact ⟨3, rfl⟩ | exact ⟨4, rfl⟩⟩, by decide, by decide, Nat.le_refl 4⟩
  lf := by rcases hkc with rfl | rfl <;> exact ⟨by decide, by decide, fun b hb => by cases hb; decide⟩
  rf := by rcases hkc with rfl | rfl <;> exact ⟨by decide, by decide, fun b hb => by cases hb; decide⟩
  depth := rfl
  startl := by simp
  startr := by simp
  stopl := by simp
  stopr := by simp
  endl := Nat.le_refl _
  endr := Nat.le_refl _
  dl := by show kc < 3 + kc; omega
  dr := by show kc < 2 + kc; omega
  dorder := rfl
  dstride := by show 3 ≤ 5; decide
  dfits := by
    intro i j hi hj
    have hi : i < 3 := hi
    have hj : j < 2 := hj
    show i + j * 5 < 2 ^ 31 ∧ i + j * 5 < 10
    omega
  zp1 := by show -2 ^ 31 ≤ (2 * -3 : Int) ∧ (2 * -3 : Int) < 2 ^ 31; decide
  zp2 := by show -2 ^ 31 ≤ (2 * -3 * 4 : Int) ∧ (2 * -3 * 4 : Int) < 2 ^ 31; decide
  bias := by
    intro b hb; cases hb
    show kc ≤ 16
    omega
  both := by intro q hq; cases hq; rfl
  fixed := by
    intro q f hq hf; cases hq; cases hf
    show kc ≤ 16
    omega
  exponent := by
    intro q f hq hf; cases hq; cases hf
    show kc ≤ 16
    omega
  il := by show 0 * _ < _; simp
  ir := by show 0 * _ < _; simp
  id := by show 0 * _ < _; simp
  kl := by show kc * 4 < _; omega
  kr := by show kc * (1 * 4) < _; omega
  kd := by
    show kc * (sizeOf dt * 5) < _
    cases dt <;> simp only [sizeOf] <;> omega

theorem exBias : BiasOk exMp := by
  intro b ch hb hc; cases hb
  have hc : ch < 16 := hc
  show -2 ^ 31 ≤ (10 * ch - 40 : Int) ∧ (10 * ch - 40 : Int) < 2 ^ 31
  omega

/-- Whether a computation succeeds. -/
def succeeds {α : Type} : C α → Bool
  | .ok _ => true
  | .error _ => false

theorem succeeds_ok {α : Type} {x : C α} (h : succeeds x = true) : ∃ v, x = .ok v := by
  cases x with
  | ok v => exact ⟨v, rfl⟩
  | error _ => cases h

theorem exParams : ParamsOk .int8 exMp where
  raw h := by cases h
  narrow _ := ⟨rfl, ⟨by decide, by decide⟩, ⟨by decide, by decide⟩⟩

/-- The hypotheses of `c50_agrees`, for a block that is partly outside the destination. -/
example : ∃ d, runAll single2 .int8 .int8 (exP 8 (fun o => o % 7 - 3) 2) (exP 8 (fun o => 5 - o % 11) (-3))
    exMp ⟨0, 0⟩ ⟨8, 8⟩ (exD 4) = .ok d ∧
    runKernel Front.wrap32 (kernelParams { intScalars Front.wrap32 ⟨.int8, .int8⟩ ⟨.int8, .int8⟩ .int8 with
      multiply := fun x m e => .ok (lane x m e) } exMp) (exP 8 (fun o => o % 7 - 3) 2)
      (exP 8 (fun o => 5 - o % 11) (-3)) ⟨0, 0⟩ ⟨8, 8⟩ (exD 4) = .ok d := by
  obtain ⟨d, h⟩ := succeeds_ok (show succeeds (runKernel Front.wrap32 (kernelParams
    { intScalars Front.wrap32 ⟨.int8, .int8⟩ ⟨.int8, .int8⟩ .int8 with
      multiply := fun x m e => .ok (lane x m e) } exMp) (exP 8 (fun o => o % 7 - 3) 2)
      (exP 8 (fun o => 5 - o % 11) (-3)) ⟨0, 0⟩ ⟨8, 8⟩ (exD 4)) = true by decide +kernel)
  exact ⟨d, c50_agrees (s := single2) (by simp [kernels]) (exFits (Or.inl rfl) (by decide) 4) exBias exParams
    (by intro h; cases h) (by decide) h, h⟩

/-- The hypotheses of `c50_reference`, AVX-512. -/
example : ∃ d d', runKernel Arith.int32 (kernelParams (intScalars Arith.int32 ⟨.int8, .int8⟩ ⟨.int8, .int8⟩
      .int8) exMp) (exP 16 (fun o => o % 7 - 3) 2) (exP 16 (fun o => 5 - o % 11) (-3)) ⟨0, 0⟩ ⟨16, 16⟩
      (exD 4) = .ok d ∧
    runAll single512 .int8 .int8 (exP 16 (fun o => o % 7 - 3) 2) (exP 16 (fun o => 5 - o % 11) (-3)) exMp
      ⟨0, 0⟩ ⟨16, 16⟩ (exD 4) = .ok d' ∧
    ∃ v, d.elem 1 1 = .ok v ∧ d'.elem 1 1 = .ok v := by
  obtain ⟨d, h⟩ := succeeds_ok (show succeeds (runKernel Arith.int32 (kernelParams (intScalars Arith.int32
      ⟨.int8, .int8⟩ ⟨.int8, .int8⟩ .int8) exMp) (exP 16 (fun o => o % 7 - 3) 2)
      (exP 16 (fun o => 5 - o % 11) (-3)) ⟨0, 0⟩ ⟨16, 16⟩ (exD 4)) = true by decide +kernel)
  obtain ⟨d', e, _, _, hv⟩ := c50_reference (s := single512) (ml := lane512) (by simp [kernels])
    (exFits (Or.inr rfl) (by decide) 4) exBias exParams (by intro h; cases h) (fun _ => by decide) (by decide)
    (by
      intro _ i j _ hi _ hj
      have hi : i < 3 := hi
      have hj : j < 2 := hj
      unfold MultOk isI32
      interval_cases i <;> interval_cases j <;> decide +kernel) h
  obtain ⟨v, w, v1, v2, _, _, v3⟩ := hv 1 1 (by decide) (by decide) (by decide) (by decide)
  have : w = v := v3 (Or.inr (by decide))
  subst this
  exact ⟨d, d', h, e, w, v1, v2⟩

/-- A 1x1 destination. -/
def exOne (zp : Int) (stride : Nat) : Mul.Mat Int := ⟨⟨1, 1, stride, .colMajor⟩, ⟨1, fun _ => 0⟩, zp⟩

def exQ : MulParams Int where
  bias := some ⟨16, fun _ => 3⟩
  quant := some ⟨2 ^ 29, -1, none, none⟩
  channelDim := .row
  capacityRounding := 0
  clampMin := -128
  clampMax := 127

/-- Why `c50_reference` allows one more: 3 times 2^29 / 2^32 is 0.375; the generic kernel stores 0, the
x86 kernels store 1. -/
theorem c50_one_more :
    (runKernel Arith.int32 (kernelParams (intScalars Arith.int32 ⟨.int8, .int8⟩ ⟨.int8, .int8⟩ .int8) exQ)
      (exP 8 (fun _ => 0) 0) (exP 8 (fun _ => 0) 0) ⟨0, 0⟩ ⟨8, 8⟩ (exOne 0 1) >>= fun d => d.elem 0 0) =
      .ok 0 ∧
    (runAll single2 .int8 .int8 (exP 8 (fun _ => 0) 0) (exP 8 (fun _ => 0) 0) exQ ⟨0, 0⟩ ⟨8, 8⟩
      (exOne 0 1) >>= fun d => d.elem 0 0) = .ok 1 ∧
    (runAll singleAvx .int8 .int8 (exP 8 (fun _ => 0) 0) (exP 8 (fun _ => 0) 0) exQ ⟨0, 0⟩ ⟨8, 8⟩
      (exOne 0 1) >>= fun d => d.elem 0 0) = .ok 1 ∧
    (runAll single512 .int8 .int8 (exP 16 (fun _ => 0) 0) (exP 16 (fun _ => 0) 0) exQ ⟨0, 0⟩ ⟨16, 16⟩
      (exOne 0 1) >>= fun d => d.elem 0 0) = .ok 1 := by
  refine ⟨?_, ?_, ?_, ?_⟩ <;> decide +kernel

def exRaw : MulParams Int where
  bias := some ⟨16, fun _ => 3⟩
  quant := none
  channelDim := .row
  capacityRounding := 0
  clampMin := -2 ^ 31
  clampMax := 2 ^ 31 - 1

/-- Why `c50_agrees` and `c50_reference` need a zero zero point for int32 destinations: the generic kernel
(and ReferenceMul) add the zero point of the destination, here 5, the x86 kernels do not.  Validation
does not reject it. -/
theorem c50_zero_point :
    (runKernel Arith.int32 (kernelParams (intScalars Arith.int32 ⟨.int8, .int8⟩ ⟨.int8, .int8⟩ .int32) exRaw)
      (exP 8 (fun _ => 0) 0) (exP 8 (fun _ => 0) 0) ⟨0, 0⟩ ⟨8, 8⟩ (exOne 5 1) >>= fun d => d.elem 0 0) =
      .ok 8 ∧
    (runAll single2 .int8 .int32 (exP 8 (fun _ => 0) 0) (exP 8 (fun _ => 0) 0) exRaw ⟨0, 0⟩ ⟨8, 8⟩
      (exOne 5 1) >>= fun d => d.elem 0 0) = .ok 3 ∧
    Front.checkZeroPoint .int32 5 = .ok () := by
  refine ⟨?_, ?_, ?_⟩ <;> decide +kernel

/-- Why `Fits` bounds the stride of the destination: with a stride of 2^28 elements the generic kernel
computes a 1x1 product; the AVX2 kernel overflows an int when it advances its destination pointer after
the last column. -/
theorem c50_stride :
    (runKernel Arith.int32 (kernelParams (intScalars Arith.int32 ⟨.int8, .int8⟩ ⟨.int8, .int8⟩ .int32) exRaw)
      (exP 8 (fun _ => 0) 0) (exP 8 (fun _ => 0) 0) ⟨0, 0⟩ ⟨8, 8⟩ (exOne 0 (2 ^ 28)) >>=
        fun d => d.elem 0 0) = .ok 3 ∧
    succeeds (runAll single2 .int8 .int32 (exP 8 (fun _ => 0) 0) (exP 8 (fun _ => 0) 0) exRaw ⟨0, 0⟩ ⟨8, 8⟩
      (exOne 0 (2 ^ 28))) = false ∧
    (runAll single2 .int8 .int32 (exP 8 (fun _ => 0) 0) (exP 8 (fun _ => 0) 0) exRaw ⟨0, 0⟩ ⟨8, 8⟩
      (exOne 0 (2 ^ 28)) >>= fun d => d.elem 0 0) = .error .ub := by
  refine ⟨?_, ?_, ?_⟩ <;> decide +kernel

/-- The hypotheses of `c50_lanes`. -/
example : ∃ k : KParams, ∃ acc, forUpTo 1 (depthStep avx2 k 0 0) (fun _ _ => 0) = .ok acc ∧
    acc 2 3 = wrap32 (quad k.lhs k.rhs 0 0 8 3 2 0) := by
  obtain ⟨k, hk⟩ := succeeds_ok (show succeeds (makeParams 8 .int8 .int32 (exP 8 (fun o => o % 7 - 3) 2)
    (exP 8 (fun o => 5 - o % 11) (-3)) exRaw ⟨0, 0⟩ ⟨8, 8⟩ (exD 0)) = true by decide +kernel)
  have e : k.lhs.size = 32 ∧ k.rhs.size = 32 := by
    have : (makeParams 8 .int8 .int32 (exP 8 (fun o => o % 7 - 3) 2)
      (exP 8 (fun o => 5 - o % 11) (-3)) exRaw ⟨0, 0⟩ ⟨8, 8⟩ (exD 0) >>=
        fun k => (.ok (k.lhs.size, k.rhs.size) : C (Nat × Nat))) = .ok (32, 32) := by decide +kernel
    rw [hk] at this
    have := Except.ok.inj this
    exact ⟨congrArg Prod.fst this, congrArg Prod.snd this⟩
  obtain ⟨acc, h1, h2⟩ := c50_lanes (s := single2) (ml := lane) (by simp [kernels]) k 0 0 1
    (by rw [e.1]; decide) (by rw [e.2]; decide)
  refine ⟨k, acc, h1, ?_⟩
  rw [h2 3 2 (by decide) (by decide)]
  simp
  rfl

end Ruy.Simd.Kern

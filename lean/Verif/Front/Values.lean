import Verif.Front.Lemmas
import Verif.Multiplier.Props
import Mathlib.Data.ZMod.Basic
/-
Values of the entries computed by Mul and by ReferenceMul, for integer types.
-/
namespace Ruy.Front
open Ruy.Mat Ruy.Mul Ruy.TrMul

variable {A : Type}

/-! ### The accumulator seen by the user -/

/-- The accumulator of the user's entry (i, j). -/
def userAccum (sc : Scalars A) (lhs rhs dst : Mul.Mat A) (mp : MulParams A) (depth i j : Nat) : C A :=
  if dst.layout.order = .colMajor then
    opAccum sc.ar (kernelParams sc mp)
      (sideOperand sc.pack.lhs sc.packZp.lhs lhs.transpose depth)
      (sideOperand sc.pack.rhs sc.packZp.rhs rhs depth) i j
  else
    opAccum sc.ar (kernelParams sc { mp with channelDim := mp.channelDim.transpose })
      (sideOperand sc.pack.rhs sc.packZp.rhs rhs depth)
      (sideOperand sc.pack.lhs sc.packZp.lhs lhs.transpose depth) j i

theorem channelOf_transpose (d : ChannelDim) (i j : Nat) :
    channelOf d.transpose j i = channelOf d i j := by cases d <;> rfl

theorem userEntry_eq (sc : Scalars A) (lhs rhs dst : Mul.Mat A) (mp : MulParams A) (depth i j : Nat) :
    userEntry sc lhs rhs dst mp depth i j =
      (userAccum sc lhs rhs dst mp depth i j >>=
        finish sc.ar (kernelParams sc mp) dst.zp (channelOf mp.channelDim i j)) := by
  unfold userEntry userAccum
  split
  · rfl
  · unfold trEntry opEntry
    have : channelOf (kernelParams sc.swap
        { mp with channelDim := mp.channelDim.transpose }).channelDim j i =
        channelOf mp.channelDim i j := channelOf_transpose _ _ _
    rw [this]
    rfl

/-- Packing preserves the difference between values and zero point. -/
structure Faithful {R : Type} [CommRing R] (φ : A → R) (sc : Scalars A) (lhs rhs : Mul.Mat A) :
    Prop where
  lhs : ∀ i k, i < lhs.layout.rows → k < lhs.layout.cols →
    φ (sc.pack.lhs (lhs.at i k)) - (sc.packZp.lhs lhs.zp : R) = φ (lhs.at i k) - (lhs.zp : R)
  rhs : ∀ k j, k < rhs.layout.rows → j < rhs.layout.cols →
    φ (sc.pack.rhs (rhs.at k j)) - (sc.packZp.rhs rhs.zp : R) = φ (rhs.at k j) - (rhs.zp : R)

section
variable {R : Type} [CommRing R] {φ : A → R} {sc : Scalars A}

/-- Specification of the accumulator: bias plus the inner product of the centred row and column. -/
def accumSpec (φ : A → R) (lhs rhs : Mul.Mat A) (mp : MulParams A) (i j : Nat) : R :=
  biasOf φ mp.bias (channelOf mp.channelDim i j) +
    ∑ k ∈ Finset.range lhs.layout.cols,
      (φ (lhs.at i k) - (lhs.zp : R)) * (φ (rhs.at k j) - (rhs.zp : R))

theorem userAccum_value (h : sc.ar.Hom φ) {lhs rhs dst : Mul.Mat A} {mp : MulParams A}
    {depth i j : Nat} {a : A} (hf : Faithful φ sc lhs rhs) (hd : lhs.layout.cols = rhs.layout.rows)
    (hdep : lhs.layout.cols ≤ depth) (hi : i < lhs.layout.rows) (hj : j < rhs.layout.cols)
    (ha : userAccum sc lhs rhs dst mp depth i j = .ok a) :
    φ a = accumSpec φ lhs rhs mp i j := by
  have el : Encodes sc.ar φ (sideOperand sc.pack.lhs sc.packZp.lhs lhs.transpose depth) := by
    refine ⟨fun k c hk hc => ?_, hdep⟩
    show φ (sc.pack.lhs (lhs.transpose.at k c)) - (sc.packZp.lhs lhs.zp : R) =
      φ (lhs.transpose.at k c) - (lhs.zp : R)
    rw [at_transpose]
    exact hf.lhs c k hc hk
  have er : Encodes sc.ar φ (sideOperand sc.pack.rhs sc.packZp.rhs rhs depth) :=
    ⟨fun k c hk hc => hf.rhs k c hk hc, by rw [hd] at hdep; exact hdep⟩
  unfold userAccum at ha
  unfold accumSpec
  split at ha
  · rw [opAccum_value h el er rfl hd hi hj ha]
    congr 1
    refine Finset.sum_congr rfl (fun k _ => ?_)
    show (φ (lhs.transpose.at k i) - (lhs.zp : R)) * _ = _
    rw [at_transpose]; rfl
  · rw [opAccum_value h er el rfl hd.symm hj hi ha]
    show biasOf φ mp.bias (channelOf mp.channelDim.transpose j i) + _ = _
    rw [channelOf_transpose, hd]
    congr 1
    refine Finset.sum_congr rfl (fun k _ => ?_)
    show (φ (rhs.at k j) - (rhs.zp : R)) * (φ (lhs.transpose.at k i) - (lhs.zp : R)) = _
    rw [at_transpose]; ring

theorem refAccum_spec (h : sc.ar.Hom φ) {lhs rhs : Mul.Mat A} {mp : MulParams A} {i j : Nat} {a : A}
    (ha : refAccum sc.ar (kernelParams sc mp) lhs rhs i j = .ok a) :
    φ a = accumSpec φ lhs rhs mp i j := refAccum_value h ha

end

/-! ### Arithmetic -/

theorem int32_hom : Arith.int32.Hom (fun x : Int => x) where
  zero := rfl
  add h := (C.i32_ok h).1
  sub h := (C.i32_ok h).1
  mul h := (C.i32_ok h).1
  ofInt n := by simp [Arith.int32]

/-- int32 accumulators with wrap-around (what SIMD instructions and -fwrapv do). -/
def wrap32 : Arith Int where
  zero := 0
  add x y := .ok ((x + y).bmod (2 ^ 32))
  sub x y := .ok ((x - y).bmod (2 ^ 32))
  mul x y := .ok ((x * y).bmod (2 ^ 32))
  lt x y := decide (x < y)
  ofInt x := x

theorem bmod_zmod (x : Int) : ((x.bmod (2 ^ 32) : Int) : ZMod (2 ^ 32)) = (x : ZMod (2 ^ 32)) := by
  rw [ZMod.intCast_eq_intCast_iff]
  exact Int.bmod_emod

theorem wrap32_hom : wrap32.Hom (fun x : Int => (x : ZMod (2 ^ 32))) where
  zero := by simp [wrap32]
  add h := by cases h; rw [bmod_zmod]; push_cast; rfl
  sub h := by cases h; rw [bmod_zmod]; push_cast; rfl
  mul h := by cases h; rw [bmod_zmod]; push_cast; rfl
  ofInt n := by simp [wrap32]

/-! ### Integer types -/

theorem wrap_of {t : ScalarType} {x : Int} (h1 : t.lo ≤ x) (h2 : x ≤ t.hi) : t.wrap x = x := by
  unfold ScalarType.wrap
  rw [Int.emod_eq_of_lt (by omega) (by omega)]
  omega

/-- Every value of type `src`, re-encoded, is a value of type `packed`. -/
def Repacks (src packed : ScalarType) : Prop :=
  packed.lo ≤ src.lo - src.symmetricZeroPoint + packed.symmetricZeroPoint ∧
    src.hi - src.symmetricZeroPoint + packed.symmetricZeroPoint ≤ packed.hi

instance (s p : ScalarType) : Decidable (Repacks s p) := by unfold Repacks; infer_instance

theorem packInt_of {src packed : ScalarType} {x : Int} (h : Repacks src packed) (h1 : src.lo ≤ x)
    (h2 : x ≤ src.hi) :
    packInt src packed x = x - src.symmetricZeroPoint + packed.symmetricZeroPoint := by
  unfold packInt
  exact wrap_of (by have := h.1; omega) (by have := h.2; omega)

/-- The zero point and all elements of a matrix are values of its type. -/
structure Typed (t : ScalarType) (m : Mul.Mat Int) : Prop where
  zp : t.lo ≤ m.zp ∧ m.zp ≤ t.hi
  elems : ∀ i j, i < m.layout.rows → j < m.layout.cols → t.lo ≤ m.at i j ∧ m.at i j ≤ t.hi

theorem faithful_int {ar : Arith Int} {ty packed : SidePair ScalarType} {dst : ScalarType}
    {lhs rhs : Mul.Mat Int} {R : Type} [CommRing R] (hl : Repacks ty.lhs packed.lhs)
    (hr : Repacks ty.rhs packed.rhs) (tl : Typed ty.lhs lhs) (tr : Typed ty.rhs rhs) :
    Faithful (fun x : Int => (x : R)) (intScalars ar ty packed dst) lhs rhs := by
  constructor
  · intro i k hi hk
    have h1 := tl.elems i k hi hk
    show ((packInt ty.lhs packed.lhs (lhs.at i k) : Int) : R) -
      ((packInt ty.lhs packed.lhs lhs.zp : Int) : R) = _
    rw [packInt_of hl h1.1 h1.2, packInt_of hl tl.zp.1 tl.zp.2]
    push_cast; ring
  · intro k j hk hj
    have h1 := tr.elems k j hk hj
    show ((packInt ty.rhs packed.rhs (rhs.at k j) : Int) : R) -
      ((packInt ty.rhs packed.rhs rhs.zp : Int) : R) = _
    rw [packInt_of hr h1.1 h1.2, packInt_of hr tr.zp.1 tr.zp.2]
    push_cast; ring

/-! ### Scaling and clamping -/

theorem mqm_ok {x m e r : Int} (h : Multiplier.multiplyByQuantizedMultiplier x m e = .ok r) :
    r = Multiplier.scaled x m e := by
  unfold Multiplier.multiplyByQuantizedMultiplier at h
  obtain ⟨_, h1, h⟩ := C.bind_ok h
  obtain ⟨_, h2, h⟩ := C.bind_ok h
  obtain ⟨p, h3, h⟩ := C.bind_ok h
  obtain ⟨q, h4, h⟩ := C.bind_ok h
  obtain ⟨_, _, h⟩ := C.bind_ok h
  obtain ⟨_, _, h⟩ := C.bind_ok h
  cases h
  rw [(C.i64_ok h4).1, (C.i64_ok h3).1]
  have := C.require_ok h2
  exact Multiplier.ediv_eq_scaled x m e (by omega)

/-- `buffer[channel]` if there is a buffer, the uniform value otherwise. -/
def valueAt (b : Option (Buf Int)) (v : Int) (ch : Nat) : Int :=
  match b with
  | none => v
  | some b => b.val ch

theorem perChannel_ok {b : Option (Buf Int)} {v x : Int} {ch : Nat}
    (h : perChannel b v ch = .ok x) : x = valueAt b v ch := by
  unfold perChannel at h
  unfold valueAt
  cases b with
  | none => cases h; rfl
  | some b => exact (Buf.read_ok h).2

/-- Specification of the scaling stage. -/
def scaleSpec (q : Option Quant) (ch : Nat) (acc : Int) : Int :=
  match q with
  | none => acc
  | some q => Multiplier.scaled acc (valueAt q.fixedPerChannel q.fixed ch)
      (valueAt q.exponentPerChannel q.exponent ch)

theorem scale_ok {ar : Arith Int} {ty packed : SidePair ScalarType} {dst : ScalarType}
    {q : Option Quant} {ch : Nat} {a r : Int}
    (h : applyMultiplier (intScalars ar ty packed dst) q ch a = .ok r) : r = scaleSpec q ch a := by
  unfold applyMultiplier at h
  unfold scaleSpec
  cases q with
  | none => cases h; rfl
  | some q =>
    obtain ⟨m, h1, h⟩ := C.bind_ok h
    obtain ⟨e, h2, h⟩ := C.bind_ok h
    dsimp only
    rw [← perChannel_ok h1, ← perChannel_ok h2]
    exact mqm_ok h

/-- Specification of the output stage: scale, add the zero point, clamp. -/
def outSpec (mp : MulParams Int) (dzp : Int) (ch : Nat) (acc : Int) : Int :=
  max mp.clampMin (min mp.clampMax (dzp + scaleSpec mp.quant ch acc))

/-- The clamp bounds are values of the destination type (they are stored as such,
mul_params.h:294-296). -/
structure ClampOk (t : ScalarType) (mp : MulParams Int) : Prop where
  min : t.lo ≤ mp.clampMin ∧ mp.clampMin ≤ t.hi
  max : t.lo ≤ mp.clampMax ∧ mp.clampMax ≤ t.hi

theorem outSpec_range {t : ScalarType} {mp : MulParams Int} (hc : ClampOk t mp) (dzp : Int) (ch : Nat)
    (acc : Int) : t.lo ≤ outSpec mp dzp ch acc ∧ outSpec mp dzp ch acc ≤ t.hi := by
  unfold outSpec
  have h1 := hc.min; have h2 := hc.max
  omega

theorem finish_ok {ty packed : SidePair ScalarType} {dst : ScalarType} {mp : MulParams Int}
    {dzp : Int} {ch : Nat} {a v : Int} (hc : ClampOk dst mp)
    (h : finish Arith.int32 (kernelParams (intScalars Arith.int32 ty packed dst) mp) dzp ch a = .ok v) :
    v = outSpec mp dzp ch a := by
  unfold finish at h
  obtain ⟨a1, h1, h⟩ := C.bind_ok h
  obtain ⟨a2, h2, h⟩ := C.bind_ok h
  have e1 := scale_ok h1
  have e2 := (C.i32_ok h2).1
  dsimp only at h
  cases h
  have hr := outSpec_range hc dzp ch a
  have key : (if Arith.int32.lt (if Arith.int32.lt mp.clampMax a2 then mp.clampMax else a2) mp.clampMin
      then mp.clampMin else if Arith.int32.lt mp.clampMax a2 then mp.clampMax else a2) =
      outSpec mp dzp ch a := by
    unfold outSpec
    rw [e2, e1]
    show (if decide _ = true then _ else _) = _
    simp only [Arith.int32, decide_eq_true_eq]
    split <;> split <;> split at * <;> omega
  show dst.wrap _ = _
  refine (congrArg dst.wrap key).trans (wrap_of hr.1 hr.2)

/-- Specification of an entry of the destination. -/
def entrySpec (lhs rhs dst : Mul.Mat Int) (mp : MulParams Int) (i j : Nat) : Int :=
  outSpec mp dst.zp (channelOf mp.channelDim i j) (accumSpec (fun x : Int => x) lhs rhs mp i j)

theorem computes_of_ok {f : Nat → Nat → C A} {g : Nat → Nat → A} {d d' : Mul.Mat A}
    (h : Computes f d d')
    (hfg : ∀ i j v, i < d.layout.rows → j < d.layout.cols → f i j = .ok v → v = g i j) :
    Computes (fun i j => .ok (g i j)) d d' := by
  refine ⟨h.same, fun i j hi hj => ?_, h.frame⟩
  obtain ⟨v, h1, h2⟩ := h.done i j hi hj
  exact ⟨v, h1, by rw [hfg i j v hi hj h2]⟩

/-- What is assumed about the data of an integer multiplication; all of it holds by the C++ types
and, for `lpack` and `rpack`, for all combinations of types ruy instantiates. -/
structure IntOk (ty packed : SidePair ScalarType) (dstTy : ScalarType) (lhs rhs : Mul.Mat Int)
    (mp : MulParams Int) : Prop where
  lpack : Repacks ty.lhs packed.lhs
  rpack : Repacks ty.rhs packed.rhs
  lty : Typed ty.lhs lhs
  rty : Typed ty.rhs rhs
  clamp : ClampOk dstTy mp

theorem int_computes {ty packed : SidePair ScalarType} {dstTy : ScalarType}
    {lhs rhs dst d : Mul.Mat Int} {mp : MulParams Int} {depth : Nat}
    (hdep : lhs.layout.cols = rhs.layout.rows) (hrows : dst.layout.rows = lhs.layout.rows)
    (hcols : dst.layout.cols = rhs.layout.cols) (hi : IntOk ty packed dstTy lhs rhs mp)
    (hd : lhs.layout.cols ≤ depth)
    (hc : Computes (userEntry (intScalars Arith.int32 ty packed dstTy) lhs rhs dst mp depth) dst d) :
    Computes (fun i j => .ok (entrySpec lhs rhs dst mp i j)) dst d := by
  refine computes_of_ok hc (fun i j v hi' hj' hv => ?_)
  rw [hrows] at hi'
  rw [hcols] at hj'
  rw [userEntry_eq] at hv
  obtain ⟨a, ha, hv⟩ := C.bind_ok hv
  have e := userAccum_value (φ := fun x : Int => x)
    (sc := intScalars Arith.int32 ty packed dstTy) int32_hom
    (faithful_int hi.lpack hi.rpack hi.lty hi.rty) hdep hd hi' hj' ha
  rw [finish_ok hi.clamp hv]
  unfold entrySpec
  exact congrArg _ e

theorem mul_int_computes {ty packed : SidePair ScalarType} {dstTy : ScalarType}
    {kern : SidePair KernelLayout} {lhs rhs dst d : Mul.Mat Int} {mp : MulParams Int}
    (hs : Shapes kern lhs rhs dst) (hi : IntOk ty packed dstTy lhs rhs mp)
    (h : Mul (intScalars Arith.int32 ty packed dstTy) kern lhs rhs dst mp d) :
    Computes (fun i j => .ok (entrySpec lhs rhs dst mp i j)) dst d := by
  obtain ⟨depth, _, hd, hc⟩ := mul_computes hs h
  exact int_computes hs.depth hs.rows hs.cols hi hd hc

theorem ref_int_computes {ty packed : SidePair ScalarType} {dstTy : ScalarType}
    {lhs rhs dst d : Mul.Mat Int} {mp : MulParams Int}
    (hr : dst.layout.rows = lhs.layout.rows) (hc : dst.layout.cols = rhs.layout.cols)
    (hs : StrideOk dst.layout) (hcl : ClampOk dstTy mp)
    (h : referenceMul (intScalars Arith.int32 ty packed dstTy) lhs rhs dst mp = .ok d) :
    Computes (fun i j => .ok (entrySpec lhs rhs dst mp i j)) dst d := by
  refine computes_of_ok (referenceMul_computes hr hc hs h) (fun i j v hi' hj' hv => ?_)
  rw [refEntry_eq] at hv
  obtain ⟨a, ha, hv⟩ := C.bind_ok hv
  have e := refAccum_spec (φ := fun x : Int => x)
    (sc := intScalars Arith.int32 ty packed dstTy) int32_hom ha
  rw [finish_ok hcl hv]
  unfold entrySpec
  exact congrArg _ e

/-! ### Wrap-around accumulators -/

/-- The int32 range. -/
def InI32 (x : Int) : Prop := -2 ^ 31 ≤ x ∧ x < 2 ^ 31

theorem bmod_range (x : Int) : InI32 (x.bmod (2 ^ 32)) := by
  have h1 := Int.le_bmod (x := x) (m := 2 ^ 32) (by norm_num)
  have h2 := Int.bmod_lt (x := x) (m := 2 ^ 32) (by norm_num)
  have e : (2 : Nat) ^ 32 = 4294967296 := by norm_num
  unfold InI32
  rw [e] at *
  norm_num at h1 h2
  exact ⟨by omega, by omega⟩

theorem eq_of_zmod {x y : Int} (hx : InI32 x) (hy : InI32 y)
    (h : (x : ZMod (2 ^ 32)) = (y : ZMod (2 ^ 32))) : x = y := by
  rw [ZMod.intCast_eq_intCast_iff] at h
  have h : x % (2 ^ 32 : Int) = y % (2 ^ 32 : Int) := by exact_mod_cast h
  unfold InI32 at hx hy
  omega

theorem addBias_range {b : Option (Buf Int)} {ch : Nat} {a a' : Int} (ha : InI32 a)
    (h : addBias wrap32 b ch a = .ok a') : InI32 a' := by
  unfold addBias at h
  cases b with
  | none => cases h; exact ha
  | some b =>
    obtain ⟨x, _, h⟩ := C.bind_ok h
    cases h; exact bmod_range _

theorem opAccum_range {mp : Mul.Params Int} {l r : Operand Int} {i j : Nat} {a : Int}
    (h : opAccum wrap32 mp l r i j = .ok a) : InI32 a := by
  unfold opAccum at h
  obtain ⟨a0, h0, h⟩ := C.bind_ok h
  obtain ⟨a1, h1, h⟩ := C.bind_ok h
  obtain ⟨a2, h2, h⟩ := C.bind_ok h
  obtain ⟨a3, h3, h⟩ := C.bind_ok h
  have hsub : ∀ {zp : Int} {o : Operand Int} {c : Nat} {x y : Int}, InI32 x →
      opSubSum wrap32 zp o c x = .ok y → InI32 y := by
    intro zp o c x y hx hy
    unfold opSubSum at hy
    split at hy
    · cases hy; exact hx
    · obtain ⟨_, _, hy⟩ := C.bind_ok hy
      obtain ⟨_, _, hy⟩ := C.bind_ok hy
      cases hy; exact bmod_range _
  have r0 : InI32 a0 := by
    refine forUpTo_inv (P := fun _ s => InI32 s) (by unfold InI32; simp [wrap32]) ?_ h0
    intro k t t' _ _ hstep
    obtain ⟨_, _, hstep⟩ := C.bind_ok hstep
    obtain ⟨_, _, hstep⟩ := C.bind_ok hstep
    obtain ⟨_, _, hstep⟩ := C.bind_ok hstep
    cases hstep; exact bmod_range _
  have r3 := hsub (hsub (addBias_range r0 h1) h2) h3
  unfold addZpProduct at h
  split at h
  · cases h; exact r3
  · obtain ⟨_, _, h⟩ := C.bind_ok h
    obtain ⟨_, _, h⟩ := C.bind_ok h
    cases h; exact bmod_range _

theorem refAccum_range {mp : Mul.Params Int} {lhs rhs : Mul.Mat Int} {i j : Nat} {a : Int}
    (h : refAccum wrap32 mp lhs rhs i j = .ok a) : InI32 a := by
  unfold refAccum at h
  obtain ⟨a0, h0, h⟩ := C.bind_ok h
  have r0 : InI32 a0 := by
    refine forUpTo_inv (P := fun _ s => InI32 s) (by unfold InI32; simp [wrap32]) ?_ h0
    intro k t t' _ _ hstep
    obtain ⟨_, _, hstep⟩ := C.bind_ok hstep
    obtain ⟨_, _, hstep⟩ := C.bind_ok hstep
    obtain ⟨_, _, hstep⟩ := C.bind_ok hstep
    obtain ⟨_, _, hstep⟩ := C.bind_ok hstep
    obtain ⟨_, _, hstep⟩ := C.bind_ok hstep
    cases hstep; exact bmod_range _
  exact addBias_range r0 h

/-- With wrap-around accumulators, an entry of Mul is the entry of ReferenceMul. -/
theorem wrap_entry {ty packed : SidePair ScalarType} {dstTy : ScalarType} {lhs rhs dst : Mul.Mat Int}
    {mp : MulParams Int} {depth i j : Nat} {v w : Int} (hl : Repacks ty.lhs packed.lhs)
    (hr : Repacks ty.rhs packed.rhs) (tl : Typed ty.lhs lhs) (tr : Typed ty.rhs rhs)
    (hd : lhs.layout.cols = rhs.layout.rows) (hdep : lhs.layout.cols ≤ depth)
    (hi : i < lhs.layout.rows) (hj : j < rhs.layout.cols)
    (h1 : userEntry (intScalars wrap32 ty packed dstTy) lhs rhs dst mp depth i j = .ok v)
    (h2 : refEntry wrap32 (kernelParams (intScalars wrap32 ty packed dstTy) mp) lhs rhs dst.zp i j =
      .ok w) : v = w := by
  rw [userEntry_eq] at h1
  rw [refEntry_eq] at h2
  obtain ⟨a, ha, h1⟩ := C.bind_ok h1
  obtain ⟨b, hb, h2⟩ := C.bind_ok h2
  have e1 := userAccum_value (φ := fun x : Int => (x : ZMod (2 ^ 32)))
    (sc := intScalars wrap32 ty packed dstTy) wrap32_hom (faithful_int hl hr tl tr) hd hdep hi hj ha
  have e2 := refAccum_spec (φ := fun x : Int => (x : ZMod (2 ^ 32)))
    (sc := intScalars wrap32 ty packed dstTy) wrap32_hom hb
  have ra : InI32 a := by
    unfold userAccum at ha
    split at ha
    · exact opAccum_range ha
    · exact opAccum_range ha
  have : a = b := eq_of_zmod ra (refAccum_range hb) (e1.trans e2.symm)
  subst this
  have h1 : finish wrap32 (kernelParams (intScalars wrap32 ty packed dstTy) mp) dst.zp
    (channelOf mp.channelDim i j) a = .ok v := h1
  have h2 : finish wrap32 (kernelParams (intScalars wrap32 ty packed dstTy) mp) dst.zp
    (channelOf mp.channelDim i j) a = .ok w := h2
  rw [h1] at h2
  exact Except.ok.inj h2

end Ruy.Front

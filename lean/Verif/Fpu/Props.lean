import Verif.Fpu.Model
/-
C42: the floating-point environment.
-/
namespace Ruy.Fpu

/-- Specification: the bits that make the processor flush denormals: FTZ and DAZ on x86 (Intel SDM,
MXCSR bits 15 and 6), FZ on ARM (bit 24) and FZ16 on 64-bit ARM (bit 19). -/
def flushBits : Platform → Reg
  | .x86 => 1#64 <<< 15 ||| 1#64 <<< 6
  | .arm32 => 1#64 <<< 24
  | .arm64 => 1#64 <<< 24 ||| 1#64 <<< 19
  | .other => 0#64

/-- The register is as wide as the processor's (FPCR: the upper half is reserved, zero). -/
def Fits (r : Reg) : Prop := r.toNat < 2 ^ 32

/-- Denormals are flushed while `r` is in the register. -/
def Flushing (pl : Platform) (r : Reg) : Prop := r &&& flushBits pl = flushBits pl

/-- Bits other than the status bits and those for flushing: rounding mode, exception masks. -/
def otherControl (pl : Platform) (r : Reg) : Reg := r &&& ~~~ (pl.status ||| flushBits pl)

theorem fits_trunc {r : Reg} (h : Fits r) : (r.setWidth 32).setWidth 64 = r := by
  apply BitVec.eq_of_toNat_eq
  rw [BitVec.toNat_setWidth, BitVec.toNat_setWidth]
  unfold Fits at h
  omega

theorem fits_bits {r : Reg} (h : Fits r) (i : Nat) (hi : 32 ≤ i) : r.getLsbD i = false := by
  rw [← fits_trunc h, BitVec.getLsbD_setWidth, BitVec.getLsbD_setWidth]
  simp; omega

/-- C42: for every code that runs in the scope, in particular with nested scopes, the register is
restored completely, status bits included. -/
theorem c42_scope_restores (pl : Platform) (body : Code) (r : Reg) (h : Fits r)
    (hpl : pl ≠ .other) : (exec pl (.scope body) r).1 = r := by
  cases pl
  · show (BitVec.setWidth 64 (BitVec.setWidth 32 (BitVec.setWidth 64 (BitVec.setWidth 32 r)))) = r
    rw [fits_trunc h, fits_trunc h]
  · show (BitVec.setWidth 64 (BitVec.setWidth 32 (BitVec.setWidth 64 (BitVec.setWidth 32 r)))) = r
    rw [fits_trunc h, fits_trunc h]
  · rfl
  · exact absurd rfl hpl

/-- C42: a worker thread leaves the register as it was, whatever tasks it ran. -/
theorem c42_worker_restores (pl : Platform) (tasks : List Code) (r : Reg) (h : Fits r)
    (hpl : pl ≠ .other) : (exec pl (worker tasks) r).1 = r :=
  c42_scope_restores pl _ r h hpl

/-- What is kept by all code. -/
structure Kept (pl : Platform) (c : Reg) (r : Reg) : Prop where
  flush : Flushing pl r
  other : otherControl pl r = c
  fits : Fits r

theorem fits_of_bits {r : Reg} (h : ∀ i, 32 ≤ i → r.getLsbD i = false) : Fits r := by
  have : r = (r.setWidth 32).setWidth 64 := by
    apply BitVec.eq_of_getLsbD_eq
    intro i hi
    rw [BitVec.getLsbD_setWidth, BitVec.getLsbD_setWidth]
    by_cases h32 : i < 32
    · simp [h32, hi]
    · simp [h32, h i (by omega)]
  unfold Fits
  rw [this, BitVec.toNat_setWidth, BitVec.toNat_setWidth]
  omega

theorem status_bits (pl : Platform) (i : Nat) (hi : 32 ≤ i) : pl.status.getLsbD i = false := by
  cases pl
  all_goals exact fits_bits (show Fits _ from by unfold Fits Platform.status; decide) i hi

theorem float_keeps (pl : Platform) (c v r : Reg) (h : Kept pl c r) :
    Kept pl c ((r &&& ~~~ pl.status) ||| (v &&& pl.status)) := by
  have hd : pl.status &&& flushBits pl = 0#64 := by cases pl <;> decide
  have hd' : ∀ i, ¬ (pl.status.getLsbD i = true ∧ (flushBits pl).getLsbD i = true) := by
    intro i ⟨h1, h2⟩
    have := congrArg (fun x : Reg => x.getLsbD i) hd
    simp [h1, h2] at this
  refine ⟨?_, ?_, ?_⟩
  · apply BitVec.eq_of_getLsbD_eq
    intro i hi
    have hf := congrArg (fun x : Reg => x.getLsbD i) h.flush
    have hs := hd' i
    simp only [BitVec.getLsbD_and, BitVec.getLsbD_or, BitVec.getLsbD_not, hi, decide_true,
      Bool.true_and] at hf ⊢
    revert hf hs
    cases r.getLsbD i <;> cases v.getLsbD i <;> cases pl.status.getLsbD i <;>
      cases (flushBits pl).getLsbD i <;> simp
  · rw [← h.other]
    apply BitVec.eq_of_getLsbD_eq
    intro i hi
    unfold otherControl
    simp only [BitVec.getLsbD_and, BitVec.getLsbD_or, BitVec.getLsbD_not, hi, decide_true,
      Bool.true_and]
    cases r.getLsbD i <;> cases v.getLsbD i <;> cases pl.status.getLsbD i <;>
      cases (flushBits pl).getLsbD i <;> simp
  · apply fits_of_bits
    intro i hi
    have h1 := fits_bits h.fits i hi
    have h2 := status_bits pl i hi
    simp [h1, h2]

theorem disable_bits (pl : Platform) (hpl : pl ≠ .other) (r : Reg) (h : Fits r) :
    disableDenormals pl r = r ||| flushBits pl := by
  have hb := fits_bits h
  apply BitVec.eq_of_getLsbD_eq
  intro i hi
  by_cases h32 : i < 32
  · cases pl
    · unfold disableDenormals flushBits
      simp only [BitVec.getLsbD_setWidth, BitVec.getLsbD_or, hi, h32, decide_true, Bool.true_and]
      congr 1
      revert h32; revert i; decide
    · unfold disableDenormals flushBits
      simp only [BitVec.getLsbD_setWidth, BitVec.getLsbD_or, hi, h32, decide_true, Bool.true_and]
      congr 1
    · unfold disableDenormals flushBits
      simp only [BitVec.getLsbD_setWidth, BitVec.getLsbD_or, hi, h32, decide_true, Bool.true_and,
        Bool.or_assoc]
      congr 1
    · exact absurd rfl hpl
  · have h1 := hb i (by omega)
    have h2 : (flushBits pl).getLsbD i = false :=
      fits_bits (by cases pl <;> (unfold Fits flushBits; decide)) i (by omega)
    rw [BitVec.getLsbD_or, h1, h2]
    cases pl
    all_goals first
      | (unfold disableDenormals; rw [BitVec.getLsbD_setWidth]; rw [BitVec.getLsbD_of_ge _ i (by omega)]; simp; done)
      | exact absurd rfl hpl

theorem disable_kept (pl : Platform) (hpl : pl ≠ .other) (r : Reg) (h : Fits r) :
    Kept pl (otherControl pl r) (disableDenormals pl r) := by
  rw [disable_bits pl hpl r h]
  refine ⟨?_, ?_, ?_⟩
  · apply BitVec.eq_of_getLsbD_eq
    intro i hi
    simp only [BitVec.getLsbD_and, BitVec.getLsbD_or]
    cases r.getLsbD i <;> cases (flushBits pl).getLsbD i <;> rfl
  · apply BitVec.eq_of_getLsbD_eq
    intro i hi
    unfold otherControl
    simp only [BitVec.getLsbD_and, BitVec.getLsbD_or, BitVec.getLsbD_not, hi, decide_true,
      Bool.true_and]
    cases r.getLsbD i <;> cases pl.status.getLsbD i <;> cases (flushBits pl).getLsbD i <;> rfl
  · apply fits_of_bits
    intro i hi
    have h1 := fits_bits h i hi
    have h2 : (flushBits pl).getLsbD i = false :=
      fits_bits (by cases pl <;> (unfold Fits flushBits; decide)) i hi
    simp [h1, h2]

theorem exec_keeps (pl : Platform) (hpl : pl ≠ .other) (c : Reg) : ∀ (code : Code) (r : Reg),
    Kept pl c r → Kept pl c (exec pl code r).1 ∧ ∀ v ∈ (exec pl code r).2, Kept pl c v := by
  intro code
  induction code with
  | skip => intro r h; exact ⟨h, by intro v hv; cases hv⟩
  | float v => intro r h; exact ⟨float_keeps pl c v r h, by intro w hw; simp [exec] at hw; rw [hw]; exact h⟩
  | seq a b iha ihb =>
    intro r h
    obtain ⟨h1, h2⟩ := iha r h
    obtain ⟨h3, h4⟩ := ihb _ h1
    refine ⟨h3, fun v hv => ?_⟩
    rcases List.mem_append.mp hv with hv | hv
    · exact h2 v hv
    · exact h4 v hv
  | scope a ih =>
    intro r h
    refine ⟨by rw [c42_scope_restores pl a r h.fits hpl]; exact h, fun v hv => ?_⟩
    have hk := disable_kept pl hpl r h.fits
    rw [h.other] at hk
    exact (ih _ hk).2 v hv

/-- C42: every floating-point instruction in the scope is executed with denormals flushed and with
the rounding mode and exception masks that the caller had set. -/
theorem c42_flushed_in_scope (pl : Platform) (hpl : pl ≠ .other) (body : Code) (r : Reg)
    (h : Fits r) (v : Reg) (hv : v ∈ (exec pl (.scope body) r).2) :
    Flushing pl v ∧ otherControl pl v = otherControl pl r := by
  have := (exec_keeps pl hpl _ body _ (disable_kept pl hpl r h)).2 v hv
  exact ⟨this.flush, this.other⟩

/-- The code executes no floating-point instruction. -/
def NoFloat (pl : Platform) (code : Code) : Prop := ∀ r, exec pl code r = (r, [])

/-- C42 for Mul: if no cached matrix is packed with floating-point instructions, the register is
restored completely and all floating-point instructions flush denormals. -/
theorem c42_mul_partial (pl : Platform) (hpl : pl ≠ .other) (pack body : Code) (r : Reg)
    (h : Fits r) (hp : NoFloat pl pack) :
    (exec pl (mulMain pack body) r).1 = r ∧
      ∀ v ∈ (exec pl (mulMain pack body) r).2, Flushing pl v ∧ otherControl pl v = otherControl pl r := by
  have e : exec pl (mulMain pack body) r = exec pl (.scope body) r := by
    show ((exec pl (.scope body) (exec pl pack r).1).1, (exec pl pack r).2 ++ (exec pl (.scope body) (exec pl pack r).1).2) = _
    rw [hp r]; rfl
  rw [e]
  exact ⟨c42_scope_restores pl body r h hpl, c42_flushed_in_scope pl hpl body r h⟩

/-- Fits is kept by all code. -/
theorem exec_fits (pl : Platform) (hpl : pl ≠ .other) : ∀ (code : Code) (r : Reg), Fits r →
    Fits (exec pl code r).1 ∧ (exec pl code r).1 &&& ~~~ pl.status = r &&& ~~~ pl.status := by
  intro code
  induction code with
  | skip => intro r h; exact ⟨h, rfl⟩
  | float v =>
    intro r h
    refine ⟨?_, ?_⟩
    · apply fits_of_bits
      intro i hi
      have h1 := fits_bits h i hi
      have h2 := status_bits pl i hi
      simp [exec, h1, h2]
    · apply BitVec.eq_of_getLsbD_eq
      intro i hi
      simp only [exec, BitVec.getLsbD_and, BitVec.getLsbD_or, BitVec.getLsbD_not, hi, decide_true,
        Bool.true_and]
      cases r.getLsbD i <;> cases v.getLsbD i <;> cases pl.status.getLsbD i <;> rfl
  | seq a b iha ihb =>
    intro r h
    obtain ⟨h1, h2⟩ := iha r h
    obtain ⟨h3, h4⟩ := ihb _ h1
    exact ⟨h3, h4.trans h2⟩
  | scope a ih =>
    intro r h
    rw [c42_scope_restores pl a r h hpl]
    exact ⟨h, rfl⟩

/-- C42 for Mul without restriction: all control bits are what they were, on every platform of which
the register is known. -/
theorem c42_mul_control_restored (pl : Platform) (hpl : pl ≠ .other) (pack body : Code) (r : Reg)
    (h : Fits r) :
    (exec pl (mulMain pack body) r).1 &&& ~~~ pl.status = r &&& ~~~ pl.status :=
  (exec_fits pl hpl _ r h).2

/-- C42, disagreement: the packing of a cached matrix is outside of the scope.  On the portable path
(which computes x - 0 + 0) denormals are not flushed there, and on x86 the "denormal operand" flag
stays set in the caller's register (0x1f80 is the default value of MXCSR). -/
theorem c42_cached_packing_outside :
    let mul := mulMain (.float 0x2#64) (.float 0x0#64)
    (exec .x86 mul 0x1f80#64).1 = 0x1f82#64 ∧
    ∃ v ∈ (exec .x86 mul 0x1f80#64).2, ¬ Flushing .x86 v := by
  refine ⟨by decide, 0x1f80#64, by decide, ?_⟩
  unfold Flushing
  decide

/-- C42: on platforms that denormal.cc does not know, nothing is flushed. -/
theorem c42_other_platform (body : Code) (r : Reg) :
    exec .other (.scope body) r = exec .other body r := rfl

-- Nested scopes, a caller with round-to-zero (x86 bits 13, 14) and flags set.
example : exec .x86 (.scope (.seq (.float 0x3f#64) (.scope (.float 0x1#64)))) 0x7f81#64 =
    (0x7f81#64, [0xffc1#64, 0xffff#64]) := by decide
example : Fits 0x7f81#64 ∧ Flushing .x86 0xffc1#64 ∧ ¬ Flushing .x86 0x7f81#64 := by
  refine ⟨by unfold Fits; decide, by unfold Flushing; decide, by unfold Flushing; decide⟩
example : NoFloat .arm64 (.seq .skip .skip) := fun _ => rfl
example : exec .arm64 (.scope (.float 0#64)) 0x00c00000#64 = (0x00c00000#64, [0x01c80000#64]) := by decide

end Ruy.Fpu

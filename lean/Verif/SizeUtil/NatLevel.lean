import Verif.SizeUtil.Props
/-
Nat-level versions of the size_util.h functions, used by the other models, and
the proof that on 32-bit `int` arguments the bit-level code (Model.lean)
computes them.
-/
namespace Ruy.SizeUtil

/-- floor_log2 on a non-negative int. -/
def nFloorLog2 (n : Nat) : C Nat := do
  C.check (1 ≤ n)
  pure n.log2

/-- ceil_log2 on a non-negative int. -/
def nCeilLog2 (n : Nat) : C Nat := do
  C.check (1 ≤ n)
  if n = 1 then pure 0 else pure ((n - 1).log2 + 1)

/-- is_pot on a non-negative int. -/
def nIsPot (n : Nat) : Bool := decide (0 < n) && decide (n = 2 ^ n.log2)

/-- pot_log2 on a non-negative int. -/
def nPotLog2 (n : Nat) : C Nat := do
  C.check (nIsPot n = true)
  nFloorLog2 n

/-- round_down_pot(value, modulo) on non-negative ints (modulo a power of two). -/
def nRoundDownPot (v m : Nat) : C Nat := do
  C.check (nIsPot m = true)
  pure (v - v % m)

/-- round_up_pot(value, modulo) on non-negative ints (modulo a power of two). -/
def nRoundUpPot (v m : Nat) : C Nat := do
  let s ← C.int (v + m)
  nRoundDownPot (s - 1) m

theorem toNat_ofNat32 {n : Nat} (h : n < 2 ^ 31) : (BitVec.ofNat 32 n).toNat = n := by
  rw [BitVec.toNat_ofNat]; omega

theorem toInt_ofNat32 {n : Nat} (h : n < 2 ^ 31) : (BitVec.ofNat 32 n).toInt = n := by
  rw [BitVec.toInt_eq_toNat_of_lt, toNat_ofNat32 h]
  rw [toNat_ofNat32 h]; omega

theorem bridge_floorLog2 {n : Nat} (h : n < 2 ^ 31) :
    floorLog2 (BitVec.ofNat 32 n) = nFloorLog2 n := by
  by_cases h1 : 1 ≤ n
  · rw [floorLog2_log2 (by rw [toInt_ofNat32 h]; omega), toNat_ofNat32 h]
    simp [nFloorLog2, h1]
  · rw [c43_floor_log2_rejects _ (by rw [toInt_ofNat32 h]; omega)]
    simp [nFloorLog2, C.check, h1]

theorem bridge_ceilLog2 {n : Nat} (h : n < 2 ^ 31) :
    ceilLog2 (BitVec.ofNat 32 n) = nCeilLog2 n := by
  unfold ceilLog2 nCeilLog2
  by_cases h1 : 1 ≤ n
  · rw [C.check_of (by rw [toInt_ofNat32 h]; omega), C.check_of h1]
    simp only [C.ok_bind]
    by_cases h2 : n = 1
    · subst h2; rfl
    · have hne : BitVec.ofNat 32 n ≠ 1#32 := by
        intro e; have := congrArg BitVec.toNat e; rw [toNat_ofNat32 h] at this; simp at this; omega
      rw [if_neg hne, if_neg h2]
      have hsub : BitVec.ofNat 32 n - 1#32 = BitVec.ofNat 32 (n - 1) := by
        apply BitVec.eq_of_toNat_eq
        rw [toNat_sub_one, toNat_ofNat32 h, toNat_ofNat32 (by omega)]
        intro e; have := congrArg BitVec.toNat e; rw [toNat_ofNat32 h] at this; simp at this; omega
      rw [hsub, bridge_floorLog2 (by omega)]
      simp [nFloorLog2, show 1 ≤ n - 1 by omega]
  · rw [show C.check (1 ≤ (BitVec.ofNat 32 n).toInt) = .error .abort by
      rw [toInt_ofNat32 h]; simp [C.check]; omega]
    simp [C.check, h1]

theorem bridge_isPot {n : Nat} (h : n < 2 ^ 31) : isPot (BitVec.ofNat 32 n) = nIsPot n := by
  rw [Bool.eq_iff_iff, isPot_iff_log, toInt_ofNat32 h, toNat_ofNat32 h]
  simp [nIsPot]

theorem bridge_potLog2 {n : Nat} (h : n < 2 ^ 31) :
    potLog2 (BitVec.ofNat 32 n) = nPotLog2 n := by
  unfold potLog2 nPotLog2
  rw [bridge_isPot h, bridge_floorLog2 h]

theorem nIsPot_iff {n : Nat} : nIsPot n = true ↔ ∃ k, n = 2 ^ k := by
  simp only [nIsPot, Bool.and_eq_true, decide_eq_true_eq]
  constructor
  · rintro ⟨_, h⟩; exact ⟨_, h⟩
  · rintro ⟨k, rfl⟩; exact ⟨Nat.two_pow_pos k, by rw [Nat.log2_two_pow]⟩

theorem bridge_roundDownPot {v m : Nat} (hv : v < 2 ^ 31) (hm : m < 2 ^ 31)
    (hp : nIsPot m = true) :
    (do let r ← roundDownPot (BitVec.ofNat 32 v) (BitVec.ofNat 32 m); pure r.toNat) =
      nRoundDownPot v m := by
  obtain ⟨k, hk⟩ := nIsPot_iff.1 hp
  obtain ⟨r, hr, hd, h1, h2⟩ := c43_round_down_to_multiple (BitVec.ofNat 32 v) (BitVec.ofNat 32 m) k
    (by rw [toInt_ofNat32 hm, hk]; norm_cast)
  rw [toInt_ofNat32 hm] at hd h2
  rw [toInt_ofNat32 hv] at h1 h2
  have hmp : 0 < m := by rw [hk]; exact Nat.two_pow_pos k
  obtain ⟨q, hq⟩ := hd
  have hq0 : 0 ≤ q := by
    rcases Int.lt_or_le q 0 with hneg | h
    · exfalso
      have : (m : Int) * q ≤ m * (-1) := Int.mul_le_mul_of_nonneg_left (by omega) (by omega)
      omega
    · exact h
  have hrn : r.toInt = ((v - v % m : Nat) : Int) := by
    obtain ⟨qn, rfl⟩ := Int.eq_ofNat_of_zero_le hq0
    have hq' : r.toInt = ((m * qn : Nat) : Int) := by rw [hq]; push_cast; rfl
    rw [hq'] at h1 h2 ⊢
    have h1' : m * qn ≤ v := by exact_mod_cast h1
    have h2' : v < m * qn + m := by exact_mod_cast h2
    have hdm := Nat.div_add_mod v m
    have hlt := Nat.mod_lt v hmp
    have e : v / m = qn := by
      apply Nat.div_eq_of_lt_le
      · rw [Nat.mul_comm]; exact h1'
      · rw [Nat.add_mul, Nat.mul_comm]; omega
    rw [e] at hdm
    congr 1; omega
  have hrnat : r.toNat = v - v % m := by
    have h0 : 0 ≤ r.toInt := by rw [hrn]; omega
    have hmsb : r.msb = false := by
      cases hb : r.msb
      · rfl
      · have := BitVec.toInt_neg_of_msb_true hb; omega
    have : r.toInt = r.toNat := by rw [BitVec.toInt_eq_msb_cond]; simp [hmsb]
    rw [this] at hrn; exact_mod_cast hrn
  rw [hr]
  simp [nRoundDownPot, hp, hrnat]

theorem bridge_roundUpPot {v m : Nat} (hv : v < 2 ^ 31) (hm : m < 2 ^ 31)
    (hp : nIsPot m = true) :
    (do let r ← roundUpPot (BitVec.ofNat 32 v) (BitVec.ofNat 32 m); pure r.toNat) =
      nRoundUpPot v m := by
  have hmp : 0 < m := by obtain ⟨k, hk⟩ := nIsPot_iff.1 hp; rw [hk]; exact Nat.two_pow_pos k
  unfold roundUpPot nRoundUpPot
  rw [toInt_ofNat32 hv, toInt_ofNat32 hm]
  by_cases h : v + m < 2 ^ 31
  · rw [C.int_of h, C.require_of (by unfold signedFits; omega),
      C.require_of (by unfold signedFits; omega)]
    simp only [C.ok_bind]
    rw [← bridge_roundDownPot (by omega) hm hp]
    congr 2
    apply BitVec.eq_of_toNat_eq
    rw [toNat_ofNat32 (by omega), ← BitVec.ofNat_add, toNat_sub_one, toNat_ofNat32 h]
    intro e; have := congrArg BitVec.toNat e; rw [toNat_ofNat32 h] at this; simp at this; omega
  · have : ¬ signedFits 32 ((v : Int) + m) := by unfold signedFits; omega
    simp [C.require, C.int, h, this]

end Ruy.SizeUtil

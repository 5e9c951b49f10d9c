import Verif.SizeUtil.Lemmas
/-
Property C43: the power-of-two helpers are exact.

Specifications are stated with `2 ^ k` and inequalities only.
-/
namespace Ruy.SizeUtil

/-- C43 (floor_log2). Every positive argument is accepted and the result is the
exponent of the largest power of two not exceeding it. -/
theorem c43_floor_log2 {w : Nat} (n : BitVec w) (h : 0 < n.toInt) :
    ∃ k, floorLog2 n = .ok k ∧ (2 : Int) ^ k ≤ n.toInt ∧ n.toInt < 2 ^ (k + 1) := by
  obtain ⟨k, hk, h1, h2, _⟩ := floorLog2_ok (show 1 ≤ n.toInt by omega)
  obtain ⟨he, _⟩ := toNat_of_pos (show 1 ≤ n.toInt by omega)
  refine ⟨k, hk, ?_, ?_⟩ <;> rw [he] <;> exact_mod_cast ‹_›

example : (0 : Int) < (1000#32).toInt ∧ floorLog2 (1000#32) = .ok 9 := by decide

/-- C43 (floor_log2), rejected arguments: exactly the non-positive ones. -/
theorem c43_floor_log2_rejects {w : Nat} (n : BitVec w) (h : n.toInt ≤ 0) :
    floorLog2 n = .error .abort := by
  have : ¬ (1 ≤ n.toInt) := by omega
  simp [floorLog2, C.check, this]

example : (0#32).toInt ≤ 0 ∧ (-5#32).toInt ≤ 0 := by decide

/-- C43 (ceil_log2): the least exponent whose power of two reaches the argument. -/
theorem c43_ceil_log2 {w : Nat} (n : BitVec w) (h : 0 < n.toInt) :
    ∃ k, ceilLog2 n = .ok k ∧ n.toInt ≤ 2 ^ k ∧ ∀ j, n.toInt ≤ 2 ^ j → k ≤ j := by
  obtain ⟨he, hne⟩ := toNat_of_pos (show 1 ≤ n.toInt by omega)
  unfold ceilLog2
  rw [C.check_of (by omega)]
  by_cases h1 : n = 1#w
  · refine ⟨0, by simp [h1], ?_, fun _ _ => Nat.zero_le _⟩
    have hw : 0 < w := by
      rcases w with _ | w
      · exact absurd (Subsingleton.elim _ _) hne
      · omega
    have hn : n.toNat = 1 := by
      rw [h1, BitVec.toNat_ofNat]
      exact Nat.mod_eq_of_lt (Nat.one_lt_two_pow (by omega))
    rw [he, hn]; decide
  · have hn2 : 2 ≤ n.toNat := by
      rcases Nat.lt_or_ge n.toNat 2 with hlt | hge
      · exfalso; apply h1
        have hw : 0 < w := by
          rcases w with _ | w
          · exact absurd (Subsingleton.elim _ _) hne
          · omega
        apply BitVec.eq_of_toNat_eq
        rw [BitVec.toNat_ofNat, Nat.mod_eq_of_lt (Nat.one_lt_two_pow (by omega))]
        omega
      · exact hge
    have hsub : (n - 1#w).toNat = n.toNat - 1 := toNat_sub_one hne
    have hlt : 2 * n.toNat < 2 ^ w := by
      have hm : n.msb = false := by
        cases hm : n.msb
        · rfl
        · have := BitVec.toInt_neg_of_msb_true hm; omega
      have := BitVec.toNat_lt_of_msb_false hm
      rcases w with _ | w
      · exact absurd (Subsingleton.elim _ _) hne
      · simp at this; omega
    have hsi : (n - 1#w).toInt = ((n.toNat - 1 : Nat) : Int) := by
      rw [BitVec.toInt_eq_toNat_of_lt, hsub]; rw [hsub]; omega
    obtain ⟨k, hk, hk1, hk2, _⟩ := floorLog2_ok (n := n - 1#w) (by rw [hsi]; omega)
    rw [hsub] at hk1 hk2
    refine ⟨k + 1, by simp [h1, hk], ?_, ?_⟩
    · rw [he]
      have : n.toNat ≤ 2 ^ (k + 1) := by omega
      exact_mod_cast this
    · intro j hj
      rw [he] at hj
      have hj' : n.toNat ≤ 2 ^ j := by exact_mod_cast hj
      have : 2 ^ k < 2 ^ j := by omega
      have := (Nat.pow_lt_pow_iff_right (by omega : 1 < 2)).1 this
      omega

example : ceilLog2 (1000#32) = .ok 10 ∧ ceilLog2 (1024#32) = .ok 10 := by decide

/-- C43 (is_pot): true exactly for the powers of two. -/
theorem c43_is_pot {w : Nat} (n : BitVec w) :
    isPot n = true ↔ ∃ k : Nat, n.toInt = 2 ^ k := by
  rw [isPot_iff_log]
  constructor
  · rintro ⟨h1, h2⟩
    obtain ⟨he, _⟩ := toNat_of_pos (show 1 ≤ n.toInt by omega)
    exact ⟨n.toNat.log2, by rw [he]; exact_mod_cast h2⟩
  · rintro ⟨k, hk⟩
    have hp : (0 : Int) < 2 ^ k := Int.pow_pos (by omega)
    refine ⟨by omega, ?_⟩
    obtain ⟨he, _⟩ := toNat_of_pos (show 1 ≤ n.toInt by omega)
    have : n.toNat = 2 ^ k := by rw [he] at hk; exact_mod_cast hk
    rw [this, Nat.log2_two_pow]

example : (64#32).toInt = 2 ^ 6 := by decide

/-- C43 (pot_log2): inverse of `2 ^ k`. -/
theorem c43_pot_log2 {w : Nat} (n : BitVec w) (k : Nat) (h : n.toInt = 2 ^ k) :
    potLog2 n = .ok k := by
  have hpot : isPot n = true := (c43_is_pot n).2 ⟨k, h⟩
  have hp : (0 : Int) < 2 ^ k := Int.pow_pos (by omega)
  obtain ⟨he, _⟩ := toNat_of_pos (show 1 ≤ n.toInt by omega)
  have hn : n.toNat = 2 ^ k := by rw [he] at h; exact_mod_cast h
  simp only [potLog2, C.check_of hpot, C.ok_bind]
  rw [floorLog2_log2 (by omega), hn, Nat.log2_two_pow]

example : (64#32).toInt = 2 ^ 6 := by decide

/-- C43 (round_down_pot): the largest power of two not exceeding the argument. -/
theorem c43_round_down_pot {w : Nat} (v : BitVec w) (h : 0 < v.toInt) :
    ∃ r, roundDownPot1 v = .ok r ∧ (∃ k : Nat, r.toInt = 2 ^ k) ∧ r.toInt ≤ v.toInt ∧
      ∀ j : Nat, (2 : Int) ^ j ≤ v.toInt → 2 ^ j ≤ r.toInt := by
  obtain ⟨k, hk, h1, h2, hw⟩ := floorLog2_ok (show 1 ≤ v.toInt by omega)
  obtain ⟨he, _⟩ := toNat_of_pos (show 1 ≤ v.toInt by omega)
  refine ⟨1#w <<< k, by simp [roundDownPot1, hk, shl1, hw], ⟨k, toInt_one_shl hw⟩, ?_, ?_⟩
  · rw [toInt_one_shl hw, he]; exact_mod_cast h1
  · intro j hj
    rw [toInt_one_shl hw]
    rw [he] at hj
    have hj' : 2 ^ j ≤ v.toNat := by exact_mod_cast hj
    have := (Nat.pow_lt_pow_iff_right (by omega : 1 < 2)).1 (Nat.lt_of_le_of_lt hj' h2)
    have : (2 : Nat) ^ j ≤ 2 ^ k := Nat.pow_le_pow_right (by omega) (by omega)
    exact_mod_cast this

example : (0 : Int) < (1000#32).toInt ∧ roundDownPot1 (1000#32) = .ok 512#32 := by decide

/-- C43 (round_up_pot): the least power of two reaching the argument, whenever
that power is representable in the type (otherwise the C++ shift is undefined,
see `c43_round_up_pot_overflow`). -/
theorem c43_round_up_pot {w : Nat} (v : BitVec w) (h : 0 < v.toInt)
    (hfit : ∃ k : Nat, k + 1 < w ∧ v.toInt ≤ 2 ^ k) :
    ∃ r, roundUpPot1 v = .ok r ∧ (∃ k : Nat, r.toInt = 2 ^ k) ∧ v.toInt ≤ r.toInt ∧
      ∀ j : Nat, v.toInt ≤ 2 ^ j → r.toInt ≤ 2 ^ j := by
  obtain ⟨k, hk, h1, h2⟩ := c43_ceil_log2 v h
  obtain ⟨k', hw', hk'⟩ := hfit
  have hw : k + 1 < w := by have := h2 k' hk'; omega
  refine ⟨1#w <<< k, by simp [roundUpPot1, hk, shl1, hw], ⟨k, toInt_one_shl hw⟩, ?_, ?_⟩
  · rw [toInt_one_shl hw]; exact h1
  · intro j hj
    rw [toInt_one_shl hw]
    have : (2 : Nat) ^ k ≤ 2 ^ j := Nat.pow_le_pow_right (by omega) (h2 j hj)
    exact_mod_cast this

example : ∃ k : Nat, k + 1 < 32 ∧ (1000#32).toInt ≤ 2 ^ k := ⟨10, by decide⟩

/-- C43: rounding up above the largest representable power of two is undefined. -/
theorem c43_round_up_pot_overflow {w : Nat} (v : BitVec w) (h : 0 < v.toInt)
    (hno : ¬ ∃ k : Nat, k + 1 < w ∧ v.toInt ≤ 2 ^ k) : roundUpPot1 v = .error .ub := by
  obtain ⟨k, hk, h1, _⟩ := c43_ceil_log2 v h
  have hw : ¬ (k + 1 < w) := fun hw => hno ⟨k, hw, h1⟩
  simp [roundUpPot1, hk, shl1, C.require, hw]

example : roundUpPot1 (0x40000001#32) = .error .ub := by decide

/-- C43 (two-argument round_down_pot): the largest multiple of `m` not exceeding
`v`, for every (also negative) `v` and every power of two `m`. -/
theorem c43_round_down_to_multiple {w : Nat} (v m : BitVec w) (k : Nat) (hm : m.toInt = 2 ^ k) :
    ∃ r, roundDownPot v m = .ok r ∧ m.toInt ∣ r.toInt ∧ r.toInt ≤ v.toInt ∧
      v.toInt < r.toInt + m.toInt := by
  have hp : (0 : Int) < 2 ^ k := Int.pow_pos (by omega)
  obtain ⟨he, hne⟩ := toNat_of_pos (show 1 ≤ m.toInt by omega)
  have hn : m.toNat = 2 ^ k := by rw [he] at hm; exact_mod_cast hm
  have hw : k + 1 < w := by
    obtain ⟨k', _, h1, h2, hw⟩ := floorLog2_ok (show 1 ≤ m.toInt by omega)
    rw [hn] at h1 h2
    have := pow_bracket_unique (Nat.le_refl (2 ^ k)) (Nat.pow_lt_pow_right (by omega) (by omega)) h1 h2
    omega
  have hfit : signedFits w (m.toInt - 1) := by
    have := @BitVec.toInt_lt w m
    unfold signedFits
    have h2 : (0 : Int) < 2 ^ (w - 1) := Int.pow_pos (by omega)
    omega
  have hand : (m &&& (m - 1#w)) = 0#w := by
    have := (c43_is_pot m).2 ⟨k, hm⟩
    simp only [isPot, Bool.and_eq_true, decide_eq_true_eq] at this
    exact this.2
  refine ⟨v &&& ~~~ (m - 1#w), by simp [roundDownPot, hfit, hand], ?_⟩
  rw [and_not_mask_toInt v m hw hn, hm]
  refine ⟨Int.dvd_self_sub_emod, ?_, ?_⟩
  · have := Int.emod_nonneg v.toInt (show (2 : Int) ^ k ≠ 0 by omega); omega
  · have := Int.emod_lt_of_pos v.toInt hp; omega

example : (16#32).toInt = 2 ^ 4 ∧ roundDownPot (1000#32) 16#32 = .ok 992#32 ∧
    roundDownPot (-5#32) 16#32 = .ok (-16#32) := by decide

/-- C43 (two-argument round_up_pot, partial): the least multiple of `m` reaching
`v`, whenever `v + m` is representable.  Missing for the full property: values
`v` within `m` of the top of the type whose rounded value is representable; for
those the C++ overflows, see `c43_round_up_to_multiple_overflow`. -/
theorem c43_round_up_to_multiple_partial {w : Nat} (v m : BitVec w) (k : Nat) (hm : m.toInt = 2 ^ k)
    (hfit : v.toInt + m.toInt < 2 ^ (w - 1)) :
    ∃ r, roundUpPot v m = .ok r ∧ m.toInt ∣ r.toInt ∧ v.toInt ≤ r.toInt ∧
      r.toInt < v.toInt + m.toInt := by
  have hp : (0 : Int) < 2 ^ k := Int.pow_pos (by omega)
  have hv := @BitVec.le_toInt w v
  have h1 : signedFits w (v.toInt + m.toInt) := ⟨by omega, hfit⟩
  have h2 : signedFits w (v.toInt + m.toInt - 1) := ⟨by omega, by omega⟩
  obtain ⟨hme, hmne⟩ := toNat_of_pos (show 1 ≤ m.toInt by omega)
  have hw : 1 < w := by
    obtain ⟨k', _, _, _, hw⟩ := floorLog2_ok (show 1 ≤ m.toInt by omega)
    omega
  have hsum : (v + m - 1#w).toInt = v.toInt + m.toInt - 1 := by
    have h1' : (1#w).toInt = 1 := by
      rw [BitVec.toInt_eq_toNat_of_lt]
      · rw [BitVec.toNat_ofNat, Nat.mod_eq_of_lt (Nat.one_lt_two_pow (by omega))]; rfl
      · simp only [BitVec.toNat_ofNat]
        rw [Nat.mod_eq_of_lt (Nat.one_lt_two_pow (by omega))]
        have : 2 ^ 1 < 2 ^ w := Nat.pow_lt_pow_right (by omega) hw
        omega
    have hpw : (2 : Int) ^ w = 2 * 2 ^ (w - 1) := by
      rw [← Int.pow_succ']; congr 1; omega
    have e1 : (v + m).toInt = v.toInt + m.toInt := by
      rw [BitVec.toInt_add]
      apply Int.bmod_eq_of_le <;> push_cast <;> rw [hpw] <;> unfold signedFits at h1 <;> omega
    rw [BitVec.toInt_sub, e1, h1']
    apply Int.bmod_eq_of_le <;> push_cast <;> rw [hpw] <;> unfold signedFits at h2 <;> omega
  obtain ⟨r, hr, hd, hle, hlt⟩ := c43_round_down_to_multiple (v + m - 1#w) m k hm
  rw [hsum] at hle hlt
  exact ⟨r, by simp [roundUpPot, h1, h2, hr], hd, by omega, by omega⟩

example : (16#32).toInt = 2 ^ 4 ∧ (1000#32).toInt + (16#32).toInt < 2 ^ (32 - 1) ∧
    roundUpPot (1000#32) 16#32 = .ok 1008#32 := by decide

/-- C43 fails at the top of the range: whenever `v + m` is not representable,
`round_up_pot(v, m)` overflows in its intermediate sum (size_util.h:100), even
if `v` is already a multiple of `m` so that the exact result `v` is
representable. -/
theorem c43_round_up_to_multiple_overflow {w : Nat} (v m : BitVec w)
    (hno : 2 ^ (w - 1) ≤ v.toInt + m.toInt) : roundUpPot v m = .error .ub := by
  have h : ¬ signedFits w (v.toInt + m.toInt) := fun h => by unfold signedFits at h; omega
  simp [roundUpPot, C.require, h]

/-- 2147483640 is a multiple of 8, but rounding it up to a multiple of 8 is undefined. -/
example : (8 : Int) ∣ (2147483640#32).toInt ∧
    (2 : Int) ^ (32 - 1) ≤ (2147483640#32).toInt + (8#32).toInt ∧
    roundUpPot (2147483640#32) 8#32 = .error .ub := by decide

end Ruy.SizeUtil

import Verif.SizeUtil.Model

namespace Ruy.SizeUtil

theorem clz_le {w : Nat} (x : BitVec w) : clz x ≤ w := by
  induction w with
  | zero => simp [clz]
  | succ w ih =>
    unfold clz
    split
    · omega
    · have := ih (x.setWidth w); omega

/-- `clz` brackets the value. -/
theorem clz_spec {w : Nat} (x : BitVec w) (h : x ≠ 0#w) :
    clz x < w ∧ 2 ^ (w - 1 - clz x) ≤ x.toNat ∧ x.toNat < 2 ^ (w - clz x) := by
  induction w with
  | zero => exact absurd (Subsingleton.elim _ _) h
  | succ w ih =>
    unfold clz
    split
    · rename_i hm
      have := BitVec.le_toNat_of_msb_true hm
      refine ⟨by omega, by simpa using this, by simpa using x.isLt⟩
    · rename_i hm
      have hm' : x.msb = false := by simpa using hm
      have hlt : x.toNat < 2 ^ w := by
        have := BitVec.toNat_lt_of_msb_false hm'; simpa using this
      have hx : (x.setWidth w).toNat = x.toNat := by
        rw [BitVec.toNat_setWidth]; exact Nat.mod_eq_of_lt hlt
      have hne : x.setWidth w ≠ 0#w := by
        intro h0
        apply h
        apply BitVec.eq_of_toNat_eq
        have := congrArg BitVec.toNat h0
        simp only [hx] at this
        simpa using this
      obtain ⟨h1, h2, h3⟩ := ih _ hne
      rw [hx] at h2 h3
      refine ⟨by omega, ?_, ?_⟩
      · have e : w + 1 - 1 - (1 + clz (x.setWidth w)) = w - 1 - clz (x.setWidth w) := by omega
        rw [e]; exact h2
      · have e : w + 1 - (1 + clz (x.setWidth w)) = w - clz (x.setWidth w) := by omega
        rw [e]; exact h3

theorem toNat_of_pos {w : Nat} {n : BitVec w} (h : 1 ≤ n.toInt) :
    n.toInt = n.toNat ∧ n ≠ 0#w := by
  have hm : n.msb = false := by
    cases hm : n.msb
    · rfl
    · have := BitVec.toInt_neg_of_msb_true hm; omega
  refine ⟨?_, ?_⟩
  · rw [BitVec.toInt_eq_msb_cond]; simp [hm]
  · rintro rfl; simp at h

theorem floorLog2_ok {w : Nat} {n : BitVec w} (h : 1 ≤ n.toInt) :
    ∃ k, floorLog2 n = .ok k ∧ 2 ^ k ≤ n.toNat ∧ n.toNat < 2 ^ (k + 1) ∧ k + 1 < w := by
  obtain ⟨he, hne⟩ := toNat_of_pos h
  obtain ⟨h1, h2, h3⟩ := clz_spec n hne
  refine ⟨w - 1 - clz n, ?_, h2, ?_, ?_⟩
  · simp [floorLog2, h, hne]
  · rwa [show w - 1 - clz n + 1 = w - clz n by omega]
  · have hlt : n.toNat < 2 ^ (w - 1) := by
      have := @BitVec.toInt_lt w n
      rw [he] at this
      exact_mod_cast this
    have : 2 ^ (w - 1 - clz n) < 2 ^ (w - 1) := Nat.lt_of_le_of_lt h2 hlt
    have := (Nat.pow_lt_pow_iff_right (by omega : 1 < 2)).1 this
    omega

theorem pow_bracket_unique {a b n : Nat} (h1 : 2 ^ a ≤ n) (h2 : n < 2 ^ (a + 1))
    (h3 : 2 ^ b ≤ n) (h4 : n < 2 ^ (b + 1)) : a = b := by
  have h5 := (Nat.pow_lt_pow_iff_right (by omega : 1 < 2)).1 (Nat.lt_of_le_of_lt h1 h4)
  have h6 := (Nat.pow_lt_pow_iff_right (by omega : 1 < 2)).1 (Nat.lt_of_le_of_lt h3 h2)
  omega

theorem floorLog2_log2 {w : Nat} {n : BitVec w} (h : 1 ≤ n.toInt) :
    floorLog2 n = .ok n.toNat.log2 := by
  obtain ⟨k, hk, h1, h2, _⟩ := floorLog2_ok h
  rw [hk]
  have hn : n.toNat ≠ 0 := by have : 0 < 2 ^ k := Nat.two_pow_pos k; omega
  rw [pow_bracket_unique h1 h2 (Nat.log2_self_le hn) Nat.lt_log2_self]

theorem and_pred_zero_iff (n : Nat) (hn : 0 < n) : (n &&& (n - 1)) = 0 ↔ n = 2 ^ n.log2 := by
  have hb : ∀ i, n.log2 < i → n.testBit i = false := fun i hi =>
    Nat.testBit_lt_two_pow (Nat.lt_of_lt_of_le Nat.lt_log2_self (Nat.pow_le_pow_right (by omega) hi))
  constructor
  · intro h
    by_cases h1 : n = 2 ^ n.log2
    · exact h1
    exfalso
    have hge := Nat.log2_self_le (n := n) (by omega)
    have hgt : 2 ^ n.log2 ≤ n - 1 := by omega
    have hlt : n < 2 ^ (n.log2 + 1) := Nat.lt_log2_self
    have hbit1 : n.testBit n.log2 = true := by
      rw [Nat.testBit_eq_decide_div_mod_eq]
      have : n / 2 ^ n.log2 = 1 := by
        apply Nat.div_eq_of_lt_le <;> rw [Nat.pow_succ] at * <;> omega
      simp [this]
    have hbit2 : (n - 1).testBit n.log2 = true := by
      rw [Nat.testBit_eq_decide_div_mod_eq]
      have : (n - 1) / 2 ^ n.log2 = 1 := by
        apply Nat.div_eq_of_lt_le <;> rw [Nat.pow_succ] at * <;> omega
      simp [this]
    have : (n &&& (n - 1)).testBit n.log2 = true := by simp [Nat.testBit_and, hbit1, hbit2]
    rw [h] at this
    simp at this
  · intro h
    generalize n.log2 = k at h
    subst h
    rw [Nat.and_two_pow_sub_one_eq_mod]
    exact Nat.mod_self _

theorem toNat_sub_one {w : Nat} {n : BitVec w} (h : n ≠ 0#w) : (n - 1#w).toNat = n.toNat - 1 := by
  have hw : 0 < w := by
    rcases w with _ | w
    · exact absurd (Subsingleton.elim _ _) h
    · omega
  have hpos : 0 < n.toNat := by
    rcases Nat.eq_zero_or_pos n.toNat with h0 | h0
    · exact absurd (BitVec.eq_of_toNat_eq (by simpa using h0)) h
    · exact h0
  rw [BitVec.toNat_sub]
  have h1 : (1#w).toNat = 1 := by
    simp only [BitVec.toNat_ofNat]
    exact Nat.mod_eq_of_lt (by have := Nat.pow_le_pow_right (n := 2) (by omega) hw; omega)
  rw [h1]
  have hlt := n.isLt
  have : 2 ^ w - 1 + n.toNat = 2 ^ w + (n.toNat - 1) := by
    have := Nat.two_pow_pos w; omega
  rw [this, Nat.add_mod_left]
  exact Nat.mod_eq_of_lt (by omega)

theorem isPot_iff_log {w : Nat} (n : BitVec w) :
    isPot n = true ↔ 0 < n.toInt ∧ n.toNat = 2 ^ n.toNat.log2 := by
  unfold isPot
  simp only [Bool.and_eq_true, decide_eq_true_eq]
  constructor
  · rintro ⟨h1, h2⟩
    refine ⟨h1, ?_⟩
    obtain ⟨he, hne⟩ := toNat_of_pos (show 1 ≤ n.toInt by omega)
    rw [← and_pred_zero_iff _ (by omega)]
    have := congrArg BitVec.toNat h2
    simpa [BitVec.toNat_and, toNat_sub_one hne] using this
  · rintro ⟨h1, h2⟩
    refine ⟨h1, ?_⟩
    obtain ⟨he, hne⟩ := toNat_of_pos (show 1 ≤ n.toInt by omega)
    apply BitVec.eq_of_toNat_eq
    rw [BitVec.toNat_and, toNat_sub_one hne, (and_pred_zero_iff _ (by omega)).2 h2]
    simp

theorem toNat_one_shl {w k : Nat} (h : k < w) : (1#w <<< k).toNat = 2 ^ k := by
  rw [BitVec.toNat_shiftLeft, BitVec.toNat_ofNat]
  have hw : 1 % 2 ^ w = 1 := Nat.mod_eq_of_lt (Nat.one_lt_two_pow (by omega))
  rw [hw, Nat.one_shiftLeft]
  exact Nat.mod_eq_of_lt (Nat.pow_lt_pow_right (by omega) h)

theorem toInt_one_shl {w k : Nat} (h : k + 1 < w) : (1#w <<< k).toInt = 2 ^ k := by
  have hn := toNat_one_shl (w := w) (k := k) (by omega)
  rw [BitVec.toInt_eq_toNat_of_lt]
  · rw [hn]; norm_cast
  · rw [hn, ← Nat.pow_succ']; exact Nat.pow_lt_pow_right (by omega) h

/-- AND with the complement of `2^k - 1` clears the low `k` bits, on signed values too. -/
theorem and_not_mask_toInt {w k : Nat} (v m : BitVec w) (hk : k + 1 < w) (hm : m.toNat = 2 ^ k) :
    (v &&& ~~~ (m - 1#w)).toInt = v.toInt - v.toInt % 2 ^ k := by
  have hne : m ≠ 0#w := by
    rintro rfl; have := Nat.two_pow_pos k; simp at hm; omega
  have hm1 : (m - 1#w).toNat = 2 ^ k - 1 := by rw [toNat_sub_one hne, hm]
  have hb : v &&& ~~~ (m - 1#w) = (v.ushiftRight k) <<< k := by
    apply BitVec.eq_of_getLsbD_eq
    intro i hi
    have hmi : (m - 1#w).getLsbD i = decide (i < k) := by
      rw [BitVec.getLsbD, hm1, Nat.testBit_two_pow_sub_one]
    have e : v.ushiftRight k = v >>> k := rfl
    simp only [BitVec.getLsbD_and, BitVec.getLsbD_not, hmi, BitVec.getLsbD_shiftLeft, e,
      BitVec.getLsbD_ushiftRight, hi, decide_true, Bool.true_and]
    by_cases hik : i < k
    · simp [hik]
    · simp [hik, show k + (i - k) = i by omega]
  have hnat : (v &&& ~~~ (m - 1#w)).toNat = v.toNat - v.toNat % 2 ^ k := by
    rw [hb]
    have e : v.ushiftRight k = v >>> k := rfl
    rw [e, BitVec.toNat_shiftLeft, BitVec.toNat_ushiftRight, Nat.shiftRight_eq_div_pow,
      Nat.shiftLeft_eq]
    have h1 : v.toNat / 2 ^ k * 2 ^ k = v.toNat - v.toNat % 2 ^ k := by
      have := Nat.div_add_mod v.toNat (2 ^ k); rw [Nat.mul_comm] at this; omega
    rw [h1]
    exact Nat.mod_eq_of_lt (by have := v.isLt; omega)
  have hmsb : (v &&& ~~~ (m - 1#w)).msb = v.msb := by
    have hmi : (m - 1#w).getLsbD (w - 1) = false := by
      rw [BitVec.getLsbD, hm1, Nat.testBit_two_pow_sub_one]
      simp; omega
    rw [BitVec.msb_eq_getLsbD_last, BitVec.msb_eq_getLsbD_last, BitVec.getLsbD_and,
      BitVec.getLsbD_not, hmi]
    simp [show w - 1 < w by omega]
  have hdvd : ((2 : Int) ^ k) ∣ ((2 ^ w : Nat) : Int) :=
    ⟨2 ^ (w - k), by push_cast; rw [← Int.pow_add, show k + (w - k) = w by omega]⟩
  rw [BitVec.toInt_eq_msb_cond, BitVec.toInt_eq_msb_cond, hmsb, hnat]
  have hle : v.toNat % 2 ^ k ≤ v.toNat := Nat.mod_le _ _
  rw [Int.natCast_sub hle]
  cases v.msb
  · simp
  · have : ((v.toNat : Int) - ((2 ^ w : Nat) : Int)) % 2 ^ k = (v.toNat : Int) % 2 ^ k := by
      obtain ⟨c, hc⟩ := hdvd
      rw [hc, Int.sub_mul_emod_self_left]
    simp only [if_true, this]
    push_cast
    omega

end Ruy.SizeUtil

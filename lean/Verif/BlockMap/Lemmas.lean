import Verif.BlockMap.Traversal
/-
Helper lemmas for C08 (index decoding) and C09/C10 (MakeBlockMap).
-/
namespace Ruy.BlockMap
open SizeUtil

/-! ### GetBlockByIndex -/

/-- Nat-level value of `getBlockByIndex`. -/
def blockOf (bm : BlockMap) (i : Nat) : Nat × Nat :=
  let p := decodePair bm.order bm.baseLog2 (i % 4 ^ bm.baseLog2)
  (p.1 + i / 4 ^ bm.baseLog2 % 2 ^ bm.rectLog2.lhs * 2 ^ bm.baseLog2,
   p.2 + i / 4 ^ bm.baseLog2 % 2 ^ bm.rectLog2.rhs * 2 ^ bm.baseLog2)

theorem four_eq (b : Nat) : (4 : Nat) ^ b = 2 ^ (2 * b) := by rw [Nat.pow_mul]

theorem toNat_and_mask (x : BitVec 32) (k : Nat) (hk : k < 32) :
    (x &&& (1#32 <<< k - 1#32)).toNat = x.toNat % 2 ^ k := by
  rw [BitVec.toNat_and, toNat_sub_one, toNat_one_shl hk, Nat.and_two_pow_sub_one_eq_mod]
  intro h0
  have := congrArg BitVec.toNat h0
  rw [toNat_one_shl hk] at this
  have := Nat.two_pow_pos k
  simp at *

theorem offset_lt {x b r : Nat} (h : b + r ≤ 30) : x % 2 ^ r * 2 ^ b < 2 ^ 30 := by
  have h1 : x % 2 ^ r < 2 ^ r := Nat.mod_lt _ (Nat.two_pow_pos r)
  calc x % 2 ^ r * 2 ^ b < 2 ^ r * 2 ^ b := Nat.mul_lt_mul_of_pos_right h1 (Nat.two_pow_pos b)
    _ = 2 ^ (r + b) := by rw [Nat.pow_add]
    _ ≤ 2 ^ 30 := Nat.pow_le_pow_right (by omega) (by omega)

theorem offset_sum_lt {p x b r : Nat} (hp : p < 2 ^ b) :
    p + x % 2 ^ r * 2 ^ b < 2 ^ (b + r) := by
  have h1 : x % 2 ^ r + 1 ≤ 2 ^ r := Nat.mod_lt _ (Nat.two_pow_pos r)
  calc p + x % 2 ^ r * 2 ^ b < 2 ^ b + x % 2 ^ r * 2 ^ b := by omega
    _ = (x % 2 ^ r + 1) * 2 ^ b := by rw [Nat.add_mul]; omega
    _ ≤ 2 ^ r * 2 ^ b := Nat.mul_le_mul_right _ h1
    _ = 2 ^ (b + r) := by rw [← Nat.pow_add, Nat.add_comm]

theorem rectOffset_eq (bm : BlockMap) (side : Side) (y : BitVec 32)
    (h : bm.baseLog2 + bm.rectLog2.get side ≤ 30) :
    rectOffset bm y side = .ok (y.toNat % 2 ^ bm.rectLog2.get side * 2 ^ bm.baseLog2) := by
  unfold rectOffset
  rw [C.require_of (by omega), C.require_of (by omega)]
  simp only [C.ok_bind]
  have e : ((y &&& (1#32 <<< (bm.rectLog2.get side) - 1#32)) <<< bm.baseLog2).toNat =
      y.toNat % 2 ^ bm.rectLog2.get side * 2 ^ bm.baseLog2 := by
    rw [BitVec.toNat_shiftLeft, toNat_and_mask _ _ (by omega), Nat.shiftLeft_eq]
    apply Nat.mod_eq_of_lt
    have := offset_lt (x := y.toNat) (b := bm.baseLog2) (r := bm.rectLog2.get side) (by omega)
    omega
  rw [e, C.int_of]
  have := offset_lt (x := y.toNat) (b := bm.baseLog2) (r := bm.rectLog2.get side) (by omega)
  omega

theorem getBlockByIndex_eq (bm : BlockMap) (i : Nat)
    (h : 2 * bm.baseLog2 + bm.rectLog2.lhs + bm.rectLog2.rhs ≤ 30)
    (hi : i < 2 ^ (2 * bm.baseLog2 + bm.rectLog2.lhs + bm.rectLog2.rhs)) :
    getBlockByIndex bm i = .ok ⟨(blockOf bm i).1, (blockOf bm i).2⟩ := by
  have hi31 : i < 2 ^ 30 := Nat.lt_of_lt_of_le hi (Nat.pow_le_pow_right (by omega) h)
  have hin : (BitVec.ofNat 32 i).toNat = i := by
    rw [BitVec.toNat_ofNat]; apply Nat.mod_eq_of_lt; omega
  unfold getBlockByIndex
  rw [C.require_of (by omega)]
  simp only [C.ok_bind]
  have hsq : (BitVec.ofNat 32 i &&& (1#32 <<< (2 * bm.baseLog2) - 1#32)) =
      BitVec.ofNat 32 (i % 4 ^ bm.baseLog2) := by
    apply BitVec.eq_of_toNat_eq
    rw [toNat_and_mask _ _ (by omega), hin, BitVec.toNat_ofNat, four_eq]
    symm; apply Nat.mod_eq_of_lt
    have := Nat.mod_le i (2 ^ (2 * bm.baseLog2))
    omega
  have h4 : 0 < 4 ^ bm.baseLog2 := Nat.pow_pos (by omega)
  rw [hsq, decode_eq _ _ _ (by omega) (Nat.mod_lt _ h4)]
  have hr : (BitVec.ofNat 32 i >>> (2 * bm.baseLog2)).toNat = i / 4 ^ bm.baseLog2 := by
    rw [BitVec.toNat_ushiftRight, hin, Nat.shiftRight_eq_div_pow, four_eq]
  simp only [C.ok_bind]
  rw [rectOffset_eq bm .lhs _ (by simp; omega), rectOffset_eq bm .rhs _ (by simp; omega), hr]
  simp only [C.ok_bind, SidePair.get_lhs, SidePair.get_rhs]
  obtain ⟨r1, r2⟩ := (decodePair_bij bm.order bm.baseLog2 (by omega)).range _ (Nat.mod_lt i h4)
  have l1 := offset_sum_lt (x := i / 4 ^ bm.baseLog2) (r := bm.rectLog2.lhs) r1
  have l2 := offset_sum_lt (x := i / 4 ^ bm.baseLog2) (r := bm.rectLog2.rhs) r2
  have p1 : 2 ^ (bm.baseLog2 + bm.rectLog2.lhs) ≤ 2 ^ 30 := Nat.pow_le_pow_right (by omega) (by omega)
  have p2 : 2 ^ (bm.baseLog2 + bm.rectLog2.rhs) ≤ 2 ^ 30 := Nat.pow_le_pow_right (by omega) (by omega)
  rw [C.int_of (by omega), C.ok_bind, C.int_of (by omega)]
  rfl

theorem add_mul_inj {b p q x y : Nat} (hp : p < 2 ^ b) (hq : q < 2 ^ b)
    (h : p + x * 2 ^ b = q + y * 2 ^ b) : p = q ∧ x = y := by
  have hb := Nat.two_pow_pos b
  have e1 : (p + x * 2 ^ b) % 2 ^ b = p := by
    rw [Nat.add_mul_mod_self_right, Nat.mod_eq_of_lt hp]
  have e2 : (q + y * 2 ^ b) % 2 ^ b = q := by
    rw [Nat.add_mul_mod_self_right, Nat.mod_eq_of_lt hq]
  have e3 : (p + x * 2 ^ b) / 2 ^ b = x := by
    rw [Nat.add_mul_div_right _ _ hb, Nat.div_eq_of_lt hp, Nat.zero_add]
  have e4 : (q + y * 2 ^ b) / 2 ^ b = y := by
    rw [Nat.add_mul_div_right _ _ hb, Nat.div_eq_of_lt hq, Nat.zero_add]
  rw [h] at e1 e3
  exact ⟨e1.symm.trans e2, e3.symm.trans e4⟩

theorem blockOf_bij (bm : BlockMap) (hb : bm.baseLog2 ≤ 16)
    (hrect : bm.rectLog2.lhs = 0 ∨ bm.rectLog2.rhs = 0) :
    (∀ i, (blockOf bm i).1 < 2 ^ (bm.baseLog2 + bm.rectLog2.lhs) ∧
      (blockOf bm i).2 < 2 ^ (bm.baseLog2 + bm.rectLog2.rhs)) ∧
    (∀ i j, i < 2 ^ (2 * bm.baseLog2 + bm.rectLog2.lhs + bm.rectLog2.rhs) →
      j < 2 ^ (2 * bm.baseLog2 + bm.rectLog2.lhs + bm.rectLog2.rhs) →
      blockOf bm i = blockOf bm j → i = j) ∧
    (∀ l r, l < 2 ^ (bm.baseLog2 + bm.rectLog2.lhs) → r < 2 ^ (bm.baseLog2 + bm.rectLog2.rhs) →
      ∃ i, i < 2 ^ (2 * bm.baseLog2 + bm.rectLog2.lhs + bm.rectLog2.rhs) ∧
        blockOf bm i = (l, r)) := by
  have D := decodePair_bij bm.order bm.baseLog2 hb
  have h4 : 0 < 4 ^ bm.baseLog2 := Nat.pow_pos (by omega)
  have hb2 := Nat.two_pow_pos bm.baseLog2
  have hN : 2 ^ (2 * bm.baseLog2 + bm.rectLog2.lhs + bm.rectLog2.rhs) =
      4 ^ bm.baseLog2 * 2 ^ (bm.rectLog2.lhs + bm.rectLog2.rhs) := by
    rw [four_eq, ← Nat.pow_add, Nat.add_assoc]
  refine ⟨?_, ?_, ?_⟩
  · intro i
    obtain ⟨r1, r2⟩ := D.range _ (Nat.mod_lt i h4)
    exact ⟨offset_sum_lt r1, offset_sum_lt r2⟩
  · intro i j hi hj h
    obtain ⟨r1, r2⟩ := D.range _ (Nat.mod_lt i h4)
    obtain ⟨s1, s2⟩ := D.range _ (Nat.mod_lt j h4)
    simp only [blockOf, Prod.mk.injEq] at h
    obtain ⟨a1, a2⟩ := add_mul_inj r1 s1 h.1
    obtain ⟨b1, b2⟩ := add_mul_inj r2 s2 h.2
    have hm := D.inj _ _ (Nat.mod_lt i h4) (Nat.mod_lt j h4) (Prod.ext a1 b1)
    rw [hN] at hi hj
    have di := Nat.div_lt_of_lt_mul hi
    have dj := Nat.div_lt_of_lt_mul hj
    have hd : i / 4 ^ bm.baseLog2 = j / 4 ^ bm.baseLog2 := by
      rcases hrect with h0 | h0
      · rw [h0, Nat.zero_add] at di dj
        rwa [Nat.mod_eq_of_lt di, Nat.mod_eq_of_lt dj] at b2
      · rw [h0, Nat.add_zero] at di dj
        rwa [Nat.mod_eq_of_lt di, Nat.mod_eq_of_lt dj] at a2
    have e1 := Nat.div_add_mod i (4 ^ bm.baseLog2)
    have e2 := Nat.div_add_mod j (4 ^ bm.baseLog2)
    rw [hd, hm] at e1
    omega
  · intro l r hl hr
    obtain ⟨t, ht, hD⟩ := D.surj (l % 2 ^ bm.baseLog2) (r % 2 ^ bm.baseLog2)
      (Nat.mod_lt _ hb2) (Nat.mod_lt _ hb2)
    rw [Nat.pow_add] at hl hr
    have dl := Nat.div_lt_of_lt_mul hl
    have dr := Nat.div_lt_of_lt_mul hr
    have mk : ∀ q, q < 2 ^ (bm.rectLog2.lhs + bm.rectLog2.rhs) →
        q % 2 ^ bm.rectLog2.lhs = l / 2 ^ bm.baseLog2 → q % 2 ^ bm.rectLog2.rhs = r / 2 ^ bm.baseLog2 →
        ∃ i, i < 2 ^ (2 * bm.baseLog2 + bm.rectLog2.lhs + bm.rectLog2.rhs) ∧
          blockOf bm i = (l, r) := by
      intro q hq h1 h2
      refine ⟨4 ^ bm.baseLog2 * q + t, ?_, ?_⟩
      · rw [hN]
        calc _ < 4 ^ bm.baseLog2 * q + 4 ^ bm.baseLog2 := by omega
          _ = 4 ^ bm.baseLog2 * (q + 1) := by rw [Nat.mul_add, Nat.mul_one]
          _ ≤ _ := Nat.mul_le_mul_left _ hq
      · have e1 : (4 ^ bm.baseLog2 * q + t) % 4 ^ bm.baseLog2 = t := by
          rw [Nat.mul_add_mod]; exact Nat.mod_eq_of_lt ht
        have e2 : (4 ^ bm.baseLog2 * q + t) / 4 ^ bm.baseLog2 = q := by
          rw [Nat.mul_add_div h4, Nat.div_eq_of_lt ht, Nat.add_zero]
        simp only [blockOf, e1, e2, hD, h1, h2, Prod.mk.injEq]
        have := Nat.div_add_mod l (2 ^ bm.baseLog2)
        have := Nat.div_add_mod r (2 ^ bm.baseLog2)
        rw [Nat.mul_comm (l / _), Nat.mul_comm (r / _)]
        omega
    rcases hrect with h0 | h0
    · rw [h0, Nat.pow_zero] at dl
      refine mk (r / 2 ^ bm.baseLog2) (by rw [h0, Nat.zero_add]; exact dr) ?_ (Nat.mod_eq_of_lt dr)
      rw [h0, Nat.pow_zero, Nat.mod_one]; exact (Nat.lt_one_iff.1 dl).symm
    · rw [h0, Nat.pow_zero] at dr
      refine mk (l / 2 ^ bm.baseLog2) (by rw [h0, Nat.add_zero]; exact dl) (Nat.mod_eq_of_lt dl) ?_
      rw [h0, Nat.pow_zero, Nat.mod_one]; exact (Nat.lt_one_iff.1 dr).symm

end Ruy.BlockMap

import Verif.Neon.Isa
import Mathlib.Tactic.Ring
import Mathlib.Tactic.IntervalCases
/-
Reading back what was written to a vector register or to memory.
-/
namespace Ruy.Neon
open Simd (wrap8 wrap16 wrap32)

theorem byte_lt (b : Byte) : b.toNat < 256 := by
  have := b.isLt; omega

theorem le2_lt (f : Nat → Byte) (o : Nat) : le2 f o < 65536 := by
  have := byte_lt (f o); have := byte_lt (f (o + 1)); unfold le2; omega

theorem le4_lt (f : Nat → Byte) (o : Nat) : le4 f o < 4294967296 := by
  have := le2_lt f o; have := le2_lt f (o + 2); unfold le4; omega

theorem byteOf_toNat (x : Int) (k : Nat) : ((byteOf x k).toNat : Int) = x / 256 ^ k % 256 := by
  unfold byteOf
  rw [BitVec.toNat_ofInt]
  omega

theorem getB_ofB (f : Nat → Int) (i : Nat) : getB (ofB f) i = wrap8 (f i) := by
  unfold getB ofB wrap8
  have := byteOf_toNat (f i) 0
  simp only [pow_zero, Int.ediv_one] at this
  omega

theorem getU_ofB (f : Nat → Int) (i : Nat) : getU (ofB f) i = f i % 256 := by
  unfold getU ofB
  have := byteOf_toNat (f i) 0
  simp only [pow_zero, Int.ediv_one] at this
  omega

theorem getH_ofH (f : Nat → Int) (i : Nat) : getH (ofH f) i = wrap16 (f i) := by
  unfold getH le2 ofH wrap16
  rw [show 2 * i / 2 = i by omega, show (2 * i + 1) / 2 = i by omega, show 2 * i % 2 = 0 by omega,
    show (2 * i + 1) % 2 = 1 by omega]
  have h0 := byteOf_toNat (f i) 0
  have h1 := byteOf_toNat (f i) 1
  simp only [pow_zero, pow_one, Int.ediv_one] at h0 h1
  push_cast
  omega

theorem getS_ofS (f : Nat → Int) (i : Nat) : getS (ofS f) i = wrap32 (f i) := by
  unfold getS le4 le2 ofS wrap32
  rw [show 4 * i / 4 = i by omega, show (4 * i + 1) / 4 = i by omega, show (4 * i + 2) / 4 = i by omega,
    show (4 * i + 2 + 1) / 4 = i by omega,
    show 4 * i % 4 = 0 by omega, show (4 * i + 1) % 4 = 1 by omega, show (4 * i + 2) % 4 = 2 by omega,
    show (4 * i + 2 + 1) % 4 = 3 by omega]
  have h0 := byteOf_toNat (f i) 0
  have h1 := byteOf_toNat (f i) 1
  have h2 := byteOf_toNat (f i) 2
  have h3 := byteOf_toNat (f i) 3
  norm_num at h0 h1 h2 h3
  push_cast
  omega

theorem getH_lower (v : Vec) {i : Nat} (h : i < 4) : getH (lower v) i = getH v i := by
  unfold getH le2 lower
  rw [if_pos (by omega), if_pos (by omega)]

theorem getH_upper_lo (d v : Vec) {i : Nat} (h : i < 4) : getH (upper d v) i = getH d i := by
  unfold getH le2 upper
  rw [if_pos (by omega), if_pos (by omega)]

theorem getH_upper_hi (d v : Vec) {i : Nat} (h : 4 ≤ i) : getH (upper d v) i = getH v (i - 4) := by
  unfold getH le2 upper
  rw [if_neg (by omega), if_neg (by omega), show 2 * i - 8 = 2 * (i - 4) by omega,
    show 2 * i + 1 - 8 = 2 * (i - 4) + 1 by omega]

theorem getB_lower (v : Vec) {i : Nat} (h : i < 8) : getB (lower v) i = getB v i := by
  unfold getB lower
  rw [if_pos (by omega)]

theorem getB_upper_lo (d v : Vec) {i : Nat} (h : i < 8) : getB (upper d v) i = getB d i := by
  unfold getB upper
  rw [if_pos (by omega)]

theorem getB_upper_hi (d v : Vec) {i : Nat} (h : 8 ≤ i) : getB (upper d v) i = getB v (i - 8) := by
  unfold getB upper
  rw [if_neg (by omega)]

theorem getU_lower (v : Vec) {i : Nat} (h : i < 8) : getU (lower v) i = getU v i := by
  unfold getU lower
  rw [if_pos (by omega)]

theorem getU_upper_lo (d v : Vec) {i : Nat} (h : i < 8) : getU (upper d v) i = getU d i := by
  unfold getU upper
  rw [if_pos (by omega)]

theorem getU_upper_hi (d v : Vec) {i : Nat} (h : 8 ≤ i) : getU (upper d v) i = getU v (i - 8) := by
  unfold getU upper
  rw [if_neg (by omega)]

theorem getS_zero (i : Nat) : getS (fun _ => 0) i = 0 := by
  simp [getS, le4, le2, wrap32]

theorem getS_ones (i : Nat) : getS (fun _ => 255) i = -1 := by
  simp [getS, le4, le2, wrap32]

theorem wrap32_cases {n : Int} (h0 : 0 ≤ n) (h1 : n < 4294967296) :
    wrap32 n = n ∨ wrap32 n = n - 4294967296 := by
  unfold wrap32; omega

/-- The bytes of a word are those that were read. -/
theorem byteOf_getS (v : Vec) (j k : Nat) (hk : k < 4) : byteOf (getS v j) k = v (4 * j + k) := by
  apply BitVec.eq_of_toNat_eq
  have h := byteOf_toNat (getS v j) k
  have a0 := byte_lt (v (4 * j))
  have a1 := byte_lt (v (4 * j + 1))
  have a2 := byte_lt (v (4 * j + 2))
  have a3 := byte_lt (v (4 * j + 3))
  have e : getS v j = wrap32 ((v (4 * j)).toNat + 256 * (v (4 * j + 1)).toNat +
      65536 * (v (4 * j + 2)).toNat + 16777216 * (v (4 * j + 3)).toNat : Int) := by
    unfold getS le4 le2
    refine congrArg wrap32 ?_
    push_cast
    rw [show 4 * j + 2 + 1 = 4 * j + 3 from rfl]
    ring
  have hr : k = 0 ∨ k = 1 ∨ k = 2 ∨ k = 3 := by omega
  have hc := wrap32_cases (n := ((v (4 * j)).toNat + 256 * (v (4 * j + 1)).toNat +
      65536 * (v (4 * j + 2)).toNat + 16777216 * (v (4 * j + 3)).toNat : Int)) (by omega) (by omega)
  rw [← e] at hc
  clear e
  generalize getS v j = x at *
  generalize (byteOf x k).toNat = y at *
  rcases hr with rfl | rfl | rfl | rfl
  · simp only [Nat.add_zero] at *
    generalize (v (4 * j)).toNat = b0 at *
    rw [pow_zero, Int.ediv_one] at h
    rcases hc with hc | hc <;> subst hc <;> omega
  all_goals
    generalize (v (4 * j)).toNat = b0 at *
    generalize (v (4 * j + 1)).toNat = b1 at *
    generalize (v (4 * j + 2)).toNat = b2 at *
    generalize (v (4 * j + 3)).toNat = b3 at *
    norm_num at h
    rcases hc with hc | hc <;> subst hc <;> omega

theorem byteOf_getH (v : Vec) (j k : Nat) (hk : k < 2) : byteOf (getH v j) k = v (2 * j + k) := by
  apply BitVec.eq_of_toNat_eq
  have h := byteOf_toNat (getH v j) k
  have a0 := byte_lt (v (2 * j))
  have a1 := byte_lt (v (2 * j + 1))
  have e : getH v j = wrap16 ((v (2 * j)).toNat + 256 * (v (2 * j + 1)).toNat : Int) := by
    unfold getH le2
    congr 1
  have hr : k = 0 ∨ k = 1 := by omega
  unfold wrap16 at e
  generalize getH v j = x at *
  generalize (byteOf x k).toNat = y at *
  rcases hr with rfl | rfl
  · simp only [Nat.add_zero] at *
    rw [pow_zero, Int.ediv_one] at h
    omega
  · norm_num at h
    omega

/-- Halfwords survive a write to another word. -/
theorem getH_insS (f : Nat → Int) (v : Vec) (k i : Nat) (h : i / 2 ≠ k) :
    getH (ofS fun j => if j = k then f j else getS v j) i = getH v i := by
  unfold getH le2 ofS
  rw [show 2 * i / 4 = i / 2 by omega, show (2 * i + 1) / 4 = i / 2 by omega]
  dsimp only
  rw [if_neg h, byteOf_getS _ _ _ (by omega), byteOf_getS _ _ _ (by omega),
    show 4 * (i / 2) + 2 * i % 4 = 2 * i by omega,
    show 4 * (i / 2) + (2 * i + 1) % 4 = 2 * i + 1 by omega]

end Ruy.Neon

import Verif.Neon.RowCall
import Verif.Neon.Copy
import Mathlib.Algebra.BigOperators.Intervals
import Mathlib.Tactic.Linarith
/-
Lemmas for `RowCall.lean`.
-/
namespace Ruy.Neon.RowCall
open Simd (wrap8 wrap16 wrap32)

theorem toInt_range (b : Byte) : -128 ≤ b.toInt ∧ b.toInt ≤ 127 := by
  have h1 := BitVec.toInt_lt (x := b)
  have h2 := BitVec.le_toInt (x := b)
  norm_num at h1 h2
  omega

theorem getB_toInt (v : Vec) (i : Nat) : getB v i = (v i).toInt := by
  unfold getB
  generalize v i = b
  revert b; decide

theorem wrap16_id {x : Int} (h : -32768 ≤ x ∧ x ≤ 32767) : wrap16 x = x := by
  unfold wrap16; omega

theorem wrap16_add (x y : Int) : wrap16 (wrap16 x + wrap16 y) = wrap16 (x + y) := by
  unfold wrap16; omega

theorem wrap32_id {x : Int} (h : -2 ^ 31 ≤ x ∧ x < 2 ^ 31) : wrap32 x = x := by
  unfold wrap32; omega

theorem byteOf_wrap32 (x : Int) {b : Nat} (hb : b < 4) : byteOf (wrap32 x) b = byteOf x b := by
  have := byteOf_getS (ofS fun _ => x) 0 b hb
  rw [getS_ofS] at this
  rw [this]
  show byteOf x ((4 * 0 + b) % 4) = _
  rw [show (4 * 0 + b) % 4 = b by omega]

/-- Reading back a word. -/
theorem getS_of {f : Nat → Byte} {x : Int} (h : ∀ b, b < 4 → f b = byteOf x b) : getS f 0 = wrap32 x := by
  rw [← getS_ofS (fun _ => x) 0]
  unfold getS le4 le2
  rw [h (4 * 0) (by omega), h (4 * 0 + 1) (by omega), h (4 * 0 + 2) (by omega), h (4 * 0 + 2 + 1) (by omega)]
  rfl

theorem ld_of {a : RowCall} {m : Memory} {r : Region} {o n : Nat} (h : o + n ≤ a.size r) :
    a.ld m r o n = .ok (fun b => m r (o + b)) := by
  unfold ld; rw [if_pos h]

theorem st_of {a : RowCall} {m : Memory} {r : Region} {o n : Nat} {v : Vec} (h : o + n ≤ a.size r) :
    a.st m r o n v = .ok (wr m r o n v) := by
  unfold st; rw [if_pos h]

theorem wr_in {m : Memory} {r : Region} {o n b : Nat} {f : Nat → Byte} (h1 : o ≤ b) (h2 : b < o + n) :
    wr m r o n f r b = f (b - o) := by
  unfold wr; rw [if_pos ⟨rfl, h1, h2⟩]

theorem wr_out {m : Memory} {r r' : Region} {o n b : Nat} {f : Nat → Byte} (h : b < o ∨ o + n ≤ b) :
    wr m r o n f r' b = m r' b := by
  unfold wr; rw [if_neg (by omega)]

theorem wrap32_add (x y : Int) : wrap32 (wrap32 x + y) = wrap32 (x + y) := by
  unfold wrap32; omega

/-- Part of a vector of words. -/
theorem getS_shift (f : Nat → Byte) (o i : Nat) : getS (fun b => f (o + b)) i = getS (fun b => f (o + 4 * i + b)) 0 := by
  unfold getS le4 le2
  simp only [Nat.add_assoc, Nat.mul_zero, Nat.zero_add, Nat.add_zero]

/-! ### Vectors -/

theorem vaddw_at (s t : Vec) (h : Nat) {i b : Nat} (hb : b < 4) :
    vaddw s t h (4 * i + b) = byteOf (getS s i + getH t (4 * h + i)) b := by
  unfold vaddw ofS
  rw [show (4 * i + b) / 4 = i by omega, show (4 * i + b) % 4 = b by omega]

theorem sums16_lane (v : Nat → Vec) (i : Nat) : getH (sums16 v) i = ∑ k ∈ Finset.range 16, (v k i).toInt := by
  simp only [sums16, vaddq, vaddl, getH_ofH, getB_toInt, Finset.sum_range_succ, Finset.sum_range_zero]
  have h0 := toInt_range (v 0 i)
  have h1 := toInt_range (v 1 i)
  have h2 := toInt_range (v 2 i)
  have h3 := toInt_range (v 3 i)
  have h4 := toInt_range (v 4 i)
  have h5 := toInt_range (v 5 i)
  have h6 := toInt_range (v 6 i)
  have h7 := toInt_range (v 7 i)
  have h8 := toInt_range (v 8 i)
  have h9 := toInt_range (v 9 i)
  have h10 := toInt_range (v 10 i)
  have h11 := toInt_range (v 11 i)
  have h12 := toInt_range (v 12 i)
  have h13 := toInt_range (v 13 i)
  have h14 := toInt_range (v 14 i)
  have h15 := toInt_range (v 15 i)
  simp only [wrap16_add]
  rw [wrap16_id (by omega)]
  omega

theorem transposed_low (v : Nat → Vec) {i k : Nat} (hi : i < 8) (hk : k < 8) : transposed v i k = v k i := by
  interval_cases i <;> interval_cases k <;> rfl

theorem transposed_high (v : Nat → Vec) {i k : Nat} (hi : i < 8) (hk : k < 8) :
    transposed v (i + 8) k = v (k + 8) i := by
  interval_cases i <;> interval_cases k <;> rfl

theorem combine_transposed (v : Nat → Vec) {i k : Nat} (hi : i < 8) (hk : k < 16) :
    combine (transposed v i) (transposed v (i + 8)) k = v k i := by
  unfold combine
  split
  · exact transposed_low v hi (by assumption)
  · rw [transposed_high v hi (by omega), show k - 8 + 8 = k by omega]

/-- Four vectors stored one after the other. -/
theorem store4 {a : RowCall} {m : Memory} {p : Nat} (f : Nat → Vec) (h : p + 64 ≤ a.size .packed) :
    forUpTo 4 (fun i m => a.st m .packed (p + 16 * i) 16 (f i)) m =
      .ok (wr m .packed p 64 (fun b => f (b / 16) (b % 16))) := by
  obtain ⟨s, e, hs⟩ := forUpTo_total (n := 4) (body := fun i m => a.st m .packed (p + 16 * i) 16 (f i)) (s := m)
    (fun i t => t = wr m .packed p (16 * i) (fun b => f (b / 16) (b % 16))) (by rw [Nat.mul_zero, wr_zero])
    (fun i t hi ht => by
      refine ⟨_, st_of (by omega), ?_⟩
      rw [ht, Nat.mul_succ, ← wr_append]
      refine wr_congr (fun b hb => ?_)
      rw [show (16 * i + b) / 16 = i by omega, show (16 * i + b) % 16 = b by omega])
  rw [e, hs]

end Ruy.Neon.RowCall

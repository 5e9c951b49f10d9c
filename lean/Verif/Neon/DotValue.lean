import Verif.Neon.DotFinal
import Verif.Neon.Value
/-
The values computed by the dot-product kernels, in terms of the specification.
-/
namespace Ruy.Neon.Dot
open Simd (wrap8 wrap16 wrap32)

theorem getB_lhs (j : Job) (r t k : Nat) (hk : k < 4) :
    getB (j.vec .lhs (lhsBlk j (r / 8) + 32 * t + 16 * (r % 8 / 4))) (4 * (r % 8 % 4) + k) = lhsAt j r (4 * t + k) := by
  unfold getB Job.vec lhsAt lhsBlk
  rw [show (4 * t + k) / 4 = t by omega, show (4 * t + k) % 4 = k by omega]
  refine congrArg (fun o => wrap8 (j.m .lhs o).toNat) ?_
  omega

theorem getB_rhs (j : Job) (c t k : Nat) (hk : k < 4) :
    getB (j.vec .rhs (rhsBlk j (c / 8) + 32 * t + 16 * (c % 8 / 4))) (4 * (c % 8 % 4) + k) = rhsAt j c (4 * t + k) := by
  unfold getB Job.vec rhsAt rhsBlk
  rw [show (4 * t + k) / 4 = t by omega, show (4 * t + k) % 4 = k by omega]
  refine congrArg (fun o => wrap8 (j.m .rhs o).toNat) ?_
  omega

theorem sum4 (f : Nat → Int) (n : Nat) : ∑ k ∈ Finset.range (4 * n), f k =
    ∑ t ∈ Finset.range n, ∑ i ∈ Finset.range 4, f (4 * t + i) := by
  induction n with
  | zero => rfl
  | succ n ih =>
    rw [Finset.sum_range_succ, ← ih, Nat.mul_succ]
    simp only [Finset.sum_range_succ, Finset.sum_range_zero]
    simp only [Nat.add_zero]
    ring

theorem blockDot_eq (j : Job) (r c : Nat) :
    blockDot j (lhsBlk j (r / 8)) (rhsBlk j (c / 8)) (r % 8) (c % 8) = dotOf j r c := by
  unfold blockDot total dotOf depth
  rw [sum4]
  refine Finset.sum_congr rfl (fun t _ => ?_)
  unfold grp quad
  simp only [Finset.sum_range_succ, Finset.sum_range_zero]
  have l := fun k hk => getB_lhs j r t k hk
  have r := fun k hk => getB_rhs j c t k hk
  have l0 := l 0 (by omega)
  have r0 := r 0 (by omega)
  rw [Nat.add_zero, Nat.add_zero] at l0 r0
  simp only [l0, r0, l 1 (by omega), l 2 (by omega), l 3 (by omega), r 1 (by omega), r 2 (by omega), r 3 (by omega),
    Nat.add_zero, Int.zero_add]

theorem chan_eq (j : Job) (r c : Nat) : chan j (r / 8) (c / 8) + lane j (r % 8) (c % 8) = chanOf j r c := by
  unfold chan lane chanOf
  cases j.chanCol
  · simp only [Bool.false_eq_true, if_false]; omega
  · simp only [if_true]; omega

theorem lane_lt (j : Job) (r c : Nat) : lane j (r % 8) (c % 8) < 8 := by
  unfold lane; split <;> omega

theorem bias_eq {j : Job} (ha : Args j) (r c : Nat) :
    j.word .bias (biasBase j (r / 8) (c / 8) + lane j (r % 8) (c % 8)) = biasOf j r c := by
  unfold biasBase biasOf
  cases h : j.hasBias
  · simp only [Bool.false_eq_true, if_false, Nat.zero_add]
    exact ha.noBias h _ (lane_lt j r c)
  · simp only [if_true]; rw [chan_eq]

theorem fix_eq {j : Job} (ha : Args j) (r c : Nat) :
    j.word .mulFix (multBase j (r / 8) (c / 8) + lane j (r % 8) (c % 8)) = fixOf j r c := by
  unfold multBase fixOf
  cases h : j.perChannel
  · simp only [Bool.false_eq_true, if_false, Nat.zero_add]
    exact ha.oneFix h _ (lane_lt j r c)
  · simp only [if_true]; rw [chan_eq]

theorem exp_eq {j : Job} (ha : Args j) (r c : Nat) :
    j.word .mulExp (multBase j (r / 8) (c / 8) + lane j (r % 8) (c % 8)) = expOf j r c := by
  unfold multBase expOf
  cases h : j.perChannel
  · simp only [Bool.false_eq_true, if_false, Nat.zero_add]
    exact ha.oneExp h _ (lane_lt j r c)
  · simp only [if_true]; rw [chan_eq]

theorem acc_eq {j : Job} (ha : Args j) (r c : Nat) :
    wrap32 (accInt j (r / 8) (c / 8) (r % 8) (c % 8)) = accOf j (dotOf j r c) r c := by
  unfold accInt acc1 accOf
  rw [blockDot_eq, bias_eq ha, show j.startCol + 8 * (c / 8) + c % 8 = j.startCol + c by omega,
    show j.startRow + 8 * (r / 8) + r % 8 = j.startRow + r by omega]
  refine congrArg wrap32 ?_
  ring

theorem entry_eq {j : Job} (ha : Args j) (r c : Nat) :
    entryAt j r c = outOf j (accOf j (dotOf j r c) r c) r c := by
  unfold entryAt valAt scaledAt conv outOf
  rw [acc_eq ha, fix_eq ha, exp_eq ha]
  cases j.dt <;> rfl

end Ruy.Neon.Dot

import Verif.Neon.Final
/-
The values computed by a kernel, in terms of the specification.
-/
namespace Ruy.Neon
open Simd (wrap8 wrap16 wrap32)

theorem getB_lhs (j : Job) (r t i : Nat) (hi : i < 16) :
    getB (j.vec .lhs (lhsBlk j (r / 4) + 64 * t + 16 * (r % 4))) i = j.lhsAt r (16 * t + i) := by
  unfold getB Job.vec Job.lhsAt lhsBlk
  rw [show (16 * t + i) / 16 = t by omega, show (16 * t + i) % 16 = i by omega]

theorem getB_rhs (j : Job) (c t i : Nat) (hi : i < 16) :
    getB (j.vec .rhs (rhsBlk j (c / 4) + 64 * t + 16 * (c % 4))) i = j.rhsAt c (16 * t + i) := by
  unfold getB Job.vec Job.rhsAt rhsBlk
  rw [show (16 * t + i) / 16 = t by omega, show (16 * t + i) % 16 = i by omega]

theorem blockDot_eq (j : Job) (r c : Nat) :
    blockDot j (lhsBlk j (r / 4)) (rhsBlk j (c / 4)) (r % 4) (c % 4) (j.depthSteps + 1) = dot16Of j r c := by
  unfold blockDot dot16Of
  refine Finset.sum_congr rfl (fun t _ => Finset.sum_congr rfl (fun i hi => ?_))
  rw [Finset.mem_range] at hi
  unfold pair
  rw [getB_lhs _ _ _ _ (by omega), getB_lhs _ _ _ _ (by omega), getB_rhs _ _ _ _ (by omega),
    getB_rhs _ _ _ _ (by omega), Nat.add_assoc (16 * t) 8 i]

theorem mul8 {a b : Int} (ha : -128 ≤ a ∧ a ≤ 127) (hb : -128 ≤ b ∧ b ≤ 127) :
    -16256 ≤ a * b ∧ a * b ≤ 16384 ∧ (¬(a = -128 ∧ b = -128) → a * b ≤ 16256) := by
  refine ⟨by nlinarith, by nlinarith, fun h => ?_⟩
  by_cases h1 : a = -128
  · have : -127 ≤ b := by omega
    subst h1; omega
  · have : -127 ≤ a := by omega
    nlinarith

theorem wrap16_pair {a b c d : Int} (ha : -128 ≤ a ∧ a ≤ 127) (hb : -128 ≤ b ∧ b ≤ 127) (hc : -128 ≤ c ∧ c ≤ 127)
    (hd : -128 ≤ d ∧ d ≤ 127) (h : ¬(a = -128 ∧ b = -128 ∧ c = -128 ∧ d = -128)) :
    wrap16 (a * b + c * d) = a * b + c * d := by
  obtain ⟨x1, x2, x3⟩ := mul8 ha hb
  obtain ⟨y1, y2, y3⟩ := mul8 hc hd
  have : a * b + c * d < 32768 := by
    by_cases h1 : a = -128 ∧ b = -128
    · have := y3 (fun hh => h ⟨h1.1, h1.2, hh⟩); omega
    · have := x3 h1; omega
  unfold wrap16; omega

theorem sum16 (f : Nat → Int) (n : Nat) : ∑ k ∈ Finset.range (16 * n), f k =
    ∑ t ∈ Finset.range n, ∑ i ∈ Finset.range 8, (f (16 * t + i) + f (16 * t + 8 + i)) := by
  induction n with
  | zero => rfl
  | succ n ih =>
    rw [Finset.sum_range_succ, ← ih, Nat.mul_succ]
    simp only [Finset.sum_range_succ, Finset.sum_range_zero]
    simp only [Nat.add_assoc, Nat.reduceAdd, add_zero]
    ring

theorem lhsAt_range (j : Job) (r k : Nat) : -128 ≤ j.lhsAt r k ∧ j.lhsAt r k ≤ 127 := by
  unfold Job.lhsAt wrap8; omega
theorem rhsAt_range (j : Job) (r k : Nat) : -128 ≤ j.rhsAt r k ∧ j.rhsAt r k ≤ 127 := by
  unfold Job.rhsAt wrap8; omega

theorem dot16_exact {j : Job} {r c : Nat} (h : NoPair j r c) : dot16Of j r c = dotOf j r c := by
  unfold dotOf Job.depth
  rw [sum16]
  refine Finset.sum_congr rfl (fun t ht => Finset.sum_congr rfl (fun i hi => ?_))
  rw [Finset.mem_range] at ht hi
  exact wrap16_pair (lhsAt_range _ _ _) (rhsAt_range _ _ _) (lhsAt_range _ _ _) (rhsAt_range _ _ _)
    (h t (by omega) i hi)

theorem chan_eq (j : Job) (r c : Nat) : chan j (r / 4) (c / 4) + lane j (r % 4) (c % 4) = chanOf j r c := by
  unfold chan lane chanOf
  cases j.chanCol
  · simp only [Bool.false_eq_true, if_false]; omega
  · simp only [if_true]; omega

theorem lane_lt (j : Job) (r c : Nat) : lane j (r % 4) (c % 4) < 4 := by
  unfold lane; split <;> omega

theorem bias_eq {j : Job} (ha : Args j) (r c : Nat) :
    j.word .bias (biasBase j (r / 4) (c / 4) + lane j (r % 4) (c % 4)) = biasOf j r c := by
  unfold biasBase biasOf
  cases h : j.hasBias
  · simp only [Bool.false_eq_true, if_false, Nat.zero_add]
    exact ha.noBias h _ (lane_lt j r c)
  · simp only [if_true]; rw [chan_eq]

theorem fix_eq {j : Job} (ha : Args j) (r c : Nat) :
    j.word .mulFix (multBase j (r / 4) (c / 4) + lane j (r % 4) (c % 4)) = fixOf j r c := by
  unfold multBase fixOf
  cases h : j.perChannel
  · simp only [Bool.false_eq_true, if_false, Nat.zero_add]
    exact ha.oneFix h _ (lane_lt j r c)
  · simp only [if_true]; rw [chan_eq]

theorem exp_eq {j : Job} (ha : Args j) (r c : Nat) :
    j.word .mulExp (multBase j (r / 4) (c / 4) + lane j (r % 4) (c % 4)) = expOf j r c := by
  unfold multBase expOf
  cases h : j.perChannel
  · simp only [Bool.false_eq_true, if_false, Nat.zero_add]
    exact ha.oneExp h _ (lane_lt j r c)
  · simp only [if_true]; rw [chan_eq]

theorem acc_eq {j : Job} (ha : Args j) (r c : Nat) :
    wrap32 (accInt j (r / 4) (c / 4) (r % 4) (c % 4)) = accOf j (dot16Of j r c) r c := by
  unfold accInt acc1 accOf
  rw [blockDot_eq, bias_eq ha, show j.startCol + 4 * (c / 4) + c % 4 = j.startCol + c by omega,
    show j.startRow + 4 * (r / 4) + r % 4 = j.startRow + r by omega]
  refine congrArg wrap32 ?_
  ring

theorem entry_eq {j : Job} (ha : Args j) (r c : Nat) :
    entryAt j r c = outOf j (accOf j (dot16Of j r c) r c) r c := by
  unfold entryAt valAt scaledAt conv outOf
  rw [acc_eq ha, fix_eq ha, exp_eq ha]
  cases j.dt <;> rfl

theorem stops_of {e : Env} {P : List Block} {s s' : St} (h : Reach e P (0, s) (P.length, s')) : Stops e P s s' := by
  obtain ⟨N, hN⟩ := h
  refine ⟨N, fun n hn => ?_⟩
  obtain ⟨k, rfl⟩ := Nat.exists_eq_add_of_le hn
  rw [run_add, hN]
  induction k with
  | zero => rfl
  | succ k ih =>
    show run e P k (bstep e P (P.length, s')) = _
    have : bstep e P (P.length, s') = (P.length, s') := by
      unfold bstep
      simp
    rw [this]
    exact ih (by omega)

theorem stops_unique {e : Env} {P : List Block} {s a b : St} (ha : Stops e P s a) (hb : Stops e P s b) : a = b := by
  obtain ⟨n, hn⟩ := ha
  obtain ⟨k, hk⟩ := hb
  have h1 := hn (n + k) (by omega)
  rw [hk (n + k) (by omega)] at h1
  exact (Prod.mk.inj h1).2.symm

/-! ### Sums and zero points -/

/-- Sum of the products of the offset entries. -/
theorem offsets (n : Nat) (f g : Nat → Int) (a b : Int) :
    ∑ k ∈ Finset.range n, (f k - a) * (g k - b) =
      (∑ k ∈ Finset.range n, f k * g k) + a * b * n - a * (∑ k ∈ Finset.range n, g k) -
        b * (∑ k ∈ Finset.range n, f k) := by
  induction n with
  | zero => simp
  | succ n ih =>
    simp only [Finset.sum_range_succ, ih]
    push_cast
    ring

end Ruy.Neon

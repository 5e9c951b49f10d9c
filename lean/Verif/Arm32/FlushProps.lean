import Verif.Arm32.Flush
/-
Property C89 with the arithmetic of 32-bit Advanced SIMD (`neonOps`): denormal operands and results are flushed to zero, and
NaNs are the default NaN.

  c89_flush            the result is that of the sources, bias and bounds with their denormals replaced by zeros
  c89_neon             its distance to the exact result of the flushed operands
  c89_neon_normal      without denormal operands: to the exact result
  c89_neon_integers    small integers: exact
  c89_neon_nan         a NaN in the operands, the bias or a bound is stored as the default NaN
  c89_denormal         with a denormal operand the bound can be missed: 0 in place of 1
  c89_neon_differ      AArch64 (C73) can leave another result also if there are no denormals
-/
namespace Ruy.Arm32.Flow
open Ruy.Mat Ruy.Mul
open Ruy.Float Ruy.FloatErr
open Ruy.XFloat (isum)
open Ruy.NeonF (armOps armMax armMin Near IsNan)
open Ruy.NeonF.Flow (Mach elem depth biasAt place Values exact)
open Ruy.Tune (Tuning)

section
variable {t : Task Fl} {m m' : Mach Fl} {i j : Nat} (hi : i < t.dst.layout.rows) (hj : j < t.dst.layout.cols)
  (ho : t.ops = neonOps) (hm : Multiplied t m m')
include hi hj ho hm

/-- C89: an entry is the sum of products, plus bias, clamped, of operands whose denormals have been replaced by zeros. -/
theorem c89_flush : m'.dst (place t i j) = stored (flushTask t) (flushMach m) i j := by
  rw [hm.entry i j hi hj, stored_flush ho]

/-- C89: the distance to the exact result of the flushed operands. -/
theorem c89_neon {a b : Nat → ℚ} {bias : ℚ} (hv : Values t m i j a b bias)
    (hd : depth t + 2 < 2 ^ 23) (hM : mag bias a b (depth t) ≤ 2 ^ (126 : ℤ)) :
    Near (m'.dst (place t i j)) (exact (flushTask t) (fun k => flushed (a k)) (fun k => flushed (b k)) (flushed bias))
      ((depth t + 2) * 2 ^ (-23 : ℤ) * mag bias a b (depth t) + 2 * (2 * depth t + 1) * 2 ^ (-126 : ℤ)) := by
  rw [c89_flush hi hj ho hm]
  have hf := flushed_mag bias a b (depth t)
  refine (stored_single neon32_rounding rfl (values_flush ho hv) (n := depth t) rfl hd (hf.trans hM)).mono ?_
  have h1 : (0 : ℚ) ≤ (depth t + 2) * 2 ^ (-23 : ℤ) := by positivity
  have h2 := mul_le_mul_of_nonneg_left hf h1
  have h3 : tiny true = 2 ^ (-126 : ℤ) := rfl
  rw [h3]
  linarith

/-- C89: without denormals among the operands, the distance to the exact result. -/
theorem c89_neon_normal {a b : Nat → ℚ} {bias : ℚ} (hv : Values t m i j a b bias)
    (hn : ∀ k, k < depth t → Normal (elem t m .lhs k i) ∧ Normal (elem t m .rhs k j))
    (hb : Normal (biasAt t m (channelOf t.mp.chan i j))) (hlo : Normal t.mp.clampMin) (hhi : Normal t.mp.clampMax)
    (hd : depth t + 2 < 2 ^ 23) (hM : mag bias a b (depth t) ≤ 2 ^ (126 : ℤ)) :
    Near (m'.dst (place t i j)) (exact t a b bias)
      ((depth t + 2) * 2 ^ (-23 : ℤ) * mag bias a b (depth t) + 2 * (2 * depth t + 1) * 2 ^ (-126 : ℤ)) := by
  have e : exact (flushTask t) (fun k => flushed (a k)) (fun k => flushed (b k)) (flushed bias) = exact t a b bias := by
    have es : ∀ n, n ≤ depth t → FloatErr.sum (flushed bias) (fun k => flushed (a k)) (fun k => flushed (b k)) n =
        FloatErr.sum bias a b n := fun n => by
      induction n with
      | zero => exact fun _ => flushed_normal hv.bias hb
      | succ n ih =>
        intro hn'
        show flushed (a n) * flushed (b n) + _ = a n * b n + _
        rw [flushed_normal (hv.lhs n (by omega)) (hn n (by omega)).1, flushed_normal (hv.rhs n (by omega)) (hn n (by omega)).2,
          ih (by omega)]
    show upper (flush t.mp.clampMax) (FloatErr.lower (flush t.mp.clampMin) (FloatErr.sum _ _ _ (depth t))) = _
    rw [es _ (Nat.le_refl _), flush_normal hlo, flush_normal hhi]
    rfl
  rw [← e]
  exact c89_neon hi hj ho hm hv hd hM

/-- C89: integer operands whose products have magnitudes that add up, with the bias, to at most 2^24, are multiplied
exactly. -/
theorem c89_neon_integers {a b : Nat → ℤ} {bias lo hi' : ℤ}
    (hv : ∀ k, k < depth t → elem t m .lhs k i = ofInt (a k) ∧ elem t m .rhs k j = ofInt (b k))
    (hb : biasAt t m (channelOf t.mp.chan i j) = ofInt bias) (hlo : t.mp.clampMin = ofInt lo) (hhi : t.mp.clampMax = ofInt hi')
    (hs : |bias| + ∑ k ∈ Finset.range (depth t), |a k * b k| ≤ 2 ^ 24) :
    m'.dst (place t i j) = ofInt (min (max (isum bias a b (depth t)) lo) hi') := by
  rw [c89_flush hi hj ho hm]
  have e1 : ∀ n : ℤ, flush (ofInt n) = ofInt n := fun n => flush_normal (ofInt_normal n)
  rw [← NeonF.sum_range] at hs
  have hB := abs_nonneg bias
  obtain ⟨h1, h2⟩ := dot_int true a b (depth t) (by omega)
  have hd := dot_ints a b (depth t) (by omega)
  have h4 := abs_nonneg ((List.range (depth t)).map fun k => a k * b k).sum
  have h3 := abs_add_le ((List.range (depth t)).map fun k => a k * b k).sum bias
  have ed : depth (flushTask t) = depth t := rfl
  have ec : (flushTask t).mp.chan = t.mp.chan := rfl
  have el : (flushTask t).mp.clampMin = ofInt lo := by
    show flush _ = _
    rw [hlo, e1]
  have eh : (flushTask t).mp.clampMax = ofInt hi' := by
    show flush _ = _
    rw [hhi, e1]
  rw [stored_eq (e := neon32) rfl, ed, ec, el, eh, bias_flush ho, hb, e1,
    NeonF.dot_congr (f' := fun k => ofInt (a k)) (g' := fun k => ofInt (b k))
      (fun k hk => by rw [elem_flush, (hv k hk).1, e1]) (fun k hk => by rw [elem_flush, (hv k hk).2, e1]),
    show (Fl.zero false) = ofInt 0 from rfl, hd, h1, add_ints (ofInt_val _) (ofInt_val _),
    add_int true (s := false) (by omega) (by omega) (by omega) (.inl rfl), NeonF.armMax_int, NeonF.armMin_int, ← NeonF.isum_range]

/-- C89: a NaN in the column of the LHS, the column of the RHS, the bias or a bound is stored as the default NaN. -/
theorem c89_neon_nan (hn : (∃ k, k < depth t ∧ (IsNan (elem t m .lhs k i) ∨ IsNan (elem t m .rhs k j))) ∨
      IsNan (biasAt t m (channelOf t.mp.chan i j)) ∨ IsNan t.mp.clampMin ∨ IsNan t.mp.clampMax) :
    m'.dst (place t i j) = .nan 0 := by
  have hf : ∀ {x : Fl}, IsNan x → IsNan (flush x) := fun {x} h => by cases x <;> first | exact h.elim | exact h
  rw [c89_flush hi hj ho hm, stored_eq (e := neon32) rfl]
  rcases hn with ⟨k, hk, hn⟩ | hn | hn | hn
  · refine (default_nan (NeonF.armMax_nan (.inl (NeonF.add_nan (.inl (dot_nan (k := k) ?_ _ hk))))) _).1
    rcases hn with hn | hn
    · exact .inl (by rw [elem_flush]; exact hf hn)
    · exact .inr (by rw [elem_flush]; exact hf hn)
  · exact (default_nan (NeonF.armMax_nan (.inl (NeonF.add_nan (.inr (by
      rw [bias_flush ho]
      exact hf hn))))) _).1
  · exact (default_nan (NeonF.armMax_nan (.inr (hf hn))) _).1
  · exact (default_nan (hf hn) _).2

end

/-- The sources of `fineTask` replaced: the LHS is 2^-127 and 0, the RHS 2^127 and 0. -/
def tinyMach : Mach Fl where
  src := ⟨fun k => if k = 0 then .fin (1 / 2 ^ 127) else .zero false, fun k => if k = 0 then .fin (2 ^ 127) else .zero false⟩
  packed := ⟨fun _ => .nan 1, fun _ => .nan 1⟩
  bias := fun _ => .nan 1
  dst := fun _ => .nan 1

/-- C89: with a denormal operand the bound can be missed.  The exact result is 1, the sum of the magnitudes too, and 0 is
stored. -/
theorem c89_denormal : ∃ m' a b, Runs (fineTask 8 4 neonOps) (simpleOps (fineTask 8 4 neonOps)) tinyMach (.ok m') ∧
    Values (fineTask 8 4 neonOps) tinyMach 0 0 a b 0 ∧ mag 0 a b 2 = 1 ∧ exact (fineTask 8 4 neonOps) a b 0 = 1 ∧
    m'.dst 0 = .zero false := by
  obtain ⟨⟨r, hr⟩, hv⟩ := c89_simple_loop (m := tinyMach) (fine_ok neonOps) (by show 0 < 1; decide) (by show 0 < 1; decide)
  obtain ⟨m', rfl, hM⟩ := hv r hr
  refine ⟨m', fun k => if k = 0 then 1 / 2 ^ 127 else 0, fun k => if k = 0 then 2 ^ 127 else 0, hr,
    ⟨fun k _ => ?_, fun k _ => ?_, rfl, rfl, rfl⟩, by decide +kernel, by decide +kernel,
    (hM.entry 0 0 (by show 0 < 1; decide) (by show 0 < 1; decide)).trans (by decide +kernel)⟩
  · show IsVal (if 2 * 0 + k = 0 then _ else _) _
    rw [show 2 * 0 + k = k by omega]
    by_cases hk : k = 0
    · rw [if_pos hk]; exact if_pos hk
    · rw [if_neg hk]; exact if_neg hk
  · show IsVal (if 2 * 0 + k = 0 then _ else _) _
    rw [show 2 * 0 + k = k by omega]
    by_cases hk : k = 0
    · rw [if_pos hk]; exact if_pos hk
    · rw [if_neg hk]; exact if_neg hk

/-- C89: with the sources of `c89_differ`, 32-bit ARM stores 0 and AArch64 2^-46 with any tuning. -/
theorem c89_neon_differ (ftz : Bool) (u : Tuning) :
    (∃ m', Runs (fineTask 8 4 neonOps) (simpleOps (fineTask 8 4 neonOps)) fineMach (.ok m') ∧ m'.dst 0 = .zero false) ∧
    ∃ m', NeonF.Flow.Runs (fineTask 8 8 (armOps (binary32 ftz))) (NeonF.Flow.simpleOps (fineTask 8 8 (armOps (binary32 ftz))) u)
      fineMach (.ok m') ∧ m'.dst 0 = .fin (1 / 2 ^ 46) := by
  refine ⟨?_, (c89_differ ftz u).2⟩
  obtain ⟨⟨r, hr⟩, hv⟩ := c89_simple_loop (m := fineMach) (fine_ok neonOps) (by show 0 < 1; decide) (by show 0 < 1; decide)
  obtain ⟨m', rfl, hM⟩ := hv r hr
  exact ⟨m', hr, (hM.entry 0 0 (by show 0 < 1; decide) (by show 0 < 1; decide)).trans (by decide +kernel)⟩

/-! ### Examples -/

/-- The hypotheses of `c89_flush`: the sources of `c89_denormal`. -/
example {m' : Mach Fl} (hM : Multiplied (fineTask 8 4 neonOps) tinyMach m') :
    m'.dst 0 = stored (flushTask (fineTask 8 4 neonOps)) (flushMach tinyMach) 0 0 ∧ flush (tinyMach.src.lhs 0) = .zero false :=
  ⟨c89_flush (t := fineTask 8 4 neonOps) (i := 0) (j := 0) (by show 0 < 1; decide) (by show 0 < 1; decide) rfl hM, by decide +kernel⟩

/-- The hypotheses of `c89_neon` and `c89_neon_normal`: the sources of `c89_differ`. -/
example {m' : Mach Fl} (hM : Multiplied (fineTask 8 4 neonOps) fineMach m') :
    ∃ bound, Near (m'.dst 0) (1 / 2 ^ 46) bound ∧ bound ≤ 1 / 2 ^ 19 := by
  obtain ⟨a, b, hV, hm, hx⟩ := fine_values
  have hV' : Values (fineTask 8 4 neonOps) fineMach 0 0 a b 0 := ⟨hV.lhs, hV.rhs, hV.bias, hV.lo, hV.hi⟩
  have key := c89_neon_normal (t := fineTask 8 4 neonOps) (i := 0) (j := 0) (by show 0 < 1; decide) (by show 0 < 1; decide)
    rfl hM hV' (fun k hk => by
      have hk : k < 2 := hk
      refine ⟨fun q h => ?_, fun q h => ?_⟩
      · have h : Fl.fin (if 2 * 0 + k = 0 then -(1 + 1 / 2 ^ 22) else 1 + 1 / 2 ^ 23) = .fin q := h
        cases h
        split <;> decide +kernel
      · have h : Fl.fin (if 2 * 0 + k = 0 then 1 else 1 + 1 / 2 ^ 23) = .fin q := h
        cases h
        split <;> decide +kernel) (normal_zero _) (normal_inf _) (normal_inf _)
    (by show 2 + 2 < _; decide) (hm.trans (by norm_num))
  rw [show exact (fineTask 8 4 neonOps) a b 0 = 1 / 2 ^ 46 from hx] at key
  refine ⟨_, key, ?_⟩
  have e : (depth (fineTask 8 4 neonOps) : ℚ) = 2 := rfl
  have hm' : mag 0 a b (depth (fineTask 8 4 neonOps)) ≤ 3 := hm
  rw [e]
  norm_num
  linarith

/-- The hypotheses of `c89_neon_integers`. -/
example : ∃ m', Runs (exTask neonOps (ofInt (-1000)) (ofInt 1000)) (simpleOps (exTask neonOps (ofInt (-1000)) (ofInt 1000)))
      NeonF.Flow.intMach (.ok m') ∧ m'.dst (14 * 14 + 12) = .fin (-121) := by
  obtain ⟨⟨r, hr⟩, hv⟩ := c89_simple_loop (m := NeonF.Flow.intMach) (exTask_ok neonOps (ofInt (-1000)) (ofInt 1000))
    (by show 0 < 13; decide) (by show 0 < 15; decide)
  obtain ⟨m', rfl, hM⟩ := hv r hr
  exact ⟨m', hr, (c89_neon_integers (i := 12) (j := 14) (by show 12 < 13; decide) (by show 14 < 15; decide) rfl hM
    (a := fun _ => 3) (b := fun _ => -2) (bias := 5) (lo := -1000) (hi' := 1000) (fun _ _ => ⟨rfl, rfl⟩) rfl rfl rfl
    (by show |5| + ∑ k ∈ Finset.range 21, |(3 : ℤ) * -2| ≤ _; decide +kernel)).trans
    (by show ofInt (min (max (isum 5 (fun _ => 3) (fun _ => -2) 21) _) _) = _; decide +kernel)⟩

/-- The hypotheses of `c89_neon_nan`. -/
example {m : Mach Fl} (hn : m.src.rhs 7 = .nan 9) {m' : Mach Fl} (hM : Multiplied (exTask neonOps (.fin (-1)) (.fin 1)) m m') :
    m'.dst (7 * 14 + 3) = .nan 0 :=
  c89_neon_nan (t := exTask neonOps (.fin (-1)) (.fin 1)) (i := 3) (j := 7) (by show 3 < 13; decide) (by show 7 < 15; decide) rfl hM
    (.inl ⟨0, by show 0 < 21; decide, .inr (by
      show IsNan (m.src.rhs (17 * 0 + 7))
      rw [show 17 * 0 + 7 = 7 from rfl, hn]
      trivial)⟩)

end Ruy.Arm32.Flow

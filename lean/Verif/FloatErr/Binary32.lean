import Verif.FloatErr.Lemmas
import Verif.XFloat.Props
import Mathlib.Data.Int.Log
import Mathlib.Algebra.Order.Floor.Ring
import Mathlib.Algebra.Order.Field.Power
import Mathlib.Data.Rat.Floor
import Mathlib.Tactic.FieldSimp
import Mathlib.Tactic.NormNum
/-
IEEE-754 binary32 with rounding to nearest, ties to even; with and without results flushed to zero (MXCSR.FTZ), which is
detected after rounding as on x86.  Denormal operands read as zero (MXCSR.DAZ) are not modelled: with flushing the operands
are taken to be normal or zero.

ruy itself has no such function: this is the arithmetic of the processor, written down to show that the assumptions of the
error bounds of C62 hold for it.
-/
namespace Ruy.FloatErr
open Ruy.Float Ruy.XFloat

/-- Nearest integer, ties to even. -/
def rne (x : ℚ) : ℤ :=
  if x - ⌊x⌋ < 1 / 2 then ⌊x⌋
  else if 1 / 2 < x - ⌊x⌋ then ⌊x⌋ + 1
  else if ⌊x⌋ % 2 = 0 then ⌊x⌋ else ⌊x⌋ + 1

/-- Exponent of the last place of the result. -/
def place (ftz : Bool) (q : ℚ) : ℤ := (if ftz then Int.log 2 |q| else max (Int.log 2 |q|) (-126)) - 23

/-- `q` rounded to 24 significant bits (fewer below 2^-126 without flushing). -/
def nearest (ftz : Bool) (q : ℚ) : ℚ := rne (q / 2 ^ place ftz q) * 2 ^ place ftz q

/-- Rounding to binary32. -/
def rnd32 (ftz : Bool) (q : ℚ) : Fl :=
  if nearest ftz q = 0 then .zero (decide (q < 0))
  else if ftz ∧ |nearest ftz q| < 2 ^ (-126 : ℤ) then .zero (decide (q < 0))
  else if (2 : ℚ) ^ (128 : ℤ) ≤ |nearest ftz q| then .inf (decide (q < 0))
  else .fin (nearest ftz q)

/-- The largest finite binary32 number. -/
def maxFloat : ℚ := (2 ^ 24 - 1) * 2 ^ (104 : ℤ)

/-- Arithmetic on binary32; NaN payloads as on x86. -/
def binary32 (ftz : Bool) : Env where
  rnd := rnd32 ftz
  zsum := false
  nan1 p := p
  nan2 p _ := p
  dnan := 0

/-- A number that binary32 represents (as a normal number, if results are flushed to zero). -/
def Representable (ftz : Bool) (q : ℚ) : Prop :=
  |q| ≤ maxFloat ∧ ∃ k E : ℤ, q = k * 2 ^ E ∧ |k| ≤ 2 ^ 24 ∧ (if ftz then (2 : ℚ) ^ (-126 : ℤ) ≤ |q| else -149 ≤ E)

/-! ### Rounding to an integer -/

theorem rne_near (x : ℚ) : |(rne x : ℚ) - x| ≤ 1 / 2 := by
  have h0 := Int.floor_le x
  have h1 := Int.lt_floor_add_one x
  unfold rne
  rw [abs_le]
  split
  · constructor <;> linarith
  · split
    · push_cast; constructor <;> linarith
    · split
      · constructor <;> linarith
      · push_cast; constructor <;> linarith

theorem rne_int (n : ℤ) : rne (n : ℚ) = n := by
  unfold rne
  rw [Int.floor_intCast, if_pos (by norm_num)]

/-- Rounding does not cross an integer. -/
theorem rne_le {x : ℚ} {n : ℤ} (h : x ≤ n) : rne x ≤ n := by
  by_contra hc
  have hc : (n : ℚ) + 1 ≤ rne x := by exact_mod_cast Int.lt_of_not_ge hc
  have h1 := rne_near x
  rw [abs_le] at h1
  linarith
theorem le_rne {x : ℚ} {n : ℤ} (h : (n : ℚ) ≤ x) : n ≤ rne x := by
  by_contra hc
  have hc : (rne x : ℚ) + 1 ≤ n := by exact_mod_cast Int.lt_of_not_ge hc
  have h1 := rne_near x
  rw [abs_le] at h1
  linarith

/-! ### Rounding to 24 bits -/

theorem two_pow_pos (e : ℤ) : (0 : ℚ) < 2 ^ e := zpow_pos (by norm_num) e

theorem log_le {q : ℚ} (hq : q ≠ 0) : (2 : ℚ) ^ Int.log 2 |q| ≤ |q| := by
  have := Int.zpow_log_le_self (b := 2) (r := |q|) (by norm_num) (abs_pos.2 hq)
  exact_mod_cast this
theorem lt_log (q : ℚ) : |q| < (2 : ℚ) ^ (Int.log 2 |q| + 1) := by
  have := Int.lt_zpow_succ_log_self (b := 2) (by norm_num) |q|
  exact_mod_cast this

theorem zpow_mono {a b : ℤ} (h : a ≤ b) : (2 : ℚ) ^ a ≤ 2 ^ b := zpow_le_zpow_right₀ (by norm_num) h
theorem zpow_lt {a b : ℤ} (h : (2 : ℚ) ^ a < 2 ^ b) : a < b := (zpow_lt_zpow_iff_right₀ (by norm_num)).1 h
theorem zpow_le {a b : ℤ} (h : (2 : ℚ) ^ a ≤ 2 ^ b) : a ≤ b := (zpow_le_zpow_iff_right₀ (by norm_num)).1 h

theorem nearest_near (ftz : Bool) (q : ℚ) : |nearest ftz q - q| ≤ 2 ^ place ftz q / 2 := by
  unfold nearest
  have hp := two_pow_pos (place ftz q)
  generalize (2 : ℚ) ^ place ftz q = s at *
  have e : (rne (q / s) : ℚ) * s - q = (rne (q / s) - q / s) * s := by field_simp
  rw [e, abs_mul, abs_of_pos hp]
  have := rne_near (q / s)
  nlinarith

/-- The integer significand. -/
theorem sig_le (ftz : Bool) (q : ℚ) : |rne (q / 2 ^ place ftz q)| ≤ 2 ^ 24 := by
  have hp := two_pow_pos (place ftz q)
  have h1 : |q| ≤ 2 ^ (24 : ℤ) * 2 ^ place ftz q := by
    rw [← zpow_add₀ (by norm_num)]
    refine (lt_log q).le.trans (zpow_mono ?_)
    unfold place
    split <;> omega
  rw [abs_le] at h1 ⊢
  constructor
  · refine le_rne ?_
    rw [le_div_iff₀ hp]
    push_cast
    rw [zpow_ofNat] at h1
    linarith [h1.1]
  · refine rne_le ?_
    rw [div_le_iff₀ hp]
    push_cast
    rw [zpow_ofNat] at h1
    linarith [h1.2]

/-- Multiples of the last place are not changed. -/
theorem nearest_fixed {ftz : Bool} {q : ℚ} {n : ℤ} (h : q = n * 2 ^ place ftz q) : nearest ftz q = q := by
  unfold nearest
  have hp := two_pow_pos (place ftz q)
  have e : q / 2 ^ place ftz q = n := by
    rw [div_eq_iff hp.ne']
    exact h
  rw [e, rne_int]
  exact h.symm

theorem nearest_representable {ftz : Bool} {q : ℚ} (h : Representable ftz q) (hq : q ≠ 0) : nearest ftz q = q := by
  obtain ⟨_, k, E, e, hk, hE⟩ := h
  by_cases hc : place ftz q ≤ E
  · refine nearest_fixed (n := k * 2 ^ (E - place ftz q).toNat) ?_
    rw [e]
    rw [e] at hc
    generalize place ftz (k * 2 ^ E) = p at *
    push_cast
    have : (2 : ℚ) ^ E = 2 ^ (E - p).toNat * 2 ^ p := by
      rw [← zpow_natCast, ← zpow_add₀ (by norm_num)]
      congr 1
      omega
    rw [this]
    ring
  · -- too few places: only possible for a power of two
    have hlog := log_le hq
    have hle : |q| ≤ 2 ^ (24 + E) := by
      rw [e, abs_mul, abs_of_pos (two_pow_pos E), zpow_add₀ (by norm_num)]
      refine mul_le_mul_of_nonneg_right ?_ (two_pow_pos E).le
      exact_mod_cast hk
    have hpl : Int.log 2 |q| ≤ 24 + E := zpow_le (hlog.trans hle)
    have hp : place ftz q = Int.log 2 |q| - 23 := by
      unfold place at hc ⊢
      cases ftz
      · simp only [Bool.false_eq_true, if_false] at hc hE ⊢
        omega
      · rfl
    have hl : Int.log 2 |q| = 24 + E := by omega
    rw [← hl] at hle
    have habs : |q| = 2 ^ Int.log 2 |q| := le_antisymm hle hlog
    have h24 : (2 : ℚ) ^ Int.log 2 |q| = (2 ^ 23 : ℤ) * 2 ^ place ftz q := by
      have e23 : ((2 ^ 23 : ℤ) : ℚ) = 2 ^ (23 : ℤ) := by norm_num
      rw [hp, e23, ← zpow_add₀ (by norm_num)]
      congr 1
      omega
    rcases abs_choice q with hs | hs
    · exact nearest_fixed (n := 2 ^ 23) (by rw [← h24, ← habs, hs])
    · refine nearest_fixed (n := -2 ^ 23) ?_
      rw [Int.cast_neg, neg_mul, ← h24, ← habs, hs, neg_neg]

/-- What is at most the largest finite number is rounded to at most that. -/
theorem nearest_max {ftz : Bool} {q : ℚ} (h : |nearest ftz q| < 2 ^ (128 : ℤ)) : |nearest ftz q| ≤ maxFloat := by
  have hs := sig_le ftz q
  unfold nearest at h ⊢
  have hp := two_pow_pos (place ftz q)
  rw [abs_mul, abs_of_pos hp] at h ⊢
  rw [← Int.cast_abs] at h ⊢
  generalize |rne (q / 2 ^ place ftz q)| = k at *
  generalize place ftz q = p at *
  unfold maxFloat
  by_cases hc : p ≤ 103
  · have h1 : (2 : ℚ) ^ p ≤ 2 ^ (103 : ℤ) := zpow_mono hc
    have hk : (k : ℚ) ≤ 2 ^ 24 := by exact_mod_cast hs
    have h2 : (k : ℚ) * 2 ^ p ≤ 2 ^ 24 * 2 ^ (103 : ℤ) := mul_le_mul hk h1 hp.le (by norm_num)
    refine h2.trans ?_
    norm_num
  · have e : (2 : ℚ) ^ p = 2 ^ (p - 104).toNat * 2 ^ (104 : ℤ) := by
      rw [← zpow_natCast, ← zpow_add₀ (by norm_num)]
      congr 1
      omega
    rw [e, ← mul_assoc] at h ⊢
    refine mul_le_mul_of_nonneg_right ?_ (two_pow_pos _).le
    have e2 : (2 : ℚ) ^ (128 : ℤ) = 2 ^ 24 * 2 ^ (104 : ℤ) := by norm_num
    rw [e2] at h
    have h3 := lt_of_mul_lt_mul_right h (two_pow_pos _).le
    have h4 : k * 2 ^ (p - 104).toNat < 2 ^ 24 := by exact_mod_cast h3
    have h5 : k * 2 ^ (p - 104).toNat ≤ 2 ^ 24 - 1 := by omega
    exact_mod_cast h5

theorem nearest_rep {ftz : Bool} {q : ℚ} (h : |nearest ftz q| < 2 ^ (128 : ℤ))
    (hf : ftz = true → 2 ^ (-126 : ℤ) ≤ |nearest ftz q|) : Representable ftz (nearest ftz q) := by
  refine ⟨nearest_max h, rne (q / 2 ^ place ftz q), place ftz q, rfl, sig_le ftz q, ?_⟩
  cases ftz
  · simp only [Bool.false_eq_true, if_false]
    unfold place
    simp only [Bool.false_eq_true, if_false]
    omega
  · exact hf rfl

theorem rnd32_representable {ftz : Bool} {q : ℚ} (h : Representable ftz q) (hq : q ≠ 0) : rnd32 ftz q = .fin q := by
  unfold rnd32
  rw [nearest_representable h hq, if_neg hq, if_neg, if_neg]
  · intro hc
    have := hc.trans h.1
    unfold maxFloat at this
    norm_num at this
  · rintro ⟨hf, hc⟩
    obtain ⟨_, k, E, e, hk, hE⟩ := h
    rw [if_pos hf] at hE
    linarith

theorem binary32_ok (ftz : Bool) : (binary32 ftz).Ok where
  rnd q r h := by
    have h : rnd32 ftz q = .fin r := h
    show r ≠ 0 ∧ rnd32 ftz r = .fin r
    unfold rnd32 at h
    split at h
    · cases h
    · rename_i h1
      split at h
      · cases h
      · rename_i h2
        split at h
        · cases h
        · rename_i h3
          cases h
          refine ⟨h1, rnd32_representable (nearest_rep (not_le.1 h3) (fun hf => ?_)) h1⟩
          by_contra hc
          exact h2 ⟨hf, not_le.1 hc⟩
  rndNan q p h := by
    have h : rnd32 ftz q = .nan p := h
    unfold rnd32 at h
    split at h
    · cases h
    · split at h
      · cases h
      · split at h <;> cases h
  nan1 _ := rfl
  nan2 _ _ := rfl
  dnan := rfl

/-- Absolute error below the normal range. -/
def tiny (ftz : Bool) : ℚ := if ftz then 2 ^ (-126 : ℤ) else 2 ^ (-150 : ℤ)

theorem nearest_err (ftz : Bool) {q : ℚ} (hq : q ≠ 0) :
    |nearest ftz q - q| ≤ 2 ^ (-24 : ℤ) * |q| + if ftz then 0 else 2 ^ (-150 : ℤ) := by
  refine (nearest_near ftz q).trans ?_
  have hl := log_le hq
  have pl : (2 : ℚ) ^ (Int.log 2 |q| - 23) / 2 ≤ 2 ^ (-24 : ℤ) * |q| := by
    have : (2 : ℚ) ^ (Int.log 2 |q| - 23) / 2 = 2 ^ (-24 : ℤ) * 2 ^ Int.log 2 |q| := by
      rw [← zpow_add₀ (by norm_num), div_eq_mul_inv, ← zpow_neg_one, ← zpow_add₀ (by norm_num)]
      congr 1
      omega
    rw [this]
    exact mul_le_mul_of_nonneg_left hl (two_pow_pos _).le
  unfold place
  cases ftz
  · simp only [Bool.false_eq_true, if_false]
    rcases le_total (Int.log 2 |q|) (-126) with h | h
    · rw [max_eq_right h]
      have : (2 : ℚ) ^ ((-126 : ℤ) - 23) / 2 = 2 ^ (-150 : ℤ) := by norm_num
      rw [this]
      have := mul_nonneg (two_pow_pos (-24)).le (abs_nonneg q)
      linarith
    · rw [max_eq_left h]
      have := two_pow_pos (-150)
      linarith
  · simp only [if_true, add_zero]
    exact pl

/-- Rounding to binary32 has relative error 2^-24 and, below the normal range, absolute error 2^-150 (2^-126 if results are
flushed), up to the largest finite number. -/
theorem binary32_rounding (ftz : Bool) : Rounding (binary32 ftz) (2 ^ (-24 : ℤ)) (tiny ftz) maxFloat where
  upos := (two_pow_pos _).le
  epos := by unfold tiny; split <;> exact (two_pow_pos _).le
  near q hM := by
    show ∃ r, IsVal (rnd32 ftz q) r ∧ _
    have tp : 0 ≤ tiny ftz := by unfold tiny; split <;> exact (two_pow_pos _).le
    by_cases hq : q = 0
    · subst hq
      refine ⟨0, ?_, by simpa using tp⟩
      unfold rnd32
      rw [if_pos]
      · rfl
      · unfold nearest
        rw [zero_div]
        have := rne_int 0
        rw [Int.cast_zero] at this
        rw [this]
        simp
    have he := nearest_err ftz hq
    have hle : (if ftz then (0 : ℚ) else 2 ^ (-150 : ℤ)) ≤ tiny ftz := by
      unfold tiny
      cases ftz
      · exact le_refl _
      · exact (two_pow_pos _).le
    unfold rnd32
    split
    · rename_i h0
      rw [h0] at he
      exact ⟨0, rfl, he.trans (by linarith)⟩
    · rename_i h0
      split
      · rename_i h1
        refine ⟨0, rfl, ?_⟩
        rw [zero_sub, abs_neg]
        have : |q| ≤ tiny ftz := by
          unfold tiny
          rw [if_pos h1.1]
          by_contra hc
          have hc := not_le.1 hc
          -- then the result would be at least 2^-126
          have hlog : -126 ≤ Int.log 2 |q| := by
            have := zpow_lt (hc.trans (lt_log q))
            omega
          have hf := h1.1
          subst hf
          have hpl : place true q = Int.log 2 |q| - 23 := rfl
          have hge : (2 : ℚ) ^ Int.log 2 |q| ≤ |nearest true q| := by
            unfold nearest
            have hp := two_pow_pos (place true q)
            rw [abs_mul, abs_of_pos hp]
            have e23 : (2 : ℚ) ^ Int.log 2 |q| = 2 ^ 23 * 2 ^ place true q := by
              rw [hpl, ← zpow_natCast, ← zpow_add₀ (by norm_num)]
              congr 1
              push_cast
              omega
            have hl := log_le hq
            rw [e23] at hl ⊢
            refine mul_le_mul_of_nonneg_right ?_ hp.le
            rcases abs_choice q with hs | hs
            · rw [hs] at hl
              have h2 : (2 ^ 23 : ℤ) ≤ rne (q / 2 ^ place true q) := le_rne (by rw [le_div_iff₀ hp]; push_cast; exact hl)
              have h3 : ((2 ^ 23 : ℤ) : ℚ) ≤ rne (q / 2 ^ place true q) := by exact_mod_cast h2
              push_cast at h3
              exact h3.trans (le_abs_self _)
            · rw [hs] at hl
              have h2 : rne (q / 2 ^ place true q) ≤ (-2 ^ 23 : ℤ) :=
                rne_le (by rw [div_le_iff₀ hp]; push_cast; linarith)
              have h3 : (rne (q / 2 ^ place true q) : ℚ) ≤ ((-2 ^ 23 : ℤ) : ℚ) := by exact_mod_cast h2
              push_cast at h3
              exact le_trans (by linarith) (neg_le_abs _)
          exact absurd h1.2 (not_lt.2 ((zpow_mono hlog).trans hge))
        have := mul_nonneg (two_pow_pos (-24)).le (abs_nonneg q)
        linarith
      · split
        · rename_i h2
          exfalso
          -- at most the largest finite number: not rounded up to 2^128
          have hlog : Int.log 2 |q| < 128 := by
            have h3 : (2 : ℚ) ^ Int.log 2 |q| < 2 ^ (128 : ℤ) := by
              refine lt_of_le_of_lt ((log_le hq).trans hM) ?_
              unfold maxFloat
              norm_num
            exact zpow_lt h3
          have hpl : place ftz q ≤ 104 := by unfold place; split <;> omega
          have hp := two_pow_pos (place ftz q)
          have key : |nearest ftz q| ≤ maxFloat := by
            rcases Int.lt_or_eq_of_le hpl with hlt | heq
            · have hs := sig_le ftz q
              unfold nearest
              rw [abs_mul, abs_of_pos hp, ← Int.cast_abs]
              have hk : ((|rne (q / 2 ^ place ftz q)| : ℤ) : ℚ) ≤ 2 ^ 24 := by exact_mod_cast hs
              have h1 : (2 : ℚ) ^ place ftz q ≤ 2 ^ (103 : ℤ) := zpow_mono (by omega)
              refine (mul_le_mul hk h1 hp.le (by norm_num)).trans ?_
              unfold maxFloat
              norm_num
            · unfold nearest
              rw [heq, abs_mul, abs_of_pos (two_pow_pos _)]
              unfold maxFloat at hM ⊢
              refine mul_le_mul_of_nonneg_right ?_ (two_pow_pos _).le
              rw [abs_le] at hM ⊢
              have p104 := two_pow_pos 104
              constructor
              · have h3 : (-(2 ^ 24 - 1) : ℤ) ≤ rne (q / 2 ^ (104 : ℤ)) :=
                  le_rne (by rw [le_div_iff₀ p104]; push_cast; linarith [hM.1])
                exact_mod_cast h3
              · have h3 : rne (q / 2 ^ (104 : ℤ)) ≤ (2 ^ 24 - 1 : ℤ) :=
                  rne_le (by rw [div_le_iff₀ p104]; push_cast; linarith [hM.2])
                exact_mod_cast h3
          have := h2.trans key
          unfold maxFloat at this
          norm_num at this
        · exact ⟨_, rfl, he.trans (by linarith)⟩

/-! ### Integers -/

/-- Integers as floats. -/
def ofInt (n : ℤ) : Fl := if n = 0 then .zero false else .fin n

theorem int_representable (ftz : Bool) {n : ℤ} (h : |n| ≤ 2 ^ 24) (h0 : n ≠ 0) : Representable ftz (n : ℚ) := by
  have hq : |(n : ℚ)| ≤ 2 ^ 24 := by exact_mod_cast h
  refine ⟨hq.trans (by unfold maxFloat; norm_num), n, 0, by simp, h, ?_⟩
  split
  · have : (1 : ℚ) ≤ |(n : ℚ)| := by exact_mod_cast Int.one_le_abs h0
    refine le_trans ?_ this
    norm_num
  · omega

theorem rnd32_int (ftz : Bool) {n : ℤ} (h : |n| ≤ 2 ^ 24) (h0 : n ≠ 0) : rnd32 ftz (n : ℚ) = ofInt n := by
  rw [rnd32_representable (int_representable ftz h h0) (by exact_mod_cast h0)]
  unfold ofInt
  rw [if_neg h0]

end Ruy.FloatErr

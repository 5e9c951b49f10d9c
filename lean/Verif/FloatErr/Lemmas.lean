import Verif.XFloat.Run
import Verif.Float.Lemmas
import Mathlib.Tactic.Linarith
import Mathlib.Tactic.Ring
import Mathlib.Tactic.GCongr
import Mathlib.Tactic.Positivity
import Mathlib.Algebra.Order.Field.Rat
/-
Rounding errors of chains of multiply-adds: lemmas for property C62.
-/
namespace Ruy.FloatErr
open Ruy.Float Ruy.XFloat

/-- Fused multiply-add: the product is not rounded. -/
def fma (e : Env) (a b c : Fl) : Fl := e.add (({ e with rnd := .fin } : Env).mul a b) c

/-! ### Specification -/

/-- `x` is a finite float with value `q`. -/
def IsVal (x : Fl) (q : ℚ) : Prop :=
  match x with
  | .fin r => q = r
  | .zero _ => q = 0
  | _ => False

/-- Results of magnitude at most `M` are rounded to finite floats, with relative error `u` or absolute error `η`
(both together at most). -/
structure Rounding (e : Env) (u η M : ℚ) : Prop where
  upos : 0 ≤ u
  epos : 0 ≤ η
  near : ∀ q, |q| ≤ M → ∃ r, IsVal (e.rnd q) r ∧ |r - q| ≤ u * |q| + η

/-- Exact sum of products. -/
def sum (b : ℚ) (a c : Nat → ℚ) : Nat → ℚ
  | 0 => b
  | n + 1 => a n * c n + sum b a c n

/-- Sum of magnitudes. -/
def mag (b : ℚ) (a c : Nat → ℚ) : Nat → ℚ
  | 0 => |b|
  | n + 1 => |a n * c n| + mag b a c n

/-! ### Operations -/

section
variable {e : Env} {u η M : ℚ}

theorem add_near (h : Rounding e u η M) {x y : Fl} {a b : ℚ} (hx : IsVal x a) (hy : IsVal y b) (hM : |a + b| ≤ M) :
    ∃ r, IsVal (e.add x y) r ∧ |r - (a + b)| ≤ u * |a + b| + η := by
  have hpos : 0 ≤ u * |a + b| + η := add_nonneg (mul_nonneg h.upos (abs_nonneg _)) h.epos
  cases x with
  | nan p => exact hx.elim
  | inf s => exact hx.elim
  | zero s =>
    have ha : a = 0 := hx
    subst ha
    cases y with
    | nan p => exact hy.elim
    | inf s => exact hy.elim
    | zero t =>
      have hb : b = 0 := hy
      subst hb
      refine ⟨0, ?_, by simpa using h.epos⟩
      unfold Env.add
      dsimp only
      split <;> rfl
    | fin q =>
      have hb : b = q := hy
      subst hb
      rw [zero_add] at hM ⊢
      exact h.near _ hM
  | fin p =>
    have ha : a = p := hx
    subst ha
    cases y with
    | nan p => exact hy.elim
    | inf s => exact hy.elim
    | zero t =>
      have hb : b = 0 := hy
      subst hb
      rw [add_zero] at hM ⊢
      exact h.near _ hM
    | fin q =>
      have hb : b = q := hy
      subst hb
      unfold Env.add
      dsimp only
      split
      · rename_i h0
        exact ⟨0, rfl, by rw [h0]; simpa using h.epos⟩
      · exact h.near _ hM

theorem mul_near (h : Rounding e u η M) {x y : Fl} {a b : ℚ} (hx : IsVal x a) (hy : IsVal y b) (hM : |a * b| ≤ M) :
    ∃ r, IsVal (e.mul x y) r ∧ |r - a * b| ≤ u * |a * b| + η := by
  have zero : ∀ {z : Fl}, IsVal z 0 → a * b = 0 → ∃ r, IsVal z r ∧ |r - a * b| ≤ u * |a * b| + η :=
    fun hz h0 => ⟨0, hz, by rw [h0]; simpa using h.epos⟩
  cases x with
  | nan p => exact hx.elim
  | inf s => exact hx.elim
  | zero s =>
    have ha : a = 0 := hx
    subst ha
    cases y with
    | nan p => exact hy.elim
    | inf s => exact hy.elim
    | zero t => exact zero rfl (by simp)
    | fin q => exact zero rfl (by simp)
  | fin p =>
    have ha : a = p := hx
    subst ha
    cases y with
    | nan p => exact hy.elim
    | inf s => exact hy.elim
    | zero t =>
      have hb : b = 0 := hy
      subst hb
      exact zero rfl (by simp)
    | fin q =>
      have hb : b = q := hy
      subst hb
      exact h.near _ hM

theorem mul_exact {x y : Fl} {a b : ℚ} (hx : IsVal x a) (hy : IsVal y b) :
    IsVal (({ e with rnd := .fin } : Env).mul x y) (a * b) := by
  have h : Rounding ({ e with rnd := .fin } : Env) 0 0 |a * b| := ⟨le_refl _, le_refl _, fun q _ => ⟨q, rfl, by simp⟩⟩
  obtain ⟨r, h1, h2⟩ := mul_near h hx hy (le_refl _)
  have : r = a * b := by
    have : |r - a * b| ≤ 0 := by simpa using h2
    linarith [abs_nonpos_iff.1 this]
  rw [← this]
  exact h1

theorem fma_near (h : Rounding e u η M) {x y z : Fl} {a b c : ℚ} (hx : IsVal x a) (hy : IsVal y b) (hz : IsVal z c)
    (hM : |a * b + c| ≤ M) : ∃ r, IsVal (fma e x y z) r ∧ |r - (a * b + c)| ≤ u * |a * b + c| + η :=
  add_near h (mul_exact hx hy) hz hM

/-! ### Chains -/

theorem mag_nonneg (b : ℚ) (a c : Nat → ℚ) (n : Nat) : 0 ≤ mag b a c n := by
  induction n with
  | zero => exact abs_nonneg _
  | succ n ih => exact add_nonneg (abs_nonneg _) ih

theorem sum_le (b : ℚ) (a c : Nat → ℚ) (n : Nat) : |sum b a c n| ≤ mag b a c n := by
  induction n with
  | zero => exact le_refl _
  | succ n ih =>
    unfold sum mag
    exact (abs_add_le _ _).trans (by linarith)

theorem sum_succ (b : ℚ) (a c : Nat → ℚ) (n : Nat) : sum b a c (n + 1) = a n * c n + sum b a c n := rfl
theorem mag_succ (b : ℚ) (a c : Nat → ℚ) (n : Nat) : mag b a c (n + 1) = |a n * c n| + mag b a c n := rfl

theorem one_le_pow (hu : 0 ≤ u) (n : Nat) : 1 ≤ (1 + u) ^ n := one_le_pow₀ (by linarith)

/-- A chain of fused multiply-adds. -/
theorem fused_near (h : Rounding e u η M) {init : Fl} {f g : Nat → Fl} {b : ℚ} {a c : Nat → ℚ} {n : Nat} (hb : IsVal init b)
    (hf : ∀ d, d < n → IsVal (f d) (a d)) (hg : ∀ d, d < n → IsVal (g d) (c d))
    (hM : (1 + u) ^ n * (mag b a c n + n * η) ≤ M) :
    ∃ r, IsVal (dot (fma e) init f g n) r ∧
      |r - sum b a c n| ≤ ((1 + u) ^ n - 1) * mag b a c n + n * (1 + u) ^ n * η := by
  induction n with
  | zero => exact ⟨b, hb, by simp [sum]⟩
  | succ n ih =>
    have hu := h.upos
    have hη := h.epos
    have p1 := one_le_pow hu n
    have hS := mag_nonneg b a c n
    have hP := abs_nonneg (a n * c n)
    have hn : (0 : ℚ) ≤ n := Nat.cast_nonneg n
    have e1 : (1 + u) ^ (n + 1) = (1 + u) ^ n * (1 + u) := pow_succ _ _
    rw [e1] at hM ⊢
    generalize hp : (1 + u) ^ n = p at *
    rw [mag_succ] at hM
    rw [sum_succ, mag_succ]
    push_cast at hM ⊢
    have q1 : p * (|a n * c n| + mag b a c n + n * η) ≤ M := by
      refine le_trans ?_ hM
      rw [mul_assoc]
      refine mul_le_mul_of_nonneg_left ?_ (by linarith)
      nlinarith [mul_nonneg hu hP, mul_nonneg hu hS, mul_nonneg hu (mul_nonneg hn hη), mul_nonneg hu hη]
    obtain ⟨r, hr, her⟩ := ih (fun d hd => hf d (by omega)) (fun d hd => hg d (by omega)) (by
      refine le_trans ?_ q1
      refine mul_le_mul_of_nonneg_left ?_ (by linarith)
      linarith)
    have hs := sum_le b a c n
    have harg : |a n * c n + r| ≤ p * (|a n * c n| + mag b a c n + n * η) := by
      have t1 : |a n * c n + r| ≤ |a n * c n| + |sum b a c n| + |r - sum b a c n| := by
        have : a n * c n + r = a n * c n + (sum b a c n + (r - sum b a c n)) := by ring
        rw [this]
        exact (abs_add_le _ _).trans (by linarith [abs_add_le (sum b a c n) (r - sum b a c n)])
      nlinarith [mul_nonneg (sub_nonneg.2 p1) hP]
    obtain ⟨r', hr', her'⟩ := fma_near h (hf n (by omega)) (hg n (by omega)) hr (harg.trans q1)
    refine ⟨r', hr', ?_⟩
    have t2 : |r' - (a n * c n + sum b a c n)| ≤ |r' - (a n * c n + r)| + |r - sum b a c n| := by
      have : r' - (a n * c n + sum b a c n) = (r' - (a n * c n + r)) + (r - sum b a c n) := by ring
      rw [this]
      exact abs_add_le _ _
    have t3 : u * |a n * c n + r| ≤ u * (p * (|a n * c n| + mag b a c n + n * η)) := mul_le_mul_of_nonneg_left harg hu
    have t4 : η ≤ p * η := by nlinarith
    have t5 : 0 ≤ u * (p * η) := mul_nonneg hu (mul_nonneg (by linarith) hη)
    nlinarith [mul_nonneg (sub_nonneg.2 p1) hP]

/-- A chain of multiplications and additions, each rounded. -/
theorem unfused_near (h : Rounding e u η M) {madd : Fl → Fl → Fl → Fl}
    (hm : ∀ x y z, madd x y z = e.add (e.mul x y) z ∨ madd x y z = e.add z (e.mul x y)) {init : Fl} {f g : Nat → Fl} {b : ℚ}
    {a c : Nat → ℚ} {n : Nat} (hb : IsVal init b) (hf : ∀ d, d < n → IsVal (f d) (a d))
    (hg : ∀ d, d < n → IsVal (g d) (c d)) (hM : (1 + u) ^ (n + 1) * (mag b a c n + 2 * n * η) ≤ M) :
    ∃ r, IsVal (dot madd init f g n) r ∧
      |r - sum b a c n| ≤ ((1 + u) ^ (n + 1) - 1) * mag b a c n + 2 * n * (1 + u) ^ n * η := by
  induction n with
  | zero =>
    refine ⟨b, hb, ?_⟩
    have := mul_nonneg h.upos (abs_nonneg b)
    simp only [sum, mag, sub_self, abs_zero, zero_add, pow_one, add_sub_cancel_left, CharP.cast_eq_zero, mul_zero,
      zero_mul, add_zero]
    exact this
  | succ n ih =>
    have hu := h.upos
    have hη := h.epos
    have p1 := one_le_pow hu n
    have hS := mag_nonneg b a c n
    have hP := abs_nonneg (a n * c n)
    have hn : (0 : ℚ) ≤ n := Nat.cast_nonneg n
    have e1 : (1 + u) ^ (n + 1) = (1 + u) ^ n * (1 + u) := pow_succ _ _
    have e2 : (1 + u) ^ (n + 1 + 1) = (1 + u) ^ n * (1 + u) * (1 + u) := by rw [pow_succ, e1]
    rw [e2] at hM
    rw [e1] at ih
    rw [e1, e2]
    generalize hp : (1 + u) ^ n = p at *
    rw [mag_succ] at hM
    rw [sum_succ, mag_succ]
    push_cast at hM ⊢
    have pu : p ≤ p * (1 + u) := by nlinarith
    have q1 : p * (1 + u) * (|a n * c n| + mag b a c n + 2 * n * η + η) ≤ M := by
      refine le_trans ?_ hM
      rw [mul_assoc (p * (1 + u))]
      refine mul_le_mul_of_nonneg_left ?_ (by linarith)
      nlinarith [mul_nonneg hu hP, mul_nonneg hu hS, mul_nonneg hu (mul_nonneg hn hη), mul_nonneg hu hη]
    obtain ⟨r, hr, her⟩ := ih (fun d hd => hf d (by omega)) (fun d hd => hg d (by omega)) (by
      refine le_trans ?_ q1
      refine mul_le_mul_of_nonneg_left ?_ (by linarith)
      linarith)
    have hs := sum_le b a c n
    have hprod : |a n * c n| ≤ M := by
      refine le_trans ?_ q1
      have : (0 : ℚ) ≤ mag b a c n + 2 * n * η + η := by positivity
      nlinarith [mul_nonneg (sub_nonneg.2 (p1.trans pu)) hP, mul_nonneg (by linarith : (0:ℚ) ≤ p * (1 + u)) this]
    obtain ⟨t, ht, hte⟩ := mul_near h (hf n (by omega)) (hg n (by omega)) hprod
    have harg1 : |t + r| ≤ p * (1 + u) * (|a n * c n| + mag b a c n) + 2 * n * p * η + η := by
      have t1 : |t + r| ≤ |a n * c n| + |t - a n * c n| + |sum b a c n| + |r - sum b a c n| := by
        have : t + r = (a n * c n + (t - a n * c n)) + (sum b a c n + (r - sum b a c n)) := by ring
        rw [this]
        exact (abs_add_le _ _).trans (by
          linarith [abs_add_le (sum b a c n) (r - sum b a c n), abs_add_le (a n * c n) (t - a n * c n)])
      have t2 : (1 + u) * |a n * c n| ≤ p * (1 + u) * |a n * c n| :=
        mul_le_mul_of_nonneg_right (by nlinarith) hP
      linarith
    have harg : |t + r| ≤ p * (1 + u) * (|a n * c n| + mag b a c n + 2 * n * η + η) := by
      have t3 : 2 * n * p * η ≤ p * (1 + u) * (2 * n * η) := by
        have : 0 ≤ 2 * n * η := by positivity
        linarith [mul_le_mul_of_nonneg_right pu this]
      have t4 : η ≤ p * (1 + u) * η := by linarith [mul_le_mul_of_nonneg_right (p1.trans pu) hη]
      linarith
    have hadd : ∃ r', IsVal (madd (f n) (g n) (dot madd init f g n)) r' ∧ |r' - (t + r)| ≤ u * |t + r| + η := by
      rcases hm (f n) (g n) (dot madd init f g n) with e | e <;> rw [e]
      · exact add_near h ht hr (harg.trans q1)
      · obtain ⟨r', h1, h2⟩ := add_near h hr ht (by rw [add_comm]; exact harg.trans q1)
        exact ⟨r', h1, by rw [add_comm t r]; exact h2⟩
    obtain ⟨r', hr', her'⟩ := hadd
    refine ⟨r', hr', ?_⟩
    have t2 : |r' - (a n * c n + sum b a c n)| ≤ |r' - (t + r)| + |t - a n * c n| + |r - sum b a c n| := by
      have : r' - (a n * c n + sum b a c n) = (r' - (t + r)) + (t - a n * c n) + (r - sum b a c n) := by ring
      rw [this]
      exact (abs_add_le _ _).trans (by linarith [abs_add_le (r' - (t + r)) (t - a n * c n)])
    have t3 : u * |t + r| ≤ u * (p * (1 + u) * (|a n * c n| + mag b a c n) + 2 * n * p * η + η) :=
      mul_le_mul_of_nonneg_left harg1 hu
    have t4 : η ≤ p * η := by nlinarith
    have t5 : u * η ≤ u * (p * η) := mul_le_mul_of_nonneg_left t4 hu
    have t6 : 0 ≤ u * (p * η) := by positivity
    have t7 : u * |a n * c n| ≤ (p * (1 + u) - 1) * |a n * c n| := mul_le_mul_of_nonneg_right (by nlinarith) hP
    linarith

end

end Ruy.FloatErr

import Verif.FloatErr.Lemmas
import Verif.Float.Props
/-
Clamping, and the chain of operations of ReferenceMul: lemmas for property C62.
-/
namespace Ruy.FloatErr
open Ruy.Mul Ruy.Float Ruy.XFloat
open Ruy.Front (MulParams kernelParams applyMultiplier)

/-! ### Specification of clamping -/

/-- `q` bounded above by a float; an infinite bound does not bind. -/
def upper (h : Fl) (q : ℚ) : ℚ :=
  match h with
  | .fin r => min q r
  | .zero _ => min q 0
  | _ => q
/-- `q` bounded below by a float. -/
def lower (l : Fl) (q : ℚ) : ℚ :=
  match l with
  | .fin r => max q r
  | .zero _ => max q 0
  | _ => q

/-- A lower bound: finite or minus infinity. -/
def IsLower : Fl → Prop
  | .nan _ => False
  | .inf s => s = true
  | _ => True
/-- An upper bound: finite or infinity. -/
def IsUpper : Fl → Prop
  | .nan _ => False
  | .inf s => s = false
  | _ => True

def clampQ (lo hi : Fl) (q : ℚ) : ℚ := lower lo (upper hi q)

theorem lt_val {x y : Fl} {a b : ℚ} (hx : IsVal x a) (hy : IsVal y b) : Fl.lt x y = decide (a < b) := by
  cases x with
  | nan p => exact hx.elim
  | inf s => exact hx.elim
  | zero s =>
    have ha : a = 0 := hx
    subst ha
    cases y with
    | nan p => exact hy.elim
    | inf s => exact hy.elim
    | zero t =>
      have hb : b = 0 := hy
      subst hb
      rfl
    | fin q =>
      have hb : b = q := hy
      subst hb
      rfl
  | fin p =>
    have ha : a = p := hx
    subst ha
    cases y with
    | nan p => exact hy.elim
    | inf s => exact hy.elim
    | zero t =>
      have hb : b = 0 := hy
      subst hb
      rfl
    | fin q =>
      have hb : b = q := hy
      subst hb
      rfl

/-- A bound is a number, or infinite. -/
theorem upper_cases {h : Fl} (hh : IsUpper h) : (h = .inf false ∧ ∀ q, upper h q = q) ∨ ∃ r, IsVal h r ∧ ∀ q, upper h q = min q r := by
  cases h with
  | nan p => exact hh.elim
  | inf s => have hs : s = false := hh; subst hs; exact .inl ⟨rfl, fun _ => rfl⟩
  | zero s => exact .inr ⟨0, rfl, fun _ => rfl⟩
  | fin r => exact .inr ⟨r, rfl, fun _ => rfl⟩
theorem lower_cases {l : Fl} (hl : IsLower l) : (l = .inf true ∧ ∀ q, lower l q = q) ∨ ∃ r, IsVal l r ∧ ∀ q, lower l q = max q r := by
  cases l with
  | nan p => exact hl.elim
  | inf s => have hs : s = true := hl; subst hs; exact .inl ⟨rfl, fun _ => rfl⟩
  | zero s => exact .inr ⟨0, rfl, fun _ => rfl⟩
  | fin r => exact .inr ⟨r, rfl, fun _ => rfl⟩

theorem lt_inf {x : Fl} {a : ℚ} (hx : IsVal x a) : Fl.lt x (.inf false) = true ∧ Fl.lt (.inf true) x = true ∧
    Fl.lt (.inf false) x = false ∧ Fl.lt x (.inf true) = false := by
  cases x with
  | nan p => exact hx.elim
  | inf s => exact hx.elim
  | zero s => exact ⟨rfl, rfl, rfl, rfl⟩
  | fin q => exact ⟨rfl, rfl, rfl, rfl⟩

/-- Both ways of clamping compute `clampQ` on finite numbers. -/
theorem clamped_val {o : VOps Fl} (ho : o.lt = Fl.lt) {lo hi x : Fl} {q : ℚ} (hl : IsLower lo) (hu : IsUpper hi) (hx : IsVal x q) :
    IsVal (clamped o lo hi x) (clampQ lo hi q) := by
  unfold clamped clampQ
  have h1 : IsVal (o.min x hi) (upper hi q) := by
    unfold VOps.min
    rw [ho]
    rcases upper_cases hu with ⟨rfl, e⟩ | ⟨r, hr, e⟩ <;> rw [e]
    · rw [(lt_inf hx).1]; exact hx
    · rw [lt_val hx hr]
      by_cases h : q < r
      · rw [if_pos (by simpa using h), min_eq_left h.le]; exact hx
      · rw [if_neg (by simpa using h), min_eq_right (not_lt.1 h)]; exact hr
  unfold VOps.max
  rw [ho]
  rcases lower_cases hl with ⟨rfl, e⟩ | ⟨r, hr, e⟩ <;> rw [e]
  · rw [(lt_inf h1).2.1]; exact h1
  · rw [lt_val hr h1]
    by_cases h : r < upper hi q
    · rw [if_pos (by simpa using h), max_eq_left h.le]; exact h1
    · rw [if_neg (by simpa using h), max_eq_right (not_lt.1 h)]; exact hr

theorem ref_clamp_val {lo hi x : Fl} {q : ℚ} (hl : IsLower lo) (hu : IsUpper hi) (hx : IsVal x q) :
    IsVal (if Fl.lt (if Fl.lt hi x then hi else x) lo then lo else (if Fl.lt hi x then hi else x)) (clampQ lo hi q) := by
  unfold clampQ
  have h1 : IsVal (if Fl.lt hi x then hi else x) (upper hi q) := by
    rcases upper_cases hu with ⟨rfl, e⟩ | ⟨r, hr, e⟩ <;> rw [e]
    · rw [(lt_inf hx).2.2.1]; exact hx
    · rw [lt_val hr hx]
      by_cases h : r < q
      · rw [if_pos (by simpa using h), min_eq_right h.le]; exact hr
      · rw [if_neg (by simpa using h), min_eq_left (not_lt.1 h)]; exact hx
  generalize (if Fl.lt hi x then hi else x) = y at *
  rcases lower_cases hl with ⟨rfl, e⟩ | ⟨r, hr, e⟩ <;> rw [e]
  · rw [(lt_inf h1).2.2.2]; exact h1
  · rw [lt_val h1 hr]
    by_cases h : upper hi q < r
    · rw [if_pos (by simpa using h), max_eq_right h.le]; exact hr
    · rw [if_neg (by simpa using h), max_eq_left (not_lt.1 h)]; exact h1

theorem dist_min (p q r : ℚ) : |min p r - min q r| ≤ |p - q| := by
  rcases le_total p r with h1 | h1 <;> rcases le_total q r with h2 | h2 <;>
    simp only [min_eq_left, min_eq_right, h1, h2]
  · exact le_refl _
  · rw [abs_sub_comm, abs_of_nonneg (by linarith), abs_sub_comm, abs_of_nonneg (by linarith)]; linarith
  · rw [abs_of_nonneg (by linarith), abs_of_nonneg (by linarith)]; linarith
  · rw [sub_self, abs_zero]; exact abs_nonneg _
theorem dist_max (p q r : ℚ) : |max p r - max q r| ≤ |p - q| := by
  rcases le_total p r with h1 | h1 <;> rcases le_total q r with h2 | h2 <;>
    simp only [max_eq_left, max_eq_right, h1, h2]
  · rw [sub_self, abs_zero]; exact abs_nonneg _
  · rw [abs_sub_comm, abs_of_nonneg (by linarith), abs_sub_comm, abs_of_nonneg (by linarith)]; linarith
  · rw [abs_of_nonneg (by linarith), abs_of_nonneg (by linarith)]; linarith
  · exact le_refl _

/-- Clamping does not increase distances. -/
theorem clampQ_near {lo hi : Fl} (hl : IsLower lo) (hu : IsUpper hi) (p q : ℚ) : |clampQ lo hi p - clampQ lo hi q| ≤ |p - q| := by
  unfold clampQ
  have h1 : |upper hi p - upper hi q| ≤ |p - q| := by
    rcases upper_cases hu with ⟨rfl, e⟩ | ⟨r, hr, e⟩ <;> rw [e, e]
    exact dist_min p q r
  refine le_trans ?_ h1
  rcases lower_cases hl with ⟨rfl, e⟩ | ⟨r, hr, e⟩ <;> rw [e, e]
  exact dist_max _ _ r

/-! ### ReferenceMul -/

section
variable {e : Env} {u η M : ℚ}

/-- Adding a zero to a number. -/
theorem add_zero_val {x : Fl} {q : ℚ} (hs : e.Stable x) (hx : IsVal x q) (t : Bool) : IsVal (e.add x (.zero t)) q := by
  cases x with
  | nan p => exact hx.elim
  | inf s => exact hx.elim
  | zero s =>
    unfold Env.add
    dsimp only
    split <;> exact hx
  | fin p =>
    have hs : e.rnd p = .fin p := hs
    show IsVal (e.rnd p) q
    rw [hs]
    exact hx

theorem sum_bias (b : ℚ) (a c : Nat → ℚ) (n : Nat) : sum b a c n = sum 0 a c n + b := by
  induction n with
  | zero => simp [sum]
  | succ n ih => rw [sum_succ, sum_succ, ih]; ring
theorem mag_bias (b : ℚ) (a c : Nat → ℚ) (n : Nat) : mag b a c n = mag 0 a c n + |b| := by
  induction n with
  | zero => simp [mag]
  | succ n ih => rw [mag_succ, mag_succ, ih]; ring

/-- The loop of reference_mul.h:36-41 is a chain. -/
theorem ref_dot {lhs rhs : Mul.Mat Fl} {i j n : Nat} {x : Fl} (hl : lhs.zp = 0) (hr : rhs.zp = 0)
    (h : forUpTo n (refDotStep e.ops.arith lhs rhs i j) e.ops.arith.zero = .ok x) :
    x = dot (fun a b c => e.add c (e.mul a b)) (.zero false) (fun d => e.add (lhs.at i d) (.zero true))
      (fun d => e.add (rhs.at d j) (.zero true)) n := by
  refine forUpTo_inv (fun k s => s = dot (fun a b c => e.add c (e.mul a b)) (.zero false)
    (fun d => e.add (lhs.at i d) (.zero true)) (fun d => e.add (rhs.at d j) (.zero true)) k) rfl (fun k t t' _ ht hs => ?_) h
  unfold refDotStep at hs
  obtain ⟨p, hp, hs⟩ := C.bind_ok hs
  obtain ⟨q, hq, hs⟩ := C.bind_ok hs
  rw [hl, hr, ofInt_zero] at hs
  cases hs
  rw [elem_at hp, elem_at hq, ht]
  rfl

/-- The sum before clamping. -/
theorem ref_sum (he : e.Ok) (h : Rounding e u η M) {f g : Nat → Fl} {a c : Nat → ℚ} {b : ℚ} {n : Nat} {bias : Option Fl}
    (hf : ∀ d, d < n → IsVal (f d) (a d)) (hg : ∀ d, d < n → IsVal (g d) (c d)) (hfs : ∀ d, d < n → e.Stable (f d))
    (hgs : ∀ d, d < n → e.Stable (g d)) (hb : IsVal (bias.getD (.zero false)) b)
    (hM : (1 + u) ^ (n + 2) * (mag b a c n + (2 * n + 1) * η) ≤ M) :
    ∃ r, IsVal (e.add (match bias with
        | none => dot (fun a b c => e.add c (e.mul a b)) (.zero false) (fun d => e.add (f d) (.zero true))
            (fun d => e.add (g d) (.zero true)) n
        | some x => e.add (dot (fun a b c => e.add c (e.mul a b)) (.zero false) (fun d => e.add (f d) (.zero true))
            (fun d => e.add (g d) (.zero true)) n) x) (.zero false)) r ∧
      |r - sum b a c n| ≤ ((1 + u) ^ (n + 2) - 1) * mag b a c n + (2 * n + 1) * (1 + u) ^ (n + 1) * η := by
  have hu := h.upos
  have hη := h.epos
  have hn : (0 : ℚ) ≤ n := Nat.cast_nonneg n
  have p1 := one_le_pow hu n
  have e1 : (1 + u) ^ (n + 1) = (1 + u) ^ n * (1 + u) := pow_succ _ _
  have e2 : (1 + u) ^ (n + 2) = (1 + u) ^ n * (1 + u) * (1 + u) := by rw [← e1]; exact pow_succ _ _
  have hm0 := mag_nonneg 0 a c n
  have hbn := abs_nonneg b
  rw [mag_bias] at hM ⊢
  rw [sum_bias]
  rw [e2] at hM ⊢
  have pu : (1 + u) ^ n ≤ (1 + u) ^ n * (1 + u) := by nlinarith
  have puu : (1 + u) ^ n * (1 + u) ≤ (1 + u) ^ n * (1 + u) * (1 + u) := by nlinarith
  have hN : (0 : ℚ) ≤ n * η := mul_nonneg hn hη
  have hM1 : (1 + u) ^ n * (1 + u) * (mag 0 a c n + |b| + (2 * n + 1) * η) ≤ M := by
    refine le_trans (mul_le_mul_of_nonneg_right puu ?_) hM
    linarith
  obtain ⟨r, hr, her⟩ := unfused_near h (madd := fun a b c => e.add c (e.mul a b)) (init := .zero false)
    (f := fun d => e.add (f d) (.zero true)) (g := fun d => e.add (g d) (.zero true)) (b := 0) (a := a) (c := c) (n := n)
    (fun x y z => .inr rfl) rfl (fun d hd => add_zero_val (hfs d hd) (hf d hd) true)
    (fun d hd => add_zero_val (hgs d hd) (hg d hd) true) (by
      rw [e1]
      refine le_trans (mul_le_mul_of_nonneg_left ?_ (by linarith)) hM1
      linarith)
  rw [e1] at her ⊢
  have hstable : ∀ y : Fl, y = dot (fun a b c => e.add c (e.mul a b)) (.zero false) (fun d => e.add (f d) (.zero true))
      (fun d => e.add (g d) (.zero true)) n → e.Stable y := by
    rintro y rfl
    cases n with
    | zero => trivial
    | succ n => exact he.add_stable _ _
  generalize dot (fun a b c => e.add c (e.mul a b)) (.zero false) (fun d => e.add (f d) (.zero true))
      (fun d => e.add (g d) (.zero true)) n = y at *
  generalize (1 + u) ^ n = p at *
  have hs := sum_le 0 a c n
  cases bias with
  | none =>
    have hb : b = 0 := hb
    subst hb
    refine ⟨r, add_zero_val (hstable y rfl) hr false, ?_⟩
    simp only [add_zero, abs_zero] at hM hM1 ⊢
    have t1 : (p * (1 + u) - 1) * mag 0 a c n ≤ (p * (1 + u) * (1 + u) - 1) * mag 0 a c n :=
      mul_le_mul_of_nonneg_right (by linarith) hm0
    have t2 : 2 * n * p * η ≤ (2 * n + 1) * (p * (1 + u)) * η := by
      have t3 : p * (n * η) ≤ p * (1 + u) * (n * η) := mul_le_mul_of_nonneg_right pu hN
      have t4 : 0 ≤ p * (1 + u) * η := mul_nonneg (by linarith) hη
      linarith
    linarith
  | some x =>
    have hb : IsVal x b := hb
    have harg : |r + b| ≤ p * (1 + u) * (mag 0 a c n) + |b| + 2 * n * p * η := by
      have : r + b = (sum 0 a c n + (r - sum 0 a c n)) + b := by ring
      rw [this]
      refine (abs_add_le _ _).trans ?_
      have := abs_add_le (sum 0 a c n) (r - sum 0 a c n)
      linarith
    obtain ⟨r', hr', her'⟩ := add_near h hr hb (by
      refine harg.trans (le_trans ?_ hM1)
      have t1 : |b| ≤ p * (1 + u) * |b| := by nlinarith
      have t3 : p * (n * η) ≤ p * (1 + u) * (n * η) := mul_le_mul_of_nonneg_right pu hN
      have t4 : 0 ≤ p * (1 + u) * η := mul_nonneg (by linarith) hη
      linarith)
    refine ⟨r', add_zero_val (he.add_stable _ _) hr' false, ?_⟩
    have t0 : |r' - (sum 0 a c n + b)| ≤ |r' - (r + b)| + |r - sum 0 a c n| := by
      have : r' - (sum 0 a c n + b) = (r' - (r + b)) + (r - sum 0 a c n) := by ring
      rw [this]
      exact abs_add_le _ _
    have t1 : u * |r + b| ≤ u * (p * (1 + u) * (mag 0 a c n) + |b| + 2 * n * p * η) := mul_le_mul_of_nonneg_left harg hu
    have t2 : u * |b| ≤ (p * (1 + u) * (1 + u) - 1) * |b| := mul_le_mul_of_nonneg_right (by nlinarith) hbn
    have t3 : η ≤ p * (1 + u) * η := by nlinarith
    linarith

end

end Ruy.FloatErr

import Verif.Arm32.FlowProps
/-
The arithmetic of 32-bit Advanced SIMD, which flushes denormal operands and results to zero: lemmas for property C89.

This is the processor, not ruy: Advanced SIMD instructions of the 32-bit architecture use the standard FPSCR value, with
rounding to nearest, flush-to-zero and default NaN, whatever the program sets.
-/
namespace Ruy.Arm32.Flow
open Ruy.Mat Ruy.Mul
open Ruy.Float Ruy.FloatErr
open Ruy.XFloat (dot isum)
open Ruy.NeonF (armOps armMax armMin Near IsNan)
open Ruy.NeonF.Flow (Mach elem depth biasAt sumIn Values exact)

/-- Denormal numbers become zero. -/
def flush : Fl → Fl
  | .fin q => if |q| < 2 ^ (-126 : ℤ) then .zero (decide (q < 0)) else .fin q
  | x => x

/-- Rounding to nearest; exact results below the normal numbers become zero before they are rounded; every NaN is the
default NaN. -/
def neon32 : Float.Env where
  rnd q := if |q| < 2 ^ (-126 : ℤ) then .zero (decide (q < 0)) else rnd32 true q
  zsum := false
  nan1 _ := 0
  nan2 _ _ := 0
  dnan := 0

/-- `vmla.f32`, `vadd.f32`, `vmax.f32` and `vmin.f32`. -/
def neonOps : NeonF.Ops Fl where
  zero := .zero false
  fma d n m := neon32.add (flush d) (neon32.mul (flush n) (flush m))
  add x y := neon32.add (flush x) (flush y)
  max x y := armMax neon32 (flush x) (flush y)
  min x y := armMin neon32 (flush x) (flush y)

/-- The task and the memory with denormal operands replaced by zeros. -/
def flushTask (t : Task Fl) : Task Fl :=
  { t with ops := vmlaOps neon32, mp := { t.mp with clampMin := flush t.mp.clampMin, clampMax := flush t.mp.clampMax } }
@[inherit_doc flushTask] def flushMach (m : Mach Fl) : Mach Fl :=
  { m with src := ⟨fun o => flush (m.src.lhs o), fun o => flush (m.src.rhs o)⟩, bias := fun o => flush (m.bias o) }

/-- Not a denormal number. -/
def Normal (x : Fl) : Prop := ∀ q, x = .fin q → (2 : ℚ) ^ (-126 : ℤ) ≤ |q|

/-- The value of a flushed number. -/
def flushed (q : ℚ) : ℚ := if |q| < 2 ^ (-126 : ℤ) then 0 else q

theorem flush_normal {x : Fl} (h : Normal x) : flush x = x := by
  cases x with
  | fin q => exact if_neg (not_lt.2 (h q rfl))
  | _ => rfl

theorem normal_nan (p : Nat) : Normal (.nan p) := fun _ h => by cases h
theorem normal_inf (s : Bool) : Normal (.inf s) := fun _ h => by cases h
theorem normal_zero (s : Bool) : Normal (.zero s) := fun _ h => by cases h

theorem normal_ite {c : Prop} [Decidable c] {x y : Fl} (hx : Normal x) (hy : Normal y) : Normal (if c then x else y) := by
  split <;> assumption

theorem normal_flush (x : Fl) : Normal (flush x) := by
  cases x with
  | fin r =>
    show Normal (if |r| < 2 ^ (-126 : ℤ) then Fl.zero (decide (r < 0)) else .fin r)
    by_cases h : |r| < 2 ^ (-126 : ℤ)
    · rw [if_pos h]; exact normal_zero _
    · rw [if_neg h]
      intro q e
      cases e
      exact not_lt.1 h
  | nan p => exact normal_nan p
  | inf s => exact normal_inf s
  | zero s => exact normal_zero s

theorem normal_rnd (q : ℚ) : Normal (neon32.rnd q) := by
  intro r h
  change (if |q| < 2 ^ (-126 : ℤ) then Fl.zero (decide (q < 0)) else rnd32 true q) = _ at h
  split at h
  · cases h
  · unfold rnd32 at h
    split at h
    · cases h
    · split at h
      · cases h
      · rename_i h2
        split at h
        · cases h
        · cases h
          exact not_lt.1 fun h' => h2 ⟨rfl, h'⟩

theorem normal_add (x y : Fl) : Normal (neon32.add x y) := by
  cases x <;> cases y <;>
    first
    | exact normal_rnd _
    | exact normal_nan _
    | exact normal_inf _
    | exact normal_ite (normal_inf _) (normal_nan _)
    | exact normal_ite (normal_zero _) (normal_zero _)
    | exact normal_ite (normal_zero _) (normal_rnd _)

theorem normal_max (e : Float.Env) {x y : Fl} (hx : Normal x) (hy : Normal y) : Normal (armMax e x y) := by
  cases x <;> cases y <;>
    first
    | exact normal_nan _
    | exact normal_zero _
    | exact normal_ite hy hx

/-! ### Stored values -/

theorem sum_flush {t : Task Fl} (ho : t.ops = neonOps) (m : Mach Fl) (i j : Nat) (ls : List Nat) :
    Normal (sumIn t m ls i j) ∧ sumIn t m ls i j = sumIn (flushTask t) (flushMach m) ls i j := by
  unfold sumIn
  rw [ho]
  have h0 : Normal neonOps.zero := fun q h => by cases h
  have e0 : (flushTask t).ops.zero = neonOps.zero := rfl
  rw [e0]
  generalize neonOps.zero = z at h0 ⊢
  induction ls generalizing z with
  | nil => exact ⟨h0, rfl⟩
  | cons l ls ih =>
    simp only [List.foldl_cons]
    have e : (flushTask t).ops.fma z (elem (flushTask t) (flushMach m) .lhs l i) (elem (flushTask t) (flushMach m) .rhs l j) =
        neonOps.fma z (elem t m .lhs l i) (elem t m .rhs l j) := by
      show neon32.add z _ = neon32.add (flush z) _
      rw [flush_normal h0]
      rfl
    rw [e]
    exact ih _ (normal_add _ _)

theorem stored_flush {t : Task Fl} (ho : t.ops = neonOps) (m : Mach Fl) (i j : Nat) :
    stored t m i j = stored (flushTask t) (flushMach m) i j := by
  obtain ⟨h1, h2⟩ := sum_flush ho m i j (List.range (depth t))
  have hb : flush (biasAt t m (channelOf t.mp.chan i j)) =
      biasAt (flushTask t) (flushMach m) (channelOf (flushTask t).mp.chan i j) := by
    show flush (if t.mp.bias.isSome then _ else t.ops.zero) = if t.mp.bias.isSome then _ else _
    rw [ho]
    split <;> rfl
  unfold stored
  rw [ho]
  show armMin neon32 (flush (armMax neon32 (flush (neon32.add (flush _) (flush _))) (flush _))) (flush _) =
    armMin neon32 (armMax neon32 (neon32.add _ _) (flush _)) (flush _)
  rw [flush_normal h1, flush_normal (normal_add _ _), flush_normal (normal_max _ (normal_add _ _) (normal_flush _)), hb, h2]
  rfl

theorem neon32_rounding : Rounding neon32 (2 ^ (-24 : ℤ)) (tiny true) maxFloat where
  upos := (binary32_rounding true).upos
  epos := (binary32_rounding true).epos
  near q hq := by
    by_cases h : |q| < 2 ^ (-126 : ℤ)
    · refine ⟨0, ?_, ?_⟩
      · show IsVal (if |q| < 2 ^ (-126 : ℤ) then _ else _) 0
        rw [if_pos h]
        rfl
      · rw [zero_sub, abs_neg]
        have : 0 ≤ (2 : ℚ) ^ (-24 : ℤ) * |q| := mul_nonneg (by norm_num) (abs_nonneg _)
        have : tiny true = 2 ^ (-126 : ℤ) := rfl
        linarith
    · obtain ⟨r, h1, h2⟩ := (binary32_rounding true).near q hq
      refine ⟨r, ?_, h2⟩
      show IsVal (if |q| < 2 ^ (-126 : ℤ) then _ else _) r
      rw [if_neg h]
      exact h1

theorem flush_val {x : Fl} {q : ℚ} (h : IsVal x q) : IsVal (flush x) (flushed q) := by
  cases x with
  | nan p => exact h.elim
  | inf s => exact h.elim
  | zero s =>
    have h : q = 0 := h
    subst h
    show flushed 0 = 0
    unfold flushed
    split <;> rfl
  | fin r =>
    have h : q = r := h
    subst h
    show IsVal (if |q| < 2 ^ (-126 : ℤ) then Fl.zero (decide (q < 0)) else .fin q) (flushed q)
    unfold flushed
    by_cases hq : |q| < 2 ^ (-126 : ℤ)
    · rw [if_pos hq, if_pos hq]; rfl
    · rw [if_neg hq, if_neg hq]; rfl

theorem flushed_normal {x : Fl} {q : ℚ} (h : IsVal x q) (hn : Normal x) : flushed q = q := by
  unfold flushed
  split
  · rename_i hq
    cases x with
    | nan p => exact h.elim
    | inf s => exact h.elim
    | zero s => exact Eq.symm h
    | fin r =>
      have h : q = r := h
      subst h
      exact absurd (hn q rfl) (not_le.2 hq)
  · rfl

theorem flushed_abs (q : ℚ) : |flushed q| ≤ |q| := by
  unfold flushed
  split
  · rw [abs_zero]; exact abs_nonneg q
  · exact le_refl _

theorem flushed_mag (bias : ℚ) (a b : Nat → ℚ) (n : Nat) :
    mag (flushed bias) (fun k => flushed (a k)) (fun k => flushed (b k)) n ≤ mag bias a b n := by
  induction n with
  | zero => exact flushed_abs bias
  | succ n ih =>
    show |flushed (a n) * flushed (b n)| + _ ≤ |a n * b n| + _
    rw [abs_mul, abs_mul]
    have := mul_le_mul (flushed_abs (a n)) (flushed_abs (b n)) (abs_nonneg _) (abs_nonneg _)
    linarith

theorem flush_lower {x : Fl} (h : IsLower x) : IsLower (flush x) := by
  cases x with
  | fin q =>
    show IsLower (if |q| < 2 ^ (-126 : ℤ) then Fl.zero (decide (q < 0)) else .fin q)
    split <;> trivial
  | _ => exact h

theorem flush_upper {x : Fl} (h : IsUpper x) : IsUpper (flush x) := by
  cases x with
  | fin q =>
    show IsUpper (if |q| < 2 ^ (-126 : ℤ) then Fl.zero (decide (q < 0)) else .fin q)
    split <;> trivial
  | _ => exact h

theorem bias_flush {t : Task Fl} (ho : t.ops = neonOps) (m : Mach Fl) (c : Nat) :
    biasAt (flushTask t) (flushMach m) c = flush (biasAt t m c) := by
  unfold biasAt
  rw [ho]
  show (if t.mp.bias.isSome then _ else _) = _
  split <;> rfl

theorem elem_flush (t : Task Fl) (m : Mach Fl) (s : Side) (k c : Nat) :
    elem (flushTask t) (flushMach m) s k c = flush (elem t m s k c) := by
  cases s <;> rfl

theorem values_flush {t : Task Fl} (ho : t.ops = neonOps) {m : Mach Fl} {i j : Nat} {a b : Nat → ℚ} {bias : ℚ}
    (hv : Values t m i j a b bias) :
    Values (flushTask t) (flushMach m) i j (fun k => flushed (a k)) (fun k => flushed (b k)) (flushed bias) where
  lhs k hk := by rw [elem_flush]; exact flush_val (hv.lhs k hk)
  rhs k hk := by rw [elem_flush]; exact flush_val (hv.rhs k hk)
  bias := by rw [bias_flush ho]; exact flush_val hv.bias
  lo := flush_lower hv.lo
  hi := flush_upper hv.hi

/-! ### Integers -/

theorem ofInt_normal (n : ℤ) : Normal (ofInt n) := by
  intro q h
  unfold ofInt at h
  split at h
  · cases h
  · rename_i h0
    cases h
    have h1 : (1 : ℚ) ≤ |(n : ℚ)| := by exact_mod_cast Int.one_le_abs h0
    exact le_trans (by norm_num) h1

theorem rnd_ints (n : ℤ) : neon32.rnd n = (binary32 true).rnd n := by
  by_cases h : n = 0
  · subst h
    decide +kernel
  · refine if_neg (not_lt.2 (le_trans (b := 1) (by norm_num) ?_))
    exact_mod_cast Int.one_le_abs h

theorem mul_ints (a b : ℤ) : neon32.mul (ofInt a) (ofInt b) = (binary32 true).mul (ofInt a) (ofInt b) := by
  unfold ofInt
  split_ifs
  · rfl
  · rfl
  · rfl
  · show neon32.rnd (a * b) = (binary32 true).rnd (a * b)
    exact_mod_cast rnd_ints (a * b)

theorem add_ints {x y : Fl} {a b : ℤ} (hx : IsVal x a) (hy : IsVal y b) : neon32.add x y = (binary32 true).add x y := by
  cases x <;> cases y <;> first | exact hx.elim | exact hy.elim | rfl | skip
  · have hy : (b : ℚ) = _ := hy
    show neon32.rnd _ = (binary32 true).rnd _
    rw [← hy]
    exact rnd_ints b
  · have hx : (a : ℚ) = _ := hx
    show neon32.rnd _ = (binary32 true).rnd _
    rw [← hx]
    exact rnd_ints a
  · have hx : (a : ℚ) = _ := hx
    have hy : (b : ℚ) = _ := hy
    show (if _ then _ else neon32.rnd _) = if _ then _ else (binary32 true).rnd _
    rw [← hx, ← hy]
    have := rnd_ints (a + b)
    push_cast at this
    rw [this]
    rfl

/-- A product of integers. -/
theorem prod_val (a b : ℤ) (h : |a * b| ≤ 2 ^ 24) : IsVal ((binary32 true).mul (ofInt a) (ofInt b)) ((a * b : ℤ) : ℚ) := by
  obtain ⟨s, hs⟩ := mul_int (e := binary32 true) (a := a) (b := b) (fun hne => by
    have h3 := rnd32_int true (n := a * b) h hne
    push_cast at h3
    rw [show (binary32 true).rnd = rnd32 true from rfl, h3]
    unfold ofInt
    rw [if_neg hne]
    push_cast
    rfl)
  rcases hs with hs | ⟨h0, hs⟩ <;> rw [hs]
  · exact ofInt_val _
  · show ((a * b : ℤ) : ℚ) = 0
    rw [h0]
    exact Int.cast_zero

theorem dot_ints (a b : Nat → ℤ) (n : Nat) (h : ((List.range n).map fun k => |a k * b k|).sum ≤ 2 ^ 24) :
    dot (madd neon32) (ofInt 0) (fun k => ofInt (a k)) (fun k => ofInt (b k)) n =
      dot (madd (binary32 true)) (ofInt 0) (fun k => ofInt (a k)) (fun k => ofInt (b k)) n := by
  induction n with
  | zero => rfl
  | succ n ih =>
    rw [List.range_succ, List.map_append, List.sum_append] at h
    simp only [List.map_cons, List.map_nil, List.sum_cons, List.sum_nil, add_zero] at h
    have h1 := abs_nonneg (a n * b n)
    have h2 : 0 ≤ ((List.range n).map fun k => |a k * b k|).sum :=
      List.sum_nonneg (fun x hx => by obtain ⟨k, -, rfl⟩ := List.mem_map.1 hx; exact abs_nonneg _)
    have hd := (dot_int true a b n (by omega)).1
    show neon32.add (dot (madd neon32) _ _ _ n) (neon32.mul _ _) = (binary32 true).add (dot (madd (binary32 true)) _ _ _ n)
      ((binary32 true).mul _ _)
    rw [ih (by omega), mul_ints, hd]
    exact add_ints (ofInt_val _) (prod_val _ _ (by omega))

theorem armMax_ints (x y : ℤ) : armMax neon32 (ofInt x) (ofInt y) = armMax (binary32 true) (ofInt x) (ofInt y) := by
  rw [NeonF.armMax_int, NeonF.armMax_int]

/-- Default NaN. -/
theorem default_nan {x : Fl} (h : IsNan x) (y : Fl) : armMin neon32 x y = .nan 0 ∧ armMin neon32 y x = .nan 0 := by
  cases x <;> first | exact h.elim | skip
  cases y <;> exact ⟨rfl, rfl⟩

end Ruy.Arm32.Flow

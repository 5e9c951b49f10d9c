import Verif.NeonF.Whole
import Verif.FloatErr.Binary32
import Mathlib.Algebra.BigOperators.Group.Finset.Basic
import Mathlib.Algebra.BigOperators.Intervals
/-
C70: `KernelFloatNeon`, `KernelFloatNeonX1`, `KernelFloatNeonA55ish`, `KernelFloatNeonDotprodA55ish`
(kernel_arm64.cc:7695-9784).

The models are the instruction sequences of the `asm` statements (`fltCode`, `fxCode`, `faCode`,
`fdCode`), run on a machine with registers and memory.  Arithmetic on floats is arbitrary
(`Ops`).

  c70_x1, c70_a55, c70_dotprod_a55   products added in the order of the depth
  c70_generic     another order outside the first quarters of the 8x8 blocks
  c70_shallow     the four agree below depth 8
  c70_complete    each order takes every level of depth once
  c70_exact       so that all agree, and are the matrix product, in exact arithmetic
  c70_differ      but not in binary32
  c70_depth0      depth 0: reads beyond an empty packed matrix
-/
namespace Ruy.NeonF
variable {A : Type}

/-- Entry (`r`, `c`) with products added in the order `L r c`. -/
def entryOf (j : Job A) (L : Nat → Nat → List Nat) (r c : Nat) : A := j.outOf (j.sumOf (L r c) r c) r c

/-- Every entry adds up its products by increasing depth. -/
def increasing (d : Nat) (_ _ : Nat) : List Nat := List.range d

/-- The order of `KernelFloatNeon`: from depth 8 on, outside of the first four rows and columns of an 8x8
block, level `t` (the first of the last complete four) is added after the three levels that follow it. -/
def delayed (d r c : Nat) : List Nat :=
  let t := 4 * (d / 4) - 4
  if d < 8 ∨ (r % 8 < 4 ∧ c % 8 < 4) then List.range d
  else List.range t ++ [t + 1, t + 2, t + 3, t] ++ (List.range (d % 4)).map (t + 4 + ·)

theorem delayed_eq (d r c : Nat) : orderOf (inOrder d) (unrolled d) (r % 8) (c % 8) = delayed d r c := by
  unfold orderOf inOrder unrolled delayed
  by_cases h : r % 8 < 4 ∧ c % 8 < 4
  · rw [if_pos h, if_pos (.inr h)]
  · rw [if_neg h]
    by_cases h8 : d < 8
    · rw [if_pos h8, if_pos (.inl h8)]
    · rw [if_neg h8, if_neg (by tauto), List.range'_eq_map_range]
      have e1 : 4 * (d / 4) - 3 = 4 * (d / 4) - 4 + 1 := by omega
      have e2 : 4 * (d / 4) - 2 = 4 * (d / 4) - 4 + 2 := by omega
      have e3 : 4 * (d / 4) - 1 = 4 * (d / 4) - 4 + 3 := by omega
      have e4 : d - 4 * (d / 4) = d % 4 := by omega
      have e5 : 4 * (d / 4) = 4 * (d / 4) - 4 + 4 := by omega
      rw [e1, e2, e3, e4]
      conv_lhs => rw [e5]
      simp only [Nat.add_sub_cancel]

theorem inOrder_eq (d r c : Nat) : orderOf (inOrder d) (inOrder d) (r % 8) (c % 8) = increasing d r c := by
  unfold orderOf increasing inOrder
  exact ite_self _

theorem run_of {P : List Block} {o : Nat} {cnt : Nat → Nat} {ord : Nat → List Nat} (hP : Prog P o cnt ord) {j : Job A}
    (hf : j.Fits) (hb : j.NoBias) {s : St A} (h : j.Start s) {L : Nat → Nat → List Nat}
    (hL : ∀ r c, orderOf (inOrder j.depth) (ord j.depth) (r % 8) (c % 8) = L r c) :
    ∃ s', Stops j.env P s s' ∧ j.Result (entryOf j L) s' := by
  obtain ⟨s', h1, h2⟩ := finished hP hf h
  have e : entryAt ord j = entryOf j L := by
    funext r c
    rw [entryAt_eq ord hb, hL]
    rfl
  exact ⟨s', h1, e ▸ h2⟩

/-- C70: `KernelFloatNeonX1` stops, does nothing undefined, stores in every entry of the call that is inside the destination
the sum of the products by increasing depth, with bias and clamped, and changes nothing else. -/
theorem c70_x1 {j : Job A} (hf : j.Fits) (hb : j.NoBias) {s : St A} (h : j.Start s) :
    ∃ s', Stops j.env fxCode s s' ∧ j.Result (entryOf j (increasing j.depth)) s' :=
  run_of fxProg hf hb h (inOrder_eq _)

/-- C70: so does `KernelFloatNeonA55ish`. -/
theorem c70_a55 {j : Job A} (hf : j.Fits) (hb : j.NoBias) {s : St A} (h : j.Start s) :
    ∃ s', Stops j.env faCode s s' ∧ j.Result (entryOf j (increasing j.depth)) s' :=
  run_of faProg hf hb h (inOrder_eq _)

/-- C70: and `KernelFloatNeonDotprodA55ish`. -/
theorem c70_dotprod_a55 {j : Job A} (hf : j.Fits) (hb : j.NoBias) {s : St A} (h : j.Start s) :
    ∃ s', Stops j.env fdCode s s' ∧ j.Result (entryOf j (increasing j.depth)) s' :=
  run_of fdProg hf hb h (inOrder_eq _)

/-- C70: `KernelFloatNeon` does the same with the order `delayed`. -/
theorem c70_generic {j : Job A} (hf : j.Fits) (hb : j.NoBias) {s : St A} (h : j.Start s) :
    ∃ s', Stops j.env fltCode s s' ∧ j.Result (entryOf j (delayed j.depth)) s' :=
  run_of fltProg hf hb h (delayed_eq _)

/-- The final state is determined by the initial one. -/
theorem c70_deterministic {j : Job A} {P : List Block} {s a b : St A} (ha : Stops j.env P s a) (hb : Stops j.env P s b) :
    a = b := stops_unique ha hb

/-- C70: below depth 8 the four kernels compute the same. -/
theorem c70_shallow {d : Nat} (h : d < 8) : delayed d = increasing d := by
  funext r c
  unfold delayed increasing
  exact if_pos (.inl h)

/-- C70: the order of `KernelFloatNeon` takes every level of depth once. -/
theorem c70_complete (d r c : Nat) : (delayed d r c).Perm (List.range d) := by
  unfold delayed
  dsimp only
  split
  · exact List.Perm.refl _
  · rename_i h
    have h8 : 8 ≤ d := by omega
    generalize ht : 4 * (d / 4) - 4 = t
    have e : List.range d = List.range t ++ [t, t + 1, t + 2, t + 3] ++ (List.range (d % 4)).map (t + 4 + ·) := by
      have hd : d = (t + 4) + d % 4 := by omega
      conv_lhs => rw [hd, List.range_add, List.range_add]
      rfl
    rw [e]
    refine List.Perm.append_right _ (List.Perm.append_left _ ?_)
    exact (List.perm_append_comm (l₁ := [t + 1, t + 2, t + 3]) (l₂ := [t]))

/-! ### Exact arithmetic -/

/-- Operations without rounding. -/
structure Exact {R : Type} [CommSemiring R] (o : Ops R) : Prop where
  zero : o.zero = 0
  fma : ∀ d n m, o.fma d n m = d + n * m
  add : ∀ a b, o.add a b = a + b

theorem foldl_sum {R : Type} [CommSemiring R] (g : Nat → R) (L : List Nat) (z : R) :
    L.foldl (fun d k => d + g k) z = z + (L.map g).sum := by
  induction L generalizing z with
  | nil => simp
  | cons a L ih => rw [List.foldl_cons, ih, List.map_cons, List.sum_cons, add_assoc]

theorem sum_range {R : Type} [CommSemiring R] (g : Nat → R) (n : Nat) :
    ((List.range n).map g).sum = ∑ k ∈ Finset.range n, g k := by
  induction n with
  | zero => rfl
  | succ n ih => rw [List.range_succ, List.map_append, List.sum_append, ih, Finset.sum_range_succ]; simp

/-- C70: in exact arithmetic an entry is the sum of the products plus the bias, clamped, for each of the
kernels. -/
theorem c70_exact {R : Type} [CommSemiring R] {j : Job R} (ho : Exact j.ops) {L : Nat → Nat → List Nat} {r c : Nat}
    (hL : (L r c).Perm (List.range j.depth)) :
    entryOf j L r c = j.ops.min (j.ops.max ((∑ k ∈ Finset.range j.depth, j.lhsAt r k * j.rhsAt c k) + j.biasOf r c)
      j.clampMin) j.clampMax := by
  unfold entryOf Job.outOf Job.sumOf
  have e : (fun (d : R) k => j.ops.fma d (j.lhsAt r k) (j.rhsAt c k)) = fun d k => d + j.lhsAt r k * j.rhsAt c k := by
    funext d k
    exact ho.fma _ _ _
  rw [e, foldl_sum, (hL.map _).sum_eq, sum_range, ho.add, ho.zero, zero_add]

/-! ### Binary32 -/

open Ruy.Float (Fl) in
/-- FMAX, FMIN: a NaN operand gives a NaN; +0 is greater than -0. -/
def armMax (e : Float.Env) : Fl → Fl → Fl
  | .nan p, .nan q => .nan (e.nan2 p q)
  | .nan p, _ => .nan (e.nan1 p)
  | _, .nan q => .nan (e.nan1 q)
  | .zero s, .zero t => .zero (s && t)
  | x, y => if Fl.lt x y then y else x

open Ruy.Float (Fl) in
@[inherit_doc armMax] def armMin (e : Float.Env) : Fl → Fl → Fl
  | .nan p, .nan q => .nan (e.nan2 p q)
  | .nan p, _ => .nan (e.nan1 p)
  | _, .nan q => .nan (e.nan1 q)
  | .zero s, .zero t => .zero (s || t)
  | x, y => if Fl.lt y x then y else x

/-- Arithmetic of the processor in a floating-point environment.  FMLA rounds once. -/
def armOps (e : Float.Env) : Ops Float.Fl where
  zero := .zero false
  fma d n m := FloatErr.fma e n m d
  add := e.add
  max := armMax e
  min := armMin e

/-! ### Examples -/

/-- The state at the start of the `asm` statement; other registers are arbitrary. -/
def exStart (j : Job A) : St A where
  x r := match r with
    | 32 => .ptr .lhs (4 * j.lhsBase)
    | 33 => .ptr .rhs (4 * j.rhsBase)
    | 34 => .ptr .lhs (4 * j.lhsBase)
    | 35 => .ptr .rhs (4 * j.rhsBase)
    | 36 => .ptr .dst (4 * j.dstBase)
    | 37 => .ptr .dst (4 * j.dstBase)
    | 38 => .int j.startRow
    | 39 => .int j.startCol
    | 40 => .int j.dstRows
    | 41 => .int j.dstCols
    | 42 => .ptr .tmp 0
    | r => .int (1000 + r)
  v _ _ := j.ops.zero
  m := j.m
  z := false
  lt := true
  bad := false

theorem exStart_ok (j : Job A) : j.Start (exStart j) := by
  constructor <;> first | rfl | (intros; rfl)

/-- Integers. -/
def intOps : Ops ℤ := ⟨0, fun d n m => d + n * m, (· + ·), max, min⟩

theorem intOps_exact : Exact intOps := ⟨rfl, fun _ _ _ => rfl, fun _ _ => rfl⟩

/-- 16x16 entries from (8, 16) of a 20x27 destination, of which 12x11 are inside; depth 10. -/
def exJob (o : Ops A) (lo hi : A) (m : Region → Nat → A) : Job A where
  startRow := 8
  startCol := 16
  rowSteps := 1
  colSteps := 1
  depth := 10
  lhsBase := 80
  rhsBase := 160
  dstBase := 100
  lhsStride := 10
  rhsStride := 12
  dstStride := 21
  dstRows := 20
  dstCols := 27
  clampMin := lo
  clampMax := hi
  hasBias := true
  chanCol := true
  size := fun _ => 360
  m := m
  ops := o

theorem exFits (o : Ops A) (lo hi : A) (m : Region → Nat → A) : (exJob o lo hi m).Fits := by
  constructor
  case dst =>
    intro r c h1 h2 h3 h4
    simp only [exJob] at *
    omega
  all_goals simp [exJob, Job.lastRow, Job.lastCol, Job.channels]

theorem exNoBias (o : Ops A) (lo hi : A) (m : Region → Nat → A) : (exJob o lo hi m).NoBias := nofun

/-- The hypotheses are met; entry (5, 2) of the call, in exact arithmetic, is the same for all kernels. -/
example : let j := exJob intOps (-1000000) 1000000 (fun _ o => o); ∃ s a b c d, j.Start s ∧
    Stops j.env fltCode s a ∧ Stops j.env fxCode s b ∧ Stops j.env faCode s c ∧ Stops j.env fdCode s d ∧
    a.m .dst (j.addr 5 2) = 244878 ∧ b.m .dst (j.addr 5 2) = 244878 ∧
    c.m .dst (j.addr 5 2) = 244878 ∧ d.m .dst (j.addr 5 2) = 244878 := by
  intro j
  obtain ⟨a, a1, a2⟩ := c70_generic (exFits intOps (-1000000) 1000000 fun _ o => o) (exNoBias _ _ _ _) (exStart_ok _)
  obtain ⟨b, b1, b2⟩ := c70_x1 (exFits intOps (-1000000) 1000000 fun _ o => o) (exNoBias _ _ _ _) (exStart_ok _)
  obtain ⟨c, c1, c2⟩ := c70_a55 (exFits intOps (-1000000) 1000000 fun _ o => o) (exNoBias _ _ _ _) (exStart_ok _)
  obtain ⟨d, d1, d2⟩ := c70_dotprod_a55 (exFits intOps (-1000000) 1000000 fun _ o => o) (exNoBias _ _ _ _) (exStart_ok _)
  have hi : j.Inside 5 2 := by unfold Job.Inside; decide
  have e : ∀ L : Nat → Nat → List Nat, (L 5 2).Perm (List.range j.depth) → entryOf j L 5 2 = 244878 := fun L hL =>
    (c70_exact intOps_exact hL).trans (by decide +kernel)
  exact ⟨_, a, b, c, d, exStart_ok _, a1, b1, c1, d1, (a2.entry 5 2 hi).trans (e _ (c70_complete _ _ _)),
    (b2.entry 5 2 hi).trans (e _ (List.Perm.refl _)), (c2.entry 5 2 hi).trans (e _ (List.Perm.refl _)),
    (d2.entry 5 2 hi).trans (e _ (List.Perm.refl _))⟩

/-- One block of depth 8; levels 4, 5, 6 of the LHS are 2^24, 1, 1, all else is zero; the RHS is 1. -/
def badJob : Job Float.Fl where
  startRow := 0
  startCol := 0
  rowSteps := 0
  colSteps := 0
  depth := 8
  lhsBase := 0
  rhsBase := 0
  dstBase := 0
  lhsStride := 8
  rhsStride := 8
  dstStride := 8
  dstRows := 8
  dstCols := 8
  clampMin := .inf true
  clampMax := .inf false
  hasBias := false
  chanCol := false
  size := fun _ => 64
  m := fun r o => match r with
    | .lhs => if o / 8 = 4 then .fin (2 ^ 24) else if o / 8 = 5 ∨ o / 8 = 6 then .fin 1 else .zero false
    | .rhs => .fin 1
    | _ => .zero false
  ops := armOps (FloatErr.binary32 false)

theorem badFits : badJob.Fits := by
  constructor
  case dst =>
    intro r c h1 h2 h3 h4
    simp only [badJob] at *
    omega
  all_goals simp [badJob, Job.lastRow, Job.lastCol]

theorem badNoBias : badJob.NoBias := fun _ _ _ => rfl

/-- C70: in binary32 the kernels differ: entry (4, 0) is 2^24 + 2 with `KernelFloatNeon`, 2^24 with the others; and the
entries (0, 0) and (4, 0) of `KernelFloatNeon`, computed from equal rows and columns, are different. -/
theorem c70_differ : ∃ j : Job Float.Fl, j.ops = armOps (FloatErr.binary32 false) ∧ j.Fits ∧ j.NoBias ∧ ∃ s a b, j.Start s ∧
    Stops j.env fltCode s a ∧ Stops j.env fxCode s b ∧ j.Inside 4 0 ∧ (∀ k, j.lhsAt 0 k = j.lhsAt 4 k) ∧
    a.m .dst (j.addr 4 0) = .fin (2 ^ 24 + 2) ∧ a.m .dst (j.addr 0 0) = .fin (2 ^ 24) ∧
    b.m .dst (j.addr 4 0) = .fin (2 ^ 24) := by
  obtain ⟨a, a1, a2⟩ := c70_generic badFits badNoBias (exStart_ok badJob)
  obtain ⟨b, b1, b2⟩ := c70_x1 badFits badNoBias (exStart_ok badJob)
  have h0 : badJob.Inside 0 0 := by unfold Job.Inside; decide
  have h4 : badJob.Inside 4 0 := by unfold Job.Inside; decide
  refine ⟨badJob, rfl, badFits, badNoBias, _, a, b, exStart_ok _, a1, b1, h4, fun k => ?_, ?_, ?_, ?_⟩
  · simp only [Job.lhsAt, badJob]
    have : (0 + 0 / 8 * (8 * 8) + 8 * k + 0 % 8) / 8 = (0 + 4 / 8 * (8 * 8) + 8 * k + 4 % 8) / 8 := by omega
    rw [this]
  · rw [a2.entry 4 0 h4]; decide +kernel
  · rw [a2.entry 0 0 h0]; decide +kernel
  · rw [b2.entry 4 0 h4]; decide +kernel

/-- C70: depth 0.  After the first few instructions each of the kernels has read beyond a packed matrix of depth 0. -/
theorem c70_depth0 {j : Job A} {s : St A} (h : j.Start s) (h0 : j.size .lhs = 0) :
    ∀ P ∈ [fltCode, fxCode, faCode, fdCode], (run j.env P 1 (0, s)).2.bad = true := by
  have key : ∀ {P : List Block} {o : Nat} {cnt : Nat → Nat} {ord : Nat → List Nat}, Prog P o cnt ord →
      (run j.env P 1 (0, s)).2.bad = true := by
    intro P o cnt ord hP
    obtain ⟨b, hb1, hb2, hb3⟩ := hP.first
    have hb := (hb3 j s).bad
    have e : run j.env P 1 (0, s) = (next (exec j.env b.body s) b.term, exec j.env b.body s) := by
      show bstep j.env P (0, s) = _
      unfold bstep
      rw [hb1]
    have ho : out j.env (addN (s.x Neon.lhsPtr) 0) 0 4 = true := by
      rw [h.lhsP]
      show out j.env (.ptr .lhs (4 * j.lhsBase)) 0 4 = true
      have : j.env.size .lhs = 0 := h0
      simp [out, Val.region, this]
    rw [e]
    show (exec j.env b.body s).bad = true
    rw [hb, ho]
    simp
  intro P hP
  simp only [List.mem_cons, List.not_mem_nil, or_false] at hP
  rcases hP with rfl | rfl | rfl | rfl
  · exact key fltProg
  · exact key fxProg
  · exact key faProg
  · exact key fdProg

example : ∃ (j : Job Unit) (s : St Unit), j.Start s ∧ j.size .lhs = 0 ∧ j.depth = 0 :=
  ⟨{ exJob ⟨(), fun _ _ _ => (), fun _ _ => (), fun _ _ => (), fun _ _ => ()⟩ () () (fun _ _ => ()) with
    depth := 0, size := fun r => if r = .lhs then 0 else 360 }, _, exStart_ok _, rfl, rfl⟩

end Ruy.NeonF

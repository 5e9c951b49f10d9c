import Verif.NeonF.FlowRun
/-
Property C73: multiplication of float matrices on the AArch64 paths kNeon and kNeonDotprod, packing and kernels together.

  c73_any_order     pack calls and kernel calls in any order that packs before it multiplies, any blocks, each call with
                    any tuning: they stop without a fault; every entry of a kernel block holds the sum of products, in the
                    order of the kernel of a call that covers it, plus bias, clamped; the rest of the destination and the
                    inputs have not changed
  c73_same          two such orders that write the same entries, each with kernels that add up in the same order, leave the
                    same destination, whatever was in the packed buffers before
  c73_shallow       below depth 8 the tunings do not matter
  c73_simple_loop   the simple loop of TrMul writes every entry
  c73_near          distance to the exact result, whatever the tunings
  c73_binary32      the same for binary32 rounded to nearest
  c73_integers      small integers: exact, whatever the tunings
  c73_nan           a NaN in the operands or the bias is stored as a NaN
  c73_differ        from depth 8 on the tunings matter: a multiplication whose result depends on them
-/
namespace Ruy.NeonF.Flow
open Ruy.Mat Ruy.Mul
open Ruy.Float Ruy.FloatErr
open Ruy.XFloat (isum)
open Ruy.Simd.Flow (Op Covered Written)
open Ruy.Neon.Flow (at')
open Ruy.Tune (Tuning)
variable {A : Type}

/-- Memory after the calls `ops`. -/
structure Done (t : Task A) (ops : List (Tuning × Op)) (m m' : Mach A) : Prop where
  src : m'.src = m.src
  bias : m'.bias = m.bias
  entry : ∀ i j, i < t.dst.layout.rows → j < t.dst.layout.cols → Written (ops.map (·.2)) i j →
    ∃ u, WrittenWith ops u i j ∧ m'.dst (place t i j) = stored t m u i j
  rest : ∀ o, (∀ i j, i < t.dst.layout.rows → j < t.dst.layout.cols → Written (ops.map (·.2)) i j → o ≠ place t i j) →
    m'.dst o = m.dst o

/-- C73: any order of the calls, any tunings. -/
theorem c73_any_order {t : Task A} {m : Mach A} {ops : List (Tuning × Op)} (h : TaskOk t) (ho : Ordered t (ops.map (·.2))) :
    (∃ r, Runs t ops m r) ∧ ∀ r, Runs t ops m r → ∃ m', r = .ok m' ∧ Done t ops m m' := by
  obtain ⟨h1, h2⟩ := runs_inv (m0 := m) h ho
  refine ⟨h1, fun r hr => ?_⟩
  obtain ⟨m', e, hI⟩ := h2 r hr
  exact ⟨m', e, hI.kept.src, hI.kept.bias, hI.entry, hI.rest⟩

/-- The same inputs and previous contents of the destination; the packed buffers may differ. -/
structure SameInputs (m m' : Mach A) : Prop where
  src : m'.src = m.src
  bias : m'.bias = m.bias
  dst : m'.dst = m.dst

theorem stored_same {t : Task A} {m m' : Mach A} (h : SameInputs m m') (u : Tuning) (i j : Nat) :
    stored t m' u i j = stored t m u i j := by
  unfold stored sumIn elem biasAt
  rw [h.src, h.bias]

/-- The tunings whose kernels add up by increasing depth. -/
def ascending : Tuning → Bool
  | .a55ish | .x1 => true
  | .auto | .generic => false

theorem stored_class {t : Task A} {m : Mach A} {u u' : Tuning} (h : ascending u = ascending u') (i j : Nat) :
    stored t m u i j = stored t m u' i j := by
  have : levels u = levels u' := by cases u <;> cases u' <;> first | rfl | cases h
  unfold stored
  rw [this]

/-- C73: order of the calls, choice of blocks and previous contents of the packed buffers do not matter. -/
theorem c73_same {t : Task A} {m m' : Mach A} {ops ops' : List (Tuning × Op)} (h : TaskOk t) (hm : SameInputs m m')
    (ho : Ordered t (ops.map (·.2))) (ho' : Ordered t (ops'.map (·.2)))
    (hw : ∀ i j, i < t.dst.layout.rows → j < t.dst.layout.cols → (Written (ops.map (·.2)) i j ↔ Written (ops'.map (·.2)) i j))
    (hu : ∀ i j u u', WrittenWith ops u i j → WrittenWith ops' u' i j → ascending u = ascending u')
    {r r' : C (Mach A)} (hr : Runs t ops m r) (hr' : Runs t ops' m' r') :
    ∃ a b, r = .ok a ∧ r' = .ok b ∧ b.dst = a.dst := by
  obtain ⟨a, e, ha⟩ := (c73_any_order h ho).2 r hr
  obtain ⟨b, e', hb⟩ := (c73_any_order h ho').2 r' hr'
  refine ⟨a, b, e, e', ?_⟩
  funext o
  by_cases hx : ∃ i j, i < t.dst.layout.rows ∧ j < t.dst.layout.cols ∧ Written (ops.map (·.2)) i j ∧ o = place t i j
  · obtain ⟨i, j, h1, h2, h3, rfl⟩ := hx
    obtain ⟨u, w, e⟩ := ha.entry i j h1 h2 h3
    obtain ⟨u', w', e'⟩ := hb.entry i j h1 h2 ((hw i j h1 h2).1 h3)
    rw [e, e', stored_same hm, stored_class (hu i j u u' w w')]
  · rw [ha.rest o (fun i j h1 h2 h3 e => hx ⟨i, j, h1, h2, h3, e⟩),
      hb.rest o (fun i j h1 h2 h3 e => hx ⟨i, j, h1, h2, (hw i j h1 h2).2 h3, e⟩), hm.dst]

theorem stored_shallow {t : Task A} {m : Mach A} (hd : depth t < 8) (u u' : Tuning) (i j : Nat) :
    stored t m u i j = stored t m u' i j := by
  have : ∀ u, levels u (depth t) i j = List.range (depth t) := fun u => by
    cases u <;> first | rfl | exact congrFun (congrFun (c70_shallow hd) i) j
  unfold stored
  rw [this, this]

/-- C73: below depth 8 tunings do not matter either. -/
theorem c73_shallow {t : Task A} {m m' : Mach A} {ops ops' : List (Tuning × Op)} (h : TaskOk t) (hd : depth t < 8) (hm : SameInputs m m')
    (ho : Ordered t (ops.map (·.2))) (ho' : Ordered t (ops'.map (·.2)))
    (hw : ∀ i j, i < t.dst.layout.rows → j < t.dst.layout.cols → (Written (ops.map (·.2)) i j ↔ Written (ops'.map (·.2)) i j))
    {r r' : C (Mach A)} (hr : Runs t ops m r) (hr' : Runs t ops' m' r') :
    ∃ a b, r = .ok a ∧ r' = .ok b ∧ b.dst = a.dst := by
  obtain ⟨a, e, ha⟩ := (c73_any_order h ho).2 r hr
  obtain ⟨b, e', hb⟩ := (c73_any_order h ho').2 r' hr'
  refine ⟨a, b, e, e', ?_⟩
  funext o
  by_cases hx : ∃ i j, i < t.dst.layout.rows ∧ j < t.dst.layout.cols ∧ Written (ops.map (·.2)) i j ∧ o = place t i j
  · obtain ⟨i, j, h1, h2, h3, rfl⟩ := hx
    obtain ⟨u, -, e⟩ := ha.entry i j h1 h2 h3
    obtain ⟨u', -, e'⟩ := hb.entry i j h1 h2 ((hw i j h1 h2).1 h3)
    rw [e, e', stored_same hm, stored_shallow hd u' u]
  · rw [ha.rest o (fun i j h1 h2 h3 e => hx ⟨i, j, h1, h2, h3, e⟩),
      hb.rest o (fun i j h1 h2 h3 e => hx ⟨i, j, h1, h2, (hw i j h1 h2).2 h3, e⟩), hm.dst]

theorem simple_ordered {t : Task A} (h : TaskOk t) (u : Tuning) (h0 : 0 < t.dst.layout.rows) (h1 : 0 < t.dst.layout.cols) :
    Ordered t ((simpleOps t u).map (·.2)) := by
  have whole : ∀ s, 0 < (t.src.get s).layout.cols →
      Simd.Flow.Block 8 (t.packed.get s).layout.cols 0 (t.packed.get s).layout.cols := fun s hs => by
    obtain ⟨-, -, l3, -, l5⟩ := (h.side s).facts
    exact ⟨Nat.zero_mod _, l5, by omega, Nat.le_refl _⟩
  have bl := whole .lhs (by show 0 < t.src.lhs.layout.cols; rw [← h.drows]; exact h0)
  have br := whole .rhs (by show 0 < t.src.rhs.layout.cols; rw [← h.dcols]; exact h1)
  refine ⟨fun s lo hi hm => ?_, fun start stop hm s => ?_, fun pre start stop post he s c hlo hhi _ => ?_⟩
  · simp only [simpleOps, List.map_cons, List.map_nil, List.mem_cons, List.not_mem_nil, or_false, reduceCtorEq, Op.pack.injEq] at hm
    rcases hm with ⟨rfl, rfl, rfl⟩ | ⟨rfl, rfl, rfl⟩
    · exact bl
    · exact br
  · simp only [simpleOps, List.map_cons, List.map_nil, List.mem_cons, List.not_mem_nil, or_false, reduceCtorEq, false_or,
      Op.kernel.injEq] at hm
    obtain ⟨rfl, rfl⟩ := hm
    cases s
    · exact bl
    · exact br
  · simp only [simpleOps, List.map_cons, List.map_nil] at he
    rcases pre with _ | ⟨a, _ | ⟨b, _ | ⟨c', rest⟩⟩⟩
    · cases he
    · cases he
    · cases he
      cases s
      · exact ⟨0, _, by simp, Nat.zero_le _, hhi⟩
      · exact ⟨0, _, by simp, Nat.zero_le _, hhi⟩
    · injection he with _ he
      injection he with _ he
      injection he with _ he
      exact absurd (congrArg List.length he) (by simp)

/-- What a complete multiplication leaves if each kernel call has a tuning in `U`: every entry, and nothing else in the
destination or the inputs changed. -/
structure Multiplied (U : Tuning → Prop) (t : Task A) (m m' : Mach A) : Prop where
  src : m'.src = m.src
  bias : m'.bias = m.bias
  entry : ∀ i j, i < t.dst.layout.rows → j < t.dst.layout.cols → ∃ u, U u ∧ m'.dst (place t i j) = stored t m u i j
  rest : ∀ o, (∀ i j, i < t.dst.layout.rows → j < t.dst.layout.cols → o ≠ place t i j) → m'.dst o = m.dst o

/-- C73: the simple loop of TrMul writes every entry of a non-empty destination, and nothing else. -/
theorem c73_simple_loop {t : Task A} {m : Mach A} (u : Tuning) (h : TaskOk t) (h0 : 0 < t.dst.layout.rows) (h1 : 0 < t.dst.layout.cols) :
    (∃ r, Runs t (simpleOps t u) m r) ∧ ∀ r, Runs t (simpleOps t u) m r → ∃ m', r = .ok m' ∧ Multiplied (· = u) t m m' := by
  obtain ⟨e, hv⟩ := c73_any_order (m := m) h (simple_ordered h u h0 h1)
  refine ⟨e, fun r hr => ?_⟩
  obtain ⟨m', rfl, hd⟩ := hv r hr
  refine ⟨m', rfl, hd.src, hd.bias, fun i j hi hj => ?_, fun o ho => hd.rest o (fun i j hi hj _ => ho i j hi hj)⟩
  obtain ⟨-, -, ll, -⟩ := (h.side .lhs).facts
  obtain ⟨-, -, lr, -⟩ := (h.side .rhs).facts
  simp only [SidePair.get_lhs, SidePair.get_rhs] at ll lr
  have := h.drows
  have := h.dcols
  obtain ⟨u', ⟨a, b, w, -⟩, e⟩ := hd.entry i j hi hj ⟨⟨0, 0⟩, ⟨t.packed.lhs.layout.cols, t.packed.rhs.layout.cols⟩,
    by simp [simpleOps], Nat.zero_le _, by dsimp only; omega, Nat.zero_le _, by dsimp only; omega⟩
  refine ⟨u', ?_, e⟩
  simp only [simpleOps, List.mem_cons, List.not_mem_nil, or_false, Prod.mk.injEq, reduceCtorEq, and_false, false_or] at w
  exact w.1

/-! ### Values -/

/-- A single entry as a call of a kernel. -/
def viewJob (t : Task A) (m : Mach A) (i j : Nat) : Job A where
  startRow := i
  startCol := j
  rowSteps := 0
  colSteps := 0
  depth := depth t
  lhsBase := 0
  rhsBase := 0
  dstBase := 0
  lhsStride := depth t
  rhsStride := depth t
  dstStride := 8
  dstRows := t.dst.layout.rows
  dstCols := t.dst.layout.cols
  clampMin := t.mp.clampMin
  clampMax := t.mp.clampMax
  hasBias := t.mp.bias.isSome
  chanCol := decide (t.mp.chan = .col)
  size := fun _ => 0
  m := fun r o => match r with
    | .lhs => elem t m .lhs (o / 8) i
    | .rhs => elem t m .rhs (o / 8) j
    | .bias => m.bias o
    | _ => t.ops.zero
  ops := t.ops

theorem view_lhs (t : Task A) (m : Mach A) (i j k : Nat) : (viewJob t m i j).lhsAt 0 k = elem t m .lhs k i := by
  show elem t m .lhs ((0 + 0 / 8 * (8 * depth t) + 8 * k + 0 % 8) / 8) i = _
  rw [show (0 + 0 / 8 * (8 * depth t) + 8 * k + 0 % 8) / 8 = k by omega]

theorem view_rhs (t : Task A) (m : Mach A) (i j k : Nat) : (viewJob t m i j).rhsAt 0 k = elem t m .rhs k j := by
  show elem t m .rhs ((0 + 0 / 8 * (8 * depth t) + 8 * k + 0 % 8) / 8) j = _
  rw [show (0 + 0 / 8 * (8 * depth t) + 8 * k + 0 % 8) / 8 = k by omega]

theorem view_bias (t : Task A) (m : Mach A) (i j : Nat) :
    (viewJob t m i j).biasOf 0 0 = biasAt t m (channelOf t.mp.chan i j) := by
  unfold Job.biasOf biasAt
  show (if t.mp.bias.isSome = true then m.bias (if decide (t.mp.chan = .col) = true then j + 0 else i + 0) else t.ops.zero) = _
  cases t.mp.chan <;> rfl

theorem view_entry (t : Task A) (m : Mach A) (u : Tuning) (i j : Nat) :
    entryOf (viewJob t m i j) (fun _ _ => levels u (depth t) i j) 0 0 = stored t m u i j := by
  unfold entryOf Job.outOf stored Job.sumOf sumIn
  simp only [view_lhs, view_rhs, view_bias]
  rfl

/-- The values that entry (i, j) is computed from. -/
structure Values (t : Task Fl) (m : Mach Fl) (i j : Nat) (a b : Nat → ℚ) (bias : ℚ) : Prop where
  lhs : ∀ k, k < depth t → IsVal (elem t m .lhs k i) (a k)
  rhs : ∀ k, k < depth t → IsVal (elem t m .rhs k j) (b k)
  bias : IsVal (biasAt t m (channelOf t.mp.chan i j)) bias
  lo : IsLower t.mp.clampMin
  hi : IsUpper t.mp.clampMax

/-- The exact result: sum of products and bias, clamped. -/
def exact (t : Task Fl) (a b : Nat → ℚ) (bias : ℚ) : ℚ :=
  upper t.mp.clampMax (FloatErr.lower t.mp.clampMin (FloatErr.sum bias a b (depth t)))

theorem Values.view {t : Task Fl} {m : Mach Fl} {i j : Nat} {a b : Nat → ℚ} {bias : ℚ} (h : Values t m i j a b bias) :
    NeonF.Values (viewJob t m i j) 0 0 a b bias where
  lhs k hk := by rw [view_lhs]; exact h.lhs k hk
  rhs k hk := by rw [view_rhs]; exact h.rhs k hk
  bias := by rw [view_bias]; exact h.bias
  lo := h.lo
  hi := h.hi

theorem view_complete (t : Task Fl) (m : Mach Fl) (u : Tuning) (i j : Nat) :
    Complete (viewJob t m i j) (fun _ _ => levels u (depth t) i j) := fun _ _ => levels_perm _ _ _ _

section
variable {t : Task Fl} {m m' : Mach Fl} {U : Tuning → Prop}

/-- C73: after a complete multiplication with any tunings, if operations round with relative error `u` (or absolute error
`η`), entry (i, j) is a finite number close to the exact result. -/
theorem c73_near {e : Float.Env} {u η M : ℚ} (hr : Rounding e u η M) (ho : t.ops = armOps e) (hm : Multiplied U t m m')
    {i j : Nat} (hi : i < t.dst.layout.rows) (hj : j < t.dst.layout.cols) {a b : Nat → ℚ} {bias : ℚ} (hv : Values t m i j a b bias)
    (hM : (1 + u) ^ (depth t + 1) * (mag bias a b (depth t) + depth t * η) ≤ M) :
    Near (m'.dst (place t i j)) (exact t a b bias)
      (((1 + u) ^ (depth t + 1) - 1) * mag bias a b (depth t) + (depth t + 1) * (1 + u) ^ (depth t + 1) * η) := by
  obtain ⟨w, -, e⟩ := hm.entry i j hi hj
  rw [e, ← view_entry]
  exact entry_near (j := viewJob t m i j) hr ho hv.view (view_complete t m w i j) rfl hM

/-- C73: binary32, rounding to nearest, depth below 2^23 - 1, sum of magnitudes at most 2^126. -/
theorem c73_binary32 {ftz : Bool} (ho : t.ops = armOps (binary32 ftz)) (hm : Multiplied U t m m')
    {i j : Nat} (hi : i < t.dst.layout.rows) (hj : j < t.dst.layout.cols) {a b : Nat → ℚ} {bias : ℚ} (hv : Values t m i j a b bias)
    (hd : depth t + 1 < 2 ^ 23) (hM : mag bias a b (depth t) ≤ 2 ^ (126 : ℤ)) :
    Near (m'.dst (place t i j)) (exact t a b bias)
      ((depth t + 1) * 2 ^ (-23 : ℤ) * mag bias a b (depth t) + 2 * (depth t + 1) * tiny ftz) := by
  obtain ⟨w, -, e⟩ := hm.entry i j hi hj
  rw [e, ← view_entry]
  exact entry_binary32 (j := viewJob t m i j) ho hv.view (view_complete t m w i j) rfl hd hM

/-- C73: integer operands whose products have magnitudes that add up, with the bias, to at most 2^24, are multiplied
exactly, whatever the tunings. -/
theorem c73_integers {ftz : Bool} (ho : t.ops = armOps (binary32 ftz)) (hm : Multiplied U t m m')
    {i j : Nat} (hi : i < t.dst.layout.rows) (hj : j < t.dst.layout.cols) {a b : Nat → ℤ} {bias lo hi' : ℤ}
    (hv : ∀ k, k < depth t → elem t m .lhs k i = ofInt (a k) ∧ elem t m .rhs k j = ofInt (b k))
    (hb : biasAt t m (channelOf t.mp.chan i j) = ofInt bias) (hlo : t.mp.clampMin = ofInt lo) (hhi : t.mp.clampMax = ofInt hi')
    (hs : |bias| + ∑ k ∈ Finset.range (depth t), |a k * b k| ≤ 2 ^ 24) :
    m'.dst (place t i j) = ofInt (min (max (isum bias a b (depth t)) lo) hi') := by
  obtain ⟨w, -, e⟩ := hm.entry i j hi hj
  rw [e, ← view_entry]
  exact entry_int (j := viewJob t m i j) ho (view_complete t m w i j) (fun k hk => by rw [view_lhs, view_rhs]; exact hv k hk)
    (by rw [view_bias]; exact hb) hlo hhi hs

/-- C73: a NaN in the column of the LHS, the column of the RHS, the bias or a clamp bound is stored as a NaN. -/
theorem c73_nan {e : Float.Env} (ho : t.ops = armOps e) (hm : Multiplied U t m m')
    {i j : Nat} (hi : i < t.dst.layout.rows) (hj : j < t.dst.layout.cols)
    (hn : (∃ k, k < depth t ∧ (IsNan (elem t m .lhs k i) ∨ IsNan (elem t m .rhs k j))) ∨
      IsNan (biasAt t m (channelOf t.mp.chan i j)) ∨ IsNan t.mp.clampMin ∨ IsNan t.mp.clampMax) :
    IsNan (m'.dst (place t i j)) := by
  obtain ⟨w, -, e⟩ := hm.entry i j hi hj
  rw [e, ← view_entry]
  refine entry_nan (j := viewJob t m i j) ho (view_complete t m w i j) ?_
  rw [view_bias]
  rcases hn with ⟨k, hk, hn⟩ | hn
  · exact .inl ⟨k, hk, by rw [view_lhs, view_rhs]; exact hn⟩
  · exact .inr hn

end

/-! ### Examples -/

/-- 21x13, column-major with a gap, and 21x15, row-major. -/
def exL : Source := ⟨⟨21, 13, 23, .colMajor⟩, 299⟩
def exR : Source := ⟨⟨21, 15, 17, .rowMajor⟩, 357⟩
def exP : Target := ⟨⟨21, 16, 21, .colMajor, ⟨.rowMajor, 1, 8⟩⟩, 336⟩

def exTask (dot : Bool) (ops : Ops A) (lo hi : A) : Task A where
  dot := dot
  src := ⟨exL, exR⟩
  packed := ⟨exP, exP⟩
  dst := ⟨⟨13, 15, 14, .colMajor⟩, 210⟩
  mp := ⟨some 16, .row, lo, hi⟩
  ops := ops

theorem exL_ok : SideOk exL exP where
  rows := by decide
  layout := by decide +kernel
  size := by decide
  int := by decide
  source k c hk hc := by
    have hk : k < 21 := hk
    have hc : c < 13 := hc
    show 23 * c + k < 299 ∧ 23 * c + k < _
    omega
  columns _ c hc := by
    have hc : c < 16 := hc
    show 23 * c < _
    omega

theorem exR_ok : SideOk exR exP where
  rows := by decide
  layout := by decide +kernel
  size := by decide
  int := by decide
  source k c hk hc := by
    have hk : k < 21 := hk
    have hc : c < 15 := hc
    show 17 * k + c < 357 ∧ 17 * k + c < _
    omega
  columns h := by cases h

theorem exTask_ok (dot : Bool) (ops : Ops A) (lo hi : A) : TaskOk (exTask dot ops lo hi) where
  side s := by
    cases s
    · exact exL_ok
    · exact exR_ok
  depth := rfl
  drows := rfl
  dcols := rfl
  dstride := by show 13 ≤ 14; decide
  dsize i j hi hj := by
    have hi : i < 13 := hi
    have hj : j < 15 := hj
    show j * 14 + i < 210
    omega
  dint := by
    refine ⟨by show 4 * 14 < _; decide, fun j hj => ?_⟩
    have hj : j < 15 := hj
    show j * 14 < _
    omega
  bias n hn := by cases hn; show 16 ≤ 16; decide

/-- Second block of columns packed while the first has been multiplied; one block packed twice; mixed tunings. -/
def exOps : List (Tuning × Op) :=
  [(.a55ish, .pack .rhs 8 16), (.generic, .pack .lhs 0 16), (.a55ish, .kernel ⟨0, 8⟩ ⟨16, 16⟩), (.generic, .pack .rhs 0 8), (.generic, .pack .rhs 8 16),
    (.x1, .kernel ⟨8, 0⟩ ⟨16, 8⟩), (.a55ish, .kernel ⟨0, 0⟩ ⟨8, 16⟩)]

theorem exOps_ordered (dot : Bool) (ops : Ops A) (lo hi : A) : Ordered (exTask dot ops lo hi) (exOps.map (·.2)) where
  packs s lo hi hm := by
    simp only [exOps, List.map_cons, List.map_nil, List.mem_cons, List.not_mem_nil, or_false, reduceCtorEq, false_or, Op.pack.injEq] at hm
    rcases hm with ⟨rfl, rfl, rfl⟩ | ⟨rfl, rfl, rfl⟩ | ⟨rfl, rfl, rfl⟩ | ⟨rfl, rfl, rfl⟩ <;>
      (unfold Simd.Flow.Block; show _ ∧ _ ∧ _ ∧ _ ≤ 16; decide)
  kernels start stop hm s := by
    simp only [exOps, List.map_cons, List.map_nil, List.mem_cons, List.not_mem_nil, or_false, reduceCtorEq, false_or, Op.kernel.injEq] at hm
    rcases hm with ⟨rfl, rfl⟩ | ⟨rfl, rfl⟩ | ⟨rfl, rfl⟩ <;> cases s <;>
      (unfold Simd.Flow.Block; show _ ∧ _ ∧ _ ∧ _ ≤ 16; decide)
  first pre start stop post he s c hlo hhi _ := by
    simp only [exOps, List.map_cons, List.map_nil] at he
    rcases pre with _ | ⟨a, _ | ⟨b, _ | ⟨c1, _ | ⟨d, _ | ⟨e, _ | ⟨f, _ | ⟨g, rest⟩⟩⟩⟩⟩⟩⟩
    · cases he
    · cases he
    · cases he
      cases s
      · exact ⟨0, 16, by simp, Nat.zero_le _, hhi⟩
      · exact ⟨8, 16, by simp, hlo, hhi⟩
    · cases he
    · cases he
    · cases he
      cases s
      · exact ⟨0, 16, by simp, Nat.zero_le _, hhi⟩
      · exact ⟨0, 8, by simp, Nat.zero_le _, hhi⟩
    · cases he
      cases s
      · exact ⟨0, 16, by simp, Nat.zero_le _, by have : c < 8 := hhi; omega⟩
      · by_cases h4 : c < 8
        · exact ⟨0, 8, by simp, Nat.zero_le _, h4⟩
        · exact ⟨8, 16, by simp, by omega, hhi⟩
    · injection he with _ he
      injection he with _ he
      injection he with _ he
      injection he with _ he
      injection he with _ he
      injection he with _ he
      injection he with _ he
      exact absurd (congrArg List.length he) (by simp)

theorem exOps_written {i j : Nat} (hi : i < 13) (hj : j < 15) : Written (exOps.map (·.2)) i j := by
  by_cases h : 8 ≤ j
  · exact ⟨⟨0, 8⟩, ⟨16, 16⟩, by simp [exOps], by dsimp only; omega, by dsimp only; omega, h, by dsimp only; omega⟩
  · by_cases h' : 8 ≤ i
    · exact ⟨⟨8, 0⟩, ⟨16, 8⟩, by simp [exOps], h', by dsimp only; omega, by dsimp only; omega, by dsimp only; omega⟩
    · exact ⟨⟨0, 0⟩, ⟨8, 16⟩, by simp [exOps], by dsimp only; omega, by dsimp only; omega, by dsimp only; omega, by dsimp only; omega⟩

/-- The hypotheses of `c73_any_order`: the last entry. -/
example (dot : Bool) (ops : Ops A) (lo hi : A) (m : Mach A) : ∃ m', Runs (exTask dot ops lo hi) exOps m (.ok m') ∧
    m'.dst (14 * 14 + 12) = stored (exTask dot ops lo hi) m .x1 12 14 := by
  obtain ⟨⟨r, hr⟩, hv⟩ := c73_any_order (m := m) (exTask_ok dot ops lo hi) (exOps_ordered dot ops lo hi)
  obtain ⟨m', rfl, hd⟩ := hv r hr
  obtain ⟨u, ⟨a, b, h, -⟩, e⟩ := hd.entry 12 14 (by show 12 < 13; decide) (by show 14 < 15; decide)
    (exOps_written (by decide) (by decide))
  refine ⟨m', hr, e.trans (stored_class ?_ 12 14)⟩
  simp only [exOps, List.mem_cons, List.not_mem_nil, or_false, Prod.mk.injEq, reduceCtorEq, and_false, false_or] at h
  rcases h with ⟨rfl, -⟩ | ⟨rfl, -⟩ | ⟨rfl, -⟩ <;> rfl

/-- The hypotheses of `c73_same` and `c73_simple_loop`. -/
example (dot : Bool) (ops : Ops A) (lo hi : A) {m m' : Mach A} (hm : SameInputs m m') {r r' : C (Mach A)}
    (hr : Runs (exTask dot ops lo hi) exOps m r) (hr' : Runs (exTask dot ops lo hi) (simpleOps (exTask dot ops lo hi) .a55ish) m' r') :
    ∃ a b, r = .ok a ∧ r' = .ok b ∧ b.dst = a.dst := by
  refine c73_same (exTask_ok dot ops lo hi) hm (exOps_ordered dot ops lo hi)
    (simple_ordered (exTask_ok dot ops lo hi) .a55ish (by show 0 < 13; decide) (by show 0 < 15; decide))
    (fun i j h1 h2 => ⟨fun _ => ?_, fun _ => exOps_written h1 h2⟩) (fun i j u u' h h' => ?_) hr hr'
  · have h1 : i < 13 := h1
    have h2 : j < 15 := h2
    exact ⟨⟨0, 0⟩, ⟨16, 16⟩, by simp [simpleOps, exTask, exP], by dsimp only; omega, by dsimp only; omega, by dsimp only; omega, by dsimp only; omega⟩
  · obtain ⟨_, _, h, -⟩ := h
    obtain ⟨_, _, h', -⟩ := h'
    simp only [exOps, simpleOps, List.mem_cons, List.not_mem_nil, or_false, Prod.mk.injEq, reduceCtorEq, and_false, false_or] at h h'
    rcases h with ⟨rfl, -⟩ | ⟨rfl, -⟩ | ⟨rfl, -⟩ <;> (rw [h'.1]; try rfl)

/-! ### Where tunings matter -/

/-- Depth 8, 8x8 entries; levels 4, 5, 6 of the LHS are 2^24, 1, 1, all else is zero; the RHS is 1. -/
def badTask (dot : Bool) : Task Fl where
  dot := dot
  src := ⟨⟨⟨8, 8, 8, .colMajor⟩, 64⟩, ⟨⟨8, 8, 8, .rowMajor⟩, 64⟩⟩
  packed := ⟨⟨⟨8, 8, 8, .colMajor, ⟨.rowMajor, 1, 8⟩⟩, 64⟩, ⟨⟨8, 8, 8, .colMajor, ⟨.rowMajor, 1, 8⟩⟩, 64⟩⟩
  dst := ⟨⟨8, 8, 8, .colMajor⟩, 64⟩
  mp := ⟨none, .row, .inf true, .inf false⟩
  ops := armOps (binary32 false)

def badMach : Mach Fl where
  src := ⟨fun o => if o % 8 = 4 then .fin (2 ^ 24) else if o % 8 = 5 ∨ o % 8 = 6 then .fin 1 else .zero false, fun _ => .fin 1⟩
  packed := ⟨fun _ => .zero false, fun _ => .zero false⟩
  bias := fun _ => .zero false
  dst := fun _ => .zero false

theorem badTask_ok (dot : Bool) : TaskOk (badTask dot) where
  side s := by
    show SideOk ((badTask true).src.get s) ((badTask true).packed.get s)
    cases s
    · exact ⟨by decide, by decide +kernel, by decide, by decide, fun k c hk hc => by
        have hk : k < 8 := hk
        have hc : c < 8 := hc
        show 8 * c + k < 64 ∧ 8 * c + k < _
        omega, fun _ c hc => by
        have hc : c < 8 := hc
        show 8 * c < _
        omega⟩
    · exact ⟨by decide, by decide +kernel, by decide, by decide, fun k c hk hc => by
        have hk : k < 8 := hk
        have hc : c < 8 := hc
        show 8 * k + c < 64 ∧ 8 * k + c < _
        omega, fun h => by cases h⟩
  depth := rfl
  drows := rfl
  dcols := rfl
  dstride := by show 8 ≤ 8; decide
  dsize i j hi hj := by
    have hi : i < 8 := hi
    have hj : j < 8 := hj
    show j * 8 + i < 64
    omega
  dint := by
    refine ⟨by show 4 * 8 < _; decide, fun j hj => ?_⟩
    have hj : j < 8 := hj
    show j * 8 < _
    omega
  bias n hn := by cases hn

/-- C73: on either path the simple loop with tuning kGeneric leaves 2^24 + 2 in entry (4, 0), with kA55ish or kX1 2^24. -/
theorem c73_differ (dot : Bool) : TaskOk (badTask dot) ∧
    (∃ a, Runs (badTask dot) (simpleOps (badTask dot) .generic) badMach (.ok a) ∧ a.dst 4 = .fin (2 ^ 24 + 2)) ∧
    ∀ u, ascending u = true → ∃ b, Runs (badTask dot) (simpleOps (badTask dot) u) badMach (.ok b) ∧ b.dst 4 = .fin (2 ^ 24) := by
  have key : ∀ u, ∃ a, Runs (badTask dot) (simpleOps (badTask dot) u) badMach (.ok a) ∧ a.dst 4 = stored (badTask dot) badMach u 4 0 := by
    intro u
    obtain ⟨⟨r, hr⟩, hv⟩ := c73_simple_loop (m := badMach) u (badTask_ok dot) (by show 0 < 8; decide) (by show 0 < 8; decide)
    obtain ⟨a, rfl, hM⟩ := hv r hr
    obtain ⟨u', rfl, e⟩ := hM.entry 4 0 (by show 4 < 8; decide) (by show 0 < 8; decide)
    exact ⟨a, hr, e⟩
  refine ⟨badTask_ok dot, ?_, fun u hu => ?_⟩
  · obtain ⟨a, h1, h2⟩ := key .generic
    exact ⟨a, h1, by rw [h2]; cases dot <;> decide +kernel⟩
  · obtain ⟨a, h1, h2⟩ := key u
    refine ⟨a, h1, ?_⟩
    rw [h2, stored_class (u' := .x1) hu]
    cases dot <;> decide +kernel

/-- The hypotheses of `c73_near` and `c73_binary32`. -/
example : ∃ a b, Values (badTask true) badMach 4 0 a b 0 ∧ depth (badTask true) + 1 < 2 ^ 23 ∧
    mag 0 a b (depth (badTask true)) ≤ 2 ^ (126 : ℤ) ∧ exact (badTask true) a b 0 = 2 ^ 24 + 2 := by
  refine ⟨fun k => if k = 4 then 2 ^ 24 else if k = 5 ∨ k = 6 then 1 else 0, fun _ => 1,
    ⟨fun k hk => ?_, fun k _ => rfl, rfl, rfl, rfl⟩, by decide, ?_, by decide +kernel⟩
  · have hk : k < 8 := hk
    interval_cases k <;> exact rfl
  · refine le_trans (b := 2 ^ 24 + 2) (le_of_eq (by decide +kernel)) (by norm_num)

/-- Integers: all 3 and -2, depth 21, bias 5. -/
def intMach : Mach Fl where
  src := ⟨fun _ => ofInt 3, fun _ => ofInt (-2)⟩
  packed := ⟨fun _ => .nan 3, fun _ => .nan 3⟩
  bias := fun _ => ofInt 5
  dst := fun _ => .nan 3

/-- The hypotheses of `c73_integers`. -/
example (dot : Bool) (u : Tuning) :
    ∃ m', Runs (exTask dot (armOps (binary32 false)) (ofInt (-1000)) (ofInt 1000)) (simpleOps (exTask dot (armOps (binary32 false)) (ofInt (-1000)) (ofInt 1000)) u) intMach (.ok m') ∧
      m'.dst (14 * 14 + 12) = .fin (-121) := by
  obtain ⟨⟨r, hr⟩, hv⟩ := c73_simple_loop (m := intMach) u (exTask_ok dot (armOps (binary32 false)) (ofInt (-1000)) (ofInt 1000))
    (by show 0 < 13; decide) (by show 0 < 15; decide)
  obtain ⟨m', rfl, hM⟩ := hv r hr
  exact ⟨m', hr, (c73_integers (ftz := false) rfl hM (i := 12) (j := 14) (by show 12 < 13; decide) (by show 14 < 15; decide)
    (a := fun _ => 3) (b := fun _ => -2) (bias := 5) (lo := -1000) (hi' := 1000) (fun _ _ => ⟨rfl, rfl⟩) rfl rfl rfl
    (by show |5| + ∑ k ∈ Finset.range 21, |(3 : ℤ) * -2| ≤ _; decide +kernel)).trans
    (by show ofInt (min (max (isum 5 (fun _ => 3) (fun _ => -2) 21) _) _) = _; decide +kernel)⟩

/-- The hypotheses of `c73_nan`. -/
example {m : Mach Fl} (hn : m.src.rhs 7 = .nan 9) {u : Tuning} {m' : Mach Fl}
    (hM : Multiplied (· = u) (exTask true (armOps (binary32 true)) (.fin (-1)) (.fin 1)) m m') : IsNan (m'.dst (7 * 14 + 3)) :=
  c73_nan (e := binary32 true) rfl hM (i := 3) (j := 7) (by show 3 < 13; decide) (by show 7 < 15; decide)
    (.inl ⟨0, by show 0 < 21; decide, .inr (by
      show IsNan (m.src.rhs (17 * 0 + 7))
      rw [show 17 * 0 + 7 = 7 from rfl, hn]
      trivial)⟩)

/-- The hypotheses of `c73_shallow`: depth 5. -/
def shallowTask (ops : Ops A) (lo hi : A) : Task A :=
  { exTask true ops lo hi with
    src := ⟨⟨⟨5, 13, 23, .colMajor⟩, 299⟩, ⟨⟨5, 15, 17, .rowMajor⟩, 357⟩⟩
    packed := ⟨⟨⟨5, 16, 5, .colMajor, ⟨.rowMajor, 1, 8⟩⟩, 80⟩, ⟨⟨5, 16, 5, .colMajor, ⟨.rowMajor, 1, 8⟩⟩, 80⟩⟩ }

theorem shallow_ok (ops : Ops A) (lo hi : A) : TaskOk (shallowTask ops lo hi) where
  side s := by
    show SideOk ((shallowTask (armOps (binary32 true)) (.fin 0) (.fin 0)).src.get s)
      ((shallowTask (armOps (binary32 true)) (.fin 0) (.fin 0)).packed.get s)
    cases s
    · exact ⟨by show 0 < 5; decide, by decide +kernel, by show 5 * 16 ≤ 80; decide, by show 5 * 16 < _; decide, fun k c hk hc => by
        have hk : k < 5 := hk
        have hc : c < 13 := hc
        show 23 * c + k < 299 ∧ 23 * c + k < _
        omega, fun _ c hc => by
        have hc : c < 16 := hc
        show 23 * c < _
        omega⟩
    · exact ⟨by show 0 < 5; decide, by decide +kernel, by show 5 * 16 ≤ 80; decide, by show 5 * 16 < _; decide, fun k c hk hc => by
        have hk : k < 5 := hk
        have hc : c < 15 := hc
        show 17 * k + c < 357 ∧ 17 * k + c < _
        omega, fun h => by cases h⟩
  depth := rfl
  drows := rfl
  dcols := rfl
  dstride := (exTask_ok true ops lo hi).dstride
  dsize := (exTask_ok true ops lo hi).dsize
  dint := (exTask_ok true ops lo hi).dint
  bias n hn := by cases hn; show 16 ≤ 16; decide

example (ops : Ops A) (lo hi : A) {m m' : Mach A} (hm : SameInputs m m') {r r' : C (Mach A)}
    (hr : Runs (shallowTask ops lo hi) (simpleOps (shallowTask ops lo hi) .generic) m r)
    (hr' : Runs (shallowTask ops lo hi) (simpleOps (shallowTask ops lo hi) .a55ish) m' r') :
    ∃ a b, r = .ok a ∧ r' = .ok b ∧ b.dst = a.dst :=
  c73_shallow (shallow_ok ops lo hi) (by show 5 < 8; decide) hm
    (simple_ordered (shallow_ok ops lo hi) .generic (by show 0 < 13; decide) (by show 0 < 15; decide))
    (simple_ordered (shallow_ok ops lo hi) .a55ish (by show 0 < 13; decide) (by show 0 < 15; decide)) (fun _ _ _ _ => Iff.rfl) hr hr'

end Ruy.NeonF.Flow

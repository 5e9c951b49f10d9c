import Verif.Arm32.FlowValues
/-
Property C89: multiplication of float matrices on 32-bit ARM (path kNeon), packing and kernel together.

  c89_any_order     pack calls and kernel calls in any order that packs before it multiplies, any blocks: they stop
                    without a fault; every entry of a kernel block holds the sum of products by increasing depth, plus
                    bias, clamped; the rest of the destination and the inputs have not changed
  c89_same          two such orders that write the same entries leave the same destination, whatever was in the packed
                    buffers before
  c89_simple_loop   the simple loop of TrMul writes every entry
  c89_offsets       in a 32-bit address space the condition on offsets of columns is always met for the RHS
  c89_overflow      for the LHS it is needed: a multiplication with one row whose packing computes an offset that overflows
  c89_near          distance to the exact result
  c89_binary32      the same for binary32 rounded to nearest
  c89_integers      small integers: exact
  c89_nan           a NaN in the operands or the bias is stored as a NaN
  c89_differ        AArch64 (C73) can leave another result for the same sources: products are not rounded there
-/
namespace Ruy.Arm32.Flow
open Ruy.Mat Ruy.Mul
open Ruy.Float Ruy.FloatErr
open Ruy.XFloat (isum)
open Ruy.Simd.Flow (Op Covered Written)
open Ruy.Neon.Flow (at')
open Ruy.NeonF (armOps Near IsNan)
open Ruy.NeonF.Flow (Source Target Mach elem depth biasAt sumIn place channels Values exact SameInputs)
open Ruy.Tune (Tuning)
variable {A : Type}

/-- Memory after the calls `ops`. -/
structure Done (t : Task A) (ops : List Op) (m m' : Mach A) : Prop where
  src : m'.src = m.src
  bias : m'.bias = m.bias
  entry : ∀ i j, i < t.dst.layout.rows → j < t.dst.layout.cols → Written ops i j → m'.dst (place t i j) = stored t m i j
  rest : ∀ o, (∀ i j, i < t.dst.layout.rows → j < t.dst.layout.cols → Written ops i j → o ≠ place t i j) →
    m'.dst o = m.dst o

/-- C89: any order of the calls. -/
theorem c89_any_order {t : Task A} {m : Mach A} {ops : List Op} (h : TaskOk t) (ho : Ordered t ops) :
    (∃ r, Runs t ops m r) ∧ ∀ r, Runs t ops m r → ∃ m', r = .ok m' ∧ Done t ops m m' := by
  obtain ⟨h1, h2⟩ := runs_inv (m0 := m) h ho
  refine ⟨h1, fun r hr => ?_⟩
  obtain ⟨m', e, hI⟩ := h2 r hr
  exact ⟨m', e, hI.kept.src, hI.kept.bias, hI.entry, hI.rest⟩

theorem stored_same {t : Task A} {m m' : Mach A} (h : SameInputs m m') (i j : Nat) : stored t m' i j = stored t m i j := by
  unfold stored sumIn elem biasAt
  rw [h.src, h.bias]

/-- C89: order of the calls, choice of blocks and previous contents of the packed buffers do not matter. -/
theorem c89_same {t : Task A} {m m' : Mach A} {ops ops' : List Op} (h : TaskOk t) (hm : SameInputs m m')
    (ho : Ordered t ops) (ho' : Ordered t ops')
    (hw : ∀ i j, i < t.dst.layout.rows → j < t.dst.layout.cols → (Written ops i j ↔ Written ops' i j))
    {r r' : C (Mach A)} (hr : Runs t ops m r) (hr' : Runs t ops' m' r') :
    ∃ a b, r = .ok a ∧ r' = .ok b ∧ b.dst = a.dst := by
  obtain ⟨a, e, ha⟩ := (c89_any_order h ho).2 r hr
  obtain ⟨b, e', hb⟩ := (c89_any_order h ho').2 r' hr'
  refine ⟨a, b, e, e', ?_⟩
  funext o
  by_cases hx : ∃ i j, i < t.dst.layout.rows ∧ j < t.dst.layout.cols ∧ Written ops i j ∧ o = place t i j
  · obtain ⟨i, j, h1, h2, h3, rfl⟩ := hx
    rw [ha.entry i j h1 h2 h3, hb.entry i j h1 h2 ((hw i j h1 h2).1 h3), stored_same hm]
  · rw [ha.rest o (fun i j h1 h2 h3 e => hx ⟨i, j, h1, h2, h3, e⟩),
      hb.rest o (fun i j h1 h2 h3 e => hx ⟨i, j, h1, h2, (hw i j h1 h2).2 h3, e⟩), hm.dst]

theorem simple_ordered {t : Task A} (h : TaskOk t) (h0 : 0 < t.dst.layout.rows) (h1 : 0 < t.dst.layout.cols) :
    Ordered t (simpleOps t) := by
  have whole : ∀ s, 0 < (t.src.get s).layout.cols →
      Simd.Flow.Block (cols s) (t.packed.get s).layout.cols 0 (t.packed.get s).layout.cols := fun s hs => by
    obtain ⟨-, -, l3, -, l5⟩ := (h.side s).facts
    exact ⟨Nat.zero_mod _, l5, by omega, Nat.le_refl _⟩
  have bl := whole .lhs (by show 0 < t.src.lhs.layout.cols; rw [← h.drows]; exact h0)
  have br := whole .rhs (by show 0 < t.src.rhs.layout.cols; rw [← h.dcols]; exact h1)
  refine ⟨fun s lo hi hm => ?_, fun start stop hm s => ?_, fun pre start stop post he s c hlo hhi _ => ?_⟩
  · simp only [simpleOps, List.mem_cons, List.not_mem_nil, or_false, reduceCtorEq, Op.pack.injEq] at hm
    rcases hm with ⟨rfl, rfl, rfl⟩ | ⟨rfl, rfl, rfl⟩
    · exact bl
    · exact br
  · simp only [simpleOps, List.mem_cons, List.not_mem_nil, or_false, reduceCtorEq, false_or, Op.kernel.injEq] at hm
    obtain ⟨rfl, rfl⟩ := hm
    cases s
    · exact bl
    · exact br
  · simp only [simpleOps] at he
    rcases pre with _ | ⟨a, _ | ⟨b, _ | ⟨c', rest⟩⟩⟩
    · cases he
    · cases he
    · cases he
      cases s
      · exact ⟨0, _, by simp, Nat.zero_le _, hhi⟩
      · exact ⟨0, _, by simp, Nat.zero_le _, hhi⟩
    · injection he with _ he
      injection he with _ he
      injection he with _ he
      exact absurd (congrArg List.length he) (by simp)

/-- What a complete multiplication leaves: every entry, and nothing else in the destination or the inputs changed. -/
structure Multiplied (t : Task A) (m m' : Mach A) : Prop where
  src : m'.src = m.src
  bias : m'.bias = m.bias
  entry : ∀ i j, i < t.dst.layout.rows → j < t.dst.layout.cols → m'.dst (place t i j) = stored t m i j
  rest : ∀ o, (∀ i j, i < t.dst.layout.rows → j < t.dst.layout.cols → o ≠ place t i j) → m'.dst o = m.dst o

/-- C89: the simple loop of TrMul writes every entry of a non-empty destination, and nothing else. -/
theorem c89_simple_loop {t : Task A} {m : Mach A} (h : TaskOk t) (h0 : 0 < t.dst.layout.rows) (h1 : 0 < t.dst.layout.cols) :
    (∃ r, Runs t (simpleOps t) m r) ∧ ∀ r, Runs t (simpleOps t) m r → ∃ m', r = .ok m' ∧ Multiplied t m m' := by
  obtain ⟨e, hv⟩ := c89_any_order (m := m) h (simple_ordered h h0 h1)
  refine ⟨e, fun r hr => ?_⟩
  obtain ⟨m', rfl, hd⟩ := hv r hr
  refine ⟨m', rfl, hd.src, hd.bias, fun i j hi hj => ?_, fun o ho => hd.rest o (fun i j hi hj _ => ho i j hi hj)⟩
  obtain ⟨-, -, ll, -⟩ := (h.side .lhs).facts
  obtain ⟨-, -, lr, -⟩ := (h.side .rhs).facts
  simp only [SidePair.get_lhs, SidePair.get_rhs] at ll lr
  have := h.drows
  have := h.dcols
  exact hd.entry i j hi hj ⟨⟨0, 0⟩, ⟨t.packed.lhs.layout.cols, t.packed.rhs.layout.cols⟩,
    by simp [simpleOps], Nat.zero_le _, by dsimp only; omega, Nat.zero_le _, by dsimp only; omega⟩

/-! ### Offsets of columns -/

/-- C89: with four kernel columns, the offset of a block is that of a column of the source, and no offset overflows in a
32-bit address space. -/
theorem c89_offsets {s : Source} {p : Target} (h0 : 0 < s.layout.rows)
    (hl : createPackedLayout s.layout ⟨.rowMajor, 1, 4⟩ = .ok p.layout)
    (hs : ∀ k c, k < s.layout.rows → c < s.layout.cols → at' s.layout k c < s.size) (hm : 4 * s.size ≤ 2 ^ 32) :
    s.layout.order = .colMajor → ∀ c, c < p.layout.cols → c % 4 = 0 → s.layout.stride * c < 2 ^ 31 := by
  intro ho c hc h4
  obtain ⟨hp, l1, l2, l3, l4, l5, l6, l7⟩ := createPackedLayout_ok hl
  have d2 := hp.cols
  rw [l3] at d2
  dsimp only at d2 l7
  have a := hs 0 c h0 (by omega)
  unfold at' at a
  rw [ho] at a
  dsimp only at a
  omega

/-- Depth 16, one row of the destination and one column; the LHS has stride `stride`, in a buffer of 16 floats. -/
def overTask (stride : Nat) (o : NeonF.Ops A) (lo hi : A) : Task A where
  dot := false
  src := ⟨⟨⟨16, 1, stride, .colMajor⟩, 16⟩, ⟨⟨16, 1, 16, .colMajor⟩, 16⟩⟩
  packed := ⟨⟨⟨16, 8, 16, .colMajor, ⟨.rowMajor, 1, 8⟩⟩, 128⟩, ⟨⟨16, 4, 16, .colMajor, ⟨.rowMajor, 1, 4⟩⟩, 64⟩⟩
  dst := ⟨⟨1, 1, 1, .colMajor⟩, 1⟩
  mp := ⟨none, .row, lo, hi⟩
  ops := o

theorem over_ok (o : NeonF.Ops A) (lo hi : A) : TaskOk (overTask 16 o lo hi) where
  side s := by
    cases s
    · refine ⟨by show 0 < 16; decide, ?_, by show 16 * 8 ≤ 128; decide, fun k c hk hc => ?_, ?_, fun _ c hc _ => ?_⟩
      · show createPackedLayout ⟨16, 1, 16, .colMajor⟩ ⟨.rowMajor, 1, 8⟩ = .ok ⟨16, 8, 16, .colMajor, ⟨.rowMajor, 1, 8⟩⟩
        decide +kernel
      · have hk : k < 16 := hk
        have hc : c < 1 := hc
        show 16 * c + k < 16
        omega
      · show 4 * 16 ≤ 2 ^ 32 ∧ 4 * 128 ≤ 2 ^ 32
        decide
      · have hc : c < 8 := hc
        show 16 * c < _
        omega
    · refine ⟨by show 0 < 16; decide, ?_, by show 16 * 4 ≤ 64; decide, fun k c hk hc => ?_, ?_, fun _ c hc _ => ?_⟩
      · show createPackedLayout ⟨16, 1, 16, .colMajor⟩ ⟨.rowMajor, 1, 4⟩ = .ok ⟨16, 4, 16, .colMajor, ⟨.rowMajor, 1, 4⟩⟩
        decide +kernel
      · have hk : k < 16 := hk
        have hc : c < 1 := hc
        show 16 * c + k < 16
        omega
      · show 4 * 16 ≤ 2 ^ 32 ∧ 4 * 64 ≤ 2 ^ 32
        decide
      · have hc : c < 4 := hc
        show 16 * c < _
        omega
  depth := rfl
  drows := rfl
  dcols := rfl
  dstride := by show 1 ≤ 1; decide
  dsize i j hi hj := by
    have hi : i < 1 := hi
    have hj : j < 1 := hj
    show j * 1 + i < 1
    omega
  dint := by show 4 * 1 < _; decide
  dmem := by show 4 * 1 ≤ _; decide
  bias n hn := by cases hn

/-- C89: a multiplication that is fine with stride 16.  With stride 2^29, its elements are the same and in the same places,
since the LHS has one row; but the code computes 4 times the stride as an `int`, and every run of the simple loop is
undefined. -/
theorem c89_overflow (o : NeonF.Ops A) (lo hi : A) : TaskOk (overTask 16 o lo hi) ∧
    (∀ k c, k < 16 → c < 1 → at' (overTask (2 ^ 29) o lo hi).src.lhs.layout k c = at' (overTask 16 o lo hi).src.lhs.layout k c) ∧
    ∀ m, (∃ r, Runs (overTask (2 ^ 29) o lo hi) (simpleOps (overTask (2 ^ 29) o lo hi)) m r) ∧
      ∀ r, Runs (overTask (2 ^ 29) o lo hi) (simpleOps (overTask (2 ^ 29) o lo hi)) m r → r = .error .ub := by
  refine ⟨over_ok o lo hi, fun k c _ hc => ?_, fun m => ?_⟩
  · obtain rfl : c = 0 := by omega
    show 2 ^ 29 * 0 + k = 16 * 0 + k
    omega
  generalize ht : overTask (2 ^ 29) o lo hi = t
  have e0 : (t.src.get .lhs).layout.order = .colMajor := by rw [← ht]; rfl
  have e1 : t.packed.lhs.layout.cols = 8 := by rw [← ht]; rfl
  obtain ⟨⟨x, hx⟩, hall⟩ := Pack.overflow_run (p := packCall t .lhs) (by rw [← ht]; rfl) (by rw [← ht]; rfl) (by rw [← ht]; rfl)
    (by rw [← ht]; rfl) (by rw [← ht]; rfl) (by rw [← ht]; rfl) rfl (NeonF.Flow.sideMem t m .lhs)
  have step : ∀ r, RunPack t .lhs 0 8 m r ↔ r = .error .ub := fun r => by
    unfold RunPack
    rw [if_pos e0]
    refine ⟨?_, ?_⟩
    · rintro ⟨y, hy, rfl⟩
      rw [hall y hy]
      rfl
    · rintro rfl
      exact ⟨x, hx, by rw [hall x hx]; rfl⟩
  unfold simpleOps
  rw [e1]
  refine ⟨⟨_, .fault ((step _).2 rfl)⟩, fun r hr => ?_⟩
  cases hr with
  | fault hf => exact (step _).1 hf
  | next hn _ => cases (step _).1 hn

/-! ### Values -/

section
variable {t : Task Fl} {m m' : Mach Fl} {i j : Nat} (hi : i < t.dst.layout.rows) (hj : j < t.dst.layout.cols)
include hi hj

/-- C89: after a complete multiplication, if operations round with relative error `u` (or absolute error `η`), entry (i, j)
is a finite number close to the exact result. -/
theorem c89_near {e : Float.Env} {u η M : ℚ} (hr : Rounding e u η M) (ho : t.ops = vmlaOps e) (hm : Multiplied t m m')
    {a b : Nat → ℚ} {bias : ℚ} (hv : Values t m i j a b bias)
    (hM : (1 + u) ^ (depth t + 2) * (mag bias a b (depth t) + 2 * depth t * η) ≤ M) :
    Near (m'.dst (place t i j)) (exact t a b bias)
      (((1 + u) ^ (depth t + 2) - 1) * mag bias a b (depth t) + (2 * depth t + 1) * (1 + u) ^ (depth t + 2) * η) := by
  rw [hm.entry i j hi hj]
  exact stored_near hr ho hv rfl hM

/-- C89: binary32, rounding to nearest, depth below 2^23 - 2, sum of magnitudes at most 2^126. -/
theorem c89_binary32 {ftz : Bool} (ho : t.ops = vmlaOps (binary32 ftz)) (hm : Multiplied t m m')
    {a b : Nat → ℚ} {bias : ℚ} (hv : Values t m i j a b bias)
    (hd : depth t + 2 < 2 ^ 23) (hM : mag bias a b (depth t) ≤ 2 ^ (126 : ℤ)) :
    Near (m'.dst (place t i j)) (exact t a b bias)
      ((depth t + 2) * 2 ^ (-23 : ℤ) * mag bias a b (depth t) + 2 * (2 * depth t + 1) * tiny ftz) := by
  rw [hm.entry i j hi hj]
  exact stored_binary32 ho hv rfl hd hM

/-- C89: integer operands whose products have magnitudes that add up, with the bias, to at most 2^24, are multiplied
exactly. -/
theorem c89_integers {ftz : Bool} (ho : t.ops = vmlaOps (binary32 ftz)) (hm : Multiplied t m m')
    {a b : Nat → ℤ} {bias lo hi' : ℤ}
    (hv : ∀ k, k < depth t → elem t m .lhs k i = ofInt (a k) ∧ elem t m .rhs k j = ofInt (b k))
    (hb : biasAt t m (channelOf t.mp.chan i j) = ofInt bias) (hlo : t.mp.clampMin = ofInt lo) (hhi : t.mp.clampMax = ofInt hi')
    (hs : |bias| + ∑ k ∈ Finset.range (depth t), |a k * b k| ≤ 2 ^ 24) :
    m'.dst (place t i j) = ofInt (min (max (isum bias a b (depth t)) lo) hi') := by
  rw [hm.entry i j hi hj]
  exact stored_int ho hv hb hlo hhi hs

/-- C89: a NaN in the column of the LHS, the column of the RHS, the bias or a clamp bound is stored as a NaN. -/
theorem c89_nan {e : Float.Env} (ho : t.ops = vmlaOps e) (hm : Multiplied t m m')
    (hn : (∃ k, k < depth t ∧ (IsNan (elem t m .lhs k i) ∨ IsNan (elem t m .rhs k j))) ∨
      IsNan (biasAt t m (channelOf t.mp.chan i j)) ∨ IsNan t.mp.clampMin ∨ IsNan t.mp.clampMax) :
    IsNan (m'.dst (place t i j)) := by
  rw [hm.entry i j hi hj]
  exact stored_nan ho hn

end

/-! ### Other paths -/

/-- Depth 2, 1x1 entries: the LHS is -(1 + 2^-22), 1 + 2^-23, the RHS 1, 1 + 2^-23.  Packed for `w` columns. -/
def fineTask (wl wr : Nat) (o : NeonF.Ops Fl) : Task Fl where
  dot := false
  src := ⟨⟨⟨2, 1, 2, .colMajor⟩, 2⟩, ⟨⟨2, 1, 2, .colMajor⟩, 2⟩⟩
  packed := ⟨⟨⟨2, wl, 2, .colMajor, ⟨.rowMajor, 1, wl⟩⟩, 16⟩, ⟨⟨2, wr, 2, .colMajor, ⟨.rowMajor, 1, wr⟩⟩, 16⟩⟩
  dst := ⟨⟨1, 1, 1, .colMajor⟩, 1⟩
  mp := ⟨none, .row, .inf true, .inf false⟩
  ops := o

def fineMach : Mach Fl where
  src := ⟨fun k => .fin (if k = 0 then -(1 + 1 / 2 ^ 22) else 1 + 1 / 2 ^ 23), fun k => .fin (if k = 0 then 1 else 1 + 1 / 2 ^ 23)⟩
  packed := ⟨fun _ => .nan 1, fun _ => .nan 1⟩
  bias := fun _ => .nan 1
  dst := fun _ => .nan 1

theorem fine_ok (o : NeonF.Ops Fl) : TaskOk (fineTask 8 4 o) where
  side s := by
    cases s
    · refine ⟨by show 0 < 2; decide, ?_, by show 2 * 8 ≤ 16; decide, fun k c hk hc => ?_, ?_, fun _ c hc _ => ?_⟩
      · show createPackedLayout ⟨2, 1, 2, .colMajor⟩ ⟨.rowMajor, 1, 8⟩ = .ok ⟨2, 8, 2, .colMajor, ⟨.rowMajor, 1, 8⟩⟩
        decide +kernel
      · have hk : k < 2 := hk
        have hc : c < 1 := hc
        show 2 * c + k < 2
        omega
      · show 4 * 2 ≤ 2 ^ 32 ∧ 4 * 16 ≤ 2 ^ 32
        decide
      · have hc : c < 8 := hc
        show 2 * c < _
        omega
    · refine ⟨by show 0 < 2; decide, ?_, by show 2 * 4 ≤ 16; decide, fun k c hk hc => ?_, ?_, fun _ c hc _ => ?_⟩
      · show createPackedLayout ⟨2, 1, 2, .colMajor⟩ ⟨.rowMajor, 1, 4⟩ = .ok ⟨2, 4, 2, .colMajor, ⟨.rowMajor, 1, 4⟩⟩
        decide +kernel
      · have hk : k < 2 := hk
        have hc : c < 1 := hc
        show 2 * c + k < 2
        omega
      · show 4 * 2 ≤ 2 ^ 32 ∧ 4 * 16 ≤ 2 ^ 32
        decide
      · have hc : c < 4 := hc
        show 2 * c < _
        omega
  depth := rfl
  drows := rfl
  dcols := rfl
  dstride := by show 1 ≤ 1; decide
  dsize i j hi hj := by
    have hi : i < 1 := hi
    have hj : j < 1 := hj
    show j * 1 + i < 1
    omega
  dint := by show 4 * 1 < _; decide
  dmem := by show 4 * 1 ≤ _; decide
  bias n hn := by cases hn

theorem fine_ok64 (o : NeonF.Ops Fl) : NeonF.Flow.TaskOk (fineTask 8 8 o) where
  side s := by
    have : NeonF.Flow.SideOk ⟨⟨2, 1, 2, .colMajor⟩, 2⟩ ⟨⟨2, 8, 2, .colMajor, ⟨.rowMajor, 1, 8⟩⟩, 16⟩ := by
      refine ⟨by decide, by decide +kernel, by decide, by decide, fun k c hk hc => ?_, fun _ c hc => ?_⟩
      · have hk : k < 2 := hk
        have hc : c < 1 := hc
        show 2 * c + k < 2 ∧ 2 * c + k < _
        omega
      · have hc : c < 8 := hc
        show 2 * c < _
        omega
    cases s <;> exact this
  depth := rfl
  drows := rfl
  dcols := rfl
  dstride := by show 1 ≤ 1; decide
  dsize i j hi hj := by
    have hi : i < 1 := hi
    have hj : j < 1 := hj
    show j * 1 + i < 1
    omega
  dint := by
    refine ⟨by show 4 * 1 < _; decide, fun j hj => ?_⟩
    have hj : j < 1 := hj
    show j * 1 < _
    omega
  bias n hn := by cases hn

/-- C89: with the same sources, in binary32 rounded to nearest, 32-bit ARM stores 0 and AArch64 2^-46 with any tuning. -/
theorem c89_differ (ftz : Bool) (u : Tuning) :
    (∃ m', Runs (fineTask 8 4 (vmlaOps (binary32 ftz))) (simpleOps (fineTask 8 4 (vmlaOps (binary32 ftz)))) fineMach (.ok m') ∧
      m'.dst 0 = .zero false) ∧
    ∃ m', NeonF.Flow.Runs (fineTask 8 8 (armOps (binary32 ftz))) (NeonF.Flow.simpleOps (fineTask 8 8 (armOps (binary32 ftz))) u)
      fineMach (.ok m') ∧ m'.dst 0 = .fin (1 / 2 ^ 46) := by
  refine ⟨?_, ?_⟩
  · obtain ⟨⟨r, hr⟩, hv⟩ := c89_simple_loop (m := fineMach) (fine_ok (vmlaOps (binary32 ftz))) (by show 0 < 1; decide)
      (by show 0 < 1; decide)
    obtain ⟨m', rfl, hM⟩ := hv r hr
    refine ⟨m', hr, (hM.entry 0 0 (by show 0 < 1; decide) (by show 0 < 1; decide)).trans ?_⟩
    cases ftz <;> decide +kernel
  · obtain ⟨⟨r, hr⟩, hv⟩ := NeonF.Flow.c73_simple_loop (m := fineMach) u (fine_ok64 (armOps (binary32 ftz))) (by show 0 < 1; decide)
      (by show 0 < 1; decide)
    obtain ⟨m', rfl, hM⟩ := hv r hr
    obtain ⟨u', -, e⟩ := hM.entry 0 0 (by show 0 < 1; decide) (by show 0 < 1; decide)
    refine ⟨m', hr, e.trans ?_⟩
    rw [NeonF.Flow.stored_shallow (by show 2 < 8; decide) u' .x1]
    cases ftz <;> decide +kernel

/-! ### Examples -/

/-- 21x13, column-major with a gap, and 21x15, row-major. -/
def exTask (ops : NeonF.Ops A) (lo hi : A) : Task A where
  dot := false
  src := ⟨NeonF.Flow.exL, NeonF.Flow.exR⟩
  packed := ⟨NeonF.Flow.exP, ⟨⟨21, 16, 21, .colMajor, ⟨.rowMajor, 1, 4⟩⟩, 336⟩⟩
  dst := ⟨⟨13, 15, 14, .colMajor⟩, 210⟩
  mp := ⟨some 16, .row, lo, hi⟩
  ops := ops

theorem exTask_ok (ops : NeonF.Ops A) (lo hi : A) : TaskOk (exTask ops lo hi) where
  side s := by
    cases s
    · exact ⟨NeonF.Flow.exL_ok.rows, NeonF.Flow.exL_ok.layout, NeonF.Flow.exL_ok.size, fun k c hk hc =>
        (NeonF.Flow.exL_ok.source k c hk hc).1, by show 4 * 299 ≤ 2 ^ 32 ∧ 4 * 336 ≤ 2 ^ 32; decide,
        fun h c hc _ => NeonF.Flow.exL_ok.columns h c hc⟩
    · refine ⟨NeonF.Flow.exR_ok.rows, ?_, by show 21 * 16 ≤ 336; decide, fun k c hk hc =>
        (NeonF.Flow.exR_ok.source k c hk hc).1, by show 4 * 357 ≤ 2 ^ 32 ∧ 4 * 336 ≤ 2 ^ 32; decide, fun h => by cases h⟩
      show createPackedLayout ⟨21, 15, 17, .rowMajor⟩ ⟨.rowMajor, 1, 4⟩ = .ok ⟨21, 16, 21, .colMajor, ⟨.rowMajor, 1, 4⟩⟩
      decide +kernel
  depth := rfl
  drows := rfl
  dcols := rfl
  dstride := by show 13 ≤ 14; decide
  dsize i j hi hj := by
    have hi : i < 13 := hi
    have hj : j < 15 := hj
    show j * 14 + i < 210
    omega
  dint := by show 4 * 14 < _; decide
  dmem := by show 4 * 210 ≤ _; decide
  bias n hn := by cases hn; show 16 ≤ 16 ∧ 4 * 16 ≤ 2 ^ 32; decide

/-- Blocks of different sizes; one block packed twice. -/
def exOps : List Op :=
  [.pack .rhs 4 16, .pack .lhs 0 16, .kernel ⟨0, 4⟩ ⟨16, 16⟩, .pack .rhs 0 4, .pack .rhs 4 16, .kernel ⟨8, 0⟩ ⟨16, 4⟩,
    .kernel ⟨0, 0⟩ ⟨8, 16⟩]

theorem exOps_ordered (ops : NeonF.Ops A) (lo hi : A) : Ordered (exTask ops lo hi) exOps where
  packs s lo hi hm := by
    simp only [exOps, List.mem_cons, List.not_mem_nil, or_false, reduceCtorEq, false_or, Op.pack.injEq] at hm
    rcases hm with ⟨rfl, rfl, rfl⟩ | ⟨rfl, rfl, rfl⟩ | ⟨rfl, rfl, rfl⟩ | ⟨rfl, rfl, rfl⟩ <;>
      (unfold Simd.Flow.Block; show _ ∧ _ ∧ _ ∧ _ ≤ 16; decide)
  kernels start stop hm s := by
    simp only [exOps, List.mem_cons, List.not_mem_nil, or_false, reduceCtorEq, false_or, Op.kernel.injEq] at hm
    rcases hm with ⟨rfl, rfl⟩ | ⟨rfl, rfl⟩ | ⟨rfl, rfl⟩ <;> cases s <;>
      (unfold Simd.Flow.Block; show _ ∧ _ ∧ _ ∧ _ ≤ 16; decide)
  first pre start stop post he s c hlo hhi _ := by
    simp only [exOps] at he
    rcases pre with _ | ⟨a, _ | ⟨b, _ | ⟨c1, _ | ⟨d, _ | ⟨e, _ | ⟨f, _ | ⟨g, rest⟩⟩⟩⟩⟩⟩⟩
    · cases he
    · cases he
    · cases he
      cases s
      · exact ⟨0, 16, by simp, Nat.zero_le _, hhi⟩
      · exact ⟨4, 16, by simp, hlo, hhi⟩
    · cases he
    · cases he
    · cases he
      cases s
      · exact ⟨0, 16, by simp, Nat.zero_le _, hhi⟩
      · exact ⟨0, 4, by simp, Nat.zero_le _, hhi⟩
    · cases he
      cases s
      · exact ⟨0, 16, by simp, Nat.zero_le _, by have : c < 8 := hhi; omega⟩
      · by_cases h4 : c < 4
        · exact ⟨0, 4, by simp, Nat.zero_le _, h4⟩
        · exact ⟨4, 16, by simp, by omega, hhi⟩
    · injection he with _ he
      injection he with _ he
      injection he with _ he
      injection he with _ he
      injection he with _ he
      injection he with _ he
      injection he with _ he
      exact absurd (congrArg List.length he) (by simp)

theorem exOps_written {i j : Nat} (hi : i < 13) (hj : j < 15) : Written exOps i j := by
  by_cases h : 4 ≤ j
  · exact ⟨⟨0, 4⟩, ⟨16, 16⟩, by simp [exOps], by dsimp only; omega, by dsimp only; omega, h, by dsimp only; omega⟩
  · by_cases h' : 8 ≤ i
    · exact ⟨⟨8, 0⟩, ⟨16, 4⟩, by simp [exOps], h', by dsimp only; omega, by dsimp only; omega, by dsimp only; omega⟩
    · exact ⟨⟨0, 0⟩, ⟨8, 16⟩, by simp [exOps], by dsimp only; omega, by dsimp only; omega, by dsimp only; omega, by dsimp only; omega⟩

/-- The hypotheses of `c89_any_order`: the last entry. -/
example (ops : NeonF.Ops A) (lo hi : A) (m : Mach A) : ∃ m', Runs (exTask ops lo hi) exOps m (.ok m') ∧
    m'.dst (14 * 14 + 12) = stored (exTask ops lo hi) m 12 14 := by
  obtain ⟨⟨r, hr⟩, hv⟩ := c89_any_order (m := m) (exTask_ok ops lo hi) (exOps_ordered ops lo hi)
  obtain ⟨m', rfl, hd⟩ := hv r hr
  exact ⟨m', hr, hd.entry 12 14 (by show 12 < 13; decide) (by show 14 < 15; decide) (exOps_written (by decide) (by decide))⟩

/-- The hypotheses of `c89_same` and `c89_simple_loop`. -/
example (ops : NeonF.Ops A) (lo hi : A) {m m' : Mach A} (hm : SameInputs m m') {r r' : C (Mach A)}
    (hr : Runs (exTask ops lo hi) exOps m r) (hr' : Runs (exTask ops lo hi) (simpleOps (exTask ops lo hi)) m' r') :
    ∃ a b, r = .ok a ∧ r' = .ok b ∧ b.dst = a.dst := by
  refine c89_same (exTask_ok ops lo hi) hm (exOps_ordered ops lo hi)
    (simple_ordered (exTask_ok ops lo hi) (by show 0 < 13; decide) (by show 0 < 15; decide))
    (fun i j h1 h2 => ⟨fun _ => ?_, fun _ => exOps_written h1 h2⟩) hr hr'
  have h1 : i < 13 := h1
  have h2 : j < 15 := h2
  exact ⟨⟨0, 0⟩, ⟨16, 16⟩, by simp [simpleOps, exTask, NeonF.Flow.exP], by dsimp only; omega, by dsimp only; omega,
    by dsimp only; omega, by dsimp only; omega⟩

/-- The hypotheses of `c89_offsets`. -/
example : let s : Source := ⟨⟨21, 13, 23, .colMajor⟩, 299⟩; let p : Target := ⟨⟨21, 16, 21, .colMajor, ⟨.rowMajor, 1, 4⟩⟩, 336⟩
    0 < s.layout.rows ∧ createPackedLayout s.layout ⟨.rowMajor, 1, 4⟩ = .ok p.layout ∧
      (∀ k c, k < s.layout.rows → c < s.layout.cols → at' s.layout k c < s.size) ∧ 4 * s.size ≤ 2 ^ 32 := by
  refine ⟨by decide, by decide +kernel, fun k c hk hc => ?_, by decide⟩
  have hk : k < 21 := hk
  have hc : c < 13 := hc
  show 23 * c + k < 299
  omega

/-- The hypotheses of `c89_near` and `c89_binary32`: 0 was stored (`c89_differ`), and the exact result is 2^-46. -/
theorem fine_values : ∃ a b, Values (fineTask 8 4 (vmlaOps (binary32 true))) fineMach 0 0 a b 0 ∧
    mag 0 a b (depth (fineTask 8 4 (vmlaOps (binary32 true)))) ≤ 3 ∧
    exact (fineTask 8 4 (vmlaOps (binary32 true))) a b 0 = 1 / 2 ^ 46 := by
  refine ⟨fun k => if k = 0 then -(1 + 1 / 2 ^ 22) else 1 + 1 / 2 ^ 23, fun k => if k = 0 then 1 else 1 + 1 / 2 ^ 23,
    ⟨fun k _ => ?_, fun k _ => ?_, rfl, rfl, rfl⟩, ?_, by decide +kernel⟩
  · show IsVal (.fin (if 2 * 0 + k = 0 then _ else _)) _
    rw [show 2 * 0 + k = k by omega]
    rfl
  · show IsVal (.fin (if 2 * 0 + k = 0 then _ else _)) _
    rw [show 2 * 0 + k = k by omega]
    rfl
  · decide +kernel

example {m' : Mach Fl} (hM : Multiplied (fineTask 8 4 (vmlaOps (binary32 true))) fineMach m') :
    ∃ bound, Near (m'.dst 0) (1 / 2 ^ 46) bound ∧ bound ≤ 1 / 2 ^ 19 := by
  obtain ⟨a, b, hV, hm, hx⟩ := fine_values
  have key := c89_binary32 (t := fineTask 8 4 (vmlaOps (binary32 true))) (i := 0) (j := 0) (by show 0 < 1; decide) (by show 0 < 1; decide)
    (ftz := true) rfl hM hV (by show 2 + 2 < _; decide) (hm.trans (by norm_num))
  rw [hx] at key
  refine ⟨_, key, ?_⟩
  have e : (depth (fineTask 8 4 (vmlaOps (binary32 true))) : ℚ) = 2 := rfl
  rw [e]
  unfold tiny
  norm_num
  linarith

/-- The hypotheses of `c89_integers`: all 3 and -2, depth 21, bias 5. -/
example : ∃ m', Runs (exTask (vmlaOps (binary32 true)) (ofInt (-1000)) (ofInt 1000))
      (simpleOps (exTask (vmlaOps (binary32 true)) (ofInt (-1000)) (ofInt 1000))) NeonF.Flow.intMach (.ok m') ∧
      m'.dst (14 * 14 + 12) = .fin (-121) := by
  obtain ⟨⟨r, hr⟩, hv⟩ := c89_simple_loop (m := NeonF.Flow.intMach) (exTask_ok (vmlaOps (binary32 true)) (ofInt (-1000)) (ofInt 1000))
    (by show 0 < 13; decide) (by show 0 < 15; decide)
  obtain ⟨m', rfl, hM⟩ := hv r hr
  exact ⟨m', hr, (c89_integers (ftz := true) (i := 12) (j := 14) (by show 12 < 13; decide) (by show 14 < 15; decide) rfl hM
    (a := fun _ => 3) (b := fun _ => -2) (bias := 5) (lo := -1000) (hi' := 1000) (fun _ _ => ⟨rfl, rfl⟩) rfl rfl rfl
    (by show |5| + ∑ k ∈ Finset.range 21, |(3 : ℤ) * -2| ≤ _; decide +kernel)).trans
    (by show ofInt (min (max (isum 5 (fun _ => 3) (fun _ => -2) 21) _) _) = _; decide +kernel)⟩

/-- The hypotheses of `c89_nan`. -/
example {m : Mach Fl} (hn : m.src.rhs 7 = .nan 9) {m' : Mach Fl}
    (hM : Multiplied (exTask (vmlaOps (binary32 true)) (.fin (-1)) (.fin 1)) m m') : IsNan (m'.dst (7 * 14 + 3)) :=
  c89_nan (e := binary32 true) (i := 3) (j := 7) (by show 3 < 13; decide) (by show 7 < 15; decide) rfl hM
    (.inl ⟨0, by show 0 < 21; decide, .inr (by
      show IsNan (m.src.rhs (17 * 0 + 7))
      rw [show 17 * 0 + 7 = 7 from rfl, hn]
      trivial)⟩)

end Ruy.Arm32.Flow

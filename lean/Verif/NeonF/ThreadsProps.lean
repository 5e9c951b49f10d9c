import Verif.NeonF.Threads
/-
Property C74: multiplication of float matrices on the AArch64 paths kNeon and kNeonDotprod by one thread or by several
threads.

  c74_block_loop       the single-threaded block loop writes every entry
  c74_threads          any number of threads, any schedule, any block map, any tuning of each call: no step fails, and when
                       all tasks have returned every entry is written
  c74_threads_finish   under a fair schedule all tasks return
  c74_one_result       if all kernels add up in the same order, simple loop, block loop and all executions leave the same
                       destination
  c74_shallow          below depth 8 they do so with any kernels
  c74_close            otherwise, in binary32, the results of two executions are close to each other
  c74_differ           and not always equal

Bounds for the distance to the exact result are those of C73 (`c73_near`, `c73_binary32`, `c73_integers`, `c73_nan`).
-/
namespace Ruy.NeonF.Flow
open Ruy.Mat Ruy.Mul Ruy.BlockMap
open Ruy.Float Ruy.FloatErr
open Ruy.Tune (Tuning)
open Ruy.TrMul (Mem Cfg State MapFor)
open Ruy.Simd.Flow (Op Covered Written control returning prepackCalls blockCalls colsOf InOrder GridOk CallsOk blockCalls_of ctl_finish
  run_prefix)
open Ruy.Neon.Flow (fair2)

variable {A : Type} {t : Task A} {bm : BlockMap} {U : Tuning → Prop}

/-- C74: the block loop of one thread, with or without prepacked sides. -/
theorem c74_block_loop (h : TaskOk t) (hm : MapFor (shape t) bm) (hU : ∃ u, U u) (pre : SidePair Bool) (m : Mach A) :
    (∃ r, BlockLoop U t pre bm m r) ∧ ∀ r, BlockLoop U t pre bm m r → ∃ m', r = .ok m' ∧ Multiplied U t m m' := by
  obtain ⟨n, kd, g, _⟩ := gridOk_of h hm
  obtain ⟨calls, e, hc, hw⟩ := blockCalls_of g (prepack_ok (pre := pre) h g)
  have ord : ∀ ops : List (Tuning × Op), Tuned U ops (prepackCalls pre (colsOf (shape t)) ++ calls) → Ordered t (ops.map (·.2)) :=
    fun ops ht => by
      rw [ht.1]
      exact InOrder.ordered hc.order
  unfold BlockLoop
  rw [e]
  dsimp only
  refine ⟨?_, fun r hr => ?_⟩
  · obtain ⟨u0, hu0⟩ := hU
    obtain ⟨ops, ht⟩ := tuned_exists hu0 (prepackCalls pre (colsOf (shape t)) ++ calls)
    obtain ⟨⟨r, hr⟩, _⟩ := runs_inv (m0 := m) h (ord ops ht)
    exact ⟨r, ops, ht, hr⟩
  · obtain ⟨ops, ht, hr⟩ := hr
    obtain ⟨m', e, hI⟩ := (runs_inv (m0 := m) h (ord ops ht)).2 r hr
    exact ⟨m', e, multiplied_of hI ht.2 (fun i j hi hj => by
      rw [ht.1]
      exact hw i j (dst_cols h hi hj).1 (dst_cols h hi hj).2)⟩

/-- C74: several threads. -/
theorem c74_threads (h : TaskOk t) (hd : DstInts t) (hm : MapFor (shape t) bm) (hU : ∃ u, U u) (pre : SidePair Bool) {threads : Nat}
    (ht : 0 < threads) (sched : List Nat) (m : Mach A) :
    (∃ r, Exec U t pre bm threads sched m r) ∧ ∀ r, Exec U t pre bm threads sched m r → ∃ x, r = .ok x ∧
      (TrMul.Finished (control pre bm threads) x.ctl → Multiplied U t m x.mem) := by
  obtain ⟨n, kd, g, hk⟩ := gridOk_of h hm
  obtain ⟨h1, h2⟩ := exec_ok h hd g hk hU pre threads sched m
  refine ⟨h1, fun r hr => ?_⟩
  obtain ⟨x, ops, e, ok, _⟩ := h2 r hr
  exact ⟨x, e, fun hf => multiplied_of ok.mem ok.tunings
    (fun i j hi hj => ctl_finish g ht ok.ctl hf (dst_cols h hi hj).1 (dst_cols h hi hj).2)⟩

/-- C74: under a fair schedule all tasks return, after a number of steps that depends on neither tunings nor memory, and every
entry is written. -/
theorem c74_threads_finish (h : TaskOk t) (hd : DstInts t) (hm : MapFor (shape t) bm) (pre : SidePair Bool)
    {threads : Nat} (ht : 0 < threads) {σ : Nat → Nat} (fair : TrMul.Fair threads σ) :
    ∃ k, ∀ (U : Tuning → Prop) (m : Mach A), (∃ u, U u) → (∃ r, Exec U t pre bm threads ((List.range k).map σ) m r) ∧
      ∀ r, Exec U t pre bm threads ((List.range k).map σ) m r → ∃ x, r = .ok x ∧
        TrMul.Finished (control pre bm threads) x.ctl ∧ Multiplied U t m x.mem := by
  have sh := shapeOk h hd
  have hr := sh.ready (pre := pre) (bm := bm) (threads := threads)
  have hs := sh.safe (pre := pre) (bm := bm) (threads := threads)
  obtain ⟨ex, hex⟩ := TrMul.c07_executions_exist (control pre bm threads).tp (shape t) bm threads σ hr hs hm
  obtain ⟨k, hk⟩ := TrMul.c07_fair_executions_finish (control pre bm threads).tp (shape t) bm threads σ ex hr hm hex fair
  obtain ⟨n, kd, g, hkd⟩ := gridOk_of h hm
  refine ⟨k, fun U m hU => ?_⟩
  obtain ⟨h1, h2⟩ := exec_ok h hd g hkd hU pre threads ((List.range k).map σ) m
  refine ⟨h1, fun r hr => ?_⟩
  obtain ⟨x, ops, e, ok, hctl⟩ := h2 r hr
  have hex' : TrMul.Execution (control pre bm threads) (shape t) σ ex := hex
  have hx : ex k = x.ctl := by
    have := run_prefix hex' k
    rw [hctl] at this
    exact (Except.ok.inj this).symm
  have hf : TrMul.Finished (control pre bm threads) x.ctl := by rw [← hx]; exact hk
  exact ⟨x, e, hf, multiplied_of ok.mem ok.tunings
    (fun i j hi hj => ctl_finish g ht ok.ctl hf (dst_cols h hi hj).1 (dst_cols h hi hj).2)⟩

/-- The destination after a complete multiplication is determined by the inputs and the order of additions. -/
theorem Multiplied.unique {V : Tuning → Prop} {m m' a b : Mach A} (hm : SameInputs m m') (ha : Multiplied U t m a)
    (hb : Multiplied V t m' b) (hs : ∀ u v, U u → V v → ∀ i j, stored t m u i j = stored t m v i j) : b.dst = a.dst := by
  funext o
  by_cases hx : ∃ i j, i < t.dst.layout.rows ∧ j < t.dst.layout.cols ∧ o = place t i j
  · obtain ⟨i, j, h1, h2, rfl⟩ := hx
    obtain ⟨u, hu, e⟩ := ha.entry i j h1 h2
    obtain ⟨v, hv, e'⟩ := hb.entry i j h1 h2
    rw [e, e', stored_same hm, hs u v hu hv]
  · rw [ha.rest o (fun i j h1 h2 e => hx ⟨i, j, h1, h2, e⟩), hb.rest o (fun i j h1 h2 e => hx ⟨i, j, h1, h2, e⟩), hm.dst]

theorem one_result {U' : Tuning → Prop} (h : TaskOk t) (hd : DstInts t) {bm' : BlockMap} (hm : MapFor (shape t) bm)
    (hm' : MapFor (shape t) bm') (hU : ∃ u, U u) (hU' : ∃ u, U' u)
    (pre pre' : SidePair Bool) {threads : Nat} (ht : 0 < threads) (sched : List Nat) {v : Tuning}
    {m m' m'' : Mach A} (hs : ∀ u w, (U u ∨ U' u ∨ u = v) → (U w ∨ U' w ∨ w = v) → ∀ i j, stored t m u i j = stored t m w i j)
    (s' : SameInputs m m') (s'' : SameInputs m m'') {x : XState A}
    (hx : Exec U t pre bm threads sched m (.ok x)) (hf : TrMul.Finished (control pre bm threads) x.ctl) {r1 r2 : C (Mach A)}
    (h1 : Runs t (simpleOps t v) m' r1) (h2 : BlockLoop U' t pre' bm' m'' r2) :
    ∃ m1 m2, r1 = .ok m1 ∧ r2 = .ok m2 ∧ m1.dst = x.mem.dst ∧ m2.dst = x.mem.dst := by
  obtain ⟨n, kd, g, _⟩ := gridOk_of h hm
  obtain ⟨x', ex, Mx⟩ := (c74_threads h hd hm hU pre ht sched m).2 _ hx
  cases ex
  obtain ⟨m2, rfl, M2⟩ := (c74_block_loop h hm' hU' pre' m'').2 r2 h2
  have pos : 0 < t.dst.layout.rows ∧ 0 < t.dst.layout.cols := by
    have p1 := g.pos .lhs
    have p2 := g.pos .rhs
    rw [cols_get] at p1 p2
    simp only [SidePair.get_lhs, SidePair.get_rhs] at p1 p2
    obtain ⟨-, -, -, kl, al⟩ := (h.side .lhs).facts
    obtain ⟨-, -, -, kr, ar⟩ := (h.side .rhs).facts
    simp only [SidePair.get_lhs, SidePair.get_rhs] at kl kr al ar
    have := h.drows
    have := h.dcols
    omega
  obtain ⟨m1, rfl, M1⟩ := (c73_simple_loop v h pos.1 pos.2).2 r1 h1
  exact ⟨m1, m2, rfl, rfl, Multiplied.unique s' (Mx hf) M1 (fun u w hu hw => hs u w (.inl hu) (.inr (.inr hw))),
    Multiplied.unique s'' (Mx hf) M2 (fun u w hu hw => hs u w (.inl hu) (.inr (.inl hw)))⟩

/-- C74: if all kernels add up in the same order, the destination does not depend on the block map, on which sides are prepacked,
on the number of threads, on the schedule or on what was in the packed buffers, and is the one the simple loop leaves. -/
theorem c74_one_result {U' : Tuning → Prop} (h : TaskOk t) (hd : DstInts t) {bm' : BlockMap} (hm : MapFor (shape t) bm)
    (hm' : MapFor (shape t) bm') (hU : ∃ u, U u) (hU' : ∃ u, U' u) {v : Tuning}
    (hc : ∀ u, U u ∨ U' u → ascending u = ascending v)
    (pre pre' : SidePair Bool) {threads : Nat} (ht : 0 < threads) (sched : List Nat)
    {m m' m'' : Mach A} (s' : SameInputs m m') (s'' : SameInputs m m'') {x : XState A}
    (hx : Exec U t pre bm threads sched m (.ok x)) (hf : TrMul.Finished (control pre bm threads) x.ctl) {r1 r2 : C (Mach A)}
    (h1 : Runs t (simpleOps t v) m' r1) (h2 : BlockLoop U' t pre' bm' m'' r2) :
    ∃ m1 m2, r1 = .ok m1 ∧ r2 = .ok m2 ∧ m1.dst = x.mem.dst ∧ m2.dst = x.mem.dst := by
  have key : ∀ u, (U u ∨ U' u ∨ u = v) → ascending u = ascending v := fun u hu => by
    rcases hu with hu | hu | rfl
    · exact hc u (.inl hu)
    · exact hc u (.inr hu)
    · rfl
  exact one_result h hd hm hm' hU hU' pre pre' ht sched
    (fun u w hu hw i j => stored_class ((key u hu).trans (key w hw).symm) i j) s' s'' hx hf h1 h2

/-- C74: below depth 8 tunings do not matter either. -/
theorem c74_shallow {U' : Tuning → Prop} (h : TaskOk t) (hdepth : depth t < 8) (hd : DstInts t) {bm' : BlockMap}
    (hm : MapFor (shape t) bm) (hm' : MapFor (shape t) bm') (hU : ∃ u, U u) (hU' : ∃ u, U' u) (v : Tuning)
    (pre pre' : SidePair Bool) {threads : Nat} (ht : 0 < threads) (sched : List Nat)
    {m m' m'' : Mach A} (s' : SameInputs m m') (s'' : SameInputs m m'') {x : XState A}
    (hx : Exec U t pre bm threads sched m (.ok x)) (hf : TrMul.Finished (control pre bm threads) x.ctl) {r1 r2 : C (Mach A)}
    (h1 : Runs t (simpleOps t v) m' r1) (h2 : BlockLoop U' t pre' bm' m'' r2) :
    ∃ m1 m2, r1 = .ok m1 ∧ r2 = .ok m2 ∧ m1.dst = x.mem.dst ∧ m2.dst = x.mem.dst :=
  one_result h hd hm hm' hU hU' pre pre' ht sched (fun u w _ _ i j => stored_shallow hdepth u w i j) s' s'' hx hf h1 h2

/-- C74: two complete multiplications of the same binary32 inputs, whatever the tunings, block maps, threads and schedules: entries
with finite operands differ by at most twice the bound of C73. -/
theorem c74_close {t : Task Fl} {V : Tuning → Prop} {ftz : Bool} (ho : t.ops = armOps (binary32 ftz)) {m m' x y : Mach Fl}
    (hs : SameInputs m m') (hx : Multiplied U t m x) (hy : Multiplied V t m' y)
    {i j : Nat} (hi : i < t.dst.layout.rows) (hj : j < t.dst.layout.cols) {a b : Nat → ℚ} {bias : ℚ} (hv : Values t m i j a b bias)
    (hd : depth t + 1 < 2 ^ 23) (hM : mag bias a b (depth t) ≤ 2 ^ (126 : ℤ)) :
    ∃ p q, IsVal (x.dst (place t i j)) p ∧ IsVal (y.dst (place t i j)) q ∧
      |p - q| ≤ 2 * ((depth t + 1) * 2 ^ (-23 : ℤ) * mag bias a b (depth t) + 2 * (depth t + 1) * tiny ftz) := by
  have hv' : Values t m' i j a b bias := by
    obtain ⟨h1, h2, h3, h4, h5⟩ := hv
    refine ⟨fun k hk => ?_, fun k hk => ?_, ?_, h4, h5⟩
    · unfold elem; rw [hs.src]; exact h1 k hk
    · unfold elem; rw [hs.src]; exact h2 k hk
    · unfold biasAt; rw [hs.bias]; exact h3
  obtain ⟨p, p1, p2⟩ := c73_binary32 ho hx hi hj hv hd hM
  obtain ⟨q, q1, q2⟩ := c73_binary32 ho hy hi hj hv' hd hM
  refine ⟨p, q, p1, q1, ?_⟩
  have : p - q = (p - exact t a b bias) - (q - exact t a b bias) := by ring
  rw [this]
  refine (abs_sub _ _).trans ?_
  linarith

/-! ### Examples -/

/-- RHS: 21x125, row-major. -/
def exWide : Source := ⟨⟨21, 125, 130, .rowMajor⟩, 2730⟩
def exTask2 (dot : Bool) (ops : Ops A) (lo hi : A) : Task A where
  dot := dot
  src := ⟨exL, exWide⟩
  packed := ⟨exP, ⟨⟨21, 128, 21, .colMajor, ⟨.rowMajor, 1, 8⟩⟩, 2688⟩⟩
  dst := ⟨⟨13, 125, 14, .colMajor⟩, 1750⟩
  mp := ⟨some 16, .row, lo, hi⟩
  ops := ops

theorem exWide_ok : SideOk exWide ⟨⟨21, 128, 21, .colMajor, ⟨.rowMajor, 1, 8⟩⟩, 2688⟩ where
  rows := by decide
  layout := by decide +kernel
  size := by decide
  int := by decide
  source k c hk hc := by
    have hk : k < 21 := hk
    have hc : c < 125 := hc
    show 130 * k + c < 2730 ∧ 130 * k + c < _
    omega
  columns h := by cases h

theorem exTask2_ok (dot : Bool) (ops : Ops A) (lo hi : A) : TaskOk (exTask2 dot ops lo hi) where
  side s := by
    cases s
    · exact exL_ok
    · exact exWide_ok
  depth := rfl
  drows := rfl
  dcols := rfl
  dstride := by show 13 ≤ 14; decide
  dsize i j hi hj := by
    have hi : i < 13 := hi
    have hj : j < 125 := hj
    show j * 14 + i < 1750
    omega
  dint := by
    refine ⟨by show 4 * 14 < _; decide, fun j hj => ?_⟩
    have hj : j < 125 := hj
    show j * 14 < _
    omega
  bias n hn := by cases hn; show 16 ≤ 16; decide

theorem exTask2_ints (dot : Bool) (ops : Ops A) (lo hi : A) : DstInts (exTask2 dot ops lo hi) := fun i j hi hj => by
  have hi : i < 13 := hi
  have hj : j < 125 := hj
  show j * 14 + i < _
  omega

/-- A block map for two threads: 1x4 blocks of 16x32 entries. -/
def exMap : BlockMap := ⟨2, .linear, ⟨16, 128⟩, 0, ⟨0, 2⟩, ⟨8, 8⟩, ⟨16, 32⟩, ⟨0, 0⟩⟩

theorem exMapFor (dot : Bool) (ops : Ops A) (lo hi : A) : MapFor (shape (exTask2 dot ops lo hi)) exMap :=
  ⟨⟨16, 128, 21, 8, 8, 1, 1, 2, ⟨32768, 524288⟩⟩, by decide +kernel, rfl, rfl, rfl, rfl, by decide, by decide⟩

/-- Two threads with any tunings, RHS prepacked, alternating, on integers: the hypotheses of `c74_threads` and
`c74_threads_finish`. -/
example (dot : Bool) : ∃ k s, Exec (fun _ => True) (exTask2 dot (armOps (binary32 false)) (ofInt (-1000)) (ofInt 1000)) ⟨false, true⟩ exMap 2
    ((List.range k).map (· % 2)) intMach (.ok s) ∧ s.mem.dst (124 * 14 + 12) = .fin (-121) := by
  obtain ⟨k, hk⟩ := c74_threads_finish (exTask2_ok dot (armOps (binary32 false)) (ofInt (-1000)) (ofInt 1000))
    (exTask2_ints dot _ _ _) (exMapFor dot _ _ _) ⟨false, true⟩ (threads := 2) (by decide) fair2
  obtain ⟨⟨r, hr⟩, hv⟩ := hk (fun _ => True) intMach ⟨.x1, trivial⟩
  obtain ⟨s, rfl, hf, hM⟩ := hv r hr
  exact ⟨k, s, hr, (c73_integers (ftz := false) rfl hM (i := 12) (j := 124) (by show 12 < 13; decide) (by show 124 < 125; decide)
    (a := fun _ => 3) (b := fun _ => -2) (bias := 5) (lo := -1000) (hi' := 1000) (fun _ _ => ⟨rfl, rfl⟩) rfl rfl rfl
    (by show |5| + ∑ k ∈ Finset.range 21, |(3 : ℤ) * -2| ≤ _; decide +kernel)).trans
    (by show ofInt (min (max (XFloat.isum 5 (fun _ => 3) (fun _ => -2) 21) _) _) = _; decide +kernel)⟩

/-- The hypotheses of `c74_one_result` and `c74_block_loop`: A55 cores and X1 cores together. -/
example (dot : Bool) (ops : Ops A) (lo hi : A) {m m' : Mach A} (hm : SameInputs m m') {m1 m2 : Mach A}
    (h1 : Runs (exTask2 dot ops lo hi) (simpleOps (exTask2 dot ops lo hi) .x1) m (.ok m1))
    (h2 : BlockLoop (fun u => u = .x1 ∨ u = .a55ish) (exTask2 dot ops lo hi) ⟨true, false⟩ exMap m' (.ok m2)) : m1.dst = m2.dst := by
  obtain ⟨k, hk⟩ := c74_threads_finish (exTask2_ok dot ops lo hi)
    (exTask2_ints dot ops lo hi) (exMapFor dot ops lo hi) ⟨false, true⟩ (threads := 2) (by decide) fair2
  obtain ⟨⟨r, hr⟩, hv⟩ := hk (fun u => u = .x1 ∨ u = .a55ish) m ⟨.x1, .inl rfl⟩
  obtain ⟨s, rfl, hf, _⟩ := hv r hr
  obtain ⟨a, b, e1, e2, h3, h4⟩ := c74_one_result (v := .x1) (exTask2_ok dot ops lo hi) (exTask2_ints dot ops lo hi)
    (exMapFor dot ops lo hi) (exMapFor dot ops lo hi) ⟨.x1, .inl rfl⟩ ⟨.x1, .inl rfl⟩ (fun u hu => by
      rcases hu with (rfl | rfl) | (rfl | rfl) <;> rfl) ⟨false, true⟩
    ⟨true, false⟩ (by decide) _ (⟨rfl, rfl, rfl⟩ : SameInputs m m) hm hr hf h1 h2
  cases e1
  cases e2
  rw [h3, h4]

/-- Nothing is finished before the first step. -/
example (dot : Bool) (ops : Ops A) (lo hi : A) : ¬ TrMul.Finished (control ⟨false, false⟩ exMap 2)
    (TrMul.initState (control ⟨false, false⟩ exMap 2) (shape (exTask2 dot ops lo hi))) := by
  intro h
  exact absurd (h 0 (by decide)) (fun e => by cases e)

/-- The hypotheses of `c74_shallow`: a block map for 16x16 entries. -/
def exMap3 : BlockMap := ⟨1, .linear, ⟨16, 16⟩, 0, ⟨0, 0⟩, ⟨8, 8⟩, ⟨16, 16⟩, ⟨0, 0⟩⟩

theorem exMapFor3 (ops : Ops A) (lo hi : A) : MapFor (shape (shallowTask ops lo hi)) exMap3 :=
  ⟨⟨16, 16, 5, 8, 8, 1, 1, 1, ⟨32768, 524288⟩⟩, by decide +kernel, rfl, rfl, rfl, rfl, by decide, by decide⟩

example (ops : Ops A) (lo hi : A) {m m1 m2 : Mach A} (h1 : Runs (shallowTask ops lo hi) (simpleOps (shallowTask ops lo hi) .x1) m (.ok m1))
    (h2 : BlockLoop (fun _ => True) (shallowTask ops lo hi) ⟨true, false⟩ exMap3 m (.ok m2)) : m1.dst = m2.dst := by
  have ints : DstInts (shallowTask ops lo hi) := fun i j hi hj => by
    have hi : i < 13 := hi
    have hj : j < 15 := hj
    show j * 14 + i < _
    omega
  obtain ⟨k, hk⟩ := c74_threads_finish (shallow_ok ops lo hi) ints (exMapFor3 ops lo _) ⟨false, true⟩ (threads := 2) (by decide) fair2
  obtain ⟨⟨r, hr⟩, hv⟩ := hk (fun _ => True) m ⟨.x1, trivial⟩
  obtain ⟨s, rfl, hf, _⟩ := hv r hr
  obtain ⟨a, b, e1, e2, h3, h4⟩ := c74_shallow (shallow_ok ops lo _) (by show 5 < 8; decide) ints (exMapFor3 ops lo _) (exMapFor3 ops lo _)
    ⟨.x1, trivial⟩ ⟨.x1, trivial⟩ .x1 ⟨false, true⟩ ⟨true, false⟩ (by decide) _ (⟨rfl, rfl, rfl⟩ : SameInputs m m)
    (⟨rfl, rfl, rfl⟩ : SameInputs m m) hr hf h1 h2
  cases e1
  cases e2
  rw [h3, h4]

/-! ### Where executions differ -/

theorem XRun.mono {V : Tuning → Prop} (hUV : ∀ u, U u → V u) {cfg : Cfg Unit} {sched : List Nat} {x : XState A} {r : C (XState A)}
    (h : XRun U t cfg sched x r) : XRun V t cfg sched x r := by
  have step : ∀ {x th r}, XStep U t cfg x th r → XStep V t cfg x th r := by
    intro x th r h
    unfold XStep at h ⊢
    cases hr : returning cfg.bm x.ctl th with
    | error e => rw [hr] at h; exact h
    | ok o =>
      rw [hr] at h
      cases o with
      | none => exact h
      | some o =>
        obtain ⟨u, rm, hu, h1, h2⟩ := h
        exact ⟨u, rm, hUV u hu, h1, h2⟩
  induction h with
  | nil => exact .nil
  | fault hf => exact .fault (step hf)
  | next hn _ ih => exact .next (step hn) ih

theorem Exec.mono {V : Tuning → Prop} (hUV : ∀ u, U u → V u) {pre : SidePair Bool} {threads : Nat} {sched : List Nat} {m : Mach A}
    {r : C (XState A)} (h : Exec U t pre bm threads sched m r) : Exec V t pre bm threads sched m r := by
  obtain ⟨ops, rm, ht, h1, h2⟩ := h
  refine ⟨ops, rm, ⟨ht.1, fun o ho => hUV _ (ht.2 o ho)⟩, h1, ?_⟩
  cases rm with
  | error e => exact h2
  | ok m1 => exact XRun.mono hUV h2

/-- Levels 16, 17, 18 of the LHS are 2^24, 1, 1, all else is zero; the RHS is 1. -/
def badMach2 : Mach Fl where
  src := ⟨fun o => if o % 23 = 16 then .fin (2 ^ 24) else if o % 23 = 17 ∨ o % 23 = 18 then .fin 1 else .zero false, fun _ => .fin 1⟩
  packed := ⟨fun _ => .zero false, fun _ => .zero false⟩
  bias := fun _ => .zero false
  dst := fun _ => .zero false

/-- C74: two executions by two threads under the same schedule, with the same block map and the same memory, that differ only in the
tunings, finish with 2^24 + 2 and 2^24 in entry (4, 0). -/
theorem c74_differ (dot : Bool) : ∃ (t : Task Fl) (bm : BlockMap) (sched : List Nat) (m : Mach Fl) (x y : XState Fl),
    t.dot = dot ∧ TaskOk t ∧ DstInts t ∧ MapFor (shape t) bm ∧
    Exec (fun _ => True) t ⟨false, false⟩ bm 2 sched m (.ok x) ∧ TrMul.Finished (control ⟨false, false⟩ bm 2) x.ctl ∧
    Exec (fun _ => True) t ⟨false, false⟩ bm 2 sched m (.ok y) ∧ TrMul.Finished (control ⟨false, false⟩ bm 2) y.ctl ∧
    x.mem.dst (place t 4 0) = .fin (2 ^ 24 + 2) ∧ y.mem.dst (place t 4 0) = .fin (2 ^ 24) := by
  have ok := exTask2_ok dot (armOps (binary32 false)) (.inf true) (.inf false)
  have ints := exTask2_ints dot (armOps (binary32 false)) (.inf true) (.inf false)
  have map := exMapFor dot (armOps (binary32 false)) (.inf true) (.inf false)
  obtain ⟨k, hk⟩ := c74_threads_finish ok ints map ⟨false, false⟩ (threads := 2) (by decide) fair2
  obtain ⟨⟨r, hr⟩, hv⟩ := hk (· = .generic) badMach2 ⟨_, rfl⟩
  obtain ⟨⟨r', hr'⟩, hv'⟩ := hk (· = .x1) badMach2 ⟨_, rfl⟩
  obtain ⟨x, rfl, fx, hx⟩ := hv r hr
  obtain ⟨y, rfl, fy, hy⟩ := hv' r' hr'
  obtain ⟨_, rfl, ex⟩ := hx.entry 4 0 (by show 4 < 13; decide) (by show 0 < 125; decide)
  obtain ⟨_, rfl, ey⟩ := hy.entry 4 0 (by show 4 < 13; decide) (by show 0 < 125; decide)
  refine ⟨_, _, _, _, x, y, rfl, ok, ints, map, hr.mono (fun _ _ => trivial), fx, hr'.mono (fun _ _ => trivial), fy, ?_, ?_⟩
  · rw [ex]; cases dot <;> decide +kernel
  · rw [ey]; cases dot <;> decide +kernel

/-- The hypotheses of `c74_close` for these two. -/
example (dot : Bool) : ∃ a b, Values (exTask2 dot (armOps (binary32 false)) (.inf true) (.inf false)) badMach2 4 0 a b 0 ∧
    mag 0 a b 21 ≤ 2 ^ (126 : ℤ) := by
  refine ⟨fun k => if k = 16 then 2 ^ 24 else if k = 17 ∨ k = 18 then 1 else 0, fun _ => 1,
    ⟨fun k hk => ?_, fun k _ => rfl, rfl, rfl, rfl⟩, ?_⟩
  · have hk : k < 21 := hk
    show IsVal (if (23 * 4 + k) % 23 = 16 then .fin (2 ^ 24) else if (23 * 4 + k) % 23 = 17 ∨ (23 * 4 + k) % 23 = 18 then .fin 1 else
      .zero false) _
    rw [show (23 * 4 + k) % 23 = k by omega]
    split_ifs <;> exact rfl
  · refine le_trans (b := 2 ^ 24 + 2) (le_of_eq (by decide +kernel)) (by norm_num)

end Ruy.NeonF.Flow

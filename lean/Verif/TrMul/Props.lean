import Verif.TrMul.ConcFair
import Mathlib.Tactic.IntervalCases
/-
Properties of the middle-end (TrMul): C04, C05, C06, C07, and the TrMul part of C37.
Helper lemmas are in Lemmas, SeqLemmas and Conc*.
-/
namespace Ruy.TrMul
open Ruy.Mat Ruy.Mul Ruy.BlockMap

variable {A : Type}

/-- `bm` was made by MakeBlockMap for the packed matrices of `m` (trmul.cc:361-369), for any
number of threads and any cache sizes. -/
def MapFor (m : Mem A) (bm : BlockMap) : Prop :=
  ∃ a, makeBlockMap a = .ok bm ∧
    a.rows = m.packed.lhs.layout.cols ∧ a.cols = m.packed.rhs.layout.cols ∧
    a.kernelRows = m.packed.lhs.layout.kernel.cols ∧
    a.kernelCols = m.packed.rhs.layout.kernel.cols ∧ a.rows < 2 ^ 31 ∧ a.cols < 2 ^ 31

theorem MapFor.grid {m : Mem A} {bm : BlockMap} (h : MapFor m bm) :
    ∃ n kd, Grid bm ⟨m.packed.lhs.layout.cols, m.packed.rhs.layout.cols⟩ kd n ∧
      ∀ s, kd.get s = (m.packed.get s).layout.kernel.cols := by
  obtain ⟨a, h1, h2, h3, h4, h5, h6, h7⟩ := h
  obtain ⟨n, g⟩ := grid_of_makeBlockMap h1 h6 h7
  rw [h2, h3] at g
  exact ⟨n, _, g, fun s => by cases s <;> assumption⟩

theorem dims_get (m : Mem A) (sd : Side) :
    (SidePair.mk m.packed.lhs.layout.cols m.packed.rhs.layout.cols).get sd =
      (m.packed.get sd).layout.cols := by cases sd <;> rfl

/-- Two computations of the same values from the same destination end with identical memory. -/
theorem Computes.unique {f : Nat → Nat → C A} {d d1 d2 : Mul.Mat A} (h1 : Computes f d d1)
    (h2 : Computes f d d2) : d1 = d2 := by
  have hval : ∀ o, d1.data.val o = d2.data.val o := by
    intro o
    by_cases ho : ∃ i j, (i < d.layout.rows ∧ j < d.layout.cols) ∧ o = off d.layout i j
    · obtain ⟨i, j, ⟨hi, hj⟩, rfl⟩ := ho
      obtain ⟨v, a1, a2⟩ := h1.done i j hi hj
      obtain ⟨w, b1, b2⟩ := h2.done i j hi hj
      rw [a2] at b2; cases b2
      unfold Mat.elem at a1 b1
      rw [h1.same.layout] at a1
      rw [h2.same.layout] at b1
      obtain ⟨o1, c1, a1⟩ := C.bind_ok a1
      obtain ⟨o2, c2, b1⟩ := C.bind_ok b1
      rw [← offset_ok c1, ← (Buf.read_ok a1).2]
      rw [c1] at c2; cases c2
      exact (Buf.read_ok b1).2
    · have hn : ∀ i j, i < d.layout.rows ∧ j < d.layout.cols → o ≠ off d.layout i j :=
        fun i j hij hc => ho ⟨i, j, hij, hc⟩
      rw [h1.frame o hn, h2.frame o hn]
  have e1 := h1.same
  have e2 := h2.same
  obtain ⟨l1, ⟨s1, v1⟩, z1⟩ := d1
  obtain ⟨l2, ⟨s2, v2⟩, z2⟩ := d2
  have : v1 = v2 := funext hval
  have a1 := e1.layout; have a2 := e2.layout
  have b1 := e1.zp; have b2 := e2.zp
  have c1 := e1.size; have c2 := e2.size
  dsimp only at a1 a2 b1 b2 c1 c2
  subst a1; subst b1; subst c1; subst this
  rw [a2, b2, c2]

/-! ### C04, C37: one result -/

/-- `d` is a destination that TrMul may end with: by the simple loop, by the single-threaded block
loop, or by any number of threads under any schedule; with any block map. -/
inductive Outcome (tp : Params A) (m : Mem A) (d : Mul.Mat A) : Prop
  | simple (m' : Mem A) : simpleLoop tp m = .ok m' → m'.dst = d → Outcome tp m d
  | blocks (bm : BlockMap) (m' : Mem A) : MapFor m bm → seqRun tp bm m = .ok m' → m'.dst = d →
      Outcome tp m d
  | threads (bm : BlockMap) (threads : Nat) (sched : List Nat) (s : State A) : MapFor m bm →
      0 < threads → run ⟨tp, bm, threads⟩ sched (initState ⟨tp, bm, threads⟩ m) = .ok s →
      Finished ⟨tp, bm, threads⟩ s → s.mem.dst = d → Outcome tp m d

theorem Outcome.computes {tp : Params A} {m : Mem A} {d : Mul.Mat A} (hr : Ready tp m)
    (h : Outcome tp m d) : Computes (target tp m) m.dst d := by
  cases h with
  | simple m' h hd => subst hd; exact (simpleLoop_ok hr h).2
  | blocks bm m' hm h hd =>
    subst hd
    obtain ⟨n, kd, g, _⟩ := hm.grid
    exact (seqRun_ok hr g (dims_get m) h).2
  | threads bm threads sched s hm ht h hf hd =>
    subst hd
    obtain ⟨n, kd, g, _⟩ := hm.grid
    have su : Setup ⟨tp, bm, threads⟩ m n := ⟨hr, kd, g⟩
    exact (finished_computes su ht (run_inv su (init_inv su) h) hf).2.2

/-- C04, C37: the whole destination memory after TrMul is the same for the simple loop, the
single-threaded block loop and every number of threads, schedule and block map. -/
theorem c04_one_result (tp : Params A) (m : Mem A) (d d' : Mul.Mat A) (hr : Ready tp m)
    (h : Outcome tp m d) (h' : Outcome tp m d') : d = d' :=
  (h.computes hr).unique (h'.computes hr)

/-- C37: the shortcut and the block-wise algorithm give the same destination. -/
theorem c37_simple_loop_eq_block_loop (tp : Params A) (m m1 m2 : Mem A) (bm : BlockMap)
    (hr : Ready tp m) (hm : MapFor m bm) (h1 : simpleLoop tp m = .ok m1)
    (h2 : seqRun tp bm m = .ok m2) : m1.dst = m2.dst :=
  c04_one_result tp m _ _ hr (.simple m1 h1 rfl) (.blocks bm m2 hm h2 rfl)

/-- C04, totality: if the arithmetic of the entries does not fault, all three variants return;
in particular no schedule of any number of threads leads to a fault. -/
theorem c04_no_fault (tp : Params A) (m : Mem A) (bm : BlockMap) (hr : Ready tp m)
    (hs : Safe tp m) (hm : MapFor m bm) :
    (∃ m', simpleLoop tp m = .ok m') ∧ (∃ m', seqRun tp bm m = .ok m') ∧
      ∀ threads sched, ∃ s,
        run ⟨tp, bm, threads⟩ sched (initState ⟨tp, bm, threads⟩ m) = .ok s := by
  obtain ⟨n, kd, g, hkd⟩ := hm.grid
  refine ⟨simpleLoop_total hr hs, seqRun_total hr hs g (dims_get m) hkd, fun threads sched => ?_⟩
  have su : Setup ⟨tp, bm, threads⟩ m n := ⟨hr, kd, g⟩
  have key : ∀ (sched : List Nat) (s : State A), Inv ⟨tp, bm, threads⟩ n m s →
      ∃ s', run ⟨tp, bm, threads⟩ sched s = .ok s' := by
    intro sched
    induction sched with
    | nil => intro s _; exact ⟨s, rfl⟩
    | cons t ts ih =>
      intro s inv
      obtain ⟨s1, h1⟩ := step_total (cfg := ⟨tp, bm, threads⟩) hr g hkd hs inv t
      obtain ⟨s', h'⟩ := ih s1 (step_inv su inv h1)
      exact ⟨s', by rw [run, h1, C.ok_bind]; exact h'⟩
  exact key sched _ (init_inv su)

/-! ### C05 -/

/-- C05: in no reachable state has a block been computed more than once; nothing that is not a
block is ever computed. -/
theorem c05_at_most_once (tp : Params A) (m : Mem A) (bm : BlockMap) (threads total : Nat)
    (sched : List Nat) (s : State A) (hr : Ready tp m) (hm : MapFor m bm)
    (htot : numBlocks bm = .ok total)
    (h : run ⟨tp, bm, threads⟩ sched (initState ⟨tp, bm, threads⟩ m) = .ok s) (id : Nat) :
    s.runs id ≤ 1 ∧ (total ≤ id → s.runs id = 0) := by
  obtain ⟨n, kd, g, _⟩ := hm.grid
  have su : Setup ⟨tp, bm, threads⟩ m n := ⟨hr, kd, g⟩
  have inv := run_inv su (init_inv su) h
  rw [g.total] at htot
  have htot : n.lhs * n.rhs = total := Except.ok.inj htot
  subst htot
  refine ⟨?_, fun h => inv.fresh id (.inr h)⟩
  by_cases h1 : s.counter ≤ id ∨ n.lhs * n.rhs ≤ id
  · rw [inv.fresh id h1]; omega
  · rcases inv.all id (by omega) (by omega) with ⟨t, ht⟩ | hc
    · have hok := inv.pc t
      cases hp : s.pc t <;> rw [hp] at ht hok <;>
        simp only [PC.ids, List.mem_cons, List.not_mem_nil, or_false] at ht
      · subst ht; rw [hok.2]; omega
      · rcases ht with rfl | rfl
        · rw [hok.2.1.runsB]; omega
        · rw [hok.2.1.runsN]; omega
      · rcases ht with rfl | rfl
        · rw [hok.2.runsB]; omega
        · rw [hok.2.runsN]; omega
      · rcases ht with rfl | rfl
        · rw [hok.2.1.runsB]; omega
        · rw [hok.2.1.runsN]; omega
      · rcases ht with rfl | rfl
        · rw [hok.2.1.runsB]; omega
        · rw [hok.2.1.runsN]; omega
      · rcases ht with rfl | rfl
        · rw [hok.2.1.runsB]
        · rw [hok.2.1.runsN]; omega
    · rw [hc.1]

/-- C05: in every execution that finishes, each block has been computed exactly once. -/
theorem c05_exactly_once (tp : Params A) (m : Mem A) (bm : BlockMap) (threads total : Nat)
    (sched : List Nat) (s : State A) (hr : Ready tp m) (hm : MapFor m bm) (ht : 0 < threads)
    (htot : numBlocks bm = .ok total)
    (h : run ⟨tp, bm, threads⟩ sched (initState ⟨tp, bm, threads⟩ m) = .ok s)
    (hf : Finished ⟨tp, bm, threads⟩ s) (id : Nat) (hid : id < total) : s.runs id = 1 := by
  obtain ⟨n, kd, g, _⟩ := hm.grid
  have su : Setup ⟨tp, bm, threads⟩ m n := ⟨hr, kd, g⟩
  rw [g.total] at htot
  have htot : n.lhs * n.rhs = total := Except.ok.inj htot
  subst htot
  exact (finished_computes su ht (run_inv su (init_inv su) h) hf).1 id hid

/-- C05: two threads never compute the same block at the same time, and the entries they compute
are different. -/
theorem c05_threads_disjoint (tp : Params A) (m : Mem A) (bm : BlockMap) (threads : Nat)
    (sched : List Nat) (s : State A) (hr : Ready tp m) (hm : MapFor m bm)
    (h : run ⟨tp, bm, threads⟩ sched (initState ⟨tp, bm, threads⟩ m) = .ok s)
    (t u : Nat) (htu : t ≠ u) (e e' : Locals) (i j i' j' : Nat) (ht : s.pc t = .kernel e i j)
    (hu : s.pc u = .kernel e' i' j') :
    e.bid ≠ e'.bid ∧ ∀ a b, ¬ ((e.start.lhs ≤ a ∧ a < e.stop.lhs) ∧ e.start.rhs ≤ b ∧ b < e.stop.rhs ∧
      (e'.start.lhs ≤ a ∧ a < e'.stop.lhs) ∧ e'.start.rhs ≤ b ∧ b < e'.stop.rhs) := by
  obtain ⟨n, kd, g, _⟩ := hm.grid
  have su : Setup ⟨tp, bm, threads⟩ m n := ⟨hr, kd, g⟩
  have inv := run_inv su (init_inv su) h
  have hne : e.bid ≠ e'.bid := by
    intro hc
    exact htu (inv.ids t u e.bid (by rw [ht]; simp [PC.ids]) (by rw [hu]; simp [PC.ids, hc]))
  have ok1 := inv.pc t
  have ok2 := inv.pc u
  rw [ht] at ok1
  rw [hu] at ok2
  refine ⟨hne, fun a b hab => hne ?_⟩
  exact g.unique ok1.1.bid ok2.1.bid
    (ok1.1.inBlock.2 ⟨hab.1, hab.2.1, hab.2.2.1⟩)
    (ok2.1.inBlock.2 ⟨hab.2.2.2.1, hab.2.2.2.2.1, hab.2.2.2.2.2⟩)

/-- C05 / C07: the shared block counter never exceeds the number of blocks plus the number of
threads (so the `int` behind it does not overflow for realistic sizes). -/
theorem c05_counter_bound (tp : Params A) (m : Mem A) (bm : BlockMap) (threads total : Nat)
    (sched : List Nat) (s : State A) (hr : Ready tp m) (hm : MapFor m bm)
    (htot : numBlocks bm = .ok total)
    (h : run ⟨tp, bm, threads⟩ sched (initState ⟨tp, bm, threads⟩ m) = .ok s) :
    s.counter ≤ total + threads := by
  obtain ⟨n, kd, g, _⟩ := hm.grid
  have su : Setup ⟨tp, bm, threads⟩ m n := ⟨hr, kd, g⟩
  rw [g.total] at htot
  have htot : n.lhs * n.rhs = total := Except.ok.inj htot
  subst htot
  have key : ∀ (sched : List Nat) (s0 s : State A), Inv ⟨tp, bm, threads⟩ n m s0 →
      Own ⟨tp, bm, threads⟩ n s0 → run ⟨tp, bm, threads⟩ sched s0 = .ok s →
      Own ⟨tp, bm, threads⟩ n s := by
    intro sched
    induction sched with
    | nil => intro s0 s _ ho h; cases h; exact ho
    | cons t ts ih =>
      intro s0 s hi ho h
      obtain ⟨s1, h1, h⟩ := C.bind_ok h
      exact ih s1 s (step_inv su hi h1) (ho.step su hi h1) h
  exact (key sched _ s (init_inv su) Own.init h).bound

/-! ### C06 -/

/-- C06: every source block is packed at most once. -/
theorem c06_packed_at_most_once (tp : Params A) (m : Mem A) (bm : BlockMap) (threads : Nat)
    (sched : List Nat) (s : State A) (hr : Ready tp m) (hm : MapFor m bm)
    (h : run ⟨tp, bm, threads⟩ sched (initState ⟨tp, bm, threads⟩ m) = .ok s)
    (sd : Side) (b : Nat) : s.packs sd b ≤ 1 := by
  obtain ⟨n, kd, g, _⟩ := hm.grid
  have su : Setup ⟨tp, bm, threads⟩ m n := ⟨hr, kd, g⟩
  rw [(run_inv su (init_inv su) h).packCount]
  split <;> omega

/-- C06: a thread inside RunKernel has, for each side, either a prepacked matrix or observed that
the packing of its block is finished; and every packed value and column sum it may read is the
one packing defines. -/
theorem c06_packed_before_use (tp : Params A) (m : Mem A) (bm : BlockMap) (threads : Nat)
    (sched : List Nat) (s : State A) (hr : Ready tp m) (hm : MapFor m bm)
    (h : run ⟨tp, bm, threads⟩ sched (initState ⟨tp, bm, threads⟩ m) = .ok s)
    (t : Nat) (e : Locals) (i j : Nat) (ht : s.pc t = .kernel e i j) (sd : Side) :
    (tp.isPrepacked.get sd = true ∨
      (s.localPacked t sd (e.block.get sd) = true ∧ s.status sd (e.block.get sd) = .finished)) ∧
    ∀ c, e.start.get sd ≤ c → c < e.stop.get sd →
      (∀ r, r < (s.mem.packed.get sd).layout.rows → ∃ v, (s.mem.packed.get sd).elem r c = .ok v ∧
        packedVal tp.ar (tp.pack.get sd) (tp.src.get sd) (s.mem.packed.get sd).zp r c = .ok v) ∧
      ((s.mem.packed.get sd).sums.isSome → ∃ x, readSum (s.mem.packed.get sd) c = .ok x ∧
        colSum tp.ar (tp.pack.get sd) (tp.src.get sd) (s.mem.packed.get sd).zp
          (s.mem.packed.get sd).layout.rows c = .ok x) := by
  obtain ⟨n, kd, g, _⟩ := hm.grid
  have su : Setup ⟨tp, bm, threads⟩ m n := ⟨hr, kd, g⟩
  have inv := run_inv su (init_inv su) h
  have ok := inv.pc t
  rw [ht] at ok
  refine ⟨?_, fun c h1 h2 => ?_⟩
  · rcases ok.2.2.1 sd with h | h
    · exact .inl h
    · exact .inr ⟨h, (inv.locals t sd _ h).1⟩
  · have := kernel_packed su inv ht sd _ (ok.1.coords sd) c h1 h2
    exact ⟨this.data, this.sums⟩

/-- C06: a thread only records a block as packed after the block's status is finished, and a
block is only finished once all its columns are packed. -/
theorem c06_finished_means_packed (tp : Params A) (m : Mem A) (bm : BlockMap) (threads : Nat)
    (sched : List Nat) (s : State A) (hr : Ready tp m) (hm : MapFor m bm)
    (h : run ⟨tp, bm, threads⟩ sched (initState ⟨tp, bm, threads⟩ m) = .ok s)
    (sd : Side) (b : Nat) :
    (∀ t, s.localPacked t sd b = true → s.status sd b = .finished) ∧
    (∀ nb, numBlocksPerSide bm sd = .ok nb → b < nb → s.status sd b = .finished →
      ∀ x, getBlockMatrixCoords sd bm b = .ok x → ∀ c, x.1 ≤ c → c < x.2 →
      ∀ r, r < (s.mem.packed.get sd).layout.rows → ∃ v, (s.mem.packed.get sd).elem r c = .ok v ∧
        packedVal tp.ar (tp.pack.get sd) (tp.src.get sd) (s.mem.packed.get sd).zp r c = .ok v) := by
  obtain ⟨n, kd, g, _⟩ := hm.grid
  have su : Setup ⟨tp, bm, threads⟩ m n := ⟨hr, kd, g⟩
  have inv := run_inv su (init_inv su) h
  refine ⟨fun t h => (inv.locals t sd b h).1, fun nb hnb hb hst x hx c h1 h2 => ?_⟩
  rw [g.side] at hnb
  cases hnb
  exact (inv.finished sd b hb hst x hx c h1 h2).data

/-- C06: while a thread packs a block, no other thread packs it, uses it in RunKernel, or has
recorded it as packed. -/
theorem c06_no_race (tp : Params A) (m : Mem A) (bm : BlockMap) (threads : Nat)
    (sched : List Nat) (s : State A) (hr : Ready tp m) (hm : MapFor m bm)
    (h : run ⟨tp, bm, threads⟩ sched (initState ⟨tp, bm, threads⟩ m) = .ok s)
    (t u : Nat) (htu : t ≠ u) (e : Locals) (c : Call) (sd : Side) (b col stop : Nat)
    (ht : s.pc t = .packing e c sd b col stop) :
    (∀ e' c' col' stop', s.pc u ≠ .packing e' c' sd b col' stop') ∧
    (∀ e' i j, s.pc u = .kernel e' i j → e'.block.get sd ≠ b) ∧
    s.localPacked u sd b = false ∧ tp.isPrepacked.get sd = false := by
  obtain ⟨n, kd, g, _⟩ := hm.grid
  have su : Setup ⟨tp, bm, threads⟩ m n := ⟨hr, kd, g⟩
  have inv := run_inv su (init_inv su) h
  have ok := inv.pc t
  have hst := ok.packs_status (sd := sd) (b := b) (by rw [ht]; rfl)
  refine ⟨?_, ?_, ?_, hst.2.2⟩
  · intro e' c' col' stop' hu
    exact htu (inv.packs t u (sd, b) (by rw [ht]; rfl) (by rw [hu]; rfl))
  · intro e' i j hu hb
    have ok' := inv.pc u
    rw [hu] at ok'
    rcases ok'.2.2.1 sd with h | h
    · rw [hst.2.2] at h; cases h
    · have := (inv.locals u sd _ h).1
      rw [hb, hst.1] at this; cases this
  · by_contra hc
    have hc : s.localPacked u sd b = true := by simpa using hc
    have := (inv.locals u sd b hc).1
    rw [hst.1] at this; cases this

/-! ### C07 -/

/-- C07: from every reachable state in which not all tasks have returned, some thread, run on its
own for at most 11 steps, makes progress: the work left decreases. -/
theorem c07_progress_possible (tp : Params A) (m : Mem A) (bm : BlockMap) (threads : Nat)
    (sched : List Nat) (s : State A) (hr : Ready tp m) (hs : Safe tp m) (hm : MapFor m bm)
    (h : run ⟨tp, bm, threads⟩ sched (initState ⟨tp, bm, threads⟩ m) = .ok s)
    (hf : ¬ Finished ⟨tp, bm, threads⟩ s) :
    ∃ n t k s', (∀ sd, numBlocksPerSide bm sd = .ok (n.get sd)) ∧ t < threads ∧ 0 < k ∧ k ≤ 11 ∧
      run ⟨tp, bm, threads⟩ (List.replicate k t) s = .ok s' ∧
      workLeft ⟨tp, bm, threads⟩ n m s' < workLeft ⟨tp, bm, threads⟩ n m s := by
  obtain ⟨n, kd, g, hkd⟩ := hm.grid
  have su : Setup ⟨tp, bm, threads⟩ m n := ⟨hr, kd, g⟩
  have key : ∀ (sched : List Nat) (s0 s : State A), Inv ⟨tp, bm, threads⟩ n m s0 →
      Own ⟨tp, bm, threads⟩ n s0 → run ⟨tp, bm, threads⟩ sched s0 = .ok s →
      Own ⟨tp, bm, threads⟩ n s := by
    intro sched
    induction sched with
    | nil => intro s0 s _ ho h; cases h; exact ho
    | cons t ts ih =>
      intro s0 s hi ho h
      obtain ⟨s1, h1, h⟩ := C.bind_ok h
      exact ih s1 s (step_inv su hi h1) (ho.step su hi h1) h
  obtain ⟨t, k, s', h1, h2, h3, h4, h5⟩ := solo_progress su
    (fun s inv t => step_total (cfg := ⟨tp, bm, threads⟩) hr g hkd hs inv t)
    (run_inv su (init_inv su) h) (key sched _ s (init_inv su) Own.init h) hf
  exact ⟨n, t, k, s', g.side, h1, h2, h3, h4, h5⟩

/-- C07: there is a bound, depending only on the problem, for the number of steps of any execution
that are not wait steps (a wait step moves between points of EnsurePacked without packing). -/
theorem c07_progress_bounded (tp : Params A) (m : Mem A) (bm : BlockMap) (threads : Nat)
    (hr : Ready tp m) (hm : MapFor m bm) :
    ∃ bound, ∀ sched,
      progressSteps ⟨tp, bm, threads⟩ sched (initState ⟨tp, bm, threads⟩ m) ≤ bound := by
  obtain ⟨n, kd, g, _⟩ := hm.grid
  have su : Setup ⟨tp, bm, threads⟩ m n := ⟨hr, kd, g⟩
  exact ⟨_, fun sched => progressSteps_le su sched (init_inv su) Own.init⟩

/-- C07: every fair execution reaches a state where all tasks have returned. -/
theorem c07_fair_executions_finish (tp : Params A) (m : Mem A) (bm : BlockMap) (threads : Nat)
    (σ : Nat → Nat) (ex : Nat → State A) (hr : Ready tp m) (hm : MapFor m bm)
    (hex : Execution ⟨tp, bm, threads⟩ m σ ex) (fair : Fair threads σ) :
    ∃ k, Finished ⟨tp, bm, threads⟩ (ex k) := by
  obtain ⟨n, kd, g, _⟩ := hm.grid
  have su : Setup ⟨tp, bm, threads⟩ m n := ⟨hr, kd, g⟩
  exact hex.finishes su fair

/-- C07: every schedule has an execution (no step faults), so together with
`c07_fair_executions_finish`: every fair schedule finishes. -/
theorem c07_executions_exist (tp : Params A) (m : Mem A) (bm : BlockMap) (threads : Nat)
    (σ : Nat → Nat) (hr : Ready tp m) (hs : Safe tp m) (hm : MapFor m bm) :
    ∃ ex, Execution ⟨tp, bm, threads⟩ m σ ex := by
  classical
  obtain ⟨n, kd, g, hkd⟩ := hm.grid
  have su : Setup ⟨tp, bm, threads⟩ m n := ⟨hr, kd, g⟩
  have tot : ∀ s : { s : State A // Inv ⟨tp, bm, threads⟩ n m s }, ∀ t,
      ∃ s' : { s : State A // Inv ⟨tp, bm, threads⟩ n m s },
        step ⟨tp, bm, threads⟩ s.1 t = .ok s'.1 := by
    intro s t
    obtain ⟨s', h⟩ := step_total (cfg := ⟨tp, bm, threads⟩) hr g hkd hs s.2 t
    exact ⟨⟨s', step_inv su s.2 h⟩, h⟩
  choose f hf using tot
  let ex : Nat → { s : State A // Inv ⟨tp, bm, threads⟩ n m s } := fun k =>
    Nat.rec ⟨initState ⟨tp, bm, threads⟩ m, init_inv su⟩ (fun k s => f s (σ k)) k
  exact ⟨fun k => (ex k).1, rfl, fun k => hf (ex k) (σ k)⟩

/-! ### A concrete instance of all hypotheses

LHS (transposed) 1x2 = (2 3) with zero point 1, RHS 1x2 = (5 7), 1x1 kernels; a 2x2 destination with
stride 3, so that its buffer has a gap; bias (10 20) per row, destination zero point 100. -/

/-- The 1x1 kernel layout. -/
def k11 : KernelLayout := ⟨.colMajor, 1, 1⟩

def demoTp : Params Int where
  ar := .int32
  mp := ⟨some ⟨2, fun i => if i = 0 then 10 else 20⟩, .row, fun _ x => .ok x, -1000, 1000, fun x => x⟩
  src := ⟨⟨⟨1, 2, 1, .colMajor⟩, ⟨2, fun i => if i = 0 then 2 else 3⟩, 1⟩,
    ⟨⟨1, 2, 1, .colMajor⟩, ⟨2, fun i => if i = 0 then 5 else 7⟩, 0⟩⟩
  pack := ⟨fun x => x, fun x => x⟩
  isPrepacked := ⟨false, false⟩

def demoMem : Mem Int where
  packed := ⟨⟨⟨1, 2, 1, .colMajor, k11⟩, ⟨2, fun _ => 99⟩, some ⟨2, fun _ => 99⟩, 1⟩,
    ⟨⟨1, 2, 1, .colMajor, k11⟩, ⟨2, fun _ => 99⟩, some ⟨2, fun _ => 99⟩, 0⟩⟩
  dst := ⟨⟨2, 2, 3, .colMajor⟩, ⟨6, fun _ => -7⟩, 100⟩

def demoMap : BlockMap := ⟨4, .linear, ⟨2, 2⟩, 1, ⟨0, 0⟩, ⟨1, 1⟩, ⟨1, 1⟩, ⟨0, 0⟩⟩

theorem demo_map : MapFor demoMem demoMap :=
  ⟨⟨2, 2, 1, 1, 1, 1, 1, 4, ⟨32768, 524288⟩⟩, by decide, rfl, rfl, rfl, rfl, by decide, by decide⟩

theorem demo_ready : Ready demoTp demoMem where
  layout s := by
    cases s <;> exact ⟨⟨⟨0, rfl⟩, ⟨0, rfl⟩⟩, ⟨1, rfl⟩, ⟨2, rfl⟩, Nat.le_refl _⟩
  depth := rfl
  stride := by change 2 ≤ 3; decide
  rows := by decide
  cols := by decide
  lsums := .inl rfl
  rsums := .inl rfl
  prepacked s h := by cases s <;> cases h

theorem demo_safe : Safe demoTp demoMem where
  fits s := by
    cases s <;> exact ⟨by decide, by decide, fun b hb => by cases hb; decide⟩
  dfits i j hi hj := by
    change i < 2 at hi
    change j < 2 at hj
    change i + j * 3 < 2 ^ 31 ∧ i + j * 3 < 6
    omega
  sums s _ c hc := by
    cases s
    · change c < 2 at hc
      interval_cases c
      · exact ⟨2, by decide⟩
      · exact ⟨3, by decide⟩
    · change c < 2 at hc
      interval_cases c
      · exact ⟨5, by decide⟩
      · exact ⟨7, by decide⟩
  entries i j hi hj := by
    change i < 2 at hi
    change j < 2 at hj
    interval_cases i <;> interval_cases j
    · exact ⟨115, by decide⟩
    · exact ⟨117, by decide⟩
    · exact ⟨130, by decide⟩
    · exact ⟨134, by decide⟩
  rows := by decide
  cols := by decide

/-- The two threads alternate. -/
def demoSched : List Nat := (List.range 60).map (· % 2)

/-- The destination buffer, the run counts and whether all threads returned. -/
def demoResult (c : C (State Int)) : Option (List Int × List Nat × Bool) :=
  match c with
  | .ok s => some ((List.range 6).map s.mem.dst.data.val, (List.range 6).map s.runs,
      s.pc 0 == .done && s.pc 1 == .done)
  | .error _ => none

-- Two threads alternating compute the product; the gap keeps its old value.
example : demoResult (run ⟨demoTp, demoMap, 2⟩ demoSched (initState ⟨demoTp, demoMap, 2⟩ demoMem)) =
    some ([115, 130, -7, 117, 134, -7], [1, 1, 1, 1, 0, 0], true) := by decide +kernel

-- The hypotheses of c04, c05, c06 and c07 hold for it.
example : ∃ s, run ⟨demoTp, demoMap, 2⟩ demoSched (initState ⟨demoTp, demoMap, 2⟩ demoMem) = .ok s ∧
    Finished ⟨demoTp, demoMap, 2⟩ s ∧ numBlocks demoMap = .ok 4 ∧ Outcome demoTp demoMem s.mem.dst := by
  have h : demoResult (run ⟨demoTp, demoMap, 2⟩ demoSched
      (initState ⟨demoTp, demoMap, 2⟩ demoMem)) =
    some ([115, 130, -7, 117, 134, -7], [1, 1, 1, 1, 0, 0], true) := by decide +kernel
  obtain ⟨s, hs⟩ := (c04_no_fault _ _ _ demo_ready demo_safe demo_map).2.2 2 demoSched
  rw [hs] at h
  simp only [demoResult, Option.some.injEq, Prod.mk.injEq, Bool.and_eq_true, beq_iff_eq] at h
  have hf : Finished ⟨demoTp, demoMap, 2⟩ s := by
    intro t ht
    change t < 2 at ht
    interval_cases t
    · exact h.2.2.1
    · exact h.2.2.2
  exact ⟨s, hs, hf, by decide, .threads demoMap 2 demoSched s demo_map (by decide) hs hf rfl⟩

-- A fair schedule.
example : Fair 2 (fun k => k % 2) := by
  intro t ht k
  exact ⟨2 * k + t, by omega, by show (2 * k + t) % 2 = t; omega⟩

/-- The blocks being packed and computed by threads 0 and 1 after a schedule. -/
def demoPeek (sched : List Nat) :
    Option (List (Option (Side × Nat)) × List (Option Nat)) :=
  match run ⟨demoTp, demoMap, 2⟩ sched (initState ⟨demoTp, demoMap, 2⟩ demoMem) with
  | .ok s => some ([(s.pc 0).packs, (s.pc 1).packs], [(s.pc 0).running, (s.pc 1).running])
  | .error _ => none

-- Two threads packing at the same time (hypotheses of c06_no_race).
example : demoPeek [0, 1, 0, 1] = some ([some (.lhs, 0), some (.lhs, 1)], [none, none]) := by
  decide

-- Two threads inside RunKernel at the same time (c05_threads_disjoint, c06_packed_before_use).
example : demoPeek (List.replicate 9 0 ++ List.replicate 7 1) =
    some ([none, none], [some 0, some 1]) := by decide +kernel

end Ruy.TrMul

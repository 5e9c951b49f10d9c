import Verif.Race.Facts
import Verif.Race.Advance
import Verif.Race.Interleave
import Verif.NeonF.ThreadsProps
import Verif.Neon.DThreadsProps
import Verif.Simd.ThreadsProps
/-
C75: TrMul with several threads has no data race under the C++ memory model, and any order of its calls that respects
happens-before leaves the destination that the one-threaded multiplication leaves.

  c75_no_race        of two calls of RunPack, RunKernel or Resolve that access the same memory, at least one writing, one happens
                     before the other
  c75_no_failure     the check of trmul.cc:184-185 never fails, and no block index is out of range
  c75_progress       a task that has not returned has a next step, whatever its atomic operations return
  c75_packed_once    each block of a side is packed at most once
  c75_computed_once  each block of the destination is computed at most once, and only after its two blocks have been packed
  c75_counter        the block counter stays below the number of tasks plus the number of blocks
  c75_complete       when all tasks have returned, every block has been computed
  c75_order          in every order of the calls that respects happens-before, calls are in order and reach every entry; there
                     is such an order
  c75_float, c75_dot, c75_neon, c75_x86    what memory then contains

C33 to C35 and C46 are about the same code with sequentially consistent memory.
-/
namespace Ruy.Race
open Ruy.Mat Ruy.Mul Ruy.BlockMap
open Ruy.TrMul (Grid grid_of_makeBlockMap MapFor)
open Ruy.Simd.Flow (Op InOrder GridOk prepackCalls Written Block colsOf)
open Ruy.Tune (Tuning)

variable {T : Type} {x : Exec T Loc Nat Work} {p : Prog} {n : Nat} {K : Tasks x p n}

/-- The block map of the tasks is one that MakeBlockMap makes, for int dimensions. -/
def FromMap (p : Prog) : Prop := ∃ a : Args, makeBlockMap a = .ok p.bm ∧ a.rows < 2 ^ 31 ∧ a.cols < 2 ^ 31

theorem FromMap.grid (h : FromMap p) : ∃ dims kd m, Grid p.bm dims kd m := by
  obtain ⟨a, h1, h2, h3⟩ := h
  obtain ⟨m, g⟩ := grid_of_makeBlockMap h1 h2 h3
  exact ⟨_, _, m, g⟩

section

/-- C75: no data race. -/
theorem c75_no_race (hp : FromMap p) (h : K.Ok) (hx : x.Consistent) {a b : Ev T} (ha : K.In a) (hb : K.In b) :
    ¬x.DataRace foot a b := by
  obtain ⟨_, _, _, g⟩ := hp.grid
  rintro ⟨hne, c, c', h1, h2, hc, n1, n2⟩
  rcases conflict_ordered g h hx ha hb h1 h2 hc with e | e | e
  · exact hne e
  · exact n1 e
  · exact n2 e

/-- C75: the checks pass. -/
theorem c75_no_failure (hp : FromMap p) (h : K.Ok) (hx : x.Consistent) {k : Nat} (hk : k < n) : (K.ts k).pc ≠ .failed := by
  obtain ⟨_, _, _, g⟩ := hp.grid
  exact not_failed g h hx hk

/-- C75: a task that has not returned can go on. -/
theorem c75_progress {s : TS} (h1 : s.pc ≠ .done) (h2 : s.pc ≠ .failed) (v : Nat) :
    ∃ r, advance T p s v = some r ∧ Step T p s r.1 r.2 := by
  obtain ⟨r, hr⟩ := advance_some (T := T) (p := p) h1 h2 v
  exact ⟨r, hr, advance_step hr⟩

/-- C75: a block of a side is packed at most once, by whichever task. -/
theorem c75_packed_once (hp : FromMap p) (h : K.Ok) (hx : x.Consistent) {a b : Ev T} {s : Side} {c lo hi lo' hi' : Nat}
    (ha : K.In a) (hb : K.In b) (h1 : x.act a = some (.call (.pack s c lo hi))) (h2 : x.act b = some (.call (.pack s c lo' hi'))) :
    a = b := by
  obtain ⟨_, _, _, g⟩ := hp.grid
  exact pack_once g h hx ha hb h1 h2

/-- C75: a block of the destination is computed at most once, by whichever task, with the coordinates of the block map, and the
packing of its blocks on sides that are not prepacked happens before. -/
theorem c75_computed_once (hp : FromMap p) (h : K.Ok) (hx : x.Consistent) {a : Ev T} {id : Nat} {block start stop : SidePair Nat}
    (ha : K.In a) (h1 : x.act a = some (.call (.kernel id block start stop))) :
    (∀ b block' start' stop', K.In b → x.act b = some (.call (.kernel id block' start' stop')) → a = b) ∧
      getBlockByIndex p.bm id = .ok block ∧
      ∀ s : Side, getBlockMatrixCoords s p.bm (block.get s) = .ok (start.get s, stop.get s) ∧
        (p.pre.get s = false →
          ∃ q, K.In q ∧ x.act q = some (.call (.pack s (block.get s) (start.get s) (stop.get s))) ∧ x.Hb q a) := by
  obtain ⟨_, _, _, g⟩ := hp.grid
  obtain ⟨_, k2, _, k4⟩ := kernel_inv g h ha h1
  exact ⟨fun b _ _ _ hb h2 => kernel_once g h hx ha hb h1 h2, k2, fun s => ⟨k4 s, packed_before g h hx ha h1⟩⟩

/-- C75: the counter. -/
theorem c75_counter (hp : FromMap p) (h : K.Ok) (hx : x.Consistent) {N : Nat} (hN : numBlocks p.bm = .ok N) {e : Ev T} {v : Nat}
    (he : K.In e) (hw : x.Writes e .next v) : v ≤ n + N := by
  obtain ⟨_, _, _, g⟩ := hp.grid
  obtain ⟨o, u, ha, rfl⟩ := next_write g h he hw
  have := next_lt g h hx he ha
  rw [g.total] at hN
  cases hN
  omega

/-- C75: all blocks are computed. -/
theorem c75_complete (hp : FromMap p) (h : K.Ok) (hx : x.Consistent) (hn : 0 < n) (hf : K.Finished) {N : Nat}
    (hN : numBlocks p.bm = .ok N) {id : Nat} (hid : id < N) :
    ∃ e block start stop, K.In e ∧ x.act e = some (.call (.kernel id block start stop)) := by
  obtain ⟨_, _, _, g⟩ := hp.grid
  rw [g.total] at hN
  cases hN
  exact all_computed g h hx hn hf hid

end

/-! ### Orders of the calls -/

/-- C75: orders of the calls that respect happens-before. -/
theorem c75_order {kc : Side → Nat} {dims kd m : SidePair Nat} (gk : GridOk kc dims p.bm m kd) (hd : ∀ s : Side, Block (kc s) (dims.get s) 0 (dims.get s))
    (h : K.Ok) (hx : x.Consistent) :
    (∃ es, Linear K es) ∧ ∀ es, Linear K es → InOrder kc dims (prepackCalls p.pre dims ++ opsOf x es) ∧
      (0 < n → K.Finished → ∀ i j, i < dims.lhs → j < dims.rhs → Written (prepackCalls p.pre dims ++ opsOf x es) i j) := by
  refine ⟨exists_linear hx, fun es hl => ⟨(linear_calls gk h hx hd hl).order, fun hn hf i j hi hj => ?_⟩⟩
  obtain ⟨start, stop, h1, h2⟩ := linear_written gk h hx hn hf hl hi hj
  exact ⟨start, stop, List.mem_append_right _ h1, h2⟩

section
variable {es : List (Ev T)}

/-- C75: float matrices on AArch64. -/
theorem c75_float {A : Type} {t : NeonF.Flow.Task A} {m : NeonF.Flow.Mach A} {U : Tuning → Prop} (ht : NeonF.Flow.TaskOk t)
    (hm : MapFor (NeonF.Flow.shape t) p.bm) (h : K.Ok) (hx : x.Consistent) (hn : 0 < n) (hf : K.Finished) (hl : Linear K es)
    {ops : List (Tuning × Op)} (ho : NeonF.Flow.Tuned U ops (prepackCalls p.pre (colsOf (NeonF.Flow.shape t)) ++ opsOf x es)) :
    (∃ r, NeonF.Flow.Runs t ops m r) ∧
      ∀ r, NeonF.Flow.Runs t ops m r → ∃ m', r = .ok m' ∧ NeonF.Flow.Multiplied U t m m' := by
  obtain ⟨k, kd, g, _⟩ := NeonF.Flow.gridOk_of ht hm
  have hb : ∀ s : Side, Block 8 ((colsOf (NeonF.Flow.shape t)).get s) 0 ((colsOf (NeonF.Flow.shape t)).get s) :=
    fun s => (NeonF.Flow.prepack_ok (pre := ⟨true, true⟩) ht g).order.packs s 0 _ (by cases s <;> simp [prepackCalls])
  obtain ⟨c1, c2⟩ := (c75_order g hb h hx).2 es hl
  have ord : NeonF.Flow.Ordered t (ops.map (·.2)) := by
    rw [ho.1]
    exact NeonF.Flow.InOrder.ordered c1
  obtain ⟨r1, r2⟩ := NeonF.Flow.runs_inv (m0 := m) ht ord
  refine ⟨r1, fun r hr => ?_⟩
  obtain ⟨m', e, hI⟩ := r2 r hr
  refine ⟨m', e, NeonF.Flow.multiplied_of hI ho.2 fun i j hi hj => ?_⟩
  rw [ho.1]
  exact c2 hn hf i j (NeonF.Flow.dst_cols ht hi hj).1 (NeonF.Flow.dst_cols ht hi hj).2

/-- C75: 8-bit matrices on AArch64 with the dot-product instructions. -/
theorem c75_dot {t : Neon.Flow.Task} {m : Neon.Flow.Mach} (ht : Neon.DFlow.TaskOk t)
    (hm : MapFor (Neon.Flow.shape t) p.bm) (h : K.Ok) (hx : x.Consistent) (hn : 0 < n) (hf : K.Finished) (hl : Linear K es)
    {ops : List (Tuning × Op)} (ho : ops.map (·.2) = prepackCalls p.pre (colsOf (Neon.Flow.shape t)) ++ opsOf x es) :
    (∃ r, Neon.DFlow.Runs t ops m r) ∧
      ∀ r, Neon.DFlow.Runs t ops m r → ∃ m', r = .ok m' ∧ Neon.DFlow.Multiplied t m m' := by
  obtain ⟨k, kd, g, _⟩ := Neon.DFlow.gridOk_of ht hm
  have hb : ∀ s : Side, Block 8 ((colsOf (Neon.Flow.shape t)).get s) 0 ((colsOf (Neon.Flow.shape t)).get s) :=
    fun s => (Neon.DFlow.prepack_ok (pre := ⟨true, true⟩) ht g).order.packs s 0 _ (by cases s <;> simp [prepackCalls])
  obtain ⟨c1, c2⟩ := (c75_order g hb h hx).2 es hl
  have ord : Neon.DFlow.Ordered t (ops.map (·.2)) := by
    rw [ho]
    exact Neon.DFlow.InOrder.ordered c1
  obtain ⟨r1, r2⟩ := Neon.DFlow.runs_inv (m0 := m) ht ord
  refine ⟨r1, fun r hr => ?_⟩
  obtain ⟨m', e, hI⟩ := r2 r hr
  refine ⟨m', e, Neon.DFlow.multiplied_of hI fun i j hi hj => ?_⟩
  rw [ho]
  exact c2 hn hf i j (Neon.DFlow.dst_cols ht hi hj).1 (Neon.DFlow.dst_cols ht hi hj).2

/-- C75: 8-bit matrices on AArch64 without them. -/
theorem c75_neon {t : Neon.Flow.Task} {m : Neon.Flow.Mach} (ht : Neon.Flow.TaskOk t)
    (hm : MapFor (Neon.Flow.shape t) p.bm) (h : K.Ok) (hx : x.Consistent) (hn : 0 < n) (hf : K.Finished) (hl : Linear K es)
    {ops : List (Bool × Op)} (ho : ops.map (·.2) = prepackCalls p.pre (colsOf (Neon.Flow.shape t)) ++ opsOf x es) :
    (∃ r, Neon.Flow.Runs t ops m r) ∧
      ∀ r, Neon.Flow.Runs t ops m r → ∃ m', r = .ok m' ∧ Neon.Flow.Multiplied t m m' := by
  obtain ⟨k, kd, g, _⟩ := Neon.Flow.gridOk_of ht hm
  have hb : ∀ s : Side, Block 4 ((colsOf (Neon.Flow.shape t)).get s) 0 ((colsOf (Neon.Flow.shape t)).get s) :=
    fun s => (Neon.Flow.prepack_ok (pre := ⟨true, true⟩) ht g).order.packs s 0 _ (by cases s <;> simp [prepackCalls])
  obtain ⟨c1, c2⟩ := (c75_order g hb h hx).2 es hl
  have ord : Neon.Flow.Ordered t (ops.map (·.2)) := by
    rw [ho]
    exact Neon.Flow.InOrder.ordered c1
  obtain ⟨r1, r2⟩ := Neon.Flow.runs_inv (m0 := m) ht ord
  refine ⟨r1, fun r hr => ?_⟩
  obtain ⟨m', e, hI⟩ := r2 r hr
  refine ⟨m', e, Neon.Flow.multiplied_of hI fun i j hi hj => ?_⟩
  rw [ho]
  exact c2 hn hf i j (Neon.Flow.dst_cols ht hi hj).1 (Neon.Flow.dst_cols ht hi hj).2

/-- C75: integer matrices on x86. -/
theorem c75_x86 {P : Simd.Flow.Path} {ml : Int → Int → Int → Int} (hP : (P, ml) ∈ Simd.Flow.paths) {jb : Simd.Flow.Job} {m : TrMul.Mem Int}
    (ht : Simd.Flow.JobOk P.kernel.isa.kc jb m)
    (hm : MapFor m p.bm) (h : K.Ok) (hx : x.Consistent) (hn : 0 < n) (hf : K.Finished) (hl : Linear K es) :
    ∃ m', Simd.Flow.runOps P jb (prepackCalls p.pre ⟨m.packed.lhs.layout.cols, m.packed.rhs.layout.cols⟩ ++ opsOf x es) m = .ok m' ∧
      Simd.Flow.Multiplied ml jb m m' := by
  obtain ⟨k, kd, g⟩ := Simd.Flow.mapOk_of hP ht hm
  have hkc := Simd.Flow.kc_of (Simd.Flow.paths_ok hP)
  have gk : GridOk (fun _ => P.kernel.isa.kc) ⟨m.packed.lhs.layout.cols, m.packed.rhs.layout.cols⟩ p.bm k kd := ⟨g.grid, g.width⟩
  have hd : ∀ s : Side, (⟨m.packed.lhs.layout.cols, m.packed.rhs.layout.cols⟩ : SidePair Nat).get s = (m.packed.get s).layout.cols :=
    fun s => by cases s <;> rfl
  have hb : ∀ s : Side, Block P.kernel.isa.kc ((⟨m.packed.lhs.layout.cols, m.packed.rhs.layout.cols⟩ : SidePair Nat).get s) 0
      ((⟨m.packed.lhs.layout.cols, m.packed.rhs.layout.cols⟩ : SidePair Nat).get s) := fun s => by
    rw [hd]
    exact Simd.Flow.whole_block hkc (ht.side s) (g.cols hP ht s)
  obtain ⟨c1, c2⟩ := (c75_order gk hb h hx).2 es hl
  have ord : Simd.Flow.Ordered P.kernel.isa.kc jb m (prepackCalls p.pre ⟨m.packed.lhs.layout.cols, m.packed.rhs.layout.cols⟩ ++ opsOf x es) := by
    refine ⟨fun s lo hi hm => ?_, fun start stop hm s => ?_, fun pre start stop post he s c h1 h2 _ => c1.first pre start stop post he s c h1 h2⟩
    · rw [← hd]; exact c1.packs s lo hi hm
    · rw [← hd]; exact c1.kernels start stop hm s
  obtain ⟨m', e, hs, hv, hr⟩ := Simd.Flow.c52_any_order hP ht ord
  obtain ⟨_, _, _, _, _, ll, _⟩ := (ht.side .lhs).facts hkc
  obtain ⟨_, _, _, _, _, lr, _⟩ := (ht.side .rhs).facts hkc
  simp only [SidePair.get_lhs, SidePair.get_rhs] at ll lr
  have := ht.drows
  have := ht.dcols
  exact ⟨m', e, hs, fun i j hi hj => hv i j hi hj (c2 hn hf i j (by show i < m.packed.lhs.layout.cols; omega)
    (by show j < m.packed.rhs.layout.cols; omega)),
    hr.mono (fun i j h => ⟨h.1, h.2.1⟩)⟩

end

/-! ### Example: two threads multiply a 16x128 matrix in four blocks -/

/-- Nothing prepacked, four blocks of 16x32, checks compiled. -/
def exProg : Prog := ⟨⟨false, false⟩, NeonF.Flow.exMap, true⟩

/-- What the tasks do if their atomic operations return these values. -/
def exRun0 : List (TAct (Fin 2)) × TS := runTask (Fin 2) exProg 100 [2, 0, 2, 0, 2, 4, 2, 2, 6] [] ⟨.start 0, fun _ _ => false⟩
def exRun1 : List (TAct (Fin 2)) × TS := runTask (Fin 2) exProg 100 [3, 1, 0, 2, 1, 0, 2, 2, 2, 5, 0, 2, 7] [] ⟨.start 1, fun _ _ => false⟩

/-- Thread 0 initializes the atomics, starts thread 1, runs task 0 and waits. -/
def exTr (t : Fin 2) : List (TAct (Fin 2)) := match t with
  | 0 => [.store .relaxed (.status .lhs 0) 0, .store .relaxed (.status .rhs 0) 0, .store .relaxed (.status .rhs 1) 0,
      .store .relaxed (.status .rhs 2) 0, .store .relaxed (.status .rhs 3) 0, .store .relaxed .next 2, .spawn 1] ++ exRun0.1 ++ [.join 1]
  | 1 => exRun1.1

/-- Thread 1 finds the left block being packed, runs ahead and packs block 2 of the right side, which thread 0 uses. -/
def exSched : List (Ev (Fin 2)) :=
  (List.range 10).map (fun i => (0, i)) ++ (List.range 12).map (fun i => (1, i)) ++ (List.range 9).map (fun i => (0, i + 10)) ++
    (List.range 9).map (fun i => (1, i + 12)) ++ (List.range 4).map (fun i => (0, i + 19))

def exX : Exec (Fin 2) Loc Nat Work := Exec.interleave exTr exSched

theorem ex_consistent : exX.Consistent := Exec.Plays.consistent (by decide +kernel)

def exTasks : Tasks exX exProg 2 where
  th k := if k = 0 then 0 else 1
  lo k := if k = 0 then 7 else 0
  acts k := if k = 0 then exRun0.1 else exRun1.1
  ts k := if k = 0 then exRun0.2 else exRun1.2
  init l := match l with
    | .status .lhs _ => (0, 0)
    | .status .rhs b => (0, b + 1)
    | .next => (0, 5)

theorem ex_lengths : exRun0.1.length = 15 ∧ exRun1.1.length = 21 ∧ (exTr 0).length = 23 ∧ (exTr 1).length = 21 := by decide +kernel

theorem ex_used {l : Loc} (h : Used exProg l) : l = .status .lhs 0 ∨ l = .status .rhs 0 ∨ l = .status .rhs 1 ∨ l = .status .rhs 2 ∨
    l = .status .rhs 3 ∨ l = .next := by
  cases l with
  | next => simp
  | status s b =>
    obtain ⟨_, m, h1, h2⟩ := h
    cases s
    · have : numBlocksPerSide exProg.bm .lhs = .ok 1 := by decide +kernel
      rw [this] at h1; cases h1
      have : b = 0 := by omega
      subst this; simp
    · have : numBlocksPerSide exProg.bm .rhs = .ok 4 := by decide +kernel
      rw [this] at h1; cases h1
      have : b = 0 ∨ b = 1 ∨ b = 2 ∨ b = 3 := by omega
      rcases this with rfl | rfl | rfl | rfl <;> simp

theorem ex_ok : exTasks.Ok := by
  obtain ⟨n0, n1, m0, m1⟩ := ex_lengths
  have two : ∀ k, k < 2 → k = 0 ∨ k = 1 := fun k hk => by omega
  refine ⟨fun j k hj hk he => ?_, fun k hk => ?_, fun k i hk hi => ?_, fun l hl => ?_, fun l e hl he => ?_, fun e l v hl hw => ?_⟩
  · rcases two j hj with rfl | rfl <;> rcases two k hk with rfl | rfl <;> first | rfl | exact absurd he (by decide)
  · rcases two k hk with rfl | rfl
    · exact runTask_steps 100 _ .start
    · exact runTask_steps 100 _ .start
  · rcases two k hk with rfl | rfl
    · have hi : i < exRun0.1.length := hi
      show (exTr 0)[7 + i]? = exRun0.1[i]?
      unfold exTr
      dsimp only
      rw [List.append_assoc, List.getElem?_append_right (by simp), List.getElem?_append_left (by simp; exact hi)]
      congr 1
      simp
    · show (exTr 1)[0 + i]? = exRun1.1[i]?
      rw [Nat.zero_add]
      rfl
  · rcases ex_used hl with rfl | rfl | rfl | rfl | rfl | rfl <;> exact ⟨.relaxed, rfl⟩
  · have init : ∃ i, i < 6 ∧ exTasks.init l = (0, i) := by
      rcases ex_used hl with rfl | rfl | rfl | rfl | rfl | rfl <;> exact ⟨_, by decide, rfl⟩
    obtain ⟨i, hi, e0⟩ := init
    rw [e0]
    obtain ⟨k, j, hk, hj, rfl⟩ := he
    have po : ∀ j, i < j → j < 23 → exX.Hb (0, i) (0, j) := fun j h1 h2 =>
      Exec.hb_po h1 (show j < (exTr 0).length by omega)
    rcases two k hk with rfl | rfl
    · have hj : j < exRun0.1.length := hj
      exact po (7 + j) (by omega) (by omega)
    · have hj : j < exRun1.1.length := hj
      refine (po 6 hi (by decide)).trans (.single (.spawn (t := 1) rfl ?_))
      show 0 + j < (exTr 1).length
      omega
  · obtain ⟨t, i⟩ := e
    have ht : i < (exTr t).length := hw.lt
    match t, ht with
    | 1, ht => exact Or.inr (Or.inl ⟨1, i, by decide, by show i < exRun1.1.length; omega, by
        show ((1 : Fin 2), i) = (1, 0 + i)
        rw [Nat.zero_add]⟩)
    | 0, ht =>
      by_cases h7 : 7 ≤ i
      · by_cases h22 : i < 22
        · refine Or.inr (Or.inl ⟨0, i - 7, by decide, by show i - 7 < exRun0.1.length; omega, ?_⟩)
          show ((0 : Fin 2), i) = (0, 7 + (i - 7))
          rw [Nat.add_sub_cancel' h7]
        · have : i = 22 := by omega
          subst this
          have := Exec.writes_iff.1 hw
          exact absurd this (by show ¬(Option.bind ((exTr 0)[22]?) Exec.wr = _); intro hh; have : Option.bind ((exTr 0)[22]?) Exec.wr = none := by decide +kernel
                                rw [this] at hh; cases hh)
      · left
        have hw := Exec.writes_iff.1 hw
        have : i = 0 ∨ i = 1 ∨ i = 2 ∨ i = 3 ∨ i = 4 ∨ i = 5 ∨ i = 6 := by omega
        rcases this with rfl | rfl | rfl | rfl | rfl | rfl | rfl <;> cases hw <;> rfl

theorem ex_finished : exTasks.Finished := by
  intro k hk
  have : k = 0 ∨ k = 1 := by omega
  rcases this with rfl | rfl
  · show exRun0.2.pc = .done
    decide +kernel
  · show exRun1.2.pc = .done
    decide +kernel

theorem ex_map : FromMap exProg :=
  ⟨⟨16, 128, 21, 8, 8, 1, 1, 2, ⟨32768, 524288⟩⟩, by decide +kernel, by decide, by decide⟩

/-- The hypotheses of `c75_no_race` and `c75_computed_once`: thread 1 packs block 2 of the right side, thread 0 uses it. -/
example : ¬exX.DataRace foot (1, 9) (0, 21) :=
  c75_no_race ex_map ex_ok ex_consistent ⟨1, 9, by decide, by decide +kernel, rfl⟩ ⟨0, 14, by decide, by decide +kernel, rfl⟩

example : exX.act (1, 9) = some (.call (.pack .rhs 2 64 96)) ∧
    exX.act (0, 21) = some (.call (.kernel 2 ⟨0, 2⟩ ⟨0, 64⟩ ⟨16, 96⟩)) ∧
    Exec.Conflict foot (.pack .rhs 2 64 96) (.kernel 2 ⟨0, 2⟩ ⟨0, 64⟩ ⟨16, 96⟩) :=
  ⟨by decide +kernel, by decide +kernel, .packed .rhs 70, Or.inl ⟨⟨rfl, by decide, by decide⟩, Or.inl ⟨by decide, by decide⟩⟩⟩

example : ∃ q, exX.act q = some (.call (.pack .rhs 2 64 96)) ∧ exX.Hb q (0, 21) := by
  obtain ⟨_, _, h⟩ := c75_computed_once ex_map ex_ok ex_consistent (a := (0, 21)) ⟨0, 14, by decide, by decide +kernel, rfl⟩
    (id := 2) (block := ⟨0, 2⟩) (start := ⟨0, 64⟩) (stop := ⟨16, 96⟩) (by decide +kernel)
  obtain ⟨q, _, h1, h2⟩ := (h .rhs).2 rfl
  exact ⟨q, h1, h2⟩

/-- The hypotheses of `c75_no_failure`, `c75_counter` and `c75_complete`. -/
example : (exTasks.ts 1).pc ≠ .failed := c75_no_failure ex_map ex_ok ex_consistent (by decide)

example : ∃ e block start stop, exTasks.In e ∧ exX.act e = some (.call (.kernel 3 block start stop)) :=
  c75_complete ex_map ex_ok ex_consistent (by decide) ex_finished (N := 4) (by decide +kernel) (by decide)

example : exX.Writes (1, 15) .next 6 ∧ 6 ≤ 2 + 4 :=
  have hw : exX.Writes (1, 15) .next 6 := Exec.writes_iff.2 (by decide +kernel)
  ⟨hw, c75_counter ex_map ex_ok ex_consistent (N := 4) (by decide +kernel) ⟨1, 15, by decide, by decide +kernel, rfl⟩ hw⟩

/-- The hypotheses of `c75_order` and `c75_float`: any linear order of the calls, A55 cores and X1 cores together. -/
example {A : Type} (dot : Bool) (o : NeonF.Ops A) (lo hi : A) (m : NeonF.Flow.Mach A) {es : List (Ev (Fin 2))} (hl : Linear exTasks es)
    {ops : List (Tuning × Op)} (ho : NeonF.Flow.Tuned (fun u => u = .x1 ∨ u = .a55ish) ops
      (prepackCalls ⟨false, false⟩ ⟨16, 128⟩ ++ opsOf exX es)) :
    ∃ m', NeonF.Flow.Runs (NeonF.Flow.exTask2 dot o lo hi) ops m (.ok m') ∧
      NeonF.Flow.Multiplied (fun u => u = .x1 ∨ u = .a55ish) (NeonF.Flow.exTask2 dot o lo hi) m m' := by
  obtain ⟨⟨r, hr⟩, hv⟩ := c75_float (m := m) (NeonF.Flow.exTask2_ok dot o lo hi) (NeonF.Flow.exMapFor dot o lo hi) ex_ok ex_consistent
    (by decide) ex_finished hl ho
  obtain ⟨m', rfl, h⟩ := hv r hr
  exact ⟨m', hr, h⟩

/-- There is such an order. -/
example : ∃ es, Linear exTasks es := exists_linear ex_consistent

/-- The hypotheses of `c75_dot`: the same block map. -/
example (dt : Neon.Dt) (m : Neon.Flow.Mach) {es : List (Ev (Fin 2))} (hl : Linear exTasks es) {ops : List (Tuning × Op)}
    (ho : ops.map (·.2) = prepackCalls ⟨false, false⟩ ⟨16, 128⟩ ++ opsOf exX es) :
    ∃ m', Neon.DFlow.Runs (Neon.DFlow.exTask2 dt) ops m (.ok m') ∧ Neon.DFlow.Multiplied (Neon.DFlow.exTask2 dt) m m' := by
  obtain ⟨⟨r, hr⟩, hv⟩ := c75_dot (m := m) (Neon.DFlow.exTask2_ok dt) (Neon.DFlow.exMapFor dt) ex_ok ex_consistent
    (by decide) ex_finished hl ho
  obtain ⟨m', rfl, h⟩ := hv r hr
  exact ⟨m', hr, h⟩

/-- The hypotheses of `c75_packed_once` and `c75_progress`. -/
example : ∀ lo hi, exX.act (1, 9) = some (.call (.pack .rhs 2 lo hi)) → ∀ i, exX.act (0, i) = some (.call (.pack .rhs 2 lo hi)) →
    ¬exTasks.In (0, i) := fun _ _ h1 i h2 hi => by
  have := c75_packed_once ex_map ex_ok ex_consistent ⟨1, 9, by decide, by decide +kernel, rfl⟩ hi h1 h2
  exact absurd (show (1 : Fin 2) = 0 from congrArg Prod.fst this) (by decide)

example (v : Nat) : ∃ r : Option (TAct (Fin 2)) × TS, Step (Fin 2) exProg ⟨.start 0, fun _ _ => false⟩ r.1 r.2 := by
  obtain ⟨r, _, h⟩ := c75_progress (T := Fin 2) (p := exProg) (s := ⟨.start 0, fun _ _ => false⟩) (by simp) (by simp) v
  exact ⟨r, h⟩

/-! ### Example: one task -/

section Solo
variable {q : Prog} {is : List Loc} {r : List (TAct Unit) × TS}

/-- A thread that stores the initial values and then runs task 0. -/
def soloTr (is : List Loc) (acts : List (TAct Unit)) (_ : Unit) : List (TAct Unit) :=
  is.map (fun l => .store .relaxed l (first 1 l)) ++ acts

def soloX (is : List Loc) (acts : List (TAct Unit)) : Exec Unit Loc Nat Work :=
  Exec.interleave (soloTr is acts) ((List.range (is.length + acts.length)).map fun i => ((), i))

def solo (q : Prog) (is : List Loc) (r : List (TAct Unit) × TS) : Tasks (soloX is r.1) q 1 where
  th _ := ()
  lo _ := is.length
  acts _ := r.1
  ts _ := r.2
  init l := ((), is.idxOf l)

theorem solo_ok (h : Steps Unit q 0 r.1 r.2) (hd : is.Nodup) (hi : ∀ l, Used q l → l ∈ is) : (solo q is r).Ok := by
  have tr : (soloX is r.1).tr () = is.map (fun l => .store .relaxed l (first 1 l)) ++ r.1 := rfl
  refine ⟨fun j k hj hk _ => by omega, fun k hk => ?_, fun k i hk hj => ?_, fun l hl => ?_, fun l e hl he => ?_, fun e l v hl hw => ?_⟩
  · have : k = 0 := by omega
    subst this; exact h
  · show ((soloX is r.1).tr ())[is.length + i]? = r.1[i]?
    rw [tr, List.getElem?_append_right (by simp)]
    simp
  · refine ⟨.relaxed, ?_⟩
    have hlt := List.idxOf_lt_length_of_mem (hi l hl)
    show ((soloX is r.1).tr ())[is.idxOf l]? = _
    rw [tr, List.getElem?_append_left (by simpa using hlt), List.getElem?_map, List.getElem?_eq_getElem hlt]
    simp
  · obtain ⟨k, i, _, hj, rfl⟩ := he
    have hlt := List.idxOf_lt_length_of_mem (hi l hl)
    have hj : i < r.1.length := hj
    refine Exec.hb_po (show is.idxOf l < is.length + i by omega) ?_
    show is.length + i < ((soloX is r.1).tr ()).length
    rw [tr]
    simp only [List.length_append, List.length_map]
    omega
  · obtain ⟨⟨⟩, i⟩ := e
    have ht : i < ((soloX is r.1).tr ()).length := hw.lt
    rw [tr] at ht
    simp only [List.length_append, List.length_map] at ht
    by_cases hlt : i < is.length
    · have hwr := Exec.writes_iff.1 hw
      have e1 : (soloX is r.1).act ((), i) = some (.store .relaxed is[i] (first 1 is[i])) := by
        show ((soloX is r.1).tr ())[i]? = _
        rw [tr, List.getElem?_append_left (by simpa using hlt), List.getElem?_map, List.getElem?_eq_getElem hlt]
        rfl
      rw [e1] at hwr
      cases hwr
      left
      show ((), i) = ((), is.idxOf is[i])
      rw [hd.idxOf_getElem i hlt]
    · refine Or.inr (Or.inl ⟨0, i - is.length, by decide, ?_, ?_⟩)
      · show i - is.length < r.1.length
        omega
      · show ((), i) = ((), is.length + (i - is.length))
        rw [Nat.add_sub_cancel' (Nat.le_of_not_lt hlt)]

end Solo

/-- One task on the map of the x86 example: two blocks of one row. -/
def x86Prog : Prog := ⟨⟨false, false⟩, Simd.Flow.exMap, true⟩
def x86Run : List (TAct Unit) × TS := runTask Unit x86Prog 100 [1, 0, 2, 0, 2, 2, 0, 2] [] ⟨.start 0, fun _ _ => false⟩
def x86Locs : List Loc := [.status .lhs 0, .status .rhs 0, .status .rhs 1, .next]

theorem x86_consistent : (soloX x86Locs x86Run.1).Consistent := Exec.Plays.consistent (by decide +kernel)

theorem x86_used {l : Loc} (hl : Used x86Prog l) : l ∈ x86Locs := by
  cases l with
  | next => decide
  | status s b =>
    obtain ⟨_, m, h1, h2⟩ := hl
    cases s
    · have : numBlocksPerSide x86Prog.bm .lhs = .ok 1 := by decide +kernel
      rw [this] at h1; cases h1
      have : b = 0 := by omega
      subst this; decide
    · have : numBlocksPerSide x86Prog.bm .rhs = .ok 2 := by decide +kernel
      rw [this] at h1; cases h1
      have : b = 0 ∨ b = 1 := by omega
      rcases this with rfl | rfl <;> decide

theorem x86_ok : (solo x86Prog x86Locs x86Run).Ok := solo_ok (runTask_steps 100 _ .start) (by decide) fun _ => x86_used

theorem x86_finished : (solo x86Prog x86Locs x86Run).Finished := fun _ _ => by
  show x86Run.2.pc = _
  decide +kernel

/-- The hypotheses of `c75_x86`. -/
example {es : List (Ev Unit)} (hl : Linear (solo x86Prog x86Locs x86Run) es) :
    ∃ m', Simd.Flow.runOps Simd.Flow.path2 (Simd.Flow.exJob2 .int32) (prepackCalls ⟨false, false⟩ ⟨8, 128⟩ ++ opsOf (soloX x86Locs x86Run.1) es)
      Simd.Flow.exMem2 = .ok m' ∧ Simd.Flow.Multiplied Simd.lane (Simd.Flow.exJob2 .int32) Simd.Flow.exMem2 m' :=
  c75_x86 (P := Simd.Flow.path2) (by simp [Simd.Flow.paths]) (Simd.Flow.exOk2 (by decide)) Simd.Flow.exMapFor x86_ok x86_consistent
    (by decide) x86_finished hl

/-- One task with the right side prepacked, on the map of the AArch64 example: eight blocks of one row. -/
def neonProg : Prog := ⟨⟨false, true⟩, Neon.Flow.exMap, false⟩
def neonRun : List (TAct Unit) × TS := runTask Unit neonProg 100 [1, 0, 2, 3, 4, 5, 6, 7, 8] [] ⟨.start 0, fun _ _ => false⟩
def neonLocs : List Loc := [.status .lhs 0, .next]

theorem neon_consistent : (soloX neonLocs neonRun.1).Consistent := Exec.Plays.consistent (by decide +kernel)

theorem neon_used {l : Loc} (hl : Used neonProg l) : l ∈ neonLocs := by
  cases l with
  | next => decide
  | status s b =>
    obtain ⟨h0, m, h1, h2⟩ := hl
    cases s
    · have : numBlocksPerSide neonProg.bm .lhs = .ok 1 := by decide +kernel
      rw [this] at h1; cases h1
      have : b = 0 := by omega
      subst this; decide
    · exact absurd h0 (by decide)

theorem neon_ok : (solo neonProg neonLocs neonRun).Ok := solo_ok (runTask_steps 100 _ .start) (by decide) fun _ => neon_used

theorem neon_finished : (solo neonProg neonLocs neonRun).Finished := fun _ _ => by
  show neonRun.2.pc = _
  decide +kernel

/-- The hypotheses of `c75_neon`. -/
example (dt : Neon.Dt) (m : Neon.Flow.Mach) {es : List (Ev Unit)} (hl : Linear (solo neonProg neonLocs neonRun) es) {ops : List (Bool × Op)}
    (ho : ops.map (·.2) = prepackCalls ⟨false, true⟩ ⟨8, 128⟩ ++ opsOf (soloX neonLocs neonRun.1) es) :
    ∃ m', Neon.Flow.Runs (Neon.Flow.exTask2 dt) ops m (.ok m') ∧ Neon.Flow.Multiplied (Neon.Flow.exTask2 dt) m m' := by
  obtain ⟨⟨r, hr⟩, hv⟩ := c75_neon (m := m) (Neon.Flow.exTask2_ok dt) (Neon.Flow.exMapFor dt) neon_ok neon_consistent
    (by decide) neon_finished hl ho
  obtain ⟨m', rfl, h⟩ := hv r hr
  exact ⟨m', hr, h⟩

end Ruy.Race

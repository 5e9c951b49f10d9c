import Verif.NeonF.FlowProps
import Verif.Neon.ThreadsProps
import Verif.Simd.Calls
/-
TrMul on float matrices and the AArch64 paths kNeon and kNeonDotprod: the single-threaded block loop and several
threads (trmul.cc:60-422), with the pack functions and kernels of `NeonF.Flow`.

As in `Simd.Threads`, the control flow is that of `TrMul.step` with elements of type Unit, and the memory is changed when a
call of RunPack or RunKernel returns.  A thread asks for its tuning once (trmul.cc:90), and threads can get different
answers; here every call can have any tuning in a set `U`.
-/
namespace Ruy.NeonF.Flow
open Ruy.Mat Ruy.Mul Ruy.BlockMap
open Ruy.Tune (Tuning)
open Ruy.TrMul (Mem Cfg State MapFor)
open Ruy.Simd.Flow (Op Covered Written control returning prepackCalls blockCalls colsOf InOrder GridOk CallsOk CtlOk ShapeOk
  prepackCalls_ok blockCalls_of ctl_step ctl_start ctl_finish)

variable {A : Type}

def shapeOf (p : Target) : PMat Unit := ⟨p.layout, ⟨p.size, fun _ => ()⟩, none, 0⟩

/-- The matrices of a task without their elements. -/
def shape (t : Task A) : Mem Unit :=
  ⟨⟨shapeOf t.packed.lhs, shapeOf t.packed.rhs⟩,
    ⟨{ t.dst.layout with order := .colMajor }, ⟨t.dst.size, fun _ => ()⟩, 0⟩⟩

/-- `ops` are the calls `calls`, each with a tuning in `U`. -/
def Tuned (U : Tuning → Prop) (ops : List (Tuning × Op)) (calls : List Op) : Prop :=
  ops.map (·.2) = calls ∧ ∀ o ∈ ops, U o.1

/-- trmul.cc:78-119 (`Run`) with thread_count = 1, from the packing of prepacked sides on: can end with `r`. -/
def BlockLoop (U : Tuning → Prop) (t : Task A) (pre : SidePair Bool) (bm : BlockMap) (m : Mach A) (r : C (Mach A)) : Prop :=
  match blockCalls pre bm with
  | .error e => r = .error e
  | .ok calls => ∃ ops, Tuned U ops (prepackCalls pre (colsOf (shape t)) ++ calls) ∧ Runs t ops m r

/-- Control state and memory. -/
structure XState (A : Type) where
  ctl : State Unit
  mem : Mach A

/-- One step of thread `th` can end with `r`. -/
def XStep (U : Tuning → Prop) (t : Task A) (cfg : Cfg Unit) (x : XState A) (th : Nat) (r : C (XState A)) : Prop :=
  match returning cfg.bm x.ctl th with
  | .error e => r = .error e
  | .ok none => r = (TrMul.step cfg x.ctl th).map fun s => ⟨s, x.mem⟩
  | .ok (some o) => ∃ u rm, U u ∧ Step t (u, o) x.mem rm ∧ r = do
      let m ← rm
      let s ← TrMul.step cfg x.ctl th
      .ok ⟨s, m⟩

/-- An execution under a schedule. -/
inductive XRun (U : Tuning → Prop) (t : Task A) (cfg : Cfg Unit) : List Nat → XState A → C (XState A) → Prop
  | nil {x} : XRun U t cfg [] x (.ok x)
  | fault {th ts x e} : XStep U t cfg x th (.error e) → XRun U t cfg (th :: ts) x (.error e)
  | next {th ts x x' r} : XStep U t cfg x th (.ok x') → XRun U t cfg ts x' r → XRun U t cfg (th :: ts) x r

/-- trmul.cc:310-422 with several threads, from the packing of prepacked sides on: can end with `r`. -/
def Exec (U : Tuning → Prop) (t : Task A) (pre : SidePair Bool) (bm : BlockMap) (threads : Nat) (sched : List Nat) (m : Mach A)
    (r : C (XState A)) : Prop :=
  ∃ ops rm, Tuned U ops (prepackCalls pre (colsOf (shape t))) ∧ Runs t ops m rm ∧
    match rm with
    | .error e => r = .error e
    | .ok m1 => XRun U t (control pre bm threads) sched ⟨TrMul.initState (control pre bm threads) (shape t), m1⟩ r

/-- Offsets in the destination are ints. -/
def DstInts (t : Task A) : Prop :=
  ∀ i j, i < t.dst.layout.rows → j < t.dst.layout.cols → j * t.dst.layout.stride + i < 2 ^ 31

/-! ### Lemmas -/

variable {t : Task A} {m0 m : Mach A} {pre : SidePair Bool} {bm : BlockMap} {n kd : SidePair Nat} {threads : Nat}
  {U : Tuning → Prop}

theorem cols_get (t : Task A) (s : Side) : (colsOf (shape t)).get s = (t.packed.get s).layout.cols := by cases s <;> rfl

theorem shape_get (t : Task A) (s : Side) : (shape t).packed.get s = shapeOf (t.packed.get s) := by cases s <;> rfl

theorem InOrder.ordered {ops : List Op} (h : InOrder (fun _ => 8) (colsOf (shape t)) ops) : Ordered t ops where
  packs s lo hi hm := by rw [← cols_get]; exact h.packs s lo hi hm
  kernels start stop hm s := by rw [← cols_get]; exact h.kernels start stop hm s
  first pre start stop post he s c h1 h2 _ := h.first pre start stop post he s c h1 h2

/-- One more call. -/
theorem op_step (h : TaskOk t) {ops : List (Tuning × Op)} {o : Op} (u : Tuning) (hI : Inv t m0 ops m)
    (ho : InOrder (fun _ => 8) (colsOf (shape t)) (ops.map (·.2) ++ [o])) :
    (∃ r, Step t (u, o) m r) ∧ ∀ r, Step t (u, o) m r → ∃ m', r = .ok m' ∧ Inv t m0 (ops ++ [(u, o)]) m' := by
  have ho := InOrder.ordered ho
  cases o with
  | pack s lo hi => exact pack_step h hI (ho.packs s lo hi (by simp))
  | kernel start stop => exact kernel_step h hI (ho.kernels start stop (by simp)) (ho.first _ start stop [] rfl)

theorem tuned_exists {u : Tuning} (hu : U u) (calls : List Op) : ∃ ops, Tuned U ops calls :=
  ⟨calls.map fun o => (u, o), by rw [List.map_map]; exact List.map_id _, fun o ho => by
    obtain ⟨_, _, rfl⟩ := List.mem_map.1 ho
    exact hu⟩

theorem gridOk_of (h : TaskOk t) (hm : MapFor (shape t) bm) : ∃ n kd, GridOk (fun _ => 8) (colsOf (shape t)) bm n kd ∧
    ∀ s, kd.get s = ((shape t).packed.get s).layout.kernel.cols := by
  obtain ⟨n, kd, g, hk⟩ := hm.grid
  refine ⟨n, kd, ⟨g, fun s => ?_⟩, hk⟩
  obtain ⟨_, _, _, l3, _⟩ := createPackedLayout_ok (h.side s).layout
  rw [hk, shape_get, shapeOf]
  dsimp only
  rw [l3]

theorem prepack_ok (h : TaskOk t) (g : GridOk (fun _ => 8) (colsOf (shape t)) bm n kd) :
    CallsOk (fun _ => 8) (colsOf (shape t)) pre (prepackCalls pre (colsOf (shape t))) := by
  refine prepackCalls_ok (fun s => ⟨Nat.zero_mod _, ?_, g.pos s, Nat.le_refl _⟩)
  rw [cols_get]
  exact (h.side s).facts.2.2.2.2

theorem shapeOk (h : TaskOk t) (hd : DstInts t) : ShapeOk (shape t) where
  layout s := by
    rw [shape_get]
    exact (createPackedLayout_ok (h.side s).layout).1
  fits s := by
    rw [shape_get]
    obtain ⟨_, l1, _⟩ := createPackedLayout_ok (h.side s).layout
    have h1 := (h.side s).int
    have h2 := (h.side s).size
    refine ⟨?_, ?_, fun b hb => by cases hb⟩
    · show pflatSize (t.packed.get s).layout ≤ _
      unfold pflatSize
      rw [l1]
      exact Nat.le_of_lt h1
    · show pflatSize (t.packed.get s).layout ≤ (t.packed.get s).size
      unfold pflatSize
      rw [l1]
      exact h2
  depth := (pos_rows h).2.1.symm
  zps := ⟨rfl, rfl⟩
  dzp := rfl
  nosums := ⟨rfl, rfl⟩
  stride := h.dstride
  dfits i j hi hj := by
    have hi : i < t.dst.layout.rows := hi
    have hj : j < t.dst.layout.cols := hj
    have h1 := hd i j hi hj
    have h2 := h.dsize i j hi hj
    show off { t.dst.layout with order := .colMajor } i j < 2 ^ 31 ∧ off { t.dst.layout with order := .colMajor } i j < t.dst.size
    unfold off
    dsimp only
    rw [Nat.add_comm i]
    exact ⟨h1, h2⟩
  rows := by
    obtain ⟨_, _, hl, _⟩ := (h.side .lhs).facts
    show t.dst.layout.rows ≤ t.packed.lhs.layout.cols
    rw [h.drows]; exact hl
  cols := by
    obtain ⟨_, _, hl, _⟩ := (h.side .rhs).facts
    show t.dst.layout.cols ≤ t.packed.rhs.layout.cols
    rw [h.dcols]; exact hl
  lastRow := by
    obtain ⟨_, _, _, hl, _⟩ := (h.side .lhs).facts
    obtain ⟨_, _, _, l3, _⟩ := createPackedLayout_ok (h.side .lhs).layout
    show t.packed.lhs.layout.cols < t.dst.layout.rows + t.packed.lhs.layout.kernel.cols
    simp only [SidePair.get_lhs] at hl l3
    rw [h.drows, l3]; exact hl
  lastCol := by
    obtain ⟨_, _, _, hl, _⟩ := (h.side .rhs).facts
    obtain ⟨_, _, _, l3, _⟩ := createPackedLayout_ok (h.side .rhs).layout
    show t.packed.rhs.layout.cols < t.dst.layout.cols + t.packed.rhs.layout.kernel.cols
    simp only [SidePair.get_rhs] at hl l3
    rw [h.dcols, l3]; exact hl

/-- What holds during an execution. -/
structure XInv (U : Tuning → Prop) (t : Task A) (m0 : Mach A) (pre : SidePair Bool) (bm : BlockMap) (n : SidePair Nat) (threads : Nat)
    (ops : List (Tuning × Op)) (x : XState A) : Prop where
  ctl : CtlOk (fun _ => 8) (shape t) pre bm n threads (ops.map (·.2)) x.ctl
  mem : Inv t m0 ops x.mem
  tunings : ∀ o ∈ ops, U o.1

theorem xstep_ok (h : TaskOk t) (hd : DstInts t) (g : GridOk (fun _ => 8) (colsOf (shape t)) bm n kd)
    (hk : ∀ s, kd.get s = ((shape t).packed.get s).layout.kernel.cols) (hU : ∃ u, U u) {ops : List (Tuning × Op)} {x : XState A}
    (ok : XInv U t m0 pre bm n threads ops x) (th : Nat) :
    (∃ r, XStep U t (control pre bm threads) x th r) ∧
      ∀ r, XStep U t (control pre bm threads) x th r → ∃ x' ops', r = .ok x' ∧ XInv U t m0 pre bm n threads ops' x' ∧
        TrMul.step (control pre bm threads) x.ctl th = .ok x'.ctl := by
  have sh := shapeOk h hd
  obtain ⟨s', hs⟩ := TrMul.step_total (cfg := control pre bm threads) sh.ready g.grid hk sh.safe ok.ctl.inv th
  have su : TrMul.Setup (control pre bm threads) (shape t) n := ⟨sh.ready, kd, g.grid⟩
  obtain ⟨u0, hu0⟩ := hU
  unfold XStep
  rcases ctl_step g su ok.ctl hs with ⟨hr, ok'⟩ | ⟨o, hr, ok'⟩
  · rw [show (control pre bm threads).bm = bm from rfl, hr]
    dsimp only
    refine ⟨⟨_, rfl⟩, fun r e => ?_⟩
    subst e
    rw [hs]
    exact ⟨⟨s', x.mem⟩, ops, rfl, ⟨ok', ok.mem, ok.tunings⟩, rfl⟩
  · rw [show (control pre bm threads).bm = bm from rfl, hr]
    dsimp only
    refine ⟨?_, fun r e => ?_⟩
    · obtain ⟨⟨rm, hrm⟩, _⟩ := op_step h u0 ok.mem ok'.calls.order
      exact ⟨_, u0, rm, hu0, hrm, rfl⟩
    · obtain ⟨u, rm, hu, hst, e⟩ := e
      obtain ⟨m', rfl, hI⟩ := (op_step h u ok.mem ok'.calls.order).2 rm hst
      rw [C.ok_bind, hs, C.ok_bind] at e
      refine ⟨⟨s', m'⟩, ops ++ [(u, o)], e, ⟨by rw [List.map_append]; exact ok', hI, fun p hp => ?_⟩, hs⟩
      rcases List.mem_append.1 hp with hp | hp
      · exact ok.tunings p hp
      · rw [List.mem_singleton.1 hp]
        exact hu

theorem xrun_ok (h : TaskOk t) (hd : DstInts t) (g : GridOk (fun _ => 8) (colsOf (shape t)) bm n kd)
    (hk : ∀ s, kd.get s = ((shape t).packed.get s).layout.kernel.cols) (hU : ∃ u, U u) {ops : List (Tuning × Op)} {x : XState A}
    (ok : XInv U t m0 pre bm n threads ops x) (sched : List Nat) :
    (∃ r, XRun U t (control pre bm threads) sched x r) ∧
      ∀ r, XRun U t (control pre bm threads) sched x r → ∃ x' ops', r = .ok x' ∧ XInv U t m0 pre bm n threads ops' x' ∧
        TrMul.run (control pre bm threads) sched x.ctl = .ok x'.ctl := by
  induction sched generalizing x ops with
  | nil =>
    refine ⟨⟨_, .nil⟩, fun r hr => ?_⟩
    cases hr
    exact ⟨x, ops, rfl, ok, rfl⟩
  | cons th ts ih =>
    obtain ⟨⟨r, hr⟩, hs⟩ := xstep_ok h hd g hk hU ok th
    refine ⟨?_, fun r' hr' => ?_⟩
    · obtain ⟨x1, ops1, rfl, ok1, _⟩ := hs r hr
      obtain ⟨⟨r', hr'⟩, _⟩ := ih ok1
      exact ⟨r', .next hr hr'⟩
    · cases hr' with
      | fault hf => obtain ⟨_, _, e, _⟩ := hs _ hf; cases e
      | next hn hr' =>
        obtain ⟨x1, ops1, e, ok1, e1⟩ := hs _ hn
        cases e
        obtain ⟨x2, ops2, e2, ok2, e3⟩ := (ih ok1).2 r' hr'
        refine ⟨x2, ops2, e2, ok2, ?_⟩
        unfold TrMul.run
        rw [e1, C.ok_bind]
        exact e3

theorem exec_ok (h : TaskOk t) (hd : DstInts t) (g : GridOk (fun _ => 8) (colsOf (shape t)) bm n kd)
    (hk : ∀ s, kd.get s = ((shape t).packed.get s).layout.kernel.cols) (hU : ∃ u, U u) (pre : SidePair Bool) (threads : Nat)
    (sched : List Nat) (m : Mach A) :
    (∃ r, Exec U t pre bm threads sched m r) ∧
      ∀ r, Exec U t pre bm threads sched m r → ∃ x ops, r = .ok x ∧ XInv U t m pre bm n threads ops x ∧
        TrMul.run (control pre bm threads) sched (TrMul.initState (control pre bm threads) (shape t)) = .ok x.ctl := by
  have sh := shapeOk h hd
  have su : TrMul.Setup (control pre bm threads) (shape t) n := ⟨sh.ready, kd, g.grid⟩
  have hp := prepack_ok (pre := pre) h g
  have start : ∀ ops m1, Tuned U ops (prepackCalls pre (colsOf (shape t))) → Inv t m ops m1 →
      XInv U t m pre bm n threads ops ⟨TrMul.initState (control pre bm threads) (shape t), m1⟩ := fun ops m1 ht hI =>
    ⟨by rw [ht.1]; exact ctl_start su hp, hI, ht.2⟩
  have ord : ∀ ops : List (Tuning × Op), Tuned U ops (prepackCalls pre (colsOf (shape t))) → Ordered t (ops.map (·.2)) := fun ops ht => by
    rw [ht.1]
    exact InOrder.ordered hp.order
  refine ⟨?_, fun r hr => ?_⟩
  · obtain ⟨u0, hu0⟩ := hU
    obtain ⟨ops, ht⟩ := tuned_exists hu0 (prepackCalls pre (colsOf (shape t)))
    obtain ⟨⟨rm, hrm⟩, hh⟩ := runs_inv (m0 := m) h (ord ops ht)
    obtain ⟨m1, rfl, hI⟩ := hh rm hrm
    obtain ⟨⟨r, hr⟩, _⟩ := xrun_ok h hd g hk ⟨u0, hu0⟩ (start ops m1 ht hI) sched
    exact ⟨r, ops, .ok m1, ht, hrm, hr⟩
  · obtain ⟨ops, rm, ht, hrm, hr⟩ := hr
    obtain ⟨m1, rfl, hI⟩ := (runs_inv (m0 := m) h (ord ops ht)).2 rm hrm
    exact (xrun_ok h hd g hk hU (start ops m1 ht hI) sched).2 r hr

theorem multiplied_of {m' : Mach A} {ops : List (Tuning × Op)} (hI : Inv t m ops m') (hu : ∀ o ∈ ops, U o.1)
    (hw : ∀ i j, i < t.dst.layout.rows → j < t.dst.layout.cols → Written (ops.map (·.2)) i j) : Multiplied U t m m' where
  src := hI.kept.src
  bias := hI.kept.bias
  entry i j hi hj := by
    obtain ⟨u, ⟨_, _, w, _⟩, e⟩ := hI.entry i j hi hj (hw i j hi hj)
    exact ⟨u, hu _ w, e⟩
  rest o ho := hI.rest o (fun i j hi hj _ => ho i j hi hj)

theorem dst_cols (h : TaskOk t) {i j : Nat} (hi : i < t.dst.layout.rows) (hj : j < t.dst.layout.cols) :
    i < (colsOf (shape t)).lhs ∧ j < (colsOf (shape t)).rhs := by
  obtain ⟨_, _, ll, _⟩ := (h.side .lhs).facts
  obtain ⟨_, _, lr, _⟩ := (h.side .rhs).facts
  simp only [SidePair.get_lhs, SidePair.get_rhs] at ll lr
  have := h.drows
  have := h.dcols
  show i < t.packed.lhs.layout.cols ∧ j < t.packed.rhs.layout.cols
  omega

end Ruy.NeonF.Flow

import Verif.Arm8.Threads
import Verif.Arm8.FlowRun
import Verif.Neon.ThreadsInv
/-
Block loop and threads on 32-bit ARM: lemmas for property C88.
-/
namespace Ruy.Arm8.Flow
open Ruy.Mat Ruy.Mul Ruy.BlockMap
open Ruy.TrMul (Mem Cfg State MapFor)
open Ruy.Simd.Flow (Op Covered Written control returning prepackCalls blockCalls colsOf InOrder GridOk CallsOk CtlOk ShapeOk
  prepackCalls_ok blockCalls_of ctl_step ctl_start ctl_finish)
open Ruy.Neon.Flow (Task Mach place shape shapeOf XState cols_get shape_get DstInts size_pos)

variable {t : Task} {m0 m : Mach} {pre : SidePair Bool} {bm : BlockMap} {n kd : SidePair Nat} {threads : Nat}

theorem InOrder.ordered {ops : List Op} (h : InOrder cols (colsOf (shape t)) ops) : Ordered t ops where
  packs s lo hi hm := by rw [← cols_get]; exact h.packs s lo hi hm
  kernels start stop hm s := by rw [← cols_get]; exact h.kernels start stop hm s
  first pre start stop post he s c h1 h2 _ := h.first pre start stop post he s c h1 h2

/-- One more call. -/
theorem op_step (h : TaskOk t) {ops : List Op} {o : Op} (hI : Inv t m0 ops m)
    (ho : InOrder cols (colsOf (shape t)) (ops ++ [o])) :
    (∃ r, Step t o m r) ∧ ∀ r, Step t o m r → ∃ m', r = .ok m' ∧ Inv t m0 (ops ++ [o]) m' := by
  have ho := InOrder.ordered ho
  cases o with
  | pack s lo hi => exact pack_step h hI (ho.packs s lo hi (by simp))
  | kernel start stop => exact kernel_step h hI (ho.kernels start stop (by simp)) (ho.first ops start stop [] rfl)

theorem gridOk_of (h : TaskOk t) (hm : MapFor (shape t) bm) : ∃ n kd, GridOk cols (colsOf (shape t)) bm n kd ∧
    ∀ s, kd.get s = ((shape t).packed.get s).layout.kernel.cols := by
  obtain ⟨n, kd, g, hk⟩ := hm.grid
  refine ⟨n, kd, ⟨g, fun s => ?_⟩, hk⟩
  obtain ⟨_, _, _, l3, _⟩ := createPackedLayout_ok (h.side s).layout
  rw [hk, shape_get, shapeOf]
  dsimp only
  rw [l3]

theorem prepack_ok (h : TaskOk t) (g : GridOk cols (colsOf (shape t)) bm n kd) :
    CallsOk cols (colsOf (shape t)) pre (prepackCalls pre (colsOf (shape t))) := by
  refine prepackCalls_ok (fun s => ⟨Nat.zero_mod _, ?_, g.pos s, Nat.le_refl _⟩)
  rw [cols_get]
  exact (h.side s).facts.2.2.2.2.1

theorem shapeOk (h : TaskOk t) (hd : DstInts t) : ShapeOk (shape t) where
  layout s := by
    rw [shape_get]
    exact (createPackedLayout_ok (h.side s).layout).1
  fits s := by
    rw [shape_get]
    obtain ⟨_, l1, _⟩ := createPackedLayout_ok (h.side s).layout
    have h1 := (h.side s).int
    have h2 := (h.side s).size
    refine ⟨?_, ?_, fun b hb => by cases hb⟩
    · show pflatSize (t.packed.get s).layout ≤ _
      unfold pflatSize
      rw [l1]
      exact Nat.le_of_lt h1
    · show pflatSize (t.packed.get s).layout ≤ (t.packed.get s).size
      unfold pflatSize
      rw [l1]
      exact h2
  depth := by
    obtain ⟨_, hl, _⟩ := (h.side .lhs).facts
    obtain ⟨_, hr, _⟩ := (h.side .rhs).facts
    simp only [SidePair.get_lhs, SidePair.get_rhs] at hl hr
    show t.packed.lhs.layout.rows = t.packed.rhs.layout.rows
    rw [hl, hr, h.depth]
  zps := ⟨rfl, rfl⟩
  dzp := rfl
  nosums := ⟨rfl, rfl⟩
  stride := h.dstride
  dfits i j hi hj := by
    have hi : i < t.dst.layout.rows := hi
    have hj : j < t.dst.layout.cols := hj
    have h1 := hd i j hi hj
    have h2 := h.dsize i j hi hj
    show off { t.dst.layout with order := .colMajor } i j < 2 ^ 31 ∧ off { t.dst.layout with order := .colMajor } i j < t.dst.size / t.dst.dt.size
    unfold off
    dsimp only
    rw [Nat.add_comm i]
    refine ⟨h1, (Nat.lt_div_iff_mul_lt (size_pos _)).2 ?_⟩
    unfold place at h2
    have := size_pos t.dst.dt
    generalize (j * t.dst.layout.stride + i) = a at *
    omega
  rows := by
    obtain ⟨_, _, hl, _⟩ := (h.side .lhs).facts
    show t.dst.layout.rows ≤ t.packed.lhs.layout.cols
    rw [h.drows]; exact hl
  cols := by
    obtain ⟨_, _, hl, _⟩ := (h.side .rhs).facts
    show t.dst.layout.cols ≤ t.packed.rhs.layout.cols
    rw [h.dcols]; exact hl
  lastRow := by
    obtain ⟨_, _, _, hl, _⟩ := (h.side .lhs).facts
    obtain ⟨_, _, _, l3, _⟩ := createPackedLayout_ok (h.side .lhs).layout
    show t.packed.lhs.layout.cols < t.dst.layout.rows + t.packed.lhs.layout.kernel.cols
    simp only [SidePair.get_lhs] at hl l3
    rw [h.drows, l3]; exact hl
  lastCol := by
    obtain ⟨_, _, _, hl, _⟩ := (h.side .rhs).facts
    obtain ⟨_, _, _, l3, _⟩ := createPackedLayout_ok (h.side .rhs).layout
    show t.packed.rhs.layout.cols < t.dst.layout.cols + t.packed.rhs.layout.kernel.cols
    simp only [SidePair.get_rhs] at hl l3
    rw [h.dcols, l3]; exact hl

/-- What holds during an execution. -/
structure XInv (t : Task) (m0 : Mach) (pre : SidePair Bool) (bm : BlockMap) (n : SidePair Nat) (threads : Nat)
    (ops : List Op) (x : XState) : Prop where
  ctl : CtlOk cols (shape t) pre bm n threads ops x.ctl
  mem : Inv t m0 ops x.mem

theorem xstep_ok (h : TaskOk t) (hd : DstInts t) (g : GridOk cols (colsOf (shape t)) bm n kd)
    (hk : ∀ s, kd.get s = ((shape t).packed.get s).layout.kernel.cols) {ops : List Op} {x : XState}
    (ok : XInv t m0 pre bm n threads ops x) (th : Nat) :
    (∃ r, XStep t (control pre bm threads) x th r) ∧
      ∀ r, XStep t (control pre bm threads) x th r → ∃ x' ops', r = .ok x' ∧ XInv t m0 pre bm n threads ops' x' ∧
        TrMul.step (control pre bm threads) x.ctl th = .ok x'.ctl := by
  have sh := shapeOk h hd
  obtain ⟨s', hs⟩ := TrMul.step_total (cfg := control pre bm threads) sh.ready g.grid hk sh.safe ok.ctl.inv th
  have su : TrMul.Setup (control pre bm threads) (shape t) n := ⟨sh.ready, kd, g.grid⟩
  unfold XStep
  rcases ctl_step g su ok.ctl hs with ⟨hr, ok'⟩ | ⟨o, hr, ok'⟩
  · rw [show (control pre bm threads).bm = bm from rfl, hr]
    dsimp only
    refine ⟨⟨_, rfl⟩, fun r e => ?_⟩
    subst e
    rw [hs]
    exact ⟨⟨s', x.mem⟩, ops, rfl, ⟨ok', ok.mem⟩, rfl⟩
  · rw [show (control pre bm threads).bm = bm from rfl, hr]
    dsimp only
    refine ⟨?_, fun r e => ?_⟩
    · obtain ⟨⟨rm, hrm⟩, _⟩ := op_step h ok.mem ok'.calls.order
      exact ⟨_, rm, hrm, rfl⟩
    · obtain ⟨rm, hst, e⟩ := e
      obtain ⟨m', rfl, hI⟩ := (op_step h ok.mem ok'.calls.order).2 rm hst
      rw [C.ok_bind, hs, C.ok_bind] at e
      exact ⟨⟨s', m'⟩, _, e, ⟨ok', hI⟩, hs⟩

theorem xrun_ok (h : TaskOk t) (hd : DstInts t) (g : GridOk cols (colsOf (shape t)) bm n kd)
    (hk : ∀ s, kd.get s = ((shape t).packed.get s).layout.kernel.cols) {ops : List Op} {x : XState}
    (ok : XInv t m0 pre bm n threads ops x) (sched : List Nat) :
    (∃ r, XRun t (control pre bm threads) sched x r) ∧
      ∀ r, XRun t (control pre bm threads) sched x r → ∃ x' ops', r = .ok x' ∧ XInv t m0 pre bm n threads ops' x' ∧
        TrMul.run (control pre bm threads) sched x.ctl = .ok x'.ctl := by
  induction sched generalizing x ops with
  | nil =>
    refine ⟨⟨_, .nil⟩, fun r hr => ?_⟩
    cases hr
    exact ⟨x, ops, rfl, ok, rfl⟩
  | cons th ts ih =>
    obtain ⟨⟨r, hr⟩, hs⟩ := xstep_ok h hd g hk ok th
    refine ⟨?_, fun r' hr' => ?_⟩
    · obtain ⟨x1, ops1, rfl, ok1, _⟩ := hs r hr
      obtain ⟨⟨r', hr'⟩, _⟩ := ih ok1
      exact ⟨r', .next hr hr'⟩
    · cases hr' with
      | fault hf => obtain ⟨_, _, e, _⟩ := hs _ hf; cases e
      | next hn hr' =>
        obtain ⟨x1, ops1, e, ok1, e1⟩ := hs _ hn
        cases e
        obtain ⟨x2, ops2, e2, ok2, e3⟩ := (ih ok1).2 r' hr'
        refine ⟨x2, ops2, e2, ok2, ?_⟩
        unfold TrMul.run
        rw [e1, C.ok_bind]
        exact e3

theorem exec_ok (h : TaskOk t) (hd : DstInts t) (g : GridOk cols (colsOf (shape t)) bm n kd)
    (hk : ∀ s, kd.get s = ((shape t).packed.get s).layout.kernel.cols) (pre : SidePair Bool) (threads : Nat) (sched : List Nat)
    (m : Mach) :
    (∃ r, Exec t pre bm threads sched m r) ∧
      ∀ r, Exec t pre bm threads sched m r → ∃ x ops, r = .ok x ∧ XInv t m pre bm n threads ops x ∧
        TrMul.run (control pre bm threads) sched (TrMul.initState (control pre bm threads) (shape t)) = .ok x.ctl := by
  have sh := shapeOk h hd
  have su : TrMul.Setup (control pre bm threads) (shape t) n := ⟨sh.ready, kd, g.grid⟩
  have hp := prepack_ok (pre := pre) h g
  have ord := InOrder.ordered hp.order
  have start : ∀ m1, Inv t m (prepackCalls pre (colsOf (shape t))) m1 → XInv t m pre bm n threads (prepackCalls pre (colsOf (shape t)))
      ⟨TrMul.initState (control pre bm threads) (shape t), m1⟩ := fun m1 hI => ⟨ctl_start su hp, hI⟩
  refine ⟨?_, fun r hr => ?_⟩
  · obtain ⟨⟨rm, hrm⟩, hh⟩ := runs_inv (m0 := m) h ord
    obtain ⟨m1, rfl, hI⟩ := hh rm hrm
    obtain ⟨⟨r, hr⟩, _⟩ := xrun_ok h hd g hk (start m1 hI) sched
    exact ⟨r, .ok m1, hrm, hr⟩
  · obtain ⟨rm, hrm, hr⟩ := hr
    obtain ⟨m1, rfl, hI⟩ := (runs_inv (m0 := m) h ord).2 rm hrm
    exact (xrun_ok h hd g hk (start m1 hI) sched).2 r hr

end Ruy.Arm8.Flow

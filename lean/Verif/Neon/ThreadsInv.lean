import Verif.Neon.Threads
import Verif.Neon.FlowRun
/-
Block loop and threads on the AArch64 path: lemmas for property C60.
-/
namespace Ruy.Neon.Flow
open Ruy.Mat Ruy.Mul Ruy.BlockMap
open Ruy.TrMul (Mem Cfg State MapFor)
open Ruy.Simd.Flow (Op Covered Written control returning prepackCalls blockCalls colsOf InOrder GridOk CallsOk CtlOk ShapeOk
  prepackCalls_ok blockCalls_of ctl_step ctl_start ctl_finish)

variable {t : Task} {m0 m : Mach} {pre : SidePair Bool} {bm : BlockMap} {n kd : SidePair Nat} {threads : Nat}

theorem cols_get (t : Task) (s : Side) : (colsOf (shape t)).get s = (t.packed.get s).layout.cols := by cases s <;> rfl

theorem shape_get (t : Task) (s : Side) : (shape t).packed.get s = shapeOf (t.packed.get s) := by cases s <;> rfl

theorem InOrder.ordered {ops : List Op} (h : InOrder (fun _ => 4) (colsOf (shape t)) ops) : Ordered t ops where
  packs s lo hi hm := by rw [← cols_get]; exact h.packs s lo hi hm
  kernels start stop hm s := by rw [← cols_get]; exact h.kernels start stop hm s
  first pre start stop post he s c h1 h2 _ := h.first pre start stop post he s c h1 h2

/-- One more call. -/
theorem op_step (h : TaskOk t) {ops : List Op} {o : Op} (a55 : Bool) (hI : Inv t m0 ops m)
    (ho : InOrder (fun _ => 4) (colsOf (shape t)) (ops ++ [o])) :
    (∃ r, Step t (a55, o) m r) ∧ ∀ r, Step t (a55, o) m r → ∃ m', r = .ok m' ∧ Inv t m0 (ops ++ [o]) m' := by
  have ho := InOrder.ordered ho
  cases o with
  | pack s lo hi => exact pack_step h hI (ho.packs s lo hi (by simp))
  | kernel start stop => exact kernel_step h hI (ho.kernels start stop (by simp)) (ho.first ops start stop [] rfl)

theorem tuned_exists (calls : List Op) : ∃ ops, Tuned ops calls :=
  ⟨calls.map fun o => (false, o), by unfold Tuned; rw [List.map_map]; exact List.map_id _⟩

theorem gridOk_of (h : TaskOk t) (hm : MapFor (shape t) bm) : ∃ n kd, GridOk (fun _ => 4) (colsOf (shape t)) bm n kd ∧
    ∀ s, kd.get s = ((shape t).packed.get s).layout.kernel.cols := by
  obtain ⟨n, kd, g, hk⟩ := hm.grid
  refine ⟨n, kd, ⟨g, fun s => ?_⟩, hk⟩
  obtain ⟨_, _, _, l3, _⟩ := createPackedLayout_ok (h.side s).layout
  rw [hk, shape_get, shapeOf]
  dsimp only
  rw [l3]

theorem prepack_ok (h : TaskOk t) (g : GridOk (fun _ => 4) (colsOf (shape t)) bm n kd) :
    CallsOk (fun _ => 4) (colsOf (shape t)) pre (prepackCalls pre (colsOf (shape t))) := by
  refine prepackCalls_ok (fun s => ⟨Nat.zero_mod _, ?_, g.pos s, Nat.le_refl _⟩)
  rw [cols_get]
  exact (h.side s).facts.2.2.2.2.1

/-- Offsets in the destination are ints. -/
def DstInts (t : Task) : Prop :=
  ∀ i j, i < t.dst.layout.rows → j < t.dst.layout.cols → j * t.dst.layout.stride + i < 2 ^ 31

theorem shapeOk (h : TaskOk t) (hd : DstInts t) : ShapeOk (shape t) where
  layout s := by
    rw [shape_get]
    exact (createPackedLayout_ok (h.side s).layout).1
  fits s := by
    rw [shape_get]
    obtain ⟨_, l1, _⟩ := createPackedLayout_ok (h.side s).layout
    have h1 := (h.side s).int
    have h2 := (h.side s).size
    refine ⟨?_, ?_, fun b hb => by cases hb⟩
    · show pflatSize (t.packed.get s).layout ≤ _
      unfold pflatSize
      rw [l1]
      exact Nat.le_of_lt h1
    · show pflatSize (t.packed.get s).layout ≤ (t.packed.get s).size
      unfold pflatSize
      rw [l1]
      exact h2
  depth := by
    obtain ⟨_, hl, _⟩ := (h.side .lhs).facts
    obtain ⟨_, hr, _⟩ := (h.side .rhs).facts
    simp only [SidePair.get_lhs, SidePair.get_rhs] at hl hr
    show t.packed.lhs.layout.rows = t.packed.rhs.layout.rows
    rw [hl, hr, h.depth]
  zps := ⟨rfl, rfl⟩
  dzp := rfl
  nosums := ⟨rfl, rfl⟩
  stride := h.dstride
  dfits i j hi hj := by
    have hi : i < t.dst.layout.rows := hi
    have hj : j < t.dst.layout.cols := hj
    have h1 := hd i j hi hj
    have h2 := h.dsize i j hi hj
    show off { t.dst.layout with order := .colMajor } i j < 2 ^ 31 ∧ off { t.dst.layout with order := .colMajor } i j < t.dst.size / t.dst.dt.size
    unfold off
    dsimp only
    rw [Nat.add_comm i]
    refine ⟨h1, (Nat.lt_div_iff_mul_lt (size_pos _)).2 ?_⟩
    unfold place at h2
    have := size_pos t.dst.dt
    generalize (j * t.dst.layout.stride + i) = a at *
    omega
  rows := by
    obtain ⟨_, _, hl, _⟩ := (h.side .lhs).facts
    show t.dst.layout.rows ≤ t.packed.lhs.layout.cols
    rw [h.drows]; exact hl
  cols := by
    obtain ⟨_, _, hl, _⟩ := (h.side .rhs).facts
    show t.dst.layout.cols ≤ t.packed.rhs.layout.cols
    rw [h.dcols]; exact hl
  lastRow := by
    obtain ⟨_, _, _, hl, _⟩ := (h.side .lhs).facts
    obtain ⟨_, _, _, l3, _⟩ := createPackedLayout_ok (h.side .lhs).layout
    show t.packed.lhs.layout.cols < t.dst.layout.rows + t.packed.lhs.layout.kernel.cols
    simp only [SidePair.get_lhs] at hl l3
    rw [h.drows, l3]; exact hl
  lastCol := by
    obtain ⟨_, _, _, hl, _⟩ := (h.side .rhs).facts
    obtain ⟨_, _, _, l3, _⟩ := createPackedLayout_ok (h.side .rhs).layout
    show t.packed.rhs.layout.cols < t.dst.layout.cols + t.packed.rhs.layout.kernel.cols
    simp only [SidePair.get_rhs] at hl l3
    rw [h.dcols, l3]; exact hl

/-- What holds during an execution. -/
structure XInv (t : Task) (m0 : Mach) (pre : SidePair Bool) (bm : BlockMap) (n : SidePair Nat) (threads : Nat)
    (ops : List Op) (x : XState) : Prop where
  ctl : CtlOk (fun _ => 4) (shape t) pre bm n threads ops x.ctl
  mem : Inv t m0 ops x.mem

theorem xstep_ok (h : TaskOk t) (hd : DstInts t) (g : GridOk (fun _ => 4) (colsOf (shape t)) bm n kd)
    (hk : ∀ s, kd.get s = ((shape t).packed.get s).layout.kernel.cols) {ops : List Op} {x : XState}
    (ok : XInv t m0 pre bm n threads ops x) (th : Nat) :
    (∃ r, XStep t (control pre bm threads) x th r) ∧
      ∀ r, XStep t (control pre bm threads) x th r → ∃ x' ops', r = .ok x' ∧ XInv t m0 pre bm n threads ops' x' ∧
        TrMul.step (control pre bm threads) x.ctl th = .ok x'.ctl := by
  have sh := shapeOk h hd
  obtain ⟨s', hs⟩ := TrMul.step_total (cfg := control pre bm threads) sh.ready g.grid hk sh.safe ok.ctl.inv th
  have su : TrMul.Setup (control pre bm threads) (shape t) n := ⟨sh.ready, kd, g.grid⟩
  unfold XStep
  rcases ctl_step g su ok.ctl hs with ⟨hr, ok'⟩ | ⟨o, hr, ok'⟩
  · rw [show (control pre bm threads).bm = bm from rfl, hr]
    dsimp only
    refine ⟨⟨_, rfl⟩, fun r e => ?_⟩
    subst e
    rw [hs]
    exact ⟨⟨s', x.mem⟩, ops, rfl, ⟨ok', ok.mem⟩, rfl⟩
  · rw [show (control pre bm threads).bm = bm from rfl, hr]
    dsimp only
    refine ⟨?_, fun r e => ?_⟩
    · obtain ⟨⟨rm, hrm⟩, _⟩ := op_step h false ok.mem ok'.calls.order
      exact ⟨_, false, rm, hrm, rfl⟩
    · obtain ⟨a55, rm, hst, e⟩ := e
      obtain ⟨m', rfl, hI⟩ := (op_step h a55 ok.mem ok'.calls.order).2 rm hst
      rw [C.ok_bind, hs, C.ok_bind] at e
      exact ⟨⟨s', m'⟩, _, e, ⟨ok', hI⟩, hs⟩

theorem xrun_ok (h : TaskOk t) (hd : DstInts t) (g : GridOk (fun _ => 4) (colsOf (shape t)) bm n kd)
    (hk : ∀ s, kd.get s = ((shape t).packed.get s).layout.kernel.cols) {ops : List Op} {x : XState}
    (ok : XInv t m0 pre bm n threads ops x) (sched : List Nat) :
    (∃ r, XRun t (control pre bm threads) sched x r) ∧
      ∀ r, XRun t (control pre bm threads) sched x r → ∃ x' ops', r = .ok x' ∧ XInv t m0 pre bm n threads ops' x' ∧
        TrMul.run (control pre bm threads) sched x.ctl = .ok x'.ctl := by
  induction sched generalizing x ops with
  | nil =>
    refine ⟨⟨_, .nil⟩, fun r hr => ?_⟩
    cases hr
    exact ⟨x, ops, rfl, ok, rfl⟩
  | cons th ts ih =>
    obtain ⟨⟨r, hr⟩, hs⟩ := xstep_ok h hd g hk ok th
    refine ⟨?_, fun r' hr' => ?_⟩
    · obtain ⟨x1, ops1, rfl, ok1, _⟩ := hs r hr
      obtain ⟨⟨r', hr'⟩, _⟩ := ih ok1
      exact ⟨r', .next hr hr'⟩
    · cases hr' with
      | fault hf => obtain ⟨_, _, e, _⟩ := hs _ hf; cases e
      | next hn hr' =>
        obtain ⟨x1, ops1, e, ok1, e1⟩ := hs _ hn
        cases e
        obtain ⟨x2, ops2, e2, ok2, e3⟩ := (ih ok1).2 r' hr'
        refine ⟨x2, ops2, e2, ok2, ?_⟩
        unfold TrMul.run
        rw [e1, C.ok_bind]
        exact e3

theorem exec_ok (h : TaskOk t) (hd : DstInts t) (g : GridOk (fun _ => 4) (colsOf (shape t)) bm n kd)
    (hk : ∀ s, kd.get s = ((shape t).packed.get s).layout.kernel.cols) (pre : SidePair Bool) (threads : Nat) (sched : List Nat)
    (m : Mach) :
    (∃ r, Exec t pre bm threads sched m r) ∧
      ∀ r, Exec t pre bm threads sched m r → ∃ x ops, r = .ok x ∧ XInv t m pre bm n threads ops x ∧
        TrMul.run (control pre bm threads) sched (TrMul.initState (control pre bm threads) (shape t)) = .ok x.ctl := by
  have sh := shapeOk h hd
  have su : TrMul.Setup (control pre bm threads) (shape t) n := ⟨sh.ready, kd, g.grid⟩
  have hp := prepack_ok (pre := pre) h g
  have start : ∀ ops m1, Tuned ops (prepackCalls pre (colsOf (shape t))) → Inv t m (ops.map (·.2)) m1 →
      XInv t m pre bm n threads (prepackCalls pre (colsOf (shape t)))
        ⟨TrMul.initState (control pre bm threads) (shape t), m1⟩ := fun ops m1 ht hI => by
    unfold Tuned at ht
    rw [ht] at hI
    exact ⟨ctl_start su hp, hI⟩
  have ord : ∀ ops : List (Bool × Op), Tuned ops (prepackCalls pre (colsOf (shape t))) → Ordered t (ops.map (·.2)) := fun ops ht => by
    unfold Tuned at ht
    rw [ht]
    exact InOrder.ordered hp.order
  refine ⟨?_, fun r hr => ?_⟩
  · obtain ⟨ops, ht⟩ := tuned_exists (prepackCalls pre (colsOf (shape t)))
    obtain ⟨⟨rm, hrm⟩, hh⟩ := runs_inv (m0 := m) h (ord ops ht)
    obtain ⟨m1, rfl, hI⟩ := hh rm hrm
    obtain ⟨⟨r, hr⟩, _⟩ := xrun_ok h hd g hk (start ops m1 ht hI) sched
    exact ⟨r, ops, .ok m1, ht, hrm, hr⟩
  · obtain ⟨ops, rm, ht, hrm, hr⟩ := hr
    obtain ⟨m1, rfl, hI⟩ := (runs_inv (m0 := m) h (ord ops ht)).2 rm hrm
    exact (xrun_ok h hd g hk (start ops m1 ht hI) sched).2 r hr

end Ruy.Neon.Flow

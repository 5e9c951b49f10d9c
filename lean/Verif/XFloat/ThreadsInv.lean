import Verif.XFloat.Threads
import Verif.XFloat.Run
/-
Block loop and threads on the x86 float paths: lemmas for property C61.
-/
namespace Ruy.XFloat
open Ruy.Mat Ruy.Mul Ruy.BlockMap
open Ruy.TrMul (Mem Cfg State MapFor)
open Ruy.Simd.Flow (Op Covered Written control returning prepackCalls blockCalls colsOf InOrder GridOk CallsOk CtlOk ShapeOk
  prepackCalls_ok blockCalls_of ctl_step ctl_start ctl_finish)

variable {A : Type} {kc : Nat} {jb : Job A} {m m0 : Mem A} {pre : SidePair Bool} {bm : BlockMap} {n kd : SidePair Nat}
  {threads : Nat}

theorem cols_get (m : Mem A) (s : Side) : (colsOf (shape m)).get s = (m.packed.get s).layout.cols := by cases s <;> rfl

theorem shape_get (m : Mem A) (s : Side) : (shape m).packed.get s = shapeOf (m.packed.get s) := by cases s <;> rfl

theorem InOrder.ordered {ops : List Op} (h : InOrder (fun _ => kc) (colsOf (shape m)) ops) : Ordered kc jb m ops where
  packs s lo hi hm := by rw [← cols_get]; exact h.packs s lo hi hm
  kernels start stop hm s := by rw [← cols_get]; exact h.kernels start stop hm s
  first pre start stop post he s c h1 h2 _ := h.first pre start stop post he s c h1 h2

theorem kernel_cols (h : JobOk kc jb m) (s : Side) : (m.packed.get s).layout.kernel.cols = kc := by
  obtain ⟨_, _, _, l3, _⟩ := (h.side s).facts
  rw [l3]

theorem gridOk_of (h : JobOk kc jb m) (hm : MapFor (shape m) bm) : ∃ n kd, GridOk (fun _ => kc) (colsOf (shape m)) bm n kd ∧
    ∀ s, kd.get s = ((shape m).packed.get s).layout.kernel.cols := by
  obtain ⟨n, kd, g, hk⟩ := hm.grid
  refine ⟨n, kd, ⟨g, fun s => ?_⟩, hk⟩
  rw [hk, shape_get]
  exact kernel_cols h s

theorem prepack_ok (h : JobOk kc jb m) (g : GridOk (fun _ => kc) (colsOf (shape m)) bm n kd) :
    CallsOk (fun _ => kc) (colsOf (shape m)) pre (prepackCalls pre (colsOf (shape m))) := by
  refine prepackCalls_ok (fun s => ⟨Nat.zero_mod _, ?_, g.pos s, Nat.le_refl _⟩)
  rw [cols_get]
  exact (h.side s).facts.2.2.2.2.2.2.2

theorem shapeOk (h : JobOk kc jb m) : ShapeOk (shape m) where
  layout s := by
    rw [shape_get]
    exact (h.side s).facts.1
  fits s := by
    rw [shape_get]
    exact ⟨Nat.le_of_lt (h.side s).int, (h.side s).data, fun b hb => by cases hb⟩
  depth := by
    obtain ⟨_, _, _, _, hl, _⟩ := (h.side .lhs).facts
    obtain ⟨_, _, _, _, hr, _⟩ := (h.side .rhs).facts
    simp only [SidePair.get_lhs, SidePair.get_rhs] at hl hr
    show m.packed.lhs.layout.rows = m.packed.rhs.layout.rows
    rw [hl, hr, h.depth]
  zps := ⟨rfl, rfl⟩
  dzp := rfl
  nosums := ⟨rfl, rfl⟩
  stride := Simd.Kern.strideOk_of h.dorder h.dstride
  dfits := h.dfits
  rows := by
    obtain ⟨_, _, _, _, _, hl, _⟩ := (h.side .lhs).facts
    show m.dst.layout.rows ≤ m.packed.lhs.layout.cols
    rw [h.drows]; exact hl
  cols := by
    obtain ⟨_, _, _, _, _, hl, _⟩ := (h.side .rhs).facts
    show m.dst.layout.cols ≤ m.packed.rhs.layout.cols
    rw [h.dcols]; exact hl
  lastRow := by
    obtain ⟨_, _, _, _, _, _, hl, _⟩ := (h.side .lhs).facts
    have hk := kernel_cols h .lhs
    show m.packed.lhs.layout.cols < m.dst.layout.rows + m.packed.lhs.layout.kernel.cols
    simp only [SidePair.get_lhs] at hl hk
    rw [h.drows, hk]; exact hl
  lastCol := by
    obtain ⟨_, _, _, _, _, _, hl, _⟩ := (h.side .rhs).facts
    have hk := kernel_cols h .rhs
    show m.packed.rhs.layout.cols < m.dst.layout.cols + m.packed.rhs.layout.kernel.cols
    simp only [SidePair.get_rhs] at hl hk
    rw [h.dcols, hk]; exact hl

/-- What holds during an execution. -/
structure XInv (P : Path A) (jb : Job A) (m0 : Mem A) (pre : SidePair Bool) (bm : BlockMap) (n : SidePair Nat) (threads : Nat)
    (ops : List Op) (x : XState A) : Prop where
  ctl : CtlOk (fun _ => P.isa.kc) (shape m0) pre bm n threads ops x.ctl
  mem : Inv P.isa.ops jb m0 ops x.mem

section
variable {P : Path A}

theorem xstep_ok (ok : PathOk P) (h : JobOk P.isa.kc jb m0) (g : GridOk (fun _ => P.isa.kc) (colsOf (shape m0)) bm n kd)
    (hk : ∀ s, kd.get s = ((shape m0).packed.get s).layout.kernel.cols) {ops : List Op} {x : XState A}
    (hx : XInv P jb m0 pre bm n threads ops x) (th : Nat) :
    ∃ x' ops', xstep P jb (control pre bm threads) x th = .ok x' ∧ XInv P jb m0 pre bm n threads ops' x' ∧
      TrMul.step (control pre bm threads) x.ctl th = .ok x'.ctl := by
  have sh := shapeOk h
  obtain ⟨s', hs⟩ := TrMul.step_total (cfg := control pre bm threads) sh.ready g.grid hk sh.safe hx.ctl.inv th
  have su : TrMul.Setup (control pre bm threads) (shape m0) n := ⟨sh.ready, kd, g.grid⟩
  unfold xstep
  rcases ctl_step g su hx.ctl hs with ⟨hr, ok'⟩ | ⟨o, hr, ok'⟩
  · rw [show (control pre bm threads).bm = bm from rfl, hr, C.ok_bind]
    dsimp only
    rw [hs, C.ok_bind]
    exact ⟨⟨s', x.mem⟩, ops, rfl, ⟨ok', hx.mem⟩, rfl⟩
  · obtain ⟨m', e, hI⟩ := op_step ok h hx.mem (InOrder.ordered ok'.calls.order)
    rw [show (control pre bm threads).bm = bm from rfl, hr, C.ok_bind]
    dsimp only
    rw [e, C.ok_bind, hs, C.ok_bind]
    exact ⟨⟨s', m'⟩, _, rfl, ⟨ok', hI⟩, rfl⟩

theorem xrun_ok (ok : PathOk P) (h : JobOk P.isa.kc jb m0) (g : GridOk (fun _ => P.isa.kc) (colsOf (shape m0)) bm n kd)
    (hk : ∀ s, kd.get s = ((shape m0).packed.get s).layout.kernel.cols) {ops : List Op} {x : XState A}
    (hx : XInv P jb m0 pre bm n threads ops x) (sched : List Nat) :
    ∃ x' ops', xrun P jb (control pre bm threads) sched x = .ok x' ∧ XInv P jb m0 pre bm n threads ops' x' ∧
      TrMul.run (control pre bm threads) sched x.ctl = .ok x'.ctl := by
  induction sched generalizing x ops with
  | nil => exact ⟨x, ops, rfl, hx, rfl⟩
  | cons th ts ih =>
    obtain ⟨x1, ops1, e, hx1, e1⟩ := xstep_ok ok h g hk hx th
    obtain ⟨x2, ops2, e2, hx2, e3⟩ := ih hx1
    refine ⟨x2, ops2, ?_, hx2, ?_⟩
    · unfold xrun
      rw [e, C.ok_bind]
      exact e2
    · unfold TrMul.run
      rw [e1, C.ok_bind]
      exact e3

theorem exec_ok (ok : PathOk P) (h : JobOk P.isa.kc jb m) (g : GridOk (fun _ => P.isa.kc) (colsOf (shape m)) bm n kd)
    (hk : ∀ s, kd.get s = ((shape m).packed.get s).layout.kernel.cols) (pre : SidePair Bool) (threads : Nat) (sched : List Nat) :
    ∃ x ops, exec P jb pre bm threads sched m = .ok x ∧ XInv P jb m pre bm n threads ops x ∧
      TrMul.run (control pre bm threads) sched (TrMul.initState (control pre bm threads) (shape m)) = .ok x.ctl := by
  have sh := shapeOk h
  have su : TrMul.Setup (control pre bm threads) (shape m) n := ⟨sh.ready, kd, g.grid⟩
  have hp := prepack_ok (pre := pre) h g
  obtain ⟨m1, e, hI⟩ := runOps_inv ok h (InOrder.ordered hp.order)
  unfold exec
  rw [e, C.ok_bind]
  exact xrun_ok ok h g hk (x := ⟨TrMul.initState (control pre bm threads) (shape m), m1⟩) ⟨ctl_start su hp, hI⟩ sched

end

end Ruy.XFloat

import Verif.Simd.Flow16Run
import Verif.Simd.Calls
/-
TrMul for an int16 RHS on AVX2 and AVX-512: the single-threaded block loop and several threads (trmul.cc:60-422), with the
calls of `Flow16`.

As `Simd/Threads.lean`: control flow of `TrMul.step` with elements of type Unit; the memory is changed when a call of
RunPack or RunKernel returns.
-/
namespace Ruy.Simd.Flow16
open Ruy.Mat Ruy.Mul Ruy.BlockMap
open Ruy.TrMul (Mem Cfg State MapFor)
open Ruy.Simd.Flow (Op Job Covered Written Block Ordered control returning prepackCalls blockCalls colsOf shape shapeP XState
  InOrder GridOk CallsOk CtlOk ShapeOk prepackCalls_ok blockCalls_of ctl_step ctl_start ctl_finish)

/-! ### Model -/

/-- trmul.cc:78-119 (`Run`) with thread_count = 1, from the packing of prepacked sides on. -/
def blockLoop (P : Path16) (jb : Job) (pre : SidePair Bool) (bm : BlockMap) (m : Mem Int) : C (Mem Int) := do
  let calls ← blockCalls pre bm
  runOps P jb (prepackCalls pre (colsOf (shape m)) ++ calls) m

/-- The effect of a call, if any. -/
def perform (P : Path16) (jb : Job) (m : Mem Int) : Option Op → C (Mem Int)
  | none => .ok m
  | some o => step P jb m o

/-- One step of thread `t`. -/
def xstep (P : Path16) (jb : Job) (cfg : Cfg Unit) (x : XState) (t : Nat) : C XState := do
  let o ← returning cfg.bm x.ctl t
  let m ← perform P jb x.mem o
  let s ← TrMul.step cfg x.ctl t
  .ok ⟨s, m⟩

/-- An execution. -/
def xrun (P : Path16) (jb : Job) (cfg : Cfg Unit) : List Nat → XState → C XState
  | [], x => .ok x
  | t :: ts, x => do
    let x' ← xstep P jb cfg x t
    xrun P jb cfg ts x'

/-- trmul.cc:310-422 with several threads, from the packing of prepacked sides on. -/
def exec (P : Path16) (jb : Job) (pre : SidePair Bool) (bm : BlockMap) (threads : Nat) (sched : List Nat) (m : Mem Int) : C XState := do
  let m1 ← runOps P jb (prepackCalls pre (colsOf (shape m))) m
  xrun P jb (control pre bm threads) sched ⟨TrMul.initState (control pre bm threads) (shape m), m1⟩

/-! ### Lemmas -/

section
variable {P : Path16} {ml : Int → Int → Int → Int} {kc : Nat} {jb : Job} {m0 m : Mem Int} {pre : SidePair Bool} {bm : BlockMap} {n kd : SidePair Nat} {threads : Nat}

/-- Kernels are as wide on both sides. -/
abbrev width (kc : Nat) : Side → Nat := fun _ => kc

theorem cols_get (m : Mem Int) (s : Side) : (colsOf (shape m)).get s = (m.packed.get s).layout.cols := by
  cases s <;> rfl

theorem shape_get (m : Mem Int) (s : Side) : (shape m).packed.get s = shapeP (m.packed.get s) := by
  cases s <;> rfl

theorem ordered_of {ops : List Op} (h : InOrder (width kc) (colsOf (shape m0)) ops) : Ordered kc jb m0 ops where
  packs s lo hi hm := by rw [← cols_get]; exact h.packs s lo hi hm
  kernels start stop hm s := by rw [← cols_get]; exact h.kernels start stop hm s
  first pre start stop post he s c h1 h2 _ := h.first pre start stop post he s c h1 h2

/-- One more call. -/
theorem op_step (hP : PathOk P ml) (h : JobOk P.kc jb m0) {ops : List Op} {o : Op} (hI : Inv ml jb m0 ops m)
    (ho : InOrder (width P.kc) (colsOf (shape m0)) (ops ++ [o])) :
    ∃ m', step P jb m o = .ok m' ∧ Inv ml jb m0 (ops ++ [o]) m' := by
  have ho : Ordered P.kc jb m0 (ops ++ [o]) := ordered_of ho
  cases o with
  | pack s lo hi => exact pack_step hP h hI (ho.packs s lo hi (by simp))
  | kernel start stop => exact kernel_step hP h hI (ho.kernels start stop (by simp)) (ho.first ops start stop [] rfl)

theorem gridOk_of (h : JobOk kc jb m) (hm : MapFor (shape m) bm) : ∃ n kd, GridOk (width kc) (colsOf (shape m)) bm n kd ∧
    ∀ s, kd.get s = ((shape m).packed.get s).layout.kernel.cols := by
  obtain ⟨n, kd, g, hk⟩ := hm.grid
  refine ⟨n, kd, ⟨g, fun s => ?_⟩, hk⟩
  rw [hk, shape_get]
  show (m.packed.get s).layout.kernel.cols = kc
  rw [(h.shapeOf s).kernel]

theorem prepack_ok (h : JobOk kc jb m) (g : GridOk (width kc) (colsOf (shape m)) bm n kd) :
    CallsOk (width kc) (colsOf (shape m)) pre (prepackCalls pre (colsOf (shape m))) := by
  refine prepackCalls_ok (fun s => ⟨Nat.zero_mod _, ?_, g.pos s, Nat.le_refl _⟩)
  rw [cols_get]
  exact (h.shapeOf s).mult

theorem shapeOk (h : JobOk kc jb m) : ShapeOk (shape m) where
  layout s := by
    rw [shape_get]
    exact (h.shapeOf s).ok
  fits s := by
    have hf : PFits (m.packed.get s) := by
      cases s
      · exact h.lhs.fits
      · exact h.rhs.fits
    rw [shape_get]
    exact ⟨hf.int, hf.data, fun b hb => by cases hb⟩
  depth := by
    show m.packed.lhs.layout.rows = m.packed.rhs.layout.rows
    have k1 := (h.shapeOf .lhs).rows
    have k2 := (h.shapeOf .rhs).rows
    simp only [SidePair.get_lhs, SidePair.get_rhs] at k1 k2
    rw [k1, k2]
    show (jb.src.lhs.layout.rows + 3) / 4 * 4 = (jb.src.rhs.layout.rows + 3) / 4 * 4
    rw [h.depth]
  zps := ⟨rfl, rfl⟩
  dzp := rfl
  nosums := ⟨rfl, rfl⟩
  stride := Kern.strideOk_of h.dorder h.dstride
  dfits := h.dfits
  rows := by
    show m.dst.layout.rows ≤ m.packed.lhs.layout.cols
    rw [h.drows]; exact (h.shapeOf .lhs).cols
  cols := by
    show m.dst.layout.cols ≤ m.packed.rhs.layout.cols
    rw [h.dcols]; exact (h.shapeOf .rhs).cols
  lastRow := by
    show m.packed.lhs.layout.cols < m.dst.layout.rows + m.packed.lhs.layout.kernel.cols
    have k := (h.shapeOf .lhs).kernel
    simp only [SidePair.get_lhs] at k
    rw [h.drows, k]; exact (h.shapeOf .lhs).cols'
  lastCol := by
    show m.packed.rhs.layout.cols < m.dst.layout.cols + m.packed.rhs.layout.kernel.cols
    have k := (h.shapeOf .rhs).kernel
    simp only [SidePair.get_rhs] at k
    rw [h.dcols, k]; exact (h.shapeOf .rhs).cols'

/-- What holds during an execution. -/
structure XInv (kc : Nat) (ml : Int → Int → Int → Int) (jb : Job) (m0 : Mem Int) (pre : SidePair Bool) (bm : BlockMap) (n : SidePair Nat) (threads : Nat)
    (ops : List Op) (x : XState) : Prop where
  ctl : CtlOk (width kc) (shape m0) pre bm n threads ops x.ctl
  mem : Inv ml jb m0 ops x.mem

theorem xstep_ok (hP : PathOk P ml) (h : JobOk P.kc jb m0) (g : GridOk (width P.kc) (colsOf (shape m0)) bm n kd)
    (hk : ∀ s, kd.get s = ((shape m0).packed.get s).layout.kernel.cols) {ops : List Op} {x : XState}
    (ok : XInv P.kc ml jb m0 pre bm n threads ops x) (th : Nat) :
    ∃ x' ops', xstep P jb (control pre bm threads) x th = .ok x' ∧ XInv P.kc ml jb m0 pre bm n threads ops' x' ∧
      TrMul.step (control pre bm threads) x.ctl th = .ok x'.ctl := by
  have sh := shapeOk h
  obtain ⟨s', hs⟩ := TrMul.step_total (cfg := control pre bm threads) sh.ready g.grid hk sh.safe ok.ctl.inv th
  have su : TrMul.Setup (control pre bm threads) (shape m0) n := ⟨sh.ready, kd, g.grid⟩
  unfold xstep
  rw [show (control pre bm threads).bm = bm from rfl]
  rcases ctl_step g su ok.ctl hs with ⟨hr, ok'⟩ | ⟨o, hr, ok'⟩
  · refine ⟨⟨s', x.mem⟩, ops, ?_, ⟨ok', ok.mem⟩, hs⟩
    rw [hr, C.ok_bind]
    unfold perform
    rw [C.ok_bind, hs, C.ok_bind]
  · obtain ⟨m', e, hI⟩ := op_step hP h ok.mem ok'.calls.order
    refine ⟨⟨s', m'⟩, _, ?_, ⟨ok', hI⟩, hs⟩
    rw [hr, C.ok_bind]
    unfold perform
    dsimp only
    rw [e, C.ok_bind, hs, C.ok_bind]

theorem xrun_ok (hP : PathOk P ml) (h : JobOk P.kc jb m0) (g : GridOk (width P.kc) (colsOf (shape m0)) bm n kd)
    (hk : ∀ s, kd.get s = ((shape m0).packed.get s).layout.kernel.cols) {ops : List Op} {x : XState}
    (ok : XInv P.kc ml jb m0 pre bm n threads ops x) (sched : List Nat) :
    ∃ x' ops', xrun P jb (control pre bm threads) sched x = .ok x' ∧ XInv P.kc ml jb m0 pre bm n threads ops' x' ∧
      TrMul.run (control pre bm threads) sched x.ctl = .ok x'.ctl := by
  induction sched generalizing x ops with
  | nil => exact ⟨x, ops, rfl, ok, rfl⟩
  | cons th ts ih =>
    obtain ⟨x1, ops1, e1, ok1, f1⟩ := xstep_ok hP h g hk ok th
    obtain ⟨x2, ops2, e2, ok2, f2⟩ := ih ok1
    refine ⟨x2, ops2, ?_, ok2, ?_⟩
    · unfold xrun
      rw [e1, C.ok_bind, e2]
    · unfold TrMul.run
      rw [f1, C.ok_bind]
      exact f2

theorem exec_ok (hP : PathOk P ml) (h : JobOk P.kc jb m) (g : GridOk (width P.kc) (colsOf (shape m)) bm n kd)
    (hk : ∀ s, kd.get s = ((shape m).packed.get s).layout.kernel.cols) (pre : SidePair Bool) (threads : Nat)
    (sched : List Nat) :
    ∃ x ops, exec P jb pre bm threads sched m = .ok x ∧ XInv P.kc ml jb m pre bm n threads ops x ∧
      TrMul.run (control pre bm threads) sched (TrMul.initState (control pre bm threads) (shape m)) = .ok x.ctl := by
  have sh := shapeOk h
  have su : TrMul.Setup (control pre bm threads) (shape m) n := ⟨sh.ready, kd, g.grid⟩
  have hp := prepack_ok (pre := pre) h g
  obtain ⟨m1, e1, hI⟩ := runOps_inv hP h (ordered_of hp.order)
  obtain ⟨x, ops, e, ok, f⟩ := xrun_ok hP h g hk (threads := threads)
    (x := ⟨TrMul.initState (control pre bm threads) (shape m), m1⟩) ⟨ctl_start su hp, hI⟩ sched
  refine ⟨x, ops, ?_, ok, f⟩
  unfold exec
  rw [e1, C.ok_bind, e]

end

end Ruy.Simd.Flow16

import Verif.Simd.Flow
/-
TrMul on the x86 paths: the single-threaded block loop and several threads (trmul.cc:60-422), with the pack
functions and kernels of `Flow`.

The control flow of TrMul depends on the block map, the packing statuses and the shapes of the matrices, not
on their elements.  It is the model of `TrMul.step` with elements of type Unit (`control`, `shape`).  The
memory is changed when a call of RunPack or RunKernel returns: the instruction at which another thread can
learn of it comes later.  That calls of different threads which overlap in time access different blocks is
C05 and C06.
-/
namespace Ruy.Simd.Flow
open Ruy.Mat Ruy.Mul Ruy.BlockMap
open Ruy.TrMul (Mem setSide Cfg State Seq)

/-! ### One thread -/

/-- Packing of matrices that are prepacked (prepack / the packed cache), before TrMul starts. -/
def prepackOps (pre : SidePair Bool) (m : Mem Int) : List Op :=
  (if pre.lhs then [.pack .lhs 0 m.packed.lhs.layout.cols] else []) ++
    if pre.rhs then [.pack .rhs 0 m.packed.rhs.layout.cols] else []

/-- trmul.cc:126-196 (`TryPack`) without atomics. -/
def tryPack (P : Path) (jb : Job) (pre : SidePair Bool) (side : Side) (block lo hi : Nat) (s : Seq Int) :
    C (Seq Int) :=
  if pre.get side then .ok s
  else if s.packed.get side block then .ok s
  else do
    let m ← step P jb s.mem (.pack side lo hi)
    .ok ⟨m, setSide s.packed side (Function.update (s.packed.get side) block true)⟩

/-- trmul.cc:97-116: one iteration of the main loop. -/
def blockStep (P : Path) (jb : Job) (pre : SidePair Bool) (bm : BlockMap) (id : Nat) (s : Seq Int) :
    C (Seq Int) := do
  let block ← getBlockByIndex bm id
  let l ← getBlockMatrixCoords .lhs bm block.lhs
  let r ← getBlockMatrixCoords .rhs bm block.rhs
  let s1 ← tryPack P jb pre .lhs block.lhs l.1 l.2 s
  let s2 ← tryPack P jb pre .rhs block.rhs r.1 r.2 s1
  let m ← step P jb s2.mem (.kernel ⟨l.1, r.1⟩ ⟨l.2, r.2⟩)
  .ok { s2 with mem := m }

/-- trmul.cc:78-119 (`Run`) with thread_count = 1. -/
def blockLoop (P : Path) (jb : Job) (pre : SidePair Bool) (bm : BlockMap) (m : Mem Int) : C (Mem Int) := do
  let n ← numBlocks bm
  let s ← forUpTo n (blockStep P jb pre bm) ⟨m, ⟨fun _ => false, fun _ => false⟩⟩
  .ok s.mem

/-! ### Several threads -/

/-- Elements without content. -/
def unitArith : Arith Unit := ⟨(), fun _ _ => .ok (), fun _ _ => .ok (), fun _ _ => .ok (), fun _ _ => false, fun _ => ()⟩

def shapeP (p : PMat Int) : PMat Unit := ⟨p.layout, ⟨p.data.size, fun _ => ()⟩, none, 0⟩

/-- The memory without its elements. -/
def shape (m : Mem Int) : Mem Unit :=
  ⟨⟨shapeP m.packed.lhs, shapeP m.packed.rhs⟩, ⟨m.dst.layout, ⟨m.dst.data.size, fun _ => ()⟩, 0⟩⟩

/-- The control flow of TrMul. -/
def control (pre : SidePair Bool) (bm : BlockMap) (threads : Nat) : Cfg Unit where
  tp := {
    ar := unitArith
    mp := ⟨none, .row, fun _ _ => .ok (), (), (), fun x => x⟩
    src := ⟨⟨⟨0, 0, 0, .colMajor⟩, ⟨0, fun _ => ()⟩, 0⟩, ⟨⟨0, 0, 0, .colMajor⟩, ⟨0, fun _ => ()⟩, 0⟩⟩
    pack := ⟨fun x => x, fun x => x⟩
    isPrepacked := pre }
  bm := bm
  threads := threads

/-- Control state and memory. -/
structure XState where
  ctl : State Unit
  mem : Mem Int

/-- The call which the next step of thread `t` returns from: trmul.cc:175 or trmul.cc:112. -/
def returning (bm : BlockMap) (s : State Unit) (t : Nat) : C (Option Op) :=
  match s.pc t with
  | .packing _ _ side block col stop =>
    if col < stop then .ok none
    else do
      let c ← getBlockMatrixCoords side bm block
      .ok (some (.pack side c.1 c.2))
  | .kernel e i _ => .ok (if i < TrMul.rowEnd s e then none else some (.kernel e.start e.stop))
  | _ => .ok none

/-- The effect of a call, if any. -/
def perform (P : Path) (jb : Job) (m : Mem Int) : Option Op → C (Mem Int)
  | none => .ok m
  | some o => step P jb m o

/-- One step of thread `t`. -/
def xstep (P : Path) (jb : Job) (cfg : Cfg Unit) (x : XState) (t : Nat) : C XState := do
  let o ← returning cfg.bm x.ctl t
  let m ← perform P jb x.mem o
  let s ← TrMul.step cfg x.ctl t
  .ok ⟨s, m⟩

/-- An execution. -/
def xrun (P : Path) (jb : Job) (cfg : Cfg Unit) : List Nat → XState → C XState
  | [], x => .ok x
  | t :: ts, x => do
    let x' ← xstep P jb cfg x t
    xrun P jb cfg ts x'

/-- trmul.cc:310-422 with several threads, from the packing of prepacked sides on. -/
def exec (P : Path) (jb : Job) (pre : SidePair Bool) (bm : BlockMap) (threads : Nat) (sched : List Nat)
    (m : Mem Int) : C XState := do
  let m1 ← runOps P jb (prepackOps pre m) m
  xrun P jb (control pre bm threads) sched ⟨TrMul.initState (control pre bm threads) (shape m), m1⟩

end Ruy.Simd.Flow

import Verif.XFloat.Model
import Verif.Simd.Calls
/-
TrMul on the x86 float paths: the single-threaded block loop and several threads (trmul.cc:60-422), with the pack functions
and kernels of `XFloat.Model`.  As in `Simd.Threads`, the control flow is that of `TrMul.step` with elements of type Unit, and
the memory is changed when a call of RunPack or RunKernel returns.
-/
namespace Ruy.XFloat
open Ruy.Mat Ruy.Mul Ruy.BlockMap
open Ruy.TrMul (Mem Cfg State)
open Ruy.Simd.Flow (Op control returning prepackCalls blockCalls colsOf)

variable {A : Type}

def shapeOf (p : PMat A) : PMat Unit := ⟨p.layout, ⟨p.data.size, fun _ => ()⟩, none, 0⟩

/-- The memory without its elements. -/
def shape (m : Mem A) : Mem Unit :=
  ⟨⟨shapeOf m.packed.lhs, shapeOf m.packed.rhs⟩, ⟨m.dst.layout, ⟨m.dst.data.size, fun _ => ()⟩, 0⟩⟩

/-- trmul.cc:78-119 (`Run`) with thread_count = 1, from the packing of prepacked sides on. -/
def blockLoop (P : Path A) (jb : Job A) (pre : SidePair Bool) (bm : BlockMap) (m : Mem A) : C (Mem A) := do
  let calls ← blockCalls pre bm
  runOps P jb (prepackCalls pre (colsOf (shape m)) ++ calls) m

/-- Control state and memory. -/
structure XState (A : Type) where
  ctl : State Unit
  mem : Mem A

/-- One step of thread `th`. -/
def xstep (P : Path A) (jb : Job A) (cfg : Cfg Unit) (x : XState A) (th : Nat) : C (XState A) := do
  match ← returning cfg.bm x.ctl th with
  | none => do
    let s ← TrMul.step cfg x.ctl th
    .ok ⟨s, x.mem⟩
  | some o => do
    let m ← step P jb x.mem o
    let s ← TrMul.step cfg x.ctl th
    .ok ⟨s, m⟩

/-- An execution under a schedule. -/
def xrun (P : Path A) (jb : Job A) (cfg : Cfg Unit) : List Nat → XState A → C (XState A)
  | [], x => .ok x
  | th :: ts, x => do
    let x' ← xstep P jb cfg x th
    xrun P jb cfg ts x'

/-- trmul.cc:310-422 with several threads, from the packing of prepacked sides on. -/
def exec (P : Path A) (jb : Job A) (pre : SidePair Bool) (bm : BlockMap) (threads : Nat) (sched : List Nat) (m : Mem A) :
    C (XState A) := do
  let m1 ← runOps P jb (prepackCalls pre (colsOf (shape m))) m
  xrun P jb (control pre bm threads) sched ⟨TrMul.initState (control pre bm threads) (shape m), m1⟩

end Ruy.XFloat

import Verif.Neon.Flow
import Verif.Simd.Calls
/-
TrMul on the AArch64 path kNeon: the single-threaded block loop and several threads (trmul.cc:60-422), with the pack
functions and kernels of `Neon.Flow` on bytes.

As in `Simd.Threads`, the control flow is that of `TrMul.step` with elements of type Unit, and the memory is changed when a
call of RunPack or RunKernel returns.  Every call can have either tuning: a thread asks for its tuning once
(trmul.cc:90), and threads can get different answers; prepacked sides have been packed before, with the tuning of that
time.
-/
namespace Ruy.Neon.Flow
open Ruy.Mat Ruy.Mul Ruy.BlockMap
open Ruy.TrMul (Mem Cfg State)
open Ruy.Simd.Flow (Op control returning prepackCalls blockCalls colsOf)

def shapeOf (p : Target) : PMat Unit := ⟨p.layout, ⟨p.size, fun _ => ()⟩, none, 0⟩

/-- The matrices of a task without their elements. -/
def shape (t : Task) : Mem Unit :=
  ⟨⟨shapeOf t.packed.lhs, shapeOf t.packed.rhs⟩,
    ⟨{ t.dst.layout with order := .colMajor }, ⟨t.dst.size / t.dst.dt.size, fun _ => ()⟩, 0⟩⟩

/-- `ops` are the calls `calls`, each with a tuning. -/
def Tuned (ops : List (Bool × Op)) (calls : List Op) : Prop := ops.map (·.2) = calls

/-- trmul.cc:78-119 (`Run`) with thread_count = 1, from the packing of prepacked sides on: can end with `r`. -/
def BlockLoop (t : Task) (pre : SidePair Bool) (bm : BlockMap) (m : Mach) (r : C Mach) : Prop :=
  match blockCalls pre bm with
  | .error e => r = .error e
  | .ok calls => ∃ ops, Tuned ops (prepackCalls pre (colsOf (shape t)) ++ calls) ∧ Runs t ops m r

/-- Control state and memory. -/
structure XState where
  ctl : State Unit
  mem : Mach

/-- One step of thread `th` can end with `r`. -/
def XStep (t : Task) (cfg : Cfg Unit) (x : XState) (th : Nat) (r : C XState) : Prop :=
  match returning cfg.bm x.ctl th with
  | .error e => r = .error e
  | .ok none => r = (TrMul.step cfg x.ctl th).map fun s => ⟨s, x.mem⟩
  | .ok (some o) => ∃ a55 rm, Step t (a55, o) x.mem rm ∧ r = do
      let m ← rm
      let s ← TrMul.step cfg x.ctl th
      .ok ⟨s, m⟩

/-- An execution under a schedule. -/
inductive XRun (t : Task) (cfg : Cfg Unit) : List Nat → XState → C XState → Prop
  | nil {x} : XRun t cfg [] x (.ok x)
  | fault {th ts x e} : XStep t cfg x th (.error e) → XRun t cfg (th :: ts) x (.error e)
  | next {th ts x x' r} : XStep t cfg x th (.ok x') → XRun t cfg ts x' r → XRun t cfg (th :: ts) x r

/-- trmul.cc:310-422 with several threads, from the packing of prepacked sides on: can end with `r`. -/
def Exec (t : Task) (pre : SidePair Bool) (bm : BlockMap) (threads : Nat) (sched : List Nat) (m : Mach) (r : C XState) :
    Prop :=
  ∃ ops rm, Tuned ops (prepackCalls pre (colsOf (shape t))) ∧ Runs t ops m rm ∧
    match rm with
    | .error e => r = .error e
    | .ok m1 => XRun t (control pre bm threads) sched ⟨TrMul.initState (control pre bm threads) (shape t), m1⟩ r

end Ruy.Neon.Flow

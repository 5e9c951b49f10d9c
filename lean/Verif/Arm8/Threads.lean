import Verif.Arm8.Flow
import Verif.Neon.Threads
/-
TrMul on 32-bit ARM (path kNeon), 8-bit matrices: the single-threaded block loop and several threads
(trmul.cc:60-422), with the pack functions and kernels of `Arm8.Flow` on bytes.

As `Neon/Threads.lean`, without tunings: control flow of `TrMul.step` with elements of type Unit; the memory is changed when
a call of RunPack or RunKernel returns.
-/
namespace Ruy.Arm8.Flow
open Ruy.Mat Ruy.Mul Ruy.BlockMap
open Ruy.TrMul (Cfg)
open Ruy.Simd.Flow (Op control returning prepackCalls blockCalls colsOf)
open Ruy.Neon.Flow (Task Mach shape XState)

/-- trmul.cc:78-119 (`Run`) with thread_count = 1, from the packing of prepacked sides on: can end with `r`. -/
def BlockLoop (t : Task) (pre : SidePair Bool) (bm : BlockMap) (m : Mach) (r : C Mach) : Prop :=
  match blockCalls pre bm with
  | .error e => r = .error e
  | .ok calls => Runs t (prepackCalls pre (colsOf (shape t)) ++ calls) m r

/-- One step of thread `th` can end with `r`. -/
def XStep (t : Task) (cfg : Cfg Unit) (x : XState) (th : Nat) (r : C XState) : Prop :=
  match returning cfg.bm x.ctl th with
  | .error e => r = .error e
  | .ok none => r = (TrMul.step cfg x.ctl th).map fun s => ⟨s, x.mem⟩
  | .ok (some o) => ∃ rm, Step t o x.mem rm ∧ r = do
      let m ← rm
      let s ← TrMul.step cfg x.ctl th
      .ok ⟨s, m⟩

/-- An execution under a schedule. -/
inductive XRun (t : Task) (cfg : Cfg Unit) : List Nat → XState → C XState → Prop
  | nil {x} : XRun t cfg [] x (.ok x)
  | fault {th ts x e} : XStep t cfg x th (.error e) → XRun t cfg (th :: ts) x (.error e)
  | next {th ts x x' r} : XStep t cfg x th (.ok x') → XRun t cfg ts x' r → XRun t cfg (th :: ts) x r

/-- trmul.cc:310-422 with several threads, from the packing of prepacked sides on: can end with `r`. -/
def Exec (t : Task) (pre : SidePair Bool) (bm : BlockMap) (threads : Nat) (sched : List Nat) (m : Mach) (r : C XState) :
    Prop :=
  ∃ rm, Runs t (prepackCalls pre (colsOf (shape t))) m rm ∧
    match rm with
    | .error e => r = .error e
    | .ok m1 => XRun t (control pre bm threads) sched ⟨TrMul.initState (control pre bm threads) (shape t), m1⟩ r

end Ruy.Arm8.Flow

import Verif.Arm32.Flow
import Verif.NeonF.Threads
/-
TrMul on 32-bit ARM (path kNeon), float matrices: the single-threaded block loop and several threads (trmul.cc:60-422), with
the pack functions and the kernel of `Arm32.Flow`.

As `NeonF/Threads.lean`, without tunings: control flow of `TrMul.step` with elements of type Unit; the memory is changed when
a call of RunPack or RunKernel returns.
-/
namespace Ruy.Arm32.Flow
open Ruy.Mat Ruy.Mul Ruy.BlockMap
open Ruy.TrMul (Cfg)
open Ruy.Simd.Flow (Op control returning prepackCalls blockCalls colsOf)
open Ruy.NeonF.Flow (Mach shape XState)

variable {A : Type}

/-- trmul.cc:78-119 (`Run`) with thread_count = 1, from the packing of prepacked sides on: can end with `r`. -/
def BlockLoop (t : Task A) (pre : SidePair Bool) (bm : BlockMap) (m : Mach A) (r : C (Mach A)) : Prop :=
  match blockCalls pre bm with
  | .error e => r = .error e
  | .ok calls => Runs t (prepackCalls pre (colsOf (shape t)) ++ calls) m r

/-- One step of thread `th` can end with `r`. -/
def XStep (t : Task A) (cfg : Cfg Unit) (x : XState A) (th : Nat) (r : C (XState A)) : Prop :=
  match returning cfg.bm x.ctl th with
  | .error e => r = .error e
  | .ok none => r = (TrMul.step cfg x.ctl th).map fun s => ⟨s, x.mem⟩
  | .ok (some o) => ∃ rm, Step t o x.mem rm ∧ r = do
      let m ← rm
      let s ← TrMul.step cfg x.ctl th
      .ok ⟨s, m⟩

/-- An execution under a schedule. -/
inductive XRun (t : Task A) (cfg : Cfg Unit) : List Nat → XState A → C (XState A) → Prop
  | nil {x} : XRun t cfg [] x (.ok x)
  | fault {th ts x e} : XStep t cfg x th (.error e) → XRun t cfg (th :: ts) x (.error e)
  | next {th ts x x' r} : XStep t cfg x th (.ok x') → XRun t cfg ts x' r → XRun t cfg (th :: ts) x r

/-- trmul.cc:310-422 with several threads, from the packing of prepacked sides on: can end with `r`. -/
def Exec (t : Task A) (pre : SidePair Bool) (bm : BlockMap) (threads : Nat) (sched : List Nat) (m : Mach A) (r : C (XState A)) :
    Prop :=
  ∃ rm, Runs t (prepackCalls pre (colsOf (shape t))) m rm ∧
    match rm with
    | .error e => r = .error e
    | .ok m1 => XRun t (control pre bm threads) sched ⟨TrMul.initState (control pre bm threads) (shape t), m1⟩ r

end Ruy.Arm32.Flow

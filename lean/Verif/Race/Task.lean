import Verif.Race.Cpp
import Verif.TrMul.Model
import Verif.Simd.Calls
/-
TrMulTask::Run (trmul.cc:78-233) with need_atomics = true, as the program of one thread: what it does next depends on its own
state and on the values that its atomic operations return.  What those values can be is left to the memory model.
-/
namespace Ruy.Race
open Ruy.Mat Ruy.Mul Ruy.BlockMap
open Ruy.TrMul (setSide Locals Call)
open Ruy.Simd.Flow (Op)

/-- The atomics of a TrMul: `packing_status[side][block]` and `*atomic_block_id` (trmul.cc:376-398). -/
inductive Loc | status (s : Side) (b : Nat) | next
  deriving DecidableEq, Repr

/-- trmul.cc:52-56 (`enum class PackingStatus`). -/
def notStarted : Nat := 0
def inProgress : Nat := 1
def finished : Nat := 2

/-- Code with non-atomic accesses to shared memory: RunPack on block `b` of a side, RunKernel on block number `id`, and
`TuningResolver::Resolve`.  The block numbers are for the proofs only. -/
inductive Work
  | pack (s : Side) (b lo hi : Nat)
  | kernel (id : Nat) (block start stop : SidePair Nat)
  | resolve
  deriving DecidableEq, Repr

/-- Shared memory that is accessed without atomics: columns of the packed matrices (with their sums), entries of the
destination, and CpuInfo. -/
inductive Data | packed (s : Side) (c : Nat) | dst (i j : Nat) | cpu

/-- RunPack writes the columns of its block, RunKernel reads the columns of its two blocks and writes entries of its
block of the destination.  Resolve reads CpuInfo, which has been initialized since TrMul called CacheParams
(trmul.cc:327, cpuinfo.cc:33-39).  Sources and parameters are only read and left out. -/
def foot : Exec.Foot Work Data where
  reads w d := match w, d with
    | .kernel _ _ start stop, .packed s c => start.get s ≤ c ∧ c < stop.get s
    | .resolve, .cpu => True
    | _, _ => False
  writes w d := match w, d with
    | .pack s _ lo hi, .packed s' c => s = s' ∧ lo ≤ c ∧ c < hi
    | .kernel _ _ start stop, .dst i j => (start.lhs ≤ i ∧ i < stop.lhs) ∧ start.rhs ≤ j ∧ j < stop.rhs
    | _, _ => False

/-- What stays constant; `debug`: checks of kind RUY_DCHECK are compiled (check_macros.h:123-130). -/
structure Prog where
  pre : SidePair Bool
  bm : BlockMap
  debug : Bool

/-- Program counter of a thread. -/
inductive Pc
  /-- trmul.cc:80-90: before the tuning is resolved -/
  | start (tid : Nat)
  /-- trmul.cc:97: `while (block_id < num_blocks)` -/
  | head (bid : Nat)
  /-- trmul.cc:212-213: about to call TryPack for the given side of the needed block -/
  | req (e : Locals) (side : Side) (both : Bool)
  /-- trmul.cc:218-231: about to run ahead -/
  | ahead (e : Locals)
  /-- trmul.cc:175: about to call RunPack -/
  | packing (e : Locals) (c : Call) (side : Side) (block lo hi : Nat)
  /-- trmul.cc:176: about to store kFinished -/
  | publish (e : Locals) (c : Call) (side : Side) (block : Nat)
  /-- trmul.cc:184-185: about to check that the status is kFinished -/
  | confirm (e : Locals) (c : Call) (side : Side) (block : Nat)
  /-- trmul.cc:112: about to call RunKernel -/
  | kernel (e : Locals)
  | done
  /-- A check has failed, or undefined behaviour -/
  | failed
  deriving DecidableEq

/-- State of a thread: program counter and `local_already_packed_`. -/
structure TS where
  pc : Pc
  packed : Side → Nat → Bool

/-- trmul.cc:92-110 and 206-208: `none` when there are no blocks left; otherwise the local variables of the iteration for
block `bid` when the next block is `v`. -/
def enter (p : Prog) (bid v : Nat) : C (Option Locals) := do
  let n ← numBlocks p.bm
  if bid < n then do
    let block ← getBlockByIndex p.bm bid
    let l ← getBlockMatrixCoords .lhs p.bm block.lhs
    let r ← getBlockMatrixCoords .rhs p.bm block.rhs
    pure (some ⟨bid, v, block, ⟨l.1, r.1⟩, ⟨l.2, r.2⟩, ⟨block.lhs + 1, block.rhs + 1⟩, .lhs⟩)
  else pure none

/-- trmul.cc:211-216, 229-231: after TryPack has returned `ok`. -/
def afterTry (e : Locals) (c : Call) (side : Side) (ok : Bool) : Pc :=
  match c, side with
  | .ahead, _ => .req e .lhs true
  | .req both, .lhs => .req e .rhs (both && ok)
  | .req both, .rhs => if both && ok then .kernel e else .ahead e

/-- A call of TryPack (trmul.cc:126): who calls it, and its arguments. -/
structure Try where
  e : Locals
  c : Call
  side : Side
  block : Nat
  lo : Nat
  hi : Nat

/-- The call of TryPack that comes next (trmul.cc:212-213, 218-230): `inr` is a program counter to go on from
without a call. -/
def nextTry (p : Prog) : Pc → C (Try ⊕ Pc)
  | .req e side both => pure (.inl ⟨e, .req both, side, e.block.get side, e.start.get side, e.stop.get side⟩)
  | .ahead e => do
    let side := e.aheadSide
    let block := e.ahead.get side
    let n ← numBlocksPerSide p.bm side
    if n ≤ block then pure (.inr (.req { e with aheadSide := side.other } .lhs true))
    else do
      let x ← getBlockMatrixCoords side p.bm block
      pure (.inl ⟨{ e with aheadSide := side.other, ahead := setSide e.ahead side (block + 1) }, .ahead, side, block, x.1, x.2⟩)
  | pc => pure (.inr pc)

/-- `local_already_packed_[side][block] = true` -/
def mark (f : Side → Nat → Bool) (side : Side) (block : Nat) : Side → Nat → Bool :=
  Function.update f side (Function.update (f side) block true)

/-- Is a call of TryPack decided without an atomic operation (trmul.cc:127-130)?  An index outside
`local_already_packed_` is undefined behaviour. -/
def early (p : Prog) (f : Side → Nat → Bool) (y : Try) : C Bool :=
  if p.pre.get y.side then pure true
  else do
    let n ← numBlocksPerSide p.bm y.side
    C.require (y.block < n)
    pure (f y.side y.block)

/-- Actions of the task, in an execution with threads `T`. -/
abbrev TAct (T : Type) := Act T Loc Nat Work

/-- One step of a thread, with the action it performs, if any. -/
inductive Step (T : Type) (p : Prog) : TS → Option (TAct T) → TS → Prop
  /-- trmul.cc:90 -/
  | resolve {t f} : Step T p ⟨.start t, f⟩ (some (.call .resolve)) ⟨.head t, f⟩
  /-- trmul.cc:97: leaving the loop -/
  | leave {b f} : enter p b 0 = .ok none → Step T p ⟨.head b, f⟩ none ⟨.done, f⟩
  /-- trmul.cc:100-110: fetch_add and the coordinates of the block -/
  | fetch {b v e f} : enter p b v = .ok (some e) →
      Step T p ⟨.head b, f⟩ (some (.rmw .relaxed .next v (v + 1))) ⟨.req e .lhs true, f⟩
  | fault {b v e f} : enter p b v = .error e → Step T p ⟨.head b, f⟩ none ⟨.failed, f⟩
  /-- trmul.cc:222-224: nothing left to run ahead with -/
  | skip {e f pc'} : nextTry p (.ahead e) = .ok (.inr pc') → Step T p ⟨.ahead e, f⟩ none ⟨pc', f⟩
  /-- trmul.cc:127-130: already packed -/
  | already {pc f y} : nextTry p pc = .ok (.inl y) → early p f y = .ok true →
      Step T p ⟨pc, f⟩ none ⟨afterTry y.e y.c y.side true, f⟩
  /-- trmul.cc:166-172: the exchange succeeds -/
  | won {pc f y} : nextTry p pc = .ok (.inl y) → early p f y = .ok false →
      Step T p ⟨pc, f⟩ (some (.rmw .acqRel (.status y.side y.block) notStarted inProgress))
        ⟨.packing y.e y.c y.side y.block y.lo y.hi, f⟩
  /-- trmul.cc:177-180: another thread is packing the block -/
  | busy {pc f y} : nextTry p pc = .ok (.inl y) → early p f y = .ok false →
      Step T p ⟨pc, f⟩ (some (.load .acquire (.status y.side y.block) inProgress)) ⟨afterTry y.e y.c y.side false, f⟩
  /-- trmul.cc:181-183: the exchange fails with any other value -/
  | seen {pc f y v} : nextTry p pc = .ok (.inl y) → early p f y = .ok false → v ≠ notStarted → v ≠ inProgress →
      Step T p ⟨pc, f⟩ (some (.load .acquire (.status y.side y.block) v)) ⟨.confirm y.e y.c y.side y.block, f⟩
  | stuck {pc f e} : nextTry p pc = .error e → Step T p ⟨pc, f⟩ none ⟨.failed, f⟩
  | outside {pc f y e} : nextTry p pc = .ok (.inl y) → early p f y = .error e → Step T p ⟨pc, f⟩ none ⟨.failed, f⟩
  /-- trmul.cc:175 -/
  | pack {e c s b lo hi f} : Step T p ⟨.packing e c s b lo hi, f⟩ (some (.call (.pack s b lo hi))) ⟨.publish e c s b, f⟩
  /-- trmul.cc:176 -/
  | publish {e c s b f} :
      Step T p ⟨.publish e c s b, f⟩ (some (.store .release (.status s b) finished)) ⟨.confirm e c s b, f⟩
  /-- trmul.cc:184-185: the check passes; then trmul.cc:191 -/
  | confirm {e c s b f} : p.debug = true →
      Step T p ⟨.confirm e c s b, f⟩ (some (.load .acquire (.status s b) finished)) ⟨afterTry e c s true, mark f s b⟩
  /-- trmul.cc:184-185: the check fails -/
  | deny {e c s b f v} : p.debug = true → v ≠ finished →
      Step T p ⟨.confirm e c s b, f⟩ (some (.load .acquire (.status s b) v)) ⟨.failed, f⟩
  /-- trmul.cc:191: no check in this build -/
  | unchecked {e c s b f} : p.debug = false → Step T p ⟨.confirm e c s b, f⟩ none ⟨afterTry e c s true, mark f s b⟩
  /-- trmul.cc:112-115 -/
  | kernel {e f} : Step T p ⟨.kernel e, f⟩ (some (.call (.kernel e.bid e.block e.start e.stop))) ⟨.head e.next, f⟩

/-- Steps of thread number `tid` from the start: actions so far, and its state. -/
inductive Steps (T : Type) (p : Prog) (tid : Nat) : List (TAct T) → TS → Prop
  | start : Steps T p tid [] ⟨.start tid, fun _ _ => false⟩
  | silent {l s s'} : Steps T p tid l s → Step T p s none s' → Steps T p tid l s'
  | act {l s s' a} : Steps T p tid l s → Step T p s (some a) s' → Steps T p tid (l ++ [a]) s'

/-- TrMul within an execution: task `k < n` runs in thread `th k`, after the first `lo k` actions of that thread, and
has come to `ts k`. -/
structure Tasks {T : Type} (x : Exec T Loc Nat Work) (p : Prog) (n : Nat) where
  th : Nat → T
  lo : Nat → Nat
  acts : Nat → List (TAct T)
  ts : Nat → TS
  /-- The stores of trmul.cc:385-388 and 398. -/
  init : Loc → Ev T

variable {T : Type} {x : Exec T Loc Nat Work} {p : Prog} {n : Nat}

/-- Atomics that the tasks use: those of blocks of sides that are not prepacked, and the block counter. -/
def Used (p : Prog) : Loc → Prop
  | .status s b => p.pre.get s = false ∧ ∃ m, numBlocksPerSide p.bm s = .ok m ∧ b < m
  | .next => True

/-- What they are initialized with (trmul.cc:385-388, 398). -/
def first (n : Nat) : Loc → Nat
  | .status _ _ => notStarted
  | .next => n

/-- `e` is action number `i` of task `k`. -/
def Tasks.At (K : Tasks x p n) (k i : Nat) (e : Ev T) : Prop := k < n ∧ i < (K.acts k).length ∧ e = (K.th k, K.lo k + i)

/-- `e` is an action of a task. -/
def Tasks.In (K : Tasks x p n) (e : Ev T) : Prop := ∃ k i, K.At k i e

/-- A state in which several tasks of one TrMul have been started (trmul.cc:371-416): different threads, the atomics have been
initialized before (that this order is visible to the tasks is what ThreadPool::Execute provides), and
nothing else writes to them in between.  Other writes, say of an earlier or a later Mul that uses the same memory, happen
before the initialization or after the tasks. -/
structure Tasks.Ok (K : Tasks x p n) : Prop where
  threads : ∀ j k, j < n → k < n → K.th j = K.th k → j = k
  run : ∀ k, k < n → Steps T p k (K.acts k) (K.ts k)
  slice : ∀ k i, k < n → i < (K.acts k).length → x.act (K.th k, K.lo k + i) = (K.acts k)[i]?
  init : ∀ l, Used p l → ∃ o, x.act (K.init l) = some (.store o l (first n l))
  before : ∀ l e, Used p l → K.In e → x.Hb (K.init l) e
  only : ∀ e l v, Used p l → x.Writes e l v → e = K.init l ∨ K.In e ∨ x.Hb e (K.init l) ∨ ∀ e', K.In e' → x.Hb e' e

/-- All tasks have returned. -/
def Tasks.Finished (K : Tasks x p n) : Prop := ∀ k, k < n → (K.ts k).pc = .done

end Ruy.Race

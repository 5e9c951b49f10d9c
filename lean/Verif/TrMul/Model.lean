import Verif.Mul.Model
import Verif.BlockMap.Model
import Mathlib.Logic.Function.Basic
/-
Model of the middle-end: trmul.cc:60-422 (TrMulTask, TrMul) and
trmul_params.h:60-94 (TrMulParams, RunPack, RunKernel).

Sequential parts are functions in `C`.  The multi-threaded part is an
interleaving transition system: `step cfg s t` lets thread `t` perform its next
atomic action.  Atomic actions are: one atomic operation on the shared counter
or on a packing status; packing of one column of a block; computation of one
destination entry.  (That no two threads ever touch the same packed block or the
same destination block with one of them writing is a theorem, so a finer
granularity would not be observable.)

Not modelled: the trace/profiler hooks, the Tuning argument (it does not
influence values on the portable paths), and the allocation of the task objects.
-/
namespace Ruy.TrMul
open Ruy.Mat Ruy.Mul Ruy.BlockMap

/-- What stays constant during TrMul: trmul_params.h:60-94 plus the arithmetic.
`pack` is the per-element conversion of the pack function pointers. -/
structure Params (A : Type) where
  ar : Arith A
  mp : Mul.Params A
  src : SidePair (Mul.Mat A)
  pack : SidePair (A → A)
  isPrepacked : SidePair Bool

/-- The memory TrMul works on. -/
structure Mem (A : Type) where
  packed : SidePair (PMat A)
  dst : Mul.Mat A

variable {A : Type}

/-- Assignment to one component of a SidePair. -/
def setSide {α : Type} (p : SidePair α) (s : Side) (x : α) : SidePair α :=
  match s with
  | .lhs => { p with lhs := x }
  | .rhs => { p with rhs := x }

/-- trmul_params.h:63-65 (`RunPack`). -/
def runPackSide (tp : Params A) (m : Mem A) (s : Side) (start stop : Nat) : C (Mem A) := do
  let p ← runPack tp.ar (tp.pack.get s) (tp.src.get s) start stop (m.packed.get s)
  pure { m with packed := setSide m.packed s p }

/-- trmul_params.h:66-69 (`RunKernel`). -/
def runKernelBlock (tp : Params A) (m : Mem A) (start stop : SidePair Nat) : C (Mem A) := do
  let d ← runKernel tp.ar tp.mp m.packed.lhs m.packed.rhs start stop m.dst
  pure { m with dst := d }

/-- `if (!params->is_prepacked[side]) params->RunPack(...)` (trmul.cc:349-352). -/
def packUnlessPrepacked (tp : Params A) (m : Mem A) (s : Side) : C (Mem A) :=
  if tp.isPrepacked.get s then pure m
  else runPackSide tp m s 0 (m.packed.get s).layout.cols

/-- trmul.cc:337-356: the simple loop. -/
def simpleLoop (tp : Params A) (m : Mem A) : C (Mem A) := do
  let m1 ← packUnlessPrepacked tp m .lhs
  let m2 ← packUnlessPrepacked tp m1 .rhs
  runKernelBlock tp m2 ⟨0, 0⟩ ⟨m.packed.lhs.layout.cols, m.packed.rhs.layout.cols⟩

/-! ### One thread, general case (need_atomics = false) -/

/-- State of the single-threaded TrMulTask::Run: memory and local_already_packed_. -/
structure Seq (A : Type) where
  mem : Mem A
  packed : SidePair (Nat → Bool)

/-- trmul.cc:126-196 (`TryPack`) without atomics; always returns true. -/
def seqTryPack (tp : Params A) (side : Side) (block start stop : Nat) (s : Seq A) : C (Seq A) :=
  if tp.isPrepacked.get side then pure s
  else if s.packed.get side block then pure s
  else do
    let m ← runPackSide tp s.mem side start stop
    pure ⟨m, setSide s.packed side (Function.update (s.packed.get side) block true)⟩

/-- trmul.cc:97-116: one iteration of the main loop. -/
def seqBlock (tp : Params A) (bm : BlockMap) (blockId : Nat) (s : Seq A) : C (Seq A) := do
  let block ← getBlockByIndex bm blockId
  let l ← getBlockMatrixCoords .lhs bm block.lhs
  let r ← getBlockMatrixCoords .rhs bm block.rhs
  let s1 ← seqTryPack tp .lhs block.lhs l.1 l.2 s
  let s2 ← seqTryPack tp .rhs block.rhs r.1 r.2 s1
  let m ← runKernelBlock tp s2.mem ⟨l.1, r.1⟩ ⟨l.2, r.2⟩
  pure { s2 with mem := m }

/-- trmul.cc:78-119 (`Run`) with thread_count = 1: atomic_block_id starts at 1 and
the thread at block 0, so the blocks are taken in the order 0, 1, 2, ... -/
def seqRun (tp : Params A) (bm : BlockMap) (m : Mem A) : C (Mem A) := do
  let n ← numBlocks bm
  let s ← forUpTo n (seqBlock tp bm) ⟨m, ⟨fun _ => false, fun _ => false⟩⟩
  pure s.mem

/-! ### Several threads -/

/-- trmul.cc:52-56 (`enum class PackingStatus`). -/
inductive Status where
  | notStarted
  | inProgress
  | finished
  deriving DecidableEq, Repr

/-- Which call of TryPack a thread is in: for the block it needs (trmul.cc:211-214,
with the value of `both_sides_packed` so far) or running ahead (trmul.cc:229-230). -/
inductive Call where
  | req (both : Bool)
  | ahead
  deriving DecidableEq, Repr

/-- Local variables of Run and EnsurePacked: block_id, next_block_id, block, start, end,
next_runahead_block, next_runahead_side. -/
structure Locals where
  bid : Nat
  next : Nat
  block : SidePair Nat
  start : SidePair Nat
  stop : SidePair Nat
  ahead : SidePair Nat
  aheadSide : Side
  deriving DecidableEq, Repr

/-- Program counter of a thread. -/
inductive PC where
  /-- trmul.cc:97: `while (block_id < num_blocks)` -/
  | head (bid : Nat)
  /-- trmul.cc:212-213: about to call TryPack for the given side of the needed block -/
  | tryReq (e : Locals) (side : Side) (both : Bool)
  /-- trmul.cc:218-231: about to run ahead -/
  | runAhead (e : Locals)
  /-- trmul.cc:175: inside RunPack; columns below `col` are packed -/
  | packing (e : Locals) (c : Call) (side : Side) (block col stop : Nat)
  /-- trmul.cc:184-185: about to check that the status is kFinished -/
  | confirm (e : Locals) (c : Call) (side : Side) (block : Nat)
  /-- trmul.cc:112: inside RunKernel, about to compute entry (i, j) -/
  | kernel (e : Locals) (i j : Nat)
  /-- after the loop -/
  | done
  deriving DecidableEq, Repr

/-- The whole state of a multi-threaded TrMul.  `runs` and `packs` are ghost
counters: how often RunKernel (RunPack) was entered for a block. -/
structure State (A : Type) where
  mem : Mem A
  /-- `*atomic_block_id` -/
  counter : Nat
  /-- `packing_status` -/
  status : Side → Nat → Status
  /-- `local_already_packed_` of each thread -/
  localPacked : Nat → Side → Nat → Bool
  pc : Nat → PC
  runs : Nat → Nat
  packs : Side → Nat → Nat

/-- Constants of a multi-threaded TrMul. -/
structure Cfg (A : Type) where
  tp : Params A
  bm : BlockMap
  threads : Nat

/-- `packing_status_[side][block].store(x)` -/
def setStatus (f : Side → Nat → Status) (side : Side) (block : Nat) (x : Status) :
    Side → Nat → Status :=
  Function.update f side (Function.update (f side) block x)

/-- `local_already_packed_[side][block] = true` on thread `t` -/
def setLocal (f : Nat → Side → Nat → Bool) (t : Nat) (side : Side) (block : Nat) :
    Nat → Side → Nat → Bool :=
  Function.update f t (Function.update (f t) side (Function.update (f t side) block true))

def incPacks (f : Side → Nat → Nat) (side : Side) (block : Nat) : Side → Nat → Nat :=
  Function.update f side (Function.update (f side) block (f side block + 1))

def setPC (s : State A) (t : Nat) (p : PC) : State A := { s with pc := Function.update s.pc t p }

/-- The entries a thread computes for its block: rows (kernel.h:201-202). -/
def rowEnd (s : State A) (e : Locals) : Nat := min e.stop.lhs s.mem.dst.layout.rows
/-- ... and columns (kernel.h:203-204). -/
def colEnd (s : State A) (e : Locals) : Nat := min e.stop.rhs s.mem.dst.layout.cols

/-- Entering RunKernel: the checks of kernel.h:118-125, 199-208. -/
def enterKernel (s : State A) (t : Nat) (e : Locals) : C (State A) := do
  rangeChecks e.start.lhs e.stop.lhs s.mem.dst.layout.rows s.mem.packed.lhs.layout.kernel.cols
  rangeChecks e.start.rhs e.stop.rhs s.mem.dst.layout.cols s.mem.packed.rhs.layout.kernel.cols
  pure { setPC s t (.kernel e e.start.lhs e.start.rhs) with
    runs := Function.update s.runs e.bid (s.runs e.bid + 1) }

/-- Return from a call of TryPack with value `ok`: trmul.cc:211-216 and 229-231. -/
def afterTry (s : State A) (t : Nat) (e : Locals) (c : Call) (side : Side) (ok : Bool) :
    C (State A) :=
  match c, side with
  | .ahead, _ => pure (setPC s t (.tryReq e .lhs true))
  | .req both, .lhs => pure (setPC s t (.tryReq e .rhs (both && ok)))
  | .req both, .rhs =>
    if both && ok then enterKernel s t e else pure (setPC s t (.runAhead e))

/-- trmul.cc:166-175: compare_exchange_strong on the status, and on success entry of RunPack
(check of pack.h:110). -/
def tryCas (s : State A) (t : Nat) (e : Locals) (c : Call) (side : Side)
    (block start stop : Nat) : C (State A) :=
  match s.status side block with
  | .notStarted => do
    C.check ((stop - start) % (s.mem.packed.get side).layout.kernel.cols = 0)
    pure { setPC s t (.packing e c side block start stop) with
      status := setStatus s.status side block .inProgress
      packs := incPacks s.packs side block }
  | .inProgress => afterTry s t e c side false
  | .finished => pure (setPC s t (.confirm e c side block))

/-- trmul.cc:126-196 (`TryPack`) up to its first atomic operation. -/
def tryPack (cfg : Cfg A) (s : State A) (t : Nat) (e : Locals) (c : Call) (side : Side)
    (block start stop : Nat) : C (State A) :=
  if cfg.tp.isPrepacked.get side then afterTry s t e c side true
  else do
    let n ← numBlocksPerSide cfg.bm side
    C.require (block < n)
    if s.localPacked t side block then afterTry s t e c side true
    else tryCas s t e c side block start stop

/-- trmul.cc:97-110: reserving the next block and computing the coordinates of this one. -/
def stepHead (cfg : Cfg A) (s : State A) (t bid : Nat) : C (State A) := do
  let n ← numBlocks cfg.bm
  if bid < n then do
    let block ← getBlockByIndex cfg.bm bid
    let l ← getBlockMatrixCoords .lhs cfg.bm block.lhs
    let r ← getBlockMatrixCoords .rhs cfg.bm block.rhs
    let e : Locals := ⟨bid, s.counter, block, ⟨l.1, r.1⟩, ⟨l.2, r.2⟩,
      ⟨block.lhs + 1, block.rhs + 1⟩, .lhs⟩
    pure { setPC s t (.tryReq e .lhs true) with counter := s.counter + 1 }
  else pure (setPC s t .done)

/-- trmul.cc:218-231: run ahead. -/
def stepAhead (cfg : Cfg A) (s : State A) (t : Nat) (e : Locals) : C (State A) := do
  let side := e.aheadSide
  let block := e.ahead.get side
  let n ← numBlocksPerSide cfg.bm side
  if n ≤ block then pure (setPC s t (.tryReq { e with aheadSide := side.other } .lhs true))
  else do
    let c ← getBlockMatrixCoords side cfg.bm block
    tryPack cfg s t { e with aheadSide := side.other, ahead := setSide e.ahead side (block + 1) }
      .ahead side block c.1 c.2

/-- pack.h:115-130 for one column, then trmul.cc:176 (store of kFinished). -/
def stepPacking (cfg : Cfg A) (s : State A) (t : Nat) (e : Locals) (c : Call) (side : Side)
    (block col stop : Nat) : C (State A) :=
  if col < stop then do
    let p ← packCol cfg.tp.ar (cfg.tp.pack.get side) (cfg.tp.src.get side) col
      (s.mem.packed.get side)
    pure { setPC s t (.packing e c side block (col + 1) stop) with
      mem := { s.mem with packed := setSide s.mem.packed side p } }
  else
    pure { setPC s t (.confirm e c side block) with
      status := setStatus s.status side block .finished }

/-- trmul.cc:184-191: check, and mark as packed locally. -/
def stepConfirm (s : State A) (t : Nat) (e : Locals) (c : Call) (side : Side) (block : Nat) :
    C (State A) := do
  C.check (s.status side block = .finished)
  afterTry { s with localPacked := setLocal s.localPacked t side block } t e c side true

/-- kernel.h:209-240 for one entry, then trmul.cc:115 (next block). -/
def stepKernel (cfg : Cfg A) (s : State A) (t : Nat) (e : Locals) (i j : Nat) : C (State A) :=
  if i < rowEnd s e then
    if j < colEnd s e then do
      let d ← kernelStep cfg.tp.ar cfg.tp.mp s.mem.packed.lhs s.mem.packed.rhs i j s.mem.dst
      pure { setPC s t (.kernel e i (j + 1)) with mem := { s.mem with dst := d } }
    else pure (setPC s t (.kernel e (i + 1) e.start.rhs))
  else pure (setPC s t (.head e.next))

/-- One atomic action of thread `t`. -/
def step (cfg : Cfg A) (s : State A) (t : Nat) : C (State A) :=
  match s.pc t with
  | .head b => stepHead cfg s t b
  | .tryReq e side both =>
    tryPack cfg s t e (.req both) side (e.block.get side) (e.start.get side) (e.stop.get side)
  | .runAhead e => stepAhead cfg s t e
  | .packing e c side block col stop => stepPacking cfg s t e c side block col stop
  | .confirm e c side block => stepConfirm s t e c side block
  | .kernel e i j => stepKernel cfg s t e i j
  | .done => pure s

/-- trmul.cc:376-398: the state in which the tasks are started. -/
def initState (cfg : Cfg A) (m : Mem A) : State A where
  mem := m
  counter := cfg.threads
  status := fun _ _ => .notStarted
  localPacked := fun _ _ _ => false
  pc := fun t => if t < cfg.threads then .head t else .done
  runs := fun _ => 0
  packs := fun _ _ => 0

/-- An execution: the threads take steps in the order given by the schedule. -/
def run (cfg : Cfg A) : List Nat → State A → C (State A)
  | [], s => .ok s
  | t :: ts, s => do
    let s' ← step cfg s t
    run cfg ts s'

/-- All tasks have returned (what ThreadPool::Execute waits for, trmul.cc:415). -/
def Finished (cfg : Cfg A) (s : State A) : Prop := ∀ t, t < cfg.threads → s.pc t = .done

end Ruy.TrMul

import Verif.TrMul.Props
/-
The function TrMul itself (trmul.cc:252-299, 309-422): how many threads, shortcut or block map.

Not modelled: the allocation of the task objects, of the statuses and of the counter (see
Verif/Alloc; a failure to allocate is not handled by the code), the profiler labels, and
the suppression of denormals (Verif/Denormal).
-/
namespace Ruy.TrMul
open Ruy.Mat Ruy.Mul Ruy.BlockMap

/-- strategy_controls.h:22-29 -/
inductive NumThreadsStrategy where
  | default
  | forceMaxNumThreads
  deriving DecidableEq, Repr

/-- What TrMul reads from the context: ctx.cc:45, 51-58 and CpuInfo::CacheParams. -/
structure Settings where
  strategy : NumThreadsStrategy
  maxThreads : Int
  cache : CacheParams
  deriving DecidableEq, Repr

/-- `data_type.size` of the sources and of the packed matrices (mat.h:207-227). -/
structure ScalarSizes where
  src : SidePair Nat
  packed : SidePair Nat

/-- trmul.cc:252-284. -/
def tentativeThreadCount (st : Settings) (rows cols depth : Nat) : C Int :=
  match st.strategy with
  | .forceMaxNumThreads => .ok st.maxThreads
  | .default => do
    let rc ← C.i64 ((rows : Int) * cols)
    let size ← C.i64 (rc * depth)
    .ok (min (max (size / 32768) 1) st.maxThreads)

/-- trmul.cc:286-299. -/
def useSimpleLoop (threads : Int) (rows cols depth lhsSize rhsSize : Nat) (cp : CacheParams) : C Bool :=
  if threads = 1 then isObviouslyLinearTraversal rows cols depth lhsSize rhsSize cp else .ok false

/-- The two ways in which TrMul goes about its work. -/
inductive Plan where
  | simple
  | blocks (bm : BlockMap)
  deriving DecidableEq, Repr

variable {A : Type}

/-- trmul.cc:322-371, and the check of the number of tasks at thread_pool.cc:216.  A number of
threads that is not positive is passed to MakeBlockMap as 0: both are rejected by ceil_log2. -/
def plan (st : Settings) (sz : ScalarSizes) (tp : Params A) (m : Mem A) : C Plan := do
  let rows := tp.src.lhs.layout.cols
  let cols := tp.src.rhs.layout.cols
  let depth := tp.src.lhs.layout.rows
  let t ← tentativeThreadCount st rows cols depth
  let b ← useSimpleLoop t rows cols depth sz.src.lhs sz.src.rhs st.cache
  if b then .ok .simple
  else do
    let bm ← makeBlockMap ⟨m.packed.lhs.layout.cols, m.packed.rhs.layout.cols, depth,
      m.packed.lhs.layout.kernel.cols, m.packed.rhs.layout.kernel.cols, sz.packed.lhs, sz.packed.rhs,
      t.toNat, st.cache⟩
    C.check (1 ≤ bm.threadCount)
    .ok (.blocks bm)

/-- TrMul may end with the destination `d` (trmul.cc:309-422). -/
inductive Ends (st : Settings) (sz : ScalarSizes) (tp : Params A) (m : Mem A) (d : Mul.Mat A) : Prop
  | simple (m' : Mem A) : plan st sz tp m = .ok .simple → simpleLoop tp m = .ok m' → m'.dst = d →
      Ends st sz tp m d
  | one (bm : BlockMap) (m' : Mem A) : plan st sz tp m = .ok (.blocks bm) → bm.threadCount = 1 →
      seqRun tp bm m = .ok m' → m'.dst = d → Ends st sz tp m d
  | many (bm : BlockMap) (sched : List Nat) (s : State A) : plan st sz tp m = .ok (.blocks bm) →
      bm.threadCount ≠ 1 →
      run ⟨tp, bm, bm.threadCount⟩ sched (initState ⟨tp, bm, bm.threadCount⟩ m) = .ok s →
      Finished ⟨tp, bm, bm.threadCount⟩ s → s.mem.dst = d → Ends st sz tp m d

end Ruy.TrMul

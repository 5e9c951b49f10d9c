import Verif.Base.Fault
/-
Model of CpuInfo::CacheParams: cpuinfo.cc:18-107, 191-195 (with RUY_HAVE_CPUINFO), and of the part
of the cpuinfo library that is used: the list of processors, cpuinfo_get_processor (null for an
index that is too large) and the caches of each processor.

Assumed of the library: it does not change its answers; there are fewer than 2^31 processors.
-/
namespace Ruy.CpuInfo

/-- cpuinfo_cache: three uint32_t. -/
structure Cache where
  size : Nat
  processorStart : Nat
  processorCount : Nat
  deriving DecidableEq, Repr

/-- cpuinfo_processor: the core (a pointer, compared for equality) and the caches. -/
structure Processor where
  core : Nat
  l1d : Option Cache
  l2 : Option Cache
  l3 : Option Cache
  deriving DecidableEq, Repr

/-- What the cpuinfo library knows. -/
structure Topology where
  /-- result of cpuinfo_initialize() -/
  initializes : Bool
  processors : List Processor
  deriving DecidableEq, Repr

/-- Conversion of a uint32_t to int. -/
def asInt (n : Nat) : Int := if n < 2 ^ 31 then n else (n : Int) - 2 ^ 32

/-- One iteration of the loop over cache levels (cpuinfo.cc:53-76); the pair is
(local_cache_size, last_level_cache_size). -/
def cacheStep (t : Topology) (s : Int × Int) (cache : Option Cache) : Int × Int :=
  match cache with
  | none => s
  | some c =>
    if c.processorCount = 0 then s
    else
      match t.processors[c.processorStart]?,
          t.processors[(c.processorStart + c.processorCount + (2 ^ 32 - 1)) % 2 ^ 32]? with
      | some first, some last =>
        (if first.core = last.core then asInt c.size else s.1, asInt c.size)
      | _, _ => s

/-- cpuinfo.cc:48-80: the sizes found for one processor. -/
def processorSizes (t : Topology) (p : Processor) : Int × Int :=
  let s := [p.l1d, p.l2, p.l3].foldl (cacheStep t) (0, 0)
  if s.1 = 0 then (s.2, s.2) else s

/-- The loop over processors (cpuinfo.cc:47-89); `none` is `return false`. -/
def queryLoop (t : Topology) : List Processor → Int × Int → C (Option (Int × Int))
  | [], o => .ok (some o)
  | p :: ps, o =>
    let s := processorSizes t p
    if s.1 = 0 ∨ s.2 = 0 then .ok none
    else do
      C.check (s.1 ≤ s.2)
      queryLoop t ps (min o.1 s.1, min o.2 s.2)

/-- cpuinfo.cc:42-93. -/
def queryCacheParams (t : Topology) : C (Option (Int × Int)) := do
  C.check (0 < t.processors.length)
  queryLoop t t.processors (2 ^ 31 - 1, 2 ^ 31 - 1)

/-- cpuinfo.h:46-50. -/
inductive InitStatus where
  | notYetAttempted
  | initialized
  | failed
  deriving DecidableEq, Repr

/-- cpuinfo.h:52-53; `writes` counts the assignments to the members (for the specification). -/
structure State where
  status : InitStatus
  params : Int × Int
  writes : Nat
  deriving DecidableEq, Repr

/-- A new CpuInfo (the sizes are indeterminate). -/
def State.new (junk : Int × Int) : State := ⟨.notYetAttempted, junk, 0⟩

/-- cpuinfo.cc:18-22. -/
def dummy : Int × Int := (32 * 1024, 512 * 1024)

/-- cpuinfo.cc:96-107. -/
def initInfo (t : Topology) (s : State) : C State := do
  C.check (s.status = .notYetAttempted)
  if t.initializes then do
    let r ← queryCacheParams t
    match r with
    | some q => .ok ⟨.initialized, q, s.writes + 1⟩
    | none => .ok ⟨.failed, dummy, s.writes + 1⟩
  else .ok ⟨.failed, dummy, s.writes + 1⟩

/-- cpuinfo.cc:34-37. -/
def attemptOnce (t : Topology) (s : State) : C State :=
  if s.status = .notYetAttempted then do
    let s' ← initInfo t s
    C.check (s'.status ≠ .notYetAttempted)
    .ok s'
  else .ok s

/-- cpuinfo.cc:33-39. -/
def ensureInitialized (t : Topology) (s : State) : C (State × Bool) := do
  let s ← attemptOnce t s
  .ok (s, decide (s.status = .initialized))

/-- cpuinfo.cc:191-195. -/
def cacheParams (t : Topology) (s : State) : C (State × (Int × Int)) := do
  let r ← ensureInitialized t s
  .ok (r.1, r.1.params)

/-- Any query of a CpuInfo: CacheParams, or a feature query, each of which starts with
EnsureInitialized (cpuinfo.cc:109-167). -/
inductive Op where
  | cacheParams
  | feature

def step (t : Topology) (s : State) : Op → C State
  | .cacheParams => do
    let r ← cacheParams t s
    .ok r.1
  | .feature => do
    let r ← ensureInitialized t s
    .ok r.1

def run (t : Topology) : List Op → State → C State
  | [], s => .ok s
  | o :: h, s => do
    let s ← step t s o
    run t h s

end Ruy.CpuInfo

import Verif.Base.Fault
/-
Model of TuningResolver (tune.h:28-119, tune.cc:25-50), of the use contexts make of it
(ctx.cc:188-192, 214-219; trmul.cc:90, 369-375), and of CpuInfo::CurrentCpuIs* as far as it matters
(cpuinfo.cc:134-167).

Time points and durations are numbers of nanoseconds (time.h:32-35, 74-83); the clock is an argument
of each call.  What ResolveNow finds depends on the processor that runs the thread at that moment,
which also is an argument.
-/
namespace Ruy.Tune

/-- tune.h:44-79. -/
inductive Tuning where
  | auto
  | generic
  | a55ish
  | x1
  deriving DecidableEq, Repr

/-- What the cpuinfo library says about the current processor (cpuinfo.cc:134-167). -/
structure Cpu where
  isA55ish : Bool
  isX1 : Bool
  deriving DecidableEq

/-- tune.cc:25-33. -/
def resolveNow (cpu : Cpu) : Tuning :=
  if cpu.isA55ish then .a55ish
  else if cpu.isX1 then .x1
  else .generic

/-- The members of TuningResolver (tune.h:108-118).  The time point is value-initialised to 0. -/
structure Resolver where
  unresolved : Tuning
  last : Tuning
  lastTime : Int

/-- tune.h:112-116. -/
def Resolver.new : Resolver := ⟨.auto, .auto, 0⟩

/-- tune.cc:35-36: 250 milliseconds. -/
def expiry : Int := 250000000

/-- tune.h:96. -/
def Resolver.setTuning (r : Resolver) (t : Tuning) : Resolver := { r with unresolved := t }

/-- tune.cc:38-50. -/
def Resolver.resolve (r : Resolver) (now : Int) (cpu : Cpu) : Resolver × Tuning :=
  if r.unresolved ≠ .auto then (r, r.unresolved)
  else if r.last ≠ .auto ∧ now - r.lastTime < expiry then (r, r.last)
  else ({ r with last := resolveNow cpu, lastTime := now }, resolveNow cpu)

/-- Calls on a resolver. -/
inductive Op where
  | set (t : Tuning)
  | resolve (now : Int) (cpu : Cpu)

def Resolver.step (r : Resolver) : Op → Resolver
  | .set t => r.setTuning t
  | .resolve now cpu => (r.resolve now cpu).1

def Resolver.run (r : Resolver) (h : List Op) : Resolver := h.foldl Resolver.step r

/-! ### A context -/

/-- The tuning of a context and its per-thread resolvers (ctx_impl.h:33-45, 64). -/
structure TuneCtx where
  explicit : Tuning
  resolver : Nat → Resolver

def TuneCtx.new : TuneCtx := ⟨.auto, fun _ => .new⟩

/-- ctx.cc:40-42. -/
def TuneCtx.setExplicit (c : TuneCtx) (t : Tuning) : TuneCtx := { c with explicit := t }

/-- ctx.cc:214-219 for thread 0, and trmul.cc:374 followed by trmul.cc:90 on thread `i`. -/
def TuneCtx.threadTuning (c : TuneCtx) (i : Nat) (now : Int) (cpu : Cpu) : TuneCtx × Tuning :=
  let q := ((c.resolver i).setTuning c.explicit).resolve now cpu
  ({ c with resolver := fun j => if j = i then q.1 else c.resolver j }, q.2)

/-- What a user does with a context, thread by thread. -/
inductive CtxOp where
  | setExplicit (t : Tuning)
  | use (thread : Nat) (now : Int) (cpu : Cpu)

def TuneCtx.step (c : TuneCtx) : CtxOp → TuneCtx
  | .setExplicit t => c.setExplicit t
  | .use i now cpu => (c.threadTuning i now cpu).1

def TuneCtx.run (c : TuneCtx) (h : List CtxOp) : TuneCtx := h.foldl TuneCtx.step c

end Ruy.Tune

import Verif.Race.Cpp
import Mathlib.Data.Nat.Pairing
/-
ThreadPool, its worker threads and BlockingCounter (thread_pool.cc, blocking_counter.cc) as threads that produce the
actions of `Verif/Race/Cpp.lean`: every access to `count_`, `state_` and `task_` with the memory order in the code.

Simplifications.  `task_` is not atomic in the code; its accesses are relaxed accesses here, which allows more
executions, and C76 proves that they do not race.  Spin waiting and passive waiting (wait.cc) are the same loop
of loads; mutexes and condition variables are left out, since they only add ordering (C12 is about them).  `task_`
holds the identity of a Task object, `obj b i` for task `i` of the `b`-th call of Execute, rather than its address.
What a task or the program around the pool does is arbitrary, as long as it does not touch the private members of the
pool.  `d`: RUY_DCHECK is on.
-/
namespace Ruy.Race.Pool

/-- Atomic locations: `BlockingCounter::count_` (blocking_counter.h:56), `Thread::state_`, `Thread::task_` of worker `w`
(thread_pool.cc:204, 191), and those of the rest of the program. -/
inductive PLoc (L : Type)
  | count
  | state (w : Nat)
  | task (w : Nat)
  | user (l : L)
  deriving DecidableEq

/-- Code without atomic accesses: that of the program, and marks for beginning and end of `Execute` with `n` tasks (the
`b`-th call), of `Task::Run` on object `v`, and for the destructor. -/
inductive PCode (C : Type)
  | user (c : C)
  | execute (b n : Nat)
  | executed (b : Nat)
  | enter (v : Nat)
  | leave (v : Nat)
  | destroy
  deriving DecidableEq

/-- thread_pool.cc:59-64 `Thread::State` -/
def startup : Nat := 0
def ready : Nat := 1
def hasWork : Nat := 2
def exit : Nat := 3

/-- The Task object `i` of batch `b`; 0 is nullptr. -/
def obj (b i : Nat) : Nat := Nat.pair b i + 1

abbrev PAct (T L C : Type) := Act T (PLoc L) Nat (PCode C)

variable {T L C : Type}

/-- What code outside of the pool may do: anything but access the members of the pool, start its threads or join them. -/
inductive IsUser (wk : Nat → T) : PAct T L C → Prop
  | load (o l v) : IsUser wk (.load o (.user l) v)
  | store (o l v) : IsUser wk (.store o (.user l) v)
  | rmw (o l v u) : IsUser wk (.rmw o (.user l) v u)
  | call (c) : IsUser wk (.call (.user c))
  | spawn (t) : (∀ w, t ≠ wk w) → IsUser wk (.spawn t)
  | join (t) : (∀ w, t ≠ wk w) → IsUser wk (.join t)
  | skip : IsUser wk .skip

/-! ### Runs with the state before every action -/

/-- `LSteps R s0 ls s`: from `s0`, the actions in `ls`, each with the state before it, lead to `s`. -/
inductive LSteps {S A : Type} (R : S → A → S → Prop) (s0 : S) : List (S × A) → S → Prop
  | nil : LSteps R s0 [] s0
  | snoc {ls s a s'} : LSteps R s0 ls s → R s a s' → LSteps R s0 (ls ++ [(s, a)]) s'

/-! ### Worker threads -/

/-- Program counter of a worker. -/
inductive WPc
  /-- thread_pool.cc:72 `if (task_)` -/
  | fetch
  /-- thread_pool.cc:73 `task_->` -/
  | again
  /-- thread_pool.cc:73 `Run()`, before and in the call -/
  | enter (v : Nat)
  | body (v : Nat)
  /-- thread_pool.cc:74 `task_ = nullptr` -/
  | clear
  /-- thread_pool.cc:83 -/
  | ready
  /-- thread_pool.cc:84, blocking_counter.cc:30-40 -/
  | dec
  /-- thread_pool.cc:129-138, 149 -/
  | wait
  /-- thread_pool.cc:154 -/
  | last
  | done
  | failed
  deriving DecidableEq

/-- `r`: how often the worker has decremented the counter. -/
structure WS where
  pc : WPc
  r : Nat
  deriving DecidableEq

/-- thread_pool.cc:69-85, 129-155: one action of worker `w`. -/
inductive WStep (d : Bool) (wk : Nat → T) (w : Nat) : WS → PAct T L C → WS → Prop
  | fetch_null {r} : WStep d wk w ⟨.fetch, r⟩ (.load .relaxed (.task w) 0) ⟨.ready, r⟩
  | fetch {r v} : v ≠ 0 → WStep d wk w ⟨.fetch, r⟩ (.load .relaxed (.task w) v) ⟨.again, r⟩
  | again {r v} : v ≠ 0 → WStep d wk w ⟨.again, r⟩ (.load .relaxed (.task w) v) ⟨.enter v, r⟩
  /-- A call through a null pointer. -/
  | again_null {r} : WStep d wk w ⟨.again, r⟩ (.load .relaxed (.task w) 0) ⟨.failed, r⟩
  | enter {r v} : WStep d wk w ⟨.enter v, r⟩ (.call (.enter v)) ⟨.body v, r⟩
  | body {r v a} : IsUser wk a → WStep d wk w ⟨.body v, r⟩ a ⟨.body v, r⟩
  | leave {r v} : WStep d wk w ⟨.body v, r⟩ (.call (.leave v)) ⟨.clear, r⟩
  | clear {r} : WStep d wk w ⟨.clear, r⟩ (.store .relaxed (.task w) 0) ⟨.ready, r⟩
  | ready {r} : WStep d wk w ⟨.ready, r⟩ (.store .relaxed (.state w) Pool.ready) ⟨.dec, r⟩
  | dec {r v} : (d = true → 0 < v) → WStep d wk w ⟨.dec, r⟩ (.rmw .acqRel .count v (v - 1)) ⟨.wait, r + 1⟩
  | dec_fail {r} : d = true → WStep d wk w ⟨.dec, r⟩ (.rmw .acqRel .count 0 (0 - 1)) ⟨.failed, r + 1⟩
  | spin {r} : WStep d wk w ⟨.wait, r⟩ (.load .acquire (.state w) Pool.ready) ⟨.wait, r⟩
  | work {r} : WStep d wk w ⟨.wait, r⟩ (.load .acquire (.state w) hasWork) ⟨.fetch, r⟩
  | quit {r v} : v ≠ Pool.ready → v ≠ hasWork →
      WStep d wk w ⟨.wait, r⟩ (.load .acquire (.state w) v) ⟨if d then .last else .done, r⟩
  | last {r} : WStep d wk w ⟨.last, r⟩ (.load .acquire (.state w) exit) ⟨.done, r⟩
  | last_fail {r v} : v ≠ exit → WStep d wk w ⟨.last, r⟩ (.load .acquire (.state w) v) ⟨.failed, r⟩

/-! ### The thread that owns the pool -/

/-- Program counter of the main thread. -/
inductive MPc
  /-- before the pool is constructed -/
  | fresh
  /-- outside of the pool's code -/
  | out
  /-- thread_pool.cc:251 via blocking_counter.cc:24-27: load and store -/
  | cLoad
  | cStore
  /-- thread_pool.cc:253 via 37-42 and 191: state_ and task_ (in the other order, which changes nothing), new std::thread of
  worker `w` -/
  | cState (w : Nat)
  | cTask (w : Nat)
  | cSpawn (w : Nat)
  /-- thread_pool.cc:255 -/
  | cWait
  /-- thread_pool.cc:226 via blocking_counter.cc:24-27 -/
  | xLoad
  | xStore
  /-- thread_pool.cc:230 via 98-104, 109, 110, 119, for task `i` -/
  | xChk (i : Nat)
  | xNull (i : Nat)
  | xTask (i : Nat)
  | xGive (i : Nat)
  /-- thread_pool.cc:220 or 235, before and in `Run` -/
  | enter
  | body
  /-- thread_pool.cc:239 -/
  | wait
  /-- return of ExecuteImpl -/
  | executed
  /-- thread_pool.cc:260-262 via 98-104, 119 -/
  | dChk (w : Nat)
  | dExit (w : Nat)
  /-- thread_pool.cc:263-265 via 49, 50 -/
  | dLast (w : Nat)
  | dJoin (w : Nat)
  /-- after the destructor -/
  | gone
  | failed
  deriving DecidableEq

/-- A use of the counter: its number, the workers `lo, ..., lo + m - 1` that it waits for, and whether they are created. -/
structure Ph where
  id : Nat
  lo : Nat
  m : Nat
  create : Bool
  deriving DecidableEq

/-- `size`: of `threads_`; `b`: number of the call of Execute; `n`: its task_count; `ph`: the last use of the counter
(0: none). -/
structure MS where
  pc : MPc
  size : Nat
  b : Nat
  n : Nat
  ph : Ph
  deriving DecidableEq

def MS.init : MS := ⟨.fresh, 0, 0, 0, ⟨0, 0, 0, false⟩⟩

/-- thread_pool.cc:214-226, 245-251: the first thing that Execute does. -/
def MS.begin (s : MS) (n : Nat) : MS :=
  if n = 1 then { s with pc := .enter, n := n }
  else if s.size < n - 1 then { s with pc := .cLoad, n := n, ph := ⟨s.ph.id + 1, s.size, n - 1 - s.size, true⟩ }
  else { s with pc := .xLoad, n := n, ph := ⟨s.ph.id + 1, 0, n - 1, false⟩ }

/-- StartWork for task `i`. -/
def give (d : Bool) (i : Nat) : MPc := if d then .xChk i else .xTask i
def request (d : Bool) (w : Nat) : MPc := if d then .dChk w else .dExit w
def destroy (d : Bool) (w : Nat) : MPc := if d then .dLast w else .dJoin w

/-- One action of the thread that owns the pool. -/
inductive MStep (d : Bool) (wk : Nat → T) : MS → PAct T L C → MS → Prop
  | user {s a} : s.pc = .fresh ∨ s.pc = .out ∨ s.pc = .body ∨ s.pc = .gone → IsUser wk a → MStep d wk s a s
  /-- blocking_counter.h:37 -/
  | construct {s} : s.pc = .fresh → MStep d wk s (.store .relaxed .count 0) { s with pc := .out }
  | begin {s n} : s.pc = .out → 1 ≤ n → MStep d wk s (.call (.execute s.b n)) (s.begin n)
  | cLoad {s v} : s.pc = .cLoad → (d = true → v = 0) → MStep d wk s (.load .relaxed .count v) { s with pc := .cStore }
  | cLoad_fail {s v} : s.pc = .cLoad → d = true → v ≠ 0 → MStep d wk s (.load .relaxed .count v) { s with pc := .failed }
  | cStore {s} : s.pc = .cStore →
      MStep d wk s (.store .release .count (s.n - 1 - s.size)) { s with pc := .cState s.size }
  | cState {s w} : s.pc = .cState w → MStep d wk s (.store .relaxed (.state w) startup) { s with pc := .cTask w }
  | cTask {s w} : s.pc = .cTask w → MStep d wk s (.store .relaxed (.task w) 0) { s with pc := .cSpawn w }
  | cSpawn {s w} : s.pc = .cSpawn w →
      MStep d wk s (.spawn (wk w)) { s with pc := if w + 1 < s.n - 1 then .cState (w + 1) else .cWait }
  | cSpin {s v} : s.pc = .cWait → v ≠ 0 → MStep d wk s (.load .acquire .count v) s
  | cWait {s} : s.pc = .cWait → MStep d wk s (.load .acquire .count 0)
      { s with pc := .xLoad, size := s.n - 1, ph := ⟨s.ph.id + 1, 0, s.n - 1, false⟩ }
  | xLoad {s v} : s.pc = .xLoad → (d = true → v = 0) → MStep d wk s (.load .relaxed .count v) { s with pc := .xStore }
  | xLoad_fail {s v} : s.pc = .xLoad → d = true → v ≠ 0 → MStep d wk s (.load .relaxed .count v) { s with pc := .failed }
  | xStore {s} : s.pc = .xStore → MStep d wk s (.store .release .count (s.n - 1)) { s with pc := give d 1 }
  | xChk {s i} : s.pc = .xChk i → MStep d wk s (.load .acquire (.state (i - 1)) Pool.ready) { s with pc := .xNull i }
  | xChk_fail {s i v} : s.pc = .xChk i → v ≠ Pool.ready → MStep d wk s (.load .acquire (.state (i - 1)) v) { s with pc := .failed }
  | xNull {s i} : s.pc = .xNull i → MStep d wk s (.load .relaxed (.task (i - 1)) 0) { s with pc := .xTask i }
  | xNull_fail {s i v} : s.pc = .xNull i → v ≠ 0 → MStep d wk s (.load .relaxed (.task (i - 1)) v) { s with pc := .failed }
  | xTask {s i} : s.pc = .xTask i → MStep d wk s (.store .relaxed (.task (i - 1)) (obj s.b i)) { s with pc := .xGive i }
  | xGive {s i} : s.pc = .xGive i → MStep d wk s (.store .release (.state (i - 1)) hasWork)
      { s with pc := if i + 1 < s.n then give d (i + 1) else .enter }
  | enter {s} : s.pc = .enter → MStep d wk s (.call (.enter (obj s.b 0))) { s with pc := .body }
  | leave {s} : s.pc = .body →
      MStep d wk s (.call (.leave (obj s.b 0))) { s with pc := if s.n = 1 then .executed else .wait }
  | spin {s v} : s.pc = .wait → v ≠ 0 → MStep d wk s (.load .acquire .count v) s
  | wait {s} : s.pc = .wait → MStep d wk s (.load .acquire .count 0) { s with pc := .executed }
  | executed {s} : s.pc = .executed → MStep d wk s (.call (.executed s.b)) { s with pc := .out, b := s.b + 1 }
  | destroy {s} : s.pc = .out → MStep d wk s (.call .destroy) { s with pc := if s.size = 0 then .gone else request d 0 }
  | dChk {s w v} : s.pc = .dChk w → (v = Pool.ready ∨ v = hasWork) →
      MStep d wk s (.load .acquire (.state w) v) { s with pc := .dExit w }
  | dChk_fail {s w v} : s.pc = .dChk w → v ≠ Pool.ready → v ≠ hasWork →
      MStep d wk s (.load .acquire (.state w) v) { s with pc := .failed }
  | dExit {s w} : s.pc = .dExit w → MStep d wk s (.store .release (.state w) exit)
      { s with pc := if w + 1 < s.size then request d (w + 1) else Pool.destroy d 0 }
  | dLast {s w} : s.pc = .dLast w → MStep d wk s (.load .acquire (.state w) exit) { s with pc := .dJoin w }
  | dLast_fail {s w v} : s.pc = .dLast w → v ≠ exit → MStep d wk s (.load .acquire (.state w) v) { s with pc := .failed }
  | dJoin {s w} : s.pc = .dJoin w →
      MStep d wk s (.join (wk w)) { s with pc := if w + 1 < s.size then Pool.destroy d (w + 1) else .gone }

/-! ### Executions with a pool -/

/-- The threads of a pool in an execution: their actions so far, with the states before them, and their states now. -/
structure Run (x : Exec T (PLoc L) Nat (PCode C)) where
  main : T
  wk : Nat → T
  d : Bool
  ml : List (MS × PAct T L C)
  ms : MS
  wl : Nat → List (WS × PAct T L C)
  ws : Nat → WS

variable {x : Exec T (PLoc L) Nat (PCode C)}

/-- They run the code above; nobody else accesses the private members of the pool or starts its threads. -/
structure Run.Ok (K : Run x) : Prop where
  inj : ∀ {v w}, K.wk v = K.wk w → v = w
  ne : ∀ w, K.wk w ≠ K.main
  main : LSteps (MStep K.d K.wk) .init K.ml K.ms
  main_tr : x.tr K.main = K.ml.map (·.2)
  work : ∀ w, LSteps (WStep K.d K.wk w) ⟨.fetch, 0⟩ (K.wl w) (K.ws w)
  work_tr : ∀ w, x.tr (K.wk w) = (K.wl w).map (·.2)
  /-- A thread does nothing before it is created. -/
  spawned : ∀ w, K.wl w ≠ [] → ∃ i, x.act (K.main, i) = some (.spawn (K.wk w))
  only : ∀ {e l v}, x.Writes e l v → (∀ u, l ≠ .user u) → e.1 = K.main ∨ ∃ w, e.1 = K.wk w
  only_read : ∀ {e l v}, x.Reads e l v → (∀ u, l ≠ .user u) → e.1 = K.main ∨ ∃ w, e.1 = K.wk w

end Ruy.Race.Pool

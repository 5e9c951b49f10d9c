import Mathlib.Logic.Function.Basic
import Verif.Base.Fault
/-
The thread pool: ruy/thread_pool.{h,cc}, ruy/blocking_counter.{h,cc}, ruy/wait.cc.

An interleaving transition system.  Thread 0 is the thread that owns the pool ("main
thread"); thread w+1 is the worker `threads_[w]`.  One step is one access to shared state
(an atomic operation, an access to `task_`, an operation on a mutex or a condition
variable, one step of the body of a task).  A step of a thread that is blocked leaves the
state as it is.  Condition variables may wake up spuriously.

What is simplified:
* Atomic operations are sequentially consistent here (see DESIGN.md).
* A task is identified by the number of the Execute call and its index, instead of by its
  address `tasks + i * stride` (thread_pool.cc:229): the objects are distinct and live until
  Execute returns.  Using a task after that is undefined behaviour in this model.
* `Now()` is not modelled: a spinning thread may find at any time that the spin duration
  has elapsed (`Choice.timeout`), whatever the duration is.
* Tracing, and the suppression of denormals on worker threads (thread_pool.cc:150), are left
  out.
-/
namespace Ruy.Pool

/-- thread_pool.cc:59-64 (`Thread::State`) -/
inductive WState where
  | startup
  | ready
  | hasWork
  | exit
  deriving DecidableEq, Repr

/-- One call `Execute(n, tasks)` (thread_pool.h:66-69).  `prepare` is what the client does to
the shared memory before the call; `body i` is one step of `tasks[i].Run()`, and `none`
means that Run returns. -/
structure Call (σ : Type) where
  n : Nat
  prepare : σ → σ
  body : Nat → σ → Option σ

/-- Program counter of a worker. -/
inductive WPC where
  /-- thread_pool.cc:72-73: entry of RevertToReadyState, about to read `task_` -/
  | enter
  /-- thread_pool.cc:74: inside `task_->Run()`, for task `i` of call `k` -/
  | running (k i : Nat)
  /-- thread_pool.cc:75: about to write `task_ = nullptr` -/
  | clear
  /-- thread_pool.cc:84: about to store State::Ready -/
  | storeReady
  /-- blocking_counter.cc:31: about to decrement the counter -/
  | dec
  /-- blocking_counter.cc:36: about to lock count_mutex_ -/
  | decLock
  /-- blocking_counter.cc:37: about to notify -/
  | decNotify
  /-- blocking_counter.cc:38: about to unlock -/
  | decUnlock
  /-- wait.cc:25: first evaluation of the condition -/
  | first
  /-- wait.cc:32-36: busy waiting -/
  | spin
  /-- wait.cc:40, or waking up in wait.cc:41: about to lock state_cond_mutex_ -/
  | lock
  /-- wait.cc:41: about to evaluate the condition, holding the mutex -/
  | check
  /-- wait.cc:41: blocked on state_cond_ -/
  | asleep
  /-- wait.cc:42: about to unlock and return, having read state `st` -/
  | unlock (st : WState)
  /-- thread_pool.cc:153: GetNewStateOtherThanReady returned `st` -/
  | got (st : WState)
  /-- the thread function returned -/
  | exited
  deriving DecidableEq, Repr

/-- The two places where the pool resets the counter and waits: CreateThreads
(thread_pool.cc:251-255) and ExecuteImpl (thread_pool.cc:226-240). -/
inductive Purpose where
  | create
  | work
  deriving DecidableEq, Repr

/-- Where a thread is inside `Wait` (wait.cc:22-42). -/
inductive WaitPC where
  | first
  | spin
  | lock
  | check
  | asleep
  | unlock
  deriving DecidableEq, Repr

/-- Program counter of the main thread. -/
inductive MPC where
  /-- outside of the pool -/
  | idle
  /-- blocking_counter.cc:24-25 -/
  | resetLoad (p : Purpose)
  /-- blocking_counter.cc:27 -/
  | resetStore (p : Purpose)
  /-- thread_pool.cc:252-254: the loop creating threads -/
  | spawn
  /-- inside count_busy_threads_.Wait -/
  | wait (p : Purpose) (q : WaitPC)
  /-- thread_pool.cc:100-106: about to load the state of worker `w`; `ex`: exit request -/
  | csLoad (ex : Bool) (w : Nat)
  /-- thread_pool.cc:112-113: about to write `task_` -/
  | csTask (w : Nat)
  /-- thread_pool.cc:122: about to store the state -/
  | csStore (ex : Bool) (w : Nat)
  /-- thread_pool.cc:123 -/
  | csLock (ex : Bool) (w : Nat)
  /-- thread_pool.cc:124 -/
  | csNotify (ex : Bool) (w : Nat)
  /-- thread_pool.cc:125 -/
  | csUnlock (ex : Bool) (w : Nat)
  /-- thread_pool.cc:219, 235: running task 0 -/
  | run0
  /-- thread_pool.cc:263-265, 47-50: about to join worker `w` -/
  | join (w : Nat)
  /-- the destructor returned -/
  | gone
  deriving DecidableEq, Repr

/-- The scheduler's choices other than which thread runs. -/
inductive Choice where
  | normal
  /-- the spin duration has elapsed -/
  | timeout
  /-- spurious wake-up from a condition variable -/
  | spurious
  deriving DecidableEq, Repr

/-- State of a pool and its client. `begun` and `ended` are ghosts: on which threads each
task (call, index) was started and returned. -/
structure State (σ : Type) where
  mem : σ
  /-- number of Execute calls that returned -/
  k : Nat
  main : MPC
  /-- `threads_.size()` -/
  threads : Nat
  /-- program counters of the workers below `threads` -/
  pc : Nat → WPC
  /-- `state_` of each worker -/
  st : Nat → WState
  /-- `task_` of each worker -/
  task : Nat → Option (Nat × Nat)
  /-- `count_busy_threads_.count_` -/
  count : Nat
  /-- owner of `count_busy_threads_.count_mutex_` -/
  cmutex : Option Nat
  /-- owner of `state_cond_mutex_` of each worker -/
  smutex : Nat → Option Nat
  begun : Nat → Nat → List Nat
  ended : Nat → Nat → List Nat

variable {σ : Type}

/-- `l (k, i)` extended by `t` -/
def push (l : Nat → Nat → List Nat) (k i t : Nat) : Nat → Nat → List Nat :=
  Function.update l k (Function.update (l k) i (l k i ++ [t]))

def setW (s : State σ) (w : Nat) (p : WPC) : State σ := { s with pc := Function.update s.pc w p }

def setM (s : State σ) (p : MPC) : State σ := { s with main := p }

/-- The Thread object of worker `w` (and the pool) still exist: thread_pool.cc:258-266. -/
def Alive (s : State σ) (w : Nat) : Prop :=
  match s.main with
  | .gone => False
  | .join j => j ≤ w
  | _ => True

instance (s : State σ) (w : Nat) : Decidable (Alive s w) := by
  unfold Alive; split <;> infer_instance

/-- The call that is being executed exists, and its tasks are alive. -/
def taskAlive (s : State σ) (k : Nat) : Prop := k = s.k ∧ s.main ≠ .idle

instance (s : State σ) (k : Nat) : Decidable (taskAlive s k) := by
  unfold taskAlive; infer_instance

/-- `notify_all` on count_cond_ (blocking_counter.cc:37). -/
def notifyMain (s : State σ) : State σ :=
  match s.main with
  | .wait p .asleep => setM s (.wait p .lock)
  | _ => s

/-- `notify_one` on the state_cond_ of worker `w` (thread_pool.cc:124). -/
def notifyWorker (s : State σ) (w : Nat) : State σ :=
  match s.pc w with
  | .asleep => setW s w .lock
  | _ => s

/-- One step of worker `w` (thread number `w + 1`): thread_pool.cc:70-86, 128-157,
blocking_counter.cc:30-41, wait.cc:22-42. -/
def stepW (calls : List (Call σ)) (s : State σ) (w : Nat) (c : Choice) : C (State σ) :=
  match s.pc w with
  | .exited => .ok s
  | .enter => do
    C.require (Alive s w)
    match s.task w with
    | some (k, i) =>
      .ok { setW s w (.running k i) with begun := push s.begun k i (w + 1) }
    | none => .ok (setW s w .storeReady)
  | .running k i => do
    C.require (taskAlive s k)
    match calls[k]? with
    | none => .error .ub
    | some cl =>
      match cl.body i s.mem with
      | some m => .ok { s with mem := m }
      | none => .ok { setW s w .clear with ended := push s.ended k i (w + 1) }
  | .clear => do
    C.require (Alive s w)
    .ok { setW s w .storeReady with task := Function.update s.task w none }
  | .storeReady => do
    C.require (Alive s w)
    .ok { setW s w .dec with st := Function.update s.st w .ready }
  | .dec => do
    C.require (Alive s w)
    C.check (0 < s.count)
    if s.count = 1 then .ok { setW s w .decLock with count := s.count - 1 }
    else .ok { setW s w .first with count := s.count - 1 }
  | .decLock => do
    C.require (Alive s w)
    match s.cmutex with
    | none => .ok { setW s w .decNotify with cmutex := some (w + 1) }
    | some _ => .ok s
  | .decNotify => do
    C.require (Alive s w)
    .ok (setW (notifyMain s) w .decUnlock)
  | .decUnlock => do
    C.require (Alive s w)
    C.require (s.cmutex = some (w + 1))
    .ok { setW s w .first with cmutex := none }
  | .first => do
    C.require (Alive s w)
    if s.st w ≠ .ready then .ok (setW s w (.got (s.st w)))
    else .ok (setW s w .spin)
  | .spin => do
    C.require (Alive s w)
    if c = .timeout then .ok (setW s w .lock)
    else if s.st w ≠ .ready then .ok (setW s w (.got (s.st w)))
    else .ok s
  | .lock => do
    C.require (Alive s w)
    match s.smutex w with
    | none => .ok { setW s w .check with smutex := Function.update s.smutex w (some (w + 1)) }
    | some _ => .ok s
  | .check => do
    C.require (Alive s w)
    C.require (s.smutex w = some (w + 1))
    if s.st w ≠ .ready then .ok (setW s w (.unlock (s.st w)))
    else .ok { setW s w .asleep with smutex := Function.update s.smutex w none }
  | .asleep => do
    C.require (Alive s w)
    if c = .spurious then .ok (setW s w .lock) else .ok s
  | .unlock x => do
    C.require (Alive s w)
    C.require (s.smutex w = some (w + 1))
    .ok { setW s w (.got x) with smutex := Function.update s.smutex w none }
  | .got x => do
    C.require (Alive s w)
    if x = .hasWork then .ok (setW s w .enter)
    else do
      C.check (s.st w = .exit)
      .ok (setW s w .exited)

/-- thread_pool.cc:214-222 and 245-250: entry of ExecuteImpl, up to the first access to
shared state; and the destructor (258-262) after the last call. -/
def stepIdle (calls : List (Call σ)) (s : State σ) : C (State σ) :=
  match calls[s.k]? with
  | none => if 0 < s.threads then .ok (setM s (.csLoad true 0)) else .ok (setM s (.join 0))
  | some cl => do
    C.check (1 ≤ cl.n)
    let s := { s with mem := cl.prepare s.mem }
    if cl.n = 1 then .ok { setM s .run0 with begun := push s.begun s.k 0 0 }
    else if cl.n - 1 ≤ s.threads then .ok (setM s (.resetLoad .work))
    else .ok (setM s (.resetLoad .create))

/-- `n` of the current call -/
def curN (calls : List (Call σ)) (s : State σ) : Nat :=
  match calls[s.k]? with
  | none => 0
  | some cl => cl.n

/-- After the return of `Wait` (thread_pool.cc:255-256, then 226; or 239-240). -/
def afterWait (s : State σ) : Purpose → State σ
  | .create => setM s (.resetLoad .work)
  | .work => { setM s .idle with k := s.k + 1 }

/-- Steps of the main thread inside `count_busy_threads_.Wait`: blocking_counter.cc:43-47,
wait.cc:22-42. -/
def stepWait (s : State σ) (p : Purpose) (q : WaitPC) (c : Choice) : C (State σ) :=
  match q with
  | .first => if s.count = 0 then .ok (afterWait s p) else .ok (setM s (.wait p .spin))
  | .spin =>
    if c = .timeout then .ok (setM s (.wait p .lock))
    else if s.count = 0 then .ok (afterWait s p)
    else .ok s
  | .lock =>
    match s.cmutex with
    | none => .ok { setM s (.wait p .check) with cmutex := some 0 }
    | some _ => .ok s
  | .check => do
    C.require (s.cmutex = some 0)
    if s.count = 0 then .ok (setM s (.wait p .unlock))
    else .ok { setM s (.wait p .asleep) with cmutex := none }
  | .asleep => if c = .spurious then .ok (setM s (.wait p .lock)) else .ok s
  | .unlock => do
    C.require (s.cmutex = some 0)
    .ok { afterWait s p with cmutex := none }

/-- After ChangeStateFromOutsideThread for worker `w`: the loops at thread_pool.cc:227-231
and 260-262. -/
def afterPost (calls : List (Call σ)) (s : State σ) (ex : Bool) (w : Nat) : State σ :=
  if ex then
    if w + 1 < s.threads then setM s (.csLoad true (w + 1)) else setM s (.join 0)
  else
    if w + 1 < curN calls s - 1 then setM s (.csLoad false (w + 1))
    else { setM s .run0 with begun := push s.begun s.k 0 0 }

/-- The state stored by ChangeStateFromOutsideThread. -/
def posted (ex : Bool) : WState := if ex then .exit else .hasWork

/-- One step of the main thread. -/
def stepM (calls : List (Call σ)) (s : State σ) (c : Choice) : C (State σ) :=
  match s.main with
  | .idle => stepIdle calls s
  | .resetLoad p => do
    C.check (s.count = 0)
    .ok (setM s (.resetStore p))
  | .resetStore .create =>
    .ok { setM s .spawn with count := curN calls s - 1 - s.threads }
  | .resetStore .work =>
    .ok { setM s (.csLoad false 0) with count := curN calls s - 1 }
  | .spawn =>
    if s.threads < curN calls s - 1 then
      .ok { s with
        threads := s.threads + 1
        pc := Function.update s.pc s.threads .enter
        st := Function.update s.st s.threads .startup
        task := Function.update s.task s.threads none
        smutex := Function.update s.smutex s.threads none }
    else .ok (setM s (.wait .create .first))
  | .wait p q => stepWait s p q c
  | .csLoad ex w => do
    C.require (w < s.threads)
    C.check (s.st w ≠ posted ex)
    C.check (s.st w = .ready ∨ s.st w = .hasWork)
    if ex then .ok (setM s (.csStore true w)) else .ok (setM s (.csTask w))
  | .csTask w => do
    C.check (s.task w = none)
    .ok { setM s (.csStore false w) with task := Function.update s.task w (some (s.k, w + 1)) }
  | .csStore ex w =>
    .ok { setM s (.csLock ex w) with st := Function.update s.st w (posted ex) }
  | .csLock ex w =>
    match s.smutex w with
    | none => .ok { setM s (.csNotify ex w) with smutex := Function.update s.smutex w (some 0) }
    | some _ => .ok s
  | .csNotify ex w => .ok (setM (notifyWorker s w) (.csUnlock ex w))
  | .csUnlock ex w => do
    C.require (s.smutex w = some 0)
    .ok { afterPost calls s ex w with smutex := Function.update s.smutex w none }
  | .run0 =>
    match calls[s.k]? with
    | none => .error .ub
    | some cl =>
      match cl.body 0 s.mem with
      | some m => .ok { s with mem := m }
      | none =>
        if cl.n = 1 then
          .ok { setM s .idle with k := s.k + 1, ended := push s.ended s.k 0 0 }
        else .ok { setM s (.wait .work .first) with ended := push s.ended s.k 0 0 }
  | .join w =>
    if w < s.threads then do
      C.check (s.st w = .exit)
      if s.pc w = .exited then .ok (setM s (.join (w + 1))) else .ok s
    else .ok (setM s .gone)
  | .gone => .ok s

/-- One step of thread `t`. A thread that does not exist (yet) does nothing. -/
def step (calls : List (Call σ)) (s : State σ) (t : Nat) (c : Choice) : C (State σ) :=
  match t with
  | 0 => stepM calls s c
  | w + 1 => if w < s.threads then stepW calls s w c else .ok s

/-- A new pool: thread_pool.h:46, 97-120, blocking_counter.h:33. -/
def initState (m : σ) : State σ where
  mem := m
  k := 0
  main := .idle
  threads := 0
  pc := fun _ => .exited
  st := fun _ => .exit
  task := fun _ => none
  count := 0
  cmutex := none
  smutex := fun _ => none
  begun := fun _ _ => []
  ended := fun _ _ => []

/-- An execution under a given schedule. -/
def run (calls : List (Call σ)) : List (Nat × Choice) → State σ → C (State σ)
  | [], s => .ok s
  | (t, c) :: ts, s => do
    let s' ← step calls s t c
    run calls ts s'

end Ruy.Pool

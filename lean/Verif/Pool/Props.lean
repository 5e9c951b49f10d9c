import Verif.Pool.Compose
/-
C11, C12, C13: the thread pool.

Everything is for all lists of Execute calls, all task bodies and all schedules, including
spurious wake-ups of condition variables and any spin duration.
-/
namespace Ruy.Pool
open Ruy.TrMul Ruy.BlockMap

variable {σ : Type}

/-! ### C11 -/

/-- C11: no schedule leads to a failed RUY_CHECK or to undefined behaviour (use of a task
after Execute returned, or of a Thread after its destruction), for calls with at least one task. -/
theorem c11_no_fault (calls : List (Call σ)) (m0 : σ) (sched : List (Nat × Choice))
    (hn : ∀ cl ∈ calls, 1 ≤ cl.n) : ∃ s, run calls sched (initState m0) = .ok s := by
  obtain ⟨s, h, -⟩ := run_inv hn sched (initState m0) (init_inv calls m0)
  exact ⟨s, h⟩

theorem reach_inv {calls : List (Call σ)} {m0 : σ} {sched : List (Nat × Choice)} {s : State σ}
    (hn : ∀ cl ∈ calls, 1 ≤ cl.n) (h : run calls sched (initState m0) = .ok s) : Inv calls s := by
  obtain ⟨s', h', inv⟩ := run_inv hn sched (initState m0) (init_inv calls m0)
  rw [h] at h'
  cases h'; exact inv

/-- C11: when a call of Execute has returned, each of its tasks was started exactly once and
returned exactly once: task `i` on thread `i`, thus task 0 on the calling thread. -/
theorem c11_exactly_once (calls : List (Call σ)) (m0 : σ) (sched : List (Nat × Choice))
    (s : State σ) (hn : ∀ cl ∈ calls, 1 ≤ cl.n) (h : run calls sched (initState m0) = .ok s)
    (j : Nat) (hj : j < s.k) (cl : Call σ) (hc : calls[j]? = some cl) (i : Nat) :
    (i < cl.n → s.begun j i = [i] ∧ s.ended j i = [i]) ∧
    (cl.n ≤ i → s.begun j i = [] ∧ s.ended j i = []) := by
  have hp := (reach_inv hn h).past j hj i
  rw [(callN_of hc).1] at hp
  constructor
  · intro hi
    rw [if_pos hi] at hp; exact hp
  · intro hi
    rw [if_neg (by omega)] at hp; exact hp

/-- C11: at any time, each task has been started at most once, on its thread, and only within
its call; and it has returned at most once, after having been started. -/
theorem c11_at_most_once (calls : List (Call σ)) (m0 : σ) (sched : List (Nat × Choice))
    (s : State σ) (hn : ∀ cl ∈ calls, 1 ≤ cl.n) (h : run calls sched (initState m0) = .ok s)
    (j i : Nat) :
    (s.begun j i = [] ∧ s.ended j i = []) ∨
    (j ≤ s.k ∧ (∃ cl, calls[j]? = some cl ∧ i < cl.n) ∧ s.begun j i = [i] ∧
      (s.ended j i = [] ∨ s.ended j i = [i])) := by
  have inv := reach_inv hn h
  have ex : ∀ j i, i < callN calls j → ∃ cl, calls[j]? = some cl ∧ i < cl.n := by
    intro j i hi
    unfold callN at hi
    cases hc : calls[j]? with
    | none => rw [hc] at hi; exact absurd hi (Nat.not_lt_zero i)
    | some cl => rw [hc] at hi; exact ⟨cl, rfl, hi⟩
  rcases Nat.lt_trichotomy j s.k with hj | hj | hj
  · have hp := inv.past j hj i
    by_cases hi : i < callN calls j
    · rw [if_pos hi] at hp
      exact .inr ⟨by omega, ex j i hi, hp.1, .inr hp.2⟩
    · rw [if_neg hi] at hp
      exact .inl hp
  · subst hj
    cases i with
    | zero =>
      have h0 := inv.task0
      have mk := inv.main
      cases hm : s.main with
      | run0 =>
        rw [hm] at h0 mk
        exact .inr ⟨by omega, ex _ _ mk.2.1, h0.1, .inl h0.2⟩
      | wait p q =>
        rw [hm] at h0 mk
        cases p with
        | create => exact .inl h0
        | work => exact .inr ⟨by omega, ex _ _ (by have := mk.2.1; omega), h0.1, .inr h0.2⟩
      | idle => rw [hm] at h0; exact .inl h0
      | resetLoad p => rw [hm] at h0; exact .inl h0
      | resetStore p => rw [hm] at h0; exact .inl h0
      | spawn => rw [hm] at h0; exact .inl h0
      | csLoad ex v => rw [hm] at h0; exact .inl h0
      | csTask v => rw [hm] at h0; exact .inl h0
      | csStore ex v => rw [hm] at h0; exact .inl h0
      | csLock ex v => rw [hm] at h0; exact .inl h0
      | csNotify ex v => rw [hm] at h0; exact .inl h0
      | csUnlock ex v => rw [hm] at h0; exact .inl h0
      | join v => rw [hm] at h0; exact .inl h0
      | gone => rw [hm] at h0; exact .inl h0
    | succ w =>
      by_cases hw : w < s.threads
      · have hr := inv.workers w hw
        cases hro : role s.main (callN calls s.k) w with
        | idle => rw [hro] at hr; exact .inl hr.2.2.2
        | boot => rw [hro] at hr; exact .inl ⟨hr.2.1, hr.2.2.1⟩
        | wrote => rw [hro] at hr; exact .inl hr.2.2.2
        | exiting => rw [hro] at hr; exact .inl ⟨hr.2.2.1, hr.2.2.2.1⟩
        | posted =>
          rw [hro] at hr
          have hlt := inv.posted_bound hro
          rcases hr with hr | hr | hr | hr | hr
          · exact .inl ⟨hr.2.2.1, hr.2.2.2.1⟩
          · exact .inr ⟨by omega, ex _ _ hlt, hr.2.2.1, .inl hr.2.2.2.1⟩
          · exact .inr ⟨by omega, ex _ _ hlt, hr.2.2.1, .inr hr.2.2.2.1⟩
          · exact .inr ⟨by omega, ex _ _ hlt, hr.2.2.1, .inr hr.2.2.2.1⟩
          · exact .inr ⟨by omega, ex _ _ hlt, hr.2.2.1, .inr hr.2.2.2.1⟩
      · exact .inl (inv.rest (w + 1) (by omega))
  · exact .inl (inv.future j hj i)

theorem run_hist {calls : List (Call σ)} {m0 : σ} (hn : ∀ cl ∈ calls, 1 ≤ cl.n)
    (hs : ∀ cl ∈ calls, Stable cl) : ∀ (sched : List (Nat × Choice)) (s0 s : State σ),
    Inv calls s0 → Hist calls m0 s0 → run calls sched s0 = .ok s → Hist calls m0 s
  | [], s0, s, _, hh, h => by cases h; exact hh
  | (t, c) :: ts, s0, s, inv, hh, h => by
    obtain ⟨s1, h1, h⟩ := C.bind_ok h
    obtain ⟨s1', h1', inv1⟩ := step_inv hn inv (c := c) t
    rw [h1] at h1'
    cases h1'
    exact run_hist hn hs ts s1 s inv1 (hh.step hs inv h1) h

/-- C11: between calls, the memory is what the client's preparations and some interleaving of
the tasks of each call, each run until it returned, have made of it. -/
theorem c11_memory (calls : List (Call σ)) (m0 : σ) (sched : List (Nat × Choice)) (s : State σ)
    (hn : ∀ cl ∈ calls, 1 ≤ cl.n) (hs : ∀ cl ∈ calls, Stable cl)
    (h : run calls sched (initState m0) = .ok s) (hi : s.main = .idle) :
    Result calls m0 s.k s.mem :=
  (run_hist hn hs sched _ s (init_inv calls m0) (.init m0) h).out (fun h => h.1 hi)

/-! ### C12 -/

/-- C12: if a worker sleeps on its condition variable although its state is not Ready (work or
an exit request was posted), the main thread is about to notify it. -/
theorem c12_worker_not_forgotten (calls : List (Call σ)) (m0 : σ) (sched : List (Nat × Choice))
    (s : State σ) (hn : ∀ cl ∈ calls, 1 ≤ cl.n) (h : run calls sched (initState m0) = .ok s)
    (w : Nat) (hw : w < s.threads) (hp : s.pc w = .asleep) (hst : s.st w ≠ .ready) :
    ∃ ex, s.main = .csLock ex w ∨ s.main = .csNotify ex w := by
  have := (reach_inv hn h).wakeW w hw hp hst
  cases hm : s.main <;> rw [hm] at this <;> simp [MPC.willNotify] at this
  · subst this; exact ⟨_, .inl rfl⟩
  · subst this; exact ⟨_, .inr rfl⟩

/-- C12: if the main thread sleeps on the counter's condition variable although the counter is 0,
some worker is about to notify it. -/
theorem c12_main_not_forgotten (calls : List (Call σ)) (m0 : σ) (sched : List (Nat × Choice))
    (s : State σ) (hn : ∀ cl ∈ calls, 1 ≤ cl.n) (h : run calls sched (initState m0) = .ok s)
    (p : Purpose) (hm : s.main = .wait p .asleep) (h0 : s.count = 0) :
    ∃ w, w < s.threads ∧ (s.pc w = .decLock ∨ s.pc w = .decNotify) := by
  obtain ⟨w, hw, hp⟩ := (reach_inv hn h).wakeM p hm h0
  refine ⟨w, hw, ?_⟩
  cases hx : s.pc w <;> rw [hx] at hp <;> simp [WPC.willNotify] at hp
  · exact .inl rfl
  · exact .inr rfl

/-- C12: no deadlock. Until the destructor has returned, some thread is running a task, or takes
a step that changes the state, without relying on spurious wake-ups. -/
theorem c12_no_deadlock (calls : List (Call σ)) (m0 : σ) (sched : List (Nat × Choice))
    (s : State σ) (hn : ∀ cl ∈ calls, 1 ≤ cl.n) (h : run calls sched (initState m0) = .ok s)
    (hg : s.main ≠ .gone) :
    s.main = .run0 ∨ (∃ w k i, w < s.threads ∧ s.pc w = .running k i) ∨
    ∃ t, t ≤ s.threads ∧ ∀ c, c ≠ .spurious → step calls s t c ≠ .ok s := by
  by_contra hno
  simp only [not_or] at hno
  obtain ⟨h1, h2, h3⟩ := hno
  rcases frozen (reach_inv hn h) (fun t ht => by
    left
    by_contra hst
    exact h3 ⟨t, ht, fun c hc he => hst ⟨c, hc, he⟩⟩) with h | ⟨⟨t, -, hr⟩, -⟩
  · exact hg h
  · cases t with
    | zero => exact h1 hr
    | succ w =>
      obtain ⟨hw, k, i, hp⟩ := hr
      exact h2 ⟨w, k, i, hw, hp⟩

/-- C12: every schedule has an execution. -/
theorem c12_executions_exist (calls : List (Call σ)) (m0 : σ) (sched : Nat → Nat × Choice)
    (hn : ∀ cl ∈ calls, 1 ≤ cl.n) : ∃ ex, Execution calls m0 sched ex := by
  classical
  have tot : ∀ s : { s : State σ // Inv calls s }, ∀ tc : Nat × Choice,
      ∃ s' : { s : State σ // Inv calls s }, step calls s.1 tc.1 tc.2 = .ok s'.1 := by
    intro s tc
    obtain ⟨s', h, inv⟩ := step_inv hn s.2 (c := tc.2) tc.1
    exact ⟨⟨s', inv⟩, h⟩
  choose f hf using tot
  let ex : Nat → { s : State σ // Inv calls s } := fun k =>
    Nat.rec ⟨initState m0, init_inv calls m0⟩ (fun k s => f s (sched k)) k
  exact ⟨fun k => (ex k).1, rfl, fun k => hf (ex k) (sched k)⟩

/-- C12: under every schedule that is fair to all threads and has finitely many spurious
wake-ups, all calls of Execute and the destructor return; given that the tasks return when
scheduled fairly. -/
theorem c12_fair_executions_finish (calls : List (Call σ)) (m0 : σ) (sched : Nat → Nat × Choice)
    (ex : Nat → State σ) (hn : ∀ cl ∈ calls, 1 ≤ cl.n) (hs : ∀ cl ∈ calls, Stable cl)
    (ht : ∀ k m cl, Result calls m0 k m → calls[k]? = some cl → Terminates cl (cl.prepare m))
    (hf : Fair (need calls calls.length) sched) (he : Execution calls m0 sched ex) :
    ∃ k, (ex k).main = .gone ∧ (ex k).k = calls.length := by
  obtain ⟨k, hk⟩ := fair_finishes hn hs ht hf he
  have mk := (he.inv hn k).main
  rw [hk] at mk
  exact ⟨k, hk, mk.1⟩

/-! ### C13 -/

theorem stepW_threads {calls : List (Call σ)} {s s' : State σ} {w : Nat} {c : Choice}
    (h : stepW calls s w c = .ok s') : s'.threads = s.threads := by
  unfold stepW at h
  split at h
  all_goals (repeat' (first | (obtain ⟨_, -, h⟩ := C.bind_ok h) | split at h))
  all_goals (first | (cases h; done) | (injection h with h; subst h))
  all_goals (first | rfl | skip)
  unfold notifyMain
  split <;> rfl

theorem stepM_threads {calls : List (Call σ)} {s s' : State σ} {c : Choice}
    (h : stepM calls s c = .ok s') : s.threads ≤ s'.threads := by
  unfold stepM at h
  split at h
  · unfold stepIdle at h
    split at h
    · split at h <;> cases h <;> exact Nat.le_refl _
    · obtain ⟨_, -, h⟩ := C.bind_ok h
      dsimp only at h
      split at h
      · cases h; exact Nat.le_refl _
      · split at h <;> cases h <;> exact Nat.le_refl _
  all_goals (repeat' (first | (obtain ⟨_, -, h⟩ := C.bind_ok h) | split at h))
  all_goals (first | (cases h; done) | (injection h with h; subst h) | skip)
  all_goals (first | exact Nat.le_refl _ | exact Nat.le_succ _ | skip)
  · rename_i p q _
    unfold stepWait at h
    have aw : (afterWait s p).threads = s.threads := by cases p <;> rfl
    split at h
    all_goals (repeat' (first | (obtain ⟨_, -, h⟩ := C.bind_ok h) | split at h))
    all_goals (injection h with h; subst h)
    all_goals (first | exact Nat.le_refl _ | exact Nat.le_of_eq aw.symm)
  · unfold notifyWorker
    split <;> exact Nat.le_refl _
  · unfold afterPost
    split <;> split <;> exact Nat.le_refl _

theorem step_threads {calls : List (Call σ)} {s s' : State σ} {t : Nat} {c : Choice}
    (h : step calls s t c = .ok s') : s.threads ≤ s'.threads := by
  unfold step at h
  split at h
  · exact stepM_threads h
  · split at h
    · exact Nat.le_of_eq (stepW_threads h).symm
    · cases h; exact Nat.le_refl _

/-- C13: between calls, the pool owns exactly max (n - 1) threads, over the calls made. -/
theorem c13_size (calls : List (Call σ)) (m0 : σ) (sched : List (Nat × Choice)) (s : State σ)
    (hn : ∀ cl ∈ calls, 1 ≤ cl.n) (h : run calls sched (initState m0) = .ok s)
    (hi : s.main = .idle) :
    (∀ j cl, j < s.k → calls[j]? = some cl → cl.n - 1 ≤ s.threads) ∧
    (s.threads = 0 ∨ ∃ j cl, j < s.k ∧ calls[j]? = some cl ∧ s.threads = cl.n - 1) := by
  have mk := (reach_inv hn h).main
  rw [hi] at mk
  rw [mk.2]
  have hk := mk.1
  generalize s.k = k at hk
  clear mk
  induction k with
  | zero => exact ⟨fun j cl hj => absurd hj (Nat.not_lt_zero j), .inl rfl⟩
  | succ k ih =>
    obtain ⟨ih1, ih2⟩ := ih (by omega)
    have hcl := List.getElem?_eq_getElem (show k < calls.length by omega)
    have hcn := (callN_of hcl).1
    rw [need_succ (by omega)]
    constructor
    · intro j cl hj hc
      by_cases hjk : j = k
      · subst hjk
        have := (callN_of hc).1
        omega
      · have := ih1 j cl (by omega) hc
        omega
    · by_cases hle : callN calls k - 1 ≤ need calls k
      · rw [Nat.max_eq_left hle]
        rcases ih2 with h | ⟨j, cl, hj, hc, h⟩
        · exact .inl h
        · exact .inr ⟨j, cl, by omega, hc, h⟩
      · rw [Nat.max_eq_right (by omega)]
        exact .inr ⟨k, _, by omega, hcl, by omega⟩

/-- C13: threads are reused: their number never decreases, and no worker terminates before the
destructor posts its exit request. -/
theorem c13_reused (calls : List (Call σ)) (m0 : σ) (sched : List (Nat × Choice)) (s : State σ)
    (hn : ∀ cl ∈ calls, 1 ≤ cl.n) (h : run calls sched (initState m0) = .ok s) :
    (∀ t c s', step calls s t c = .ok s' → s.threads ≤ s'.threads) ∧
    (s.k < calls.length → ∀ w, w < s.threads → s.pc w ≠ .exited) := by
  refine ⟨fun t c s' h => step_threads h, ?_⟩
  intro hk w hw hp
  have inv := reach_inv hn h
  have hr := inv.workers w hw
  have mk := inv.main
  rw [hp] at hr
  cases hro : role s.main (callN calls s.k) w <;> rw [hro] at hr <;>
    simp [RoleOk, WPC.waiting] at hr
  cases hm : s.main <;> rw [hm] at hro mk
  case join => have := mk.1; omega
  case gone => have := mk.1; omega
  case wait p q => cases p <;> simp only [role] at hro <;> (try split at hro) <;> cases hro
  case csLoad ex v =>
    cases ex
    · simp only [role] at hro; split at hro <;> cases hro
    · have := mk.1; omega
  case csStore ex v =>
    cases ex
    · simp only [role] at hro; split at hro <;> (try split at hro) <;> cases hro
    · have := mk.1; omega
  case csLock ex v =>
    cases ex
    · simp only [role] at hro; split at hro <;> cases hro
    · have := mk.1; omega
  case csNotify ex v =>
    cases ex
    · simp only [role] at hro; split at hro <;> cases hro
    · have := mk.1; omega
  case csUnlock ex v =>
    cases ex
    · simp only [role] at hro; split at hro <;> cases hro
    · have := mk.1; omega
  all_goals simp only [role] at hro
  all_goals (try split at hro) <;> cases hro

/-- C13: once the destructor has returned, all calls were made and every worker has terminated. -/
theorem c13_joined (calls : List (Call σ)) (m0 : σ) (sched : List (Nat × Choice)) (s : State σ)
    (hn : ∀ cl ∈ calls, 1 ≤ cl.n) (h : run calls sched (initState m0) = .ok s)
    (hg : s.main = .gone) : s.k = calls.length ∧ ∀ w, w < s.threads → s.pc w = .exited := by
  have inv := reach_inv hn h
  have mk := inv.main
  rw [hg] at mk
  refine ⟨mk.1, fun w hw => inv.joined w hw ?_⟩
  intro ha
  unfold Alive at ha
  rw [hg] at ha
  exact ha

/-! ### TrMul on the pool -/

/-- A multi-threaded TrMul handed to the pool. -/
structure Work (A : Type) where
  tp : Params A
  bm : BlockMap
  threads : Nat
  mem : Mem A

/-- The call of Execute it makes. -/
def Work.call {A : Type} (x : Work A) : Call (C (TrMul.State A)) := taskCall ⟨x.tp, x.bm, x.threads⟩ x.mem

/-- C11 with C04: let one pool execute any list of multi-threaded multiplications. Whenever it is
between two calls, the destination of the last one is the destination that TrMul computes on one
thread with the simple loop; whatever the schedule of all threads was. -/
theorem c11_trmul_on_pool {A : Type} (works : List (Work A)) (m0 : C (TrMul.State A))
    (sched : List (Nat × Choice)) (s : State (C (TrMul.State A))) (ht : ∀ x ∈ works, 1 ≤ x.threads)
    (h : run (works.map Work.call) sched (initState m0) = .ok s) (hi : s.main = .idle)
    (k : Nat) (hk : s.k = k + 1) (x : Work A) (hx : works[k]? = some x)
    (hr : Ready x.tp x.mem) (hs : Safe x.tp x.mem) (hm : MapFor x.mem x.bm) :
    ∃ s' m', s.mem = .ok s' ∧ simpleLoop x.tp x.mem = .ok m' ∧ s'.mem.dst = m'.dst := by
  have hn : ∀ cl ∈ works.map Work.call, 1 ≤ cl.n := by
    intro cl hcl
    obtain ⟨y, hy, rfl⟩ := List.mem_map.mp hcl
    exact ht y hy
  have hst : ∀ cl ∈ works.map Work.call, Stable cl := by
    intro cl hcl
    obtain ⟨y, hy, rfl⟩ := List.mem_map.mp hcl
    exact taskCall_stable _ _
  have hres := c11_memory _ m0 sched s hn hst h hi
  rw [hk] at hres
  generalize hmem : s.mem = mm at hres
  cases hres with
  | @succ _ m cl tr hres hc hd =>
    rw [List.getElem?_map, hx] at hc
    cases hc
    obtain ⟨⟨m', hm'⟩, -, tot⟩ := c04_no_fault x.tp x.mem x.bm hr hs hm
    have hrun : runTasks x.call tr (x.call.prepare m) =
        TrMul.run ⟨x.tp, x.bm, x.threads⟩ (tr.filter (· < x.threads))
          (TrMul.initState ⟨x.tp, x.bm, x.threads⟩ x.mem) := runTasks_run tr _
    obtain ⟨s', hs'⟩ := tot x.threads (tr.filter (· < x.threads))
    rw [hs'] at hrun
    refine ⟨s', m', hrun, hm', ?_⟩
    have hfin : Finished ⟨x.tp, x.bm, x.threads⟩ s' := by
      intro t htt
      have := hd t htt
      rw [hrun] at this
      exact body_none.mp this
    exact c04_one_result x.tp x.mem _ _ hr
      (.threads x.bm x.threads _ s' hm (ht x (List.mem_of_getElem? hx)) hs' hfin rfl)
      (.simple m' hm' rfl)

/-- C12 with C07: under every schedule fair to all threads and with finitely many spurious
wake-ups, a pool executing any list of multi-threaded multiplications gets through all of them,
and its destructor returns. -/
theorem c12_trmul_on_pool {A : Type} (works : List (Work A)) (m0 : C (TrMul.State A))
    (sched : Nat → Nat × Choice) (ex : Nat → State (C (TrMul.State A)))
    (hw : ∀ x ∈ works, 1 ≤ x.threads ∧ Ready x.tp x.mem ∧ Safe x.tp x.mem ∧ MapFor x.mem x.bm)
    (N : Nat) (hN : ∀ x ∈ works, x.threads ≤ N) (hf : Fair N sched)
    (he : Execution (works.map Work.call) m0 sched ex) :
    ∃ k, (ex k).main = .gone ∧ (ex k).k = works.length := by
  have hn : ∀ cl ∈ works.map Work.call, 1 ≤ cl.n := by
    intro cl hcl
    obtain ⟨y, hy, rfl⟩ := List.mem_map.mp hcl
    exact (hw y hy).1
  have hst : ∀ cl ∈ works.map Work.call, Stable cl := by
    intro cl hcl
    obtain ⟨y, hy, rfl⟩ := List.mem_map.mp hcl
    exact taskCall_stable _ _
  have hneed : need (works.map Work.call) (works.map Work.call).length ≤ N := by
    have : ∀ k, k ≤ (works.map Work.call).length → need (works.map Work.call) k ≤ N := by
      intro k
      induction k with
      | zero => intro _; exact Nat.zero_le _
      | succ k ih =>
        intro hk
        have h1 := ih (by omega)
        rw [need_succ (by omega)]
        have hcl := List.getElem?_eq_getElem (show k < (works.map Work.call).length by omega)
        obtain ⟨y, hy, hyc⟩ := List.mem_map.mp (List.mem_of_getElem? hcl)
        have h2 := (callN_of hcl).1
        rw [← hyc] at h2
        have h3 : y.call.n = y.threads := rfl
        have := hN y hy
        omega
    exact this _ (Nat.le_refl _)
  obtain ⟨k, h1, h2⟩ := c12_fair_executions_finish _ m0 sched ex hn hst (by
    intro k m cl _ hc
    obtain ⟨y, hy, rfl⟩ := List.mem_map.mp (List.mem_of_getElem? hc)
    exact taskCall_terminates y.tp y.mem y.bm y.threads (hw y hy).2.1 (hw y hy).2.2.1
      (hw y hy).2.2.2 m) ⟨fun t ht => hf.again t (by omega), hf.calm⟩ he
  rw [List.length_map] at h2
  exact ⟨k, h1, h2⟩

/-! ### Examples -/

/-- Each task writes its number once. -/
def demoCall (n : Nat) : Call (List Nat) where
  n := n
  prepare := id
  body := fun i m => if 10 * n + i ∈ m then none else some ((10 * n + i) :: m)

def demoCalls : List (Call (List Nat)) := [demoCall 2, demoCall 1, demoCall 3]

/-- Round robin over three threads, with time-outs and spurious wake-ups. -/
def demoSched (len : Nat) : List (Nat × Choice) :=
  (List.range len).map fun k =>
    (k % 3, if k % 5 = 0 then .timeout else if k % 7 = 0 ∧ k < 60 then .spurious else .normal)

def demoView (c : C (State (List Nat))) : Option (Nat × List Nat × Nat × MPC) :=
  match c with
  | .ok s => some (s.k, s.mem, s.threads, s.main)
  | .error _ => none

/-- The hypotheses of the theorems above are met. -/
theorem demo_n : ∀ cl ∈ demoCalls, 1 ≤ cl.n := by
  intro cl h
  simp [demoCalls] at h
  rcases h with rfl | rfl | rfl <;> simp [demoCall]

theorem demo_stable : ∀ cl ∈ demoCalls, Stable cl := by
  have key : ∀ n, Stable (demoCall n) := by
    intro n i j m m' _ _ hi hj
    simp only [demoCall] at hi hj ⊢
    split at hi
    · rename_i h
      split at hj
      · cases hj
      · cases hj
        rw [if_pos (List.mem_cons_of_mem _ h)]
    · cases hi
  intro cl h
  simp [demoCalls] at h
  rcases h with rfl | rfl | rfl <;> exact key _

/-- All three calls return and the destructor returns; two workers were created. -/
example : demoView (run demoCalls (demoSched 300) (initState [])) =
    some (3, [32, 30, 31, 10, 20, 21], 2, .gone) := by decide +kernel

/-- A worker can be asleep although work was posted (`c12_worker_not_forgotten` is not vacuous):
the main thread is then about to notify it. -/
example : ∃ sched s, run demoCalls sched (initState []) = .ok s ∧ 0 < s.threads ∧
    s.pc 0 = .asleep ∧ s.st 0 ≠ .ready := by
  let sched : List (Nat × Choice) := List.replicate 5 (0, .normal) ++ List.replicate 5 (1, .normal) ++
    List.replicate 3 (1, .normal) ++ List.replicate 3 (1, .timeout) ++ List.replicate 6 (0, .normal)
  refine ⟨sched, ?_⟩
  have hv : (match run demoCalls sched (initState []) with
    | .ok s => decide (0 < s.threads ∧ s.pc 0 = .asleep ∧ s.st 0 ≠ .ready)
    | .error _ => false) = true := by decide +kernel
  cases h : run demoCalls sched (initState []) with
  | error f => rw [h] at hv; cases hv
  | ok s => rw [h] at hv; exact ⟨s, rfl, of_decide_eq_true hv⟩

/-- The main thread can be asleep although the counter is 0 (`c12_main_not_forgotten` is not
vacuous): a worker is then about to notify it. -/
example : ∃ sched s, run demoCalls sched (initState []) = .ok s ∧
    s.main = .wait .create .asleep ∧ s.count = 0 := by
  let sched : List (Nat × Choice) := List.replicate 5 (0, .normal) ++ List.replicate 4 (0, .timeout) ++
    List.replicate 3 (1, .normal)
  refine ⟨sched, ?_⟩
  have hv : (match run demoCalls sched (initState []) with
    | .ok s => decide (s.main = .wait .create .asleep ∧ s.count = 0)
    | .error _ => false) = true := by decide +kernel
  cases h : run demoCalls sched (initState []) with
  | error f => rw [h] at hv; cases hv
  | ok s => rw [h] at hv; exact ⟨s, rfl, of_decide_eq_true hv⟩

/-- The demo multiplication of Verif/TrMul/Props.lean, on the pool, twice. -/
def demoWorks : List (Work Int) := [⟨demoTp, demoMap, 2, demoMem⟩, ⟨demoTp, demoMap, 2, demoMem⟩]

example : ∃ sched s, run (demoWorks.map Work.call) sched (initState (.error .ub)) = .ok s ∧
    s.main = .idle ∧ s.k = 1 := by
  refine ⟨demoSched 125, ?_⟩
  have hv : (match run (demoWorks.map Work.call) (demoSched 125) (initState (.error .ub)) with
    | .ok s => decide (s.main = .idle ∧ s.k = 1)
    | .error _ => false) = true := by decide +kernel
  cases h : run (demoWorks.map Work.call) (demoSched 125) (initState (.error .ub)) with
  | error f => rw [h] at hv; cases hv
  | ok s => rw [h] at hv; exact ⟨s, rfl, of_decide_eq_true hv⟩

/-- The hypotheses of `c12_trmul_on_pool` are met by the round-robin schedule. -/
example (ex : Nat → State (C (TrMul.State Int)))
    (he : Execution (demoWorks.map Work.call) (.error .ub) (fun k => (k % 3, .normal)) ex) :
    ∃ k, (ex k).main = .gone ∧ (ex k).k = 2 := by
  refine c12_trmul_on_pool demoWorks _ _ ex ?_ 2 ?_ ⟨?_, 0, fun _ _ => by simp⟩ he
  · intro x hx
    simp [demoWorks] at hx
    subst hx
    exact ⟨by decide, demo_ready, demo_safe, demo_map⟩
  · intro x hx
    simp [demoWorks] at hx
    subst hx
    exact Nat.le_refl _
  · intro t ht k
    exact ⟨3 * k + t, by omega, by show (3 * k + t) % 3 = t; omega⟩

end Ruy.Pool

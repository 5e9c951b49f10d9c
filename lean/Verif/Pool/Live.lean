import Mathlib.Order.Basic
import Mathlib.Algebra.Order.Group.Nat
import Verif.Pool.Hist
/-
Progress: from every reachable state in which the destructor has not returned, either some
thread can take a step that decreases the measure, or the tasks of the current call are
running.
-/
namespace Ruy.Pool

variable {σ : Type} {calls : List (Call σ)} {s s' : State σ} {c : Choice}

/-- Thread `t` is blocked: a step (other than a spurious wake-up) changes nothing. -/
def Stuck (calls : List (Call σ)) (s : State σ) (t : Nat) : Prop :=
  ∃ c, c ≠ Choice.spurious ∧ step calls s t c = .ok s

/-- Where a worker can be blocked. -/
def WStuck (s : State σ) (w : Nat) : Prop :=
  s.pc w = .exited ∨ (s.pc w = .decLock ∧ s.cmutex ≠ none) ∨ (s.pc w = .spin ∧ s.st w = .ready) ∨
    (s.pc w = .lock ∧ s.smutex w ≠ none) ∨ s.pc w = .asleep ∨ ∃ k i, s.pc w = .running k i

/-- Where the main thread can be blocked. -/
def MStuck (s : State σ) : Prop :=
  s.main = .gone ∨ s.main = .run0 ∨ (∃ p, s.main = .wait p .spin ∧ s.count ≠ 0) ∨
    (∃ p, s.main = .wait p .lock ∧ s.cmutex ≠ none) ∨ (∃ p, s.main = .wait p .asleep) ∨
    (∃ ex w, s.main = .csLock ex w ∧ s.smutex w ≠ none) ∨
    (∃ w, s.main = .join w ∧ w < s.threads ∧ s.pc w ≠ .exited)

theorem stuckW {w : Nat} (hc : c ≠ .spurious) (h : stepW calls s w c = .ok s) : WStuck s w := by
  have key : ∀ s1 : State σ, s1.pc w ≠ s.pc w → (Except.ok s1 : C (State σ)) = .ok s → WStuck s w := by
    intro s1 h1 h2
    cases h2; exact absurd rfl h1
  unfold stepW at h
  cases hp : s.pc w with
  | running k i => exact .inr (.inr (.inr (.inr (.inr ⟨_, _, hp⟩))))
  | exited => exact .inl hp
  | asleep => exact .inr (.inr (.inr (.inr (.inl hp))))
  | enter =>
    rw [hp] at h
    obtain ⟨-, -, h⟩ := C.bind_ok h
    split at h <;> exact key _ (by rw [hp]; simp [setW]) h
  | clear =>
    rw [hp] at h
    obtain ⟨-, -, h⟩ := C.bind_ok h
    exact key _ (by rw [hp]; simp [setW]) h
  | storeReady =>
    rw [hp] at h
    obtain ⟨-, -, h⟩ := C.bind_ok h
    exact key _ (by rw [hp]; simp [setW]) h
  | dec =>
    rw [hp] at h
    obtain ⟨-, -, h⟩ := C.bind_ok h
    obtain ⟨-, -, h⟩ := C.bind_ok h
    split at h <;> exact key _ (by rw [hp]; simp [setW]) h
  | decLock =>
    rw [hp] at h
    obtain ⟨-, -, h⟩ := C.bind_ok h
    split at h
    · exact key _ (by rw [hp]; simp [setW]) h
    · rename_i hx
      exact .inr (.inl ⟨hp, by rw [hx]; simp⟩)
  | decNotify =>
    rw [hp] at h
    obtain ⟨-, -, h⟩ := C.bind_ok h
    exact key _ (by rw [hp]; simp [setW]) h
  | decUnlock =>
    rw [hp] at h
    obtain ⟨-, -, h⟩ := C.bind_ok h
    obtain ⟨-, -, h⟩ := C.bind_ok h
    exact key _ (by rw [hp]; simp [setW]) h
  | first =>
    rw [hp] at h
    obtain ⟨-, -, h⟩ := C.bind_ok h
    split at h <;> exact key _ (by rw [hp]; simp [setW]) h
  | spin =>
    rw [hp] at h
    obtain ⟨-, -, h⟩ := C.bind_ok h
    split at h
    · exact key _ (by rw [hp]; simp [setW]) h
    · split at h
      · exact key _ (by rw [hp]; simp [setW]) h
      · rename_i hx
        exact .inr (.inr (.inl ⟨hp, by simpa using hx⟩))
  | lock =>
    rw [hp] at h
    obtain ⟨-, -, h⟩ := C.bind_ok h
    split at h
    · exact key _ (by rw [hp]; simp [setW]) h
    · rename_i hx
      exact .inr (.inr (.inr (.inl ⟨hp, by rw [hx]; simp⟩)))
  | check =>
    rw [hp] at h
    obtain ⟨-, -, h⟩ := C.bind_ok h
    obtain ⟨-, -, h⟩ := C.bind_ok h
    split at h <;> exact key _ (by rw [hp]; simp [setW]) h
  | unlock y =>
    rw [hp] at h
    obtain ⟨-, -, h⟩ := C.bind_ok h
    obtain ⟨-, -, h⟩ := C.bind_ok h
    exact key _ (by rw [hp]; simp [setW]) h
  | got y =>
    rw [hp] at h
    obtain ⟨-, -, h⟩ := C.bind_ok h
    split at h
    · exact key _ (by rw [hp]; simp [setW]) h
    · obtain ⟨-, -, h⟩ := C.bind_ok h
      exact key _ (by rw [hp]; simp [setW]) h

theorem stuckM (hc : c ≠ .spurious) (inv : Inv calls s) (h : stepM calls s c = .ok s) :
    MStuck s := by
  have key : ∀ s1 : State σ, s1.main ≠ s.main → (Except.ok s1 : C (State σ)) = .ok s → MStuck s := by
    intro s1 h1 h2
    cases h2; exact absurd rfl h1
  have mk := inv.main
  unfold stepM at h
  cases hm : s.main with
  | idle =>
    rw [hm] at h
    unfold stepIdle at h
    dsimp only at h
    split at h
    · split at h <;> exact key _ (by rw [hm]; simp [setM]) h
    · obtain ⟨-, -, h⟩ := C.bind_ok h
      split at h
      · exact key _ (by rw [hm]; simp [setM]) h
      · split at h <;> exact key _ (by rw [hm]; simp [setM]) h
  | resetLoad p =>
    rw [hm] at h
    obtain ⟨-, -, h⟩ := C.bind_ok h
    exact key _ (by rw [hm]; simp [setM]) h
  | resetStore p =>
    rw [hm] at h
    cases p <;> exact key _ (by rw [hm]; simp [setM]) h
  | spawn =>
    rw [hm] at h
    dsimp only at h
    split at h
    · exfalso
      have := congrArg (fun r => match r with | .ok (x : State σ) => x.threads | .error _ => 0) h
      simp at this
    · exact key _ (by rw [hm]; simp [setM]) h
  | wait p q =>
    rw [hm] at h
    dsimp only at h
    unfold stepWait at h
    have aw : (afterWait s p).main ≠ s.main := by
      rw [hm]; cases p <;> simp [afterWait, setM]
    cases q with
    | first =>
      dsimp only at h
      split at h
      · exact key _ aw h
      · exact key _ (by rw [hm]; simp [setM]) h
    | spin =>
      dsimp only at h
      split at h
      · exact key _ (by rw [hm]; simp [setM]) h
      · split at h
        · exact key _ aw h
        · exact .inr (.inr (.inl ⟨p, hm, by assumption⟩))
    | lock =>
      dsimp only at h
      split at h
      · exact key _ (by rw [hm]; simp [setM]) h
      · rename_i hx
        exact .inr (.inr (.inr (.inl ⟨p, hm, by rw [hx]; simp⟩)))
    | check =>
      obtain ⟨-, -, h⟩ := C.bind_ok h
      split at h <;> exact key _ (by rw [hm]; simp [setM]) h
    | asleep => exact .inr (.inr (.inr (.inr (.inl ⟨p, hm⟩))))
    | unlock =>
      obtain ⟨-, -, h⟩ := C.bind_ok h
      exact key { afterWait s p with cmutex := none } aw h
  | csLoad ex v =>
    rw [hm] at h
    obtain ⟨-, -, h⟩ := C.bind_ok h
    obtain ⟨-, -, h⟩ := C.bind_ok h
    obtain ⟨-, -, h⟩ := C.bind_ok h
    cases ex <;> exact key _ (by rw [hm]; simp [setM]) h
  | csTask v =>
    rw [hm] at h
    obtain ⟨-, -, h⟩ := C.bind_ok h
    exact key _ (by rw [hm]; simp [setM]) h
  | csStore ex v =>
    rw [hm] at h
    exact key _ (by rw [hm]; simp [setM]) h
  | csLock ex v =>
    rw [hm] at h
    dsimp only at h
    split at h
    · exact key _ (by rw [hm]; simp [setM]) h
    · rename_i hx
      exact .inr (.inr (.inr (.inr (.inr (.inl ⟨ex, v, hm, by rw [hx]; simp⟩)))))
  | csNotify ex v =>
    rw [hm] at h
    exact key _ (by rw [hm]; simp [setM]) h
  | csUnlock ex v =>
    rw [hm] at h
    obtain ⟨-, -, h⟩ := C.bind_ok h
    refine key _ ?_ h
    rw [hm]
    unfold afterPost
    split
    · split <;> simp [setM]
    · split <;> simp [setM]
  | run0 => exact .inr (.inl hm)
  | join v =>
    rw [hm] at h mk
    dsimp only at h
    split at h
    · obtain ⟨-, -, h⟩ := C.bind_ok h
      split at h
      · exact key _ (by rw [hm]; simp [setM]) h
      · exact .inr (.inr (.inr (.inr (.inr (.inr ⟨v, hm, by assumption, by assumption⟩)))))
    · exact key _ (by rw [hm]; simp [setM]) h
  | gone => exact .inl hm

theorem frozenAux (inv : Inv calls s) (hw : ∀ w, w < s.threads → WStuck s w) (hm : MStuck s) :
    s.main = .gone ∨ ((∃ t, t < callN calls s.k ∧ Running s t) ∧
      ∀ i, i < callN calls s.k → Running s i ∨ s.ended s.k i ≠ []) := by
  -- no mutex is held
  have hcm : s.cmutex = none := by
    cases hx : s.cmutex with
    | none => rfl
    | some t =>
      exfalso
      cases t with
      | zero =>
        have := inv.cm0.mp hx
        rcases hm with h | h | ⟨p, h, -⟩ | ⟨p, h, -⟩ | ⟨p, h⟩ | ⟨ex, v, h, -⟩ | ⟨v, h, -⟩ <;>
          rw [h] at this <;> simp [MPC.inC] at this
      | succ w =>
        obtain ⟨hlt, hin⟩ := (inv.cmw w).mp hx
        rcases hw w hlt with h | ⟨h, -⟩ | ⟨h, -⟩ | ⟨h, -⟩ | h | ⟨k, i, h⟩ <;>
          rw [h] at hin <;> simp [WPC.inC] at hin
  have hsm : ∀ w, w < s.threads → s.smutex w = none := by
    intro w hlt
    cases hx : s.smutex w with
    | none => rfl
    | some t =>
      exfalso
      cases t with
      | zero =>
        have := (inv.sm0 w hlt).mp hx
        rcases hm with h | h | ⟨p, h, -⟩ | ⟨p, h, -⟩ | ⟨p, h⟩ | ⟨ex, v, h, -⟩ | ⟨v, h, -⟩ <;>
          rw [h] at this <;> simp [MPC.inS] at this
      | succ v =>
        obtain ⟨-, hin⟩ := (inv.smw w hlt v).mp hx
        rcases hw w hlt with h | ⟨h, -⟩ | ⟨h, -⟩ | ⟨h, -⟩ | h | ⟨k, i, h⟩ <;>
          rw [h] at hin <;> simp [WPC.inS] at hin
  have nocs : ∀ ex v, s.main ≠ .csLock ex v := by
    intro ex v hv
    rcases hm with h | h | ⟨p, h, -⟩ | ⟨p, h, -⟩ | ⟨p, h⟩ | ⟨ex', v', h, h'⟩ | ⟨v', h, -⟩ <;>
      rw [hv] at h <;> cases h
    have mk := inv.main
    rw [hv] at mk
    refine h' (hsm v ?_)
    cases ex
    · have := mk.2.1; have := mk.2.2.1; omega
    · exact mk.2.2
  have hw' : ∀ w, w < s.threads → s.pc w = .exited ∨ (s.st w = .ready ∧ (s.pc w = .spin ∨ s.pc w = .asleep))
      ∨ ∃ k i, s.pc w = .running k i := by
    intro w hlt
    rcases hw w hlt with h | ⟨h, h'⟩ | ⟨h, h'⟩ | ⟨h, h'⟩ | h | h
    · exact .inl h
    · exact absurd hcm h'
    · exact .inr (.inl ⟨h', .inl h⟩)
    · exact absurd (hsm w hlt) h'
    · refine .inr (.inl ⟨?_, .inr h⟩)
      by_contra hne
      have := inv.wakeW w hlt h hne
      rcases hm with h | h | ⟨p, h, -⟩ | ⟨p, h, -⟩ | ⟨p, h⟩ | ⟨ex, v, h, -⟩ | ⟨v, h, -⟩
      · rw [h] at this; simp [MPC.willNotify] at this
      · rw [h] at this; simp [MPC.willNotify] at this
      · rw [h] at this; simp [MPC.willNotify] at this
      · rw [h] at this; simp [MPC.willNotify] at this
      · rw [h] at this; simp [MPC.willNotify] at this
      · exact nocs _ _ h
      · rw [h] at this; simp [MPC.willNotify] at this
    · exact .inr (.inr h)
  have posted : ∀ w, w < s.threads → role s.main (callN calls s.k) w = .posted →
      Running s (w + 1) ∨ (s.ended s.k (w + 1) ≠ [] ∧ owe (s.pc w) (s.st w) = 0) := by
    intro w hlt hro
    have hr := inv.workers w hlt
    rw [hro] at hr
    rcases hw' w hlt with h | ⟨h, h'⟩ | h
    · rw [h] at hr; simp [RoleOk, WPC.waiting] at hr
    · right
      rw [h] at hr
      simp only [RoleOk] at hr
      have : s.ended s.k (w + 1) = [w + 1] := by
        rcases hr with hr | hr | hr | hr | hr
        · cases hr.1
        · cases hr.1
        · cases hr.1
        · cases hr.1
        · exact hr.2.2.2.1
      refine ⟨by rw [this]; simp, ?_⟩
      rcases h' with h' | h' <;> rw [h', h] <;> simp [owe]
    · exact .inl ⟨hlt, h⟩
  have waiting : ∀ p q, s.main = .wait p q → s.count ≠ 0 →
      s.main = .gone ∨ ((∃ t, t < callN calls s.k ∧ Running s t) ∧
        ∀ i, i < callN calls s.k → Running s i ∨ s.ended s.k i ≠ []) := by
    intro p q hq h0
    right
    have mk := inv.main
    have hrem : rem s.main (callN calls s.k) s.threads = 0 := by rw [hq]; rfl
    have hcnt := inv.count
    rw [hrem, Nat.add_zero] at hcnt
    have hex : ∃ w, w < s.threads ∧ owe (s.pc w) (s.st w) ≠ 0 := by
      by_contra hno
      apply h0
      rw [hcnt]
      refine cnt_zero.mpr fun w hlt => ?_
      by_contra hne
      exact hno ⟨w, hlt, hne⟩
    obtain ⟨w, hlt, howe⟩ := hex
    have hrun : ∃ k i, s.pc w = .running k i := by
      rcases hw' w hlt with h | ⟨h, h'⟩ | h
      · exfalso
        have hr := inv.workers w hlt
        rw [h, hq] at hr
        rw [h] at howe
        cases p with
        | create => simp [role, RoleOk, WPC.waiting] at hr
        | work =>
          simp only [role] at hr
          split at hr <;> simp [RoleOk, WPC.waiting] at hr
      · exfalso
        apply howe
        rcases h' with h' | h' <;> rw [h', h] <;> simp [owe]
      · exact h
    have hrun' : Running s (w + 1) := ⟨hlt, hrun⟩
    have hin := hrun'.inCall inv
    cases p with
    | create =>
      exfalso
      have hr := inv.workers w hlt
      obtain ⟨k, i, hp⟩ := hrun
      rw [hq, hp] at hr
      simp [role, RoleOk, WPC.waiting] at hr
    | work =>
      rw [hq] at mk
      refine ⟨⟨w + 1, hin.2, hrun'⟩, ?_⟩
      intro i hi
      cases i with
      | zero =>
        right
        rw [inv.task0.2, hq]; simp [main0]
      | succ v =>
        have := mk.2.2.1
        rcases posted v (by omega) (by rw [hq]; simp only [role]; rw [if_pos (by omega)]) with h | h
        · exact .inl h
        · exact .inr h.1
  rcases hm with h | h | ⟨p, h, h'⟩ | ⟨p, h, h'⟩ | ⟨p, h⟩ | ⟨ex, v, h, -⟩ | ⟨v, h, hlt, h'⟩
  · exact .inl h
  · right
    have mk := inv.main
    rw [h] at mk
    refine ⟨⟨0, mk.2.1, h⟩, ?_⟩
    intro i hi
    cases i with
    | zero => exact .inl h
    | succ v =>
      have := mk.2.2.1
      rcases posted v (by omega) (by rw [h]; simp only [role]; rw [if_pos (by omega)]) with h | h
      · exact .inl h
      · exact .inr h.1
  · exact waiting p _ h h'
  · exact absurd hcm h'
  · refine waiting p _ h ?_
    intro h0
    obtain ⟨w, hlt, hn⟩ := inv.wakeM p h h0
    rcases hw' w hlt with h | ⟨-, h | h⟩ | ⟨k, i, h⟩ <;> rw [h] at hn <;> simp [WPC.willNotify] at hn
  · exact absurd h (nocs _ _)
  · exfalso
    have hr := inv.workers v hlt
    rw [h] at hr
    simp only [role] at hr
    rcases hw' v hlt with h1 | ⟨h1, -⟩ | ⟨k, i, h1⟩
    · exact h' h1
    · rw [h1] at hr; cases hr.1
    · rw [h1] at hr; simp [RoleOk, WPC.waiting] at hr

theorem Stuck.main (inv : Inv calls s) (h : Stuck calls s 0 ∨ Running s 0) : MStuck s := by
  rcases h with ⟨c, hc, hs⟩ | hr
  · exact stuckM hc inv hs
  · exact .inr (.inl hr)

theorem Stuck.worker {w : Nat} (hw : w < s.threads) (h : Stuck calls s (w + 1) ∨ Running s (w + 1)) :
    WStuck s w := by
  rcases h with ⟨c, hc, hs⟩ | ⟨-, hr⟩
  · unfold step at hs
    dsimp only at hs
    rw [if_pos hw] at hs
    exact stuckW hc hs
  · exact .inr (.inr (.inr (.inr (.inr hr))))

/-- No deadlock: if every thread is blocked or running a task, then the destructor has
returned, or some task of the current call is running, and all of them are running or have
returned. -/
theorem frozen (inv : Inv calls s) (h : ∀ t, t ≤ s.threads → Stuck calls s t ∨ Running s t) :
    s.main = .gone ∨ ((∃ t, t < callN calls s.k ∧ Running s t) ∧
      ∀ i, i < callN calls s.k → Running s i ∨ s.ended s.k i ≠ []) :=
  frozenAux inv (fun w hw => Stuck.worker hw (h (w + 1) (by omega))) (Stuck.main inv (h 0 (by omega)))

/-! ## Fair executions -/

/-- An infinite execution of the pool under the schedule `sched`. -/
structure Execution (calls : List (Call σ)) (m0 : σ) (sched : Nat → Nat × Choice)
    (ex : Nat → State σ) : Prop where
  start : ex 0 = initState m0
  next : ∀ k, step calls (ex k) (sched k).1 (sched k).2 = .ok (ex (k + 1))

/-- Every thread is scheduled again and again, and condition variables wake up spuriously
only finitely often. -/
structure Fair (threads : Nat) (sched : Nat → Nat × Choice) : Prop where
  again : ∀ t, t ≤ threads → ∀ k, ∃ k', k ≤ k' ∧ (sched k').1 = t
  calm : ∃ k, ∀ k', k ≤ k' → (sched k').2 ≠ .spurious

/-- The tasks of the call return when scheduled fairly among themselves, from memory `m`. -/
def Terminates (cl : Call σ) (m0 : σ) : Prop :=
  ∀ (tr : Nat → Nat) (m : Nat → σ), m 0 = m0 → (∀ k, m (k + 1) = advance cl (tr k) (m k)) →
    (∀ i, i < cl.n → ∀ k, ∃ k', k ≤ k' ∧ tr k' = i) → ∃ k, ∀ i, i < cl.n → cl.body i (m k) = none

theorem μ_mem (calls : List (Call σ)) (s : State σ) (m : σ) : μ calls { s with mem := m } = μ calls s := rfl

theorem BodyStep.μ_eq {t : Nat} (h : BodyStep calls s s' t) : μ calls s' = μ calls s := by
  obtain ⟨-, cl, m, -, -, rfl⟩ := h; rfl

theorem Execution.inv {m0 : σ} {sched : Nat → Nat × Choice} {ex : Nat → State σ}
    (hn : ∀ cl ∈ calls, 1 ≤ cl.n) (he : Execution calls m0 sched ex) : ∀ k, Inv calls (ex k)
  | 0 => by rw [he.start]; exact init_inv calls m0
  | k + 1 => by
    obtain ⟨s', hs, hi⟩ := step_inv hn (he.inv hn k) (c := (sched k).2) (sched k).1
    rw [he.next k] at hs
    cases hs; exact hi

theorem Execution.hist {m0 : σ} {sched : Nat → Nat × Choice} {ex : Nat → State σ}
    (hn : ∀ cl ∈ calls, 1 ≤ cl.n) (hs : ∀ cl ∈ calls, Stable cl) (he : Execution calls m0 sched ex) :
    ∀ k, Hist calls m0 (ex k)
  | 0 => by rw [he.start]; exact .init m0
  | k + 1 => (he.hist hn hs k).step hs (he.inv hn k) (he.next k)

theorem settles (f : Nat → Nat) : ∀ (v K : Nat), f K ≤ v → (∀ k, K ≤ k → f (k + 1) ≤ f k) →
    ∃ K', K ≤ K' ∧ ∀ k, K' ≤ k → f (k + 1) = f k
  | 0, K, hv, hd => by
    refine ⟨K, by omega, ?_⟩
    have : ∀ k, K ≤ k → f k = 0 := by
      intro k hk
      induction k, hk using Nat.le_induction with
      | base => omega
      | succ k hk ih => have := hd k hk; omega
    intro k hk
    rw [this k hk, this (k + 1) (by omega)]
  | v + 1, K, hv, hd => by
    by_cases h : ∀ k, K ≤ k → f (k + 1) = f k
    · exact ⟨K, by omega, h⟩
    · have : ∃ k, K ≤ k ∧ f (k + 1) ≠ f k := by
        by_contra hno
        exact h fun k hk => by
          by_contra hne
          exact hno ⟨k, hk, hne⟩
      obtain ⟨k, hk, hne⟩ := this
      have hle : f k ≤ f K := by
        clear hne
        induction k, hk using Nat.le_induction with
        | base => exact Nat.le_refl _
        | succ k hk ih => have := hd k hk; omega
      have := hd k hk
      obtain ⟨K', h1, h2⟩ := settles f v (k + 1) (by omega) (fun j hj => hd j (by omega))
      exact ⟨K', by omega, h2⟩

theorem Stable.advance {cl : Call σ} (hs : Stable cl) {i j : Nat} {m : σ} (hi : i < cl.n)
    (h : cl.body i m = none) : cl.body i (advance cl j m) = none := by
  unfold Pool.advance
  split
  · rename_i hj
    cases hb : cl.body j m with
    | none => exact h
    | some m' => exact hs i j m m' hi hj h hb
  · exact h

theorem need_mono (calls : List (Call σ)) {j k : Nat} (h : j ≤ k) : need calls j ≤ need calls k := by
  induction k, h using Nat.le_induction with
  | base => exact Nat.le_refl _
  | succ k hk ih =>
    by_cases hl : k < calls.length
    · rw [need_succ hl]; omega
    · have : need calls (k + 1) = need calls k := by
        unfold need
        rw [List.take_of_length_le (show calls.length ≤ k + 1 by omega),
          List.take_of_length_le (show calls.length ≤ k by omega)]
      omega

theorem Inv.threads_le (inv : Inv calls s) : s.threads ≤ need calls calls.length := by
  have mk := inv.main
  cases hm : s.main with
  | idle => rw [hm] at mk; have := need_mono calls mk.1; have := mk.2; omega
  | resetLoad p =>
    rw [hm] at mk
    cases p
    · have := need_mono calls (Nat.le_of_lt mk.1); have := mk.2.1; omega
    · have := need_mono calls (show s.k + 1 ≤ calls.length from mk.1); have := mk.2.2.2; omega
  | resetStore p =>
    rw [hm] at mk
    cases p
    · have := need_mono calls (Nat.le_of_lt mk.1); have := mk.2.1; omega
    · have := need_mono calls (show s.k + 1 ≤ calls.length from mk.1); have := mk.2.2.2; omega
  | spawn =>
    rw [hm] at mk
    have := need_mono calls (show s.k + 1 ≤ calls.length from mk.1)
    have := need_succ mk.1
    have := mk.2.2.2; omega
  | wait p q =>
    rw [hm] at mk
    cases p
    · have := need_mono calls (show s.k + 1 ≤ calls.length from mk.1); have := mk.2.2.2; omega
    · have := need_mono calls (show s.k + 1 ≤ calls.length from mk.1); have := mk.2.2.2; omega
  | csTask v =>
    rw [hm] at mk
    have := need_mono calls (show s.k + 1 ≤ calls.length from mk.1); have := mk.2.2.2; omega
  | csLoad ex v =>
    rw [hm] at mk
    cases ex
    · have := need_mono calls (show s.k + 1 ≤ calls.length from mk.1); have := mk.2.2.2; omega
    · rw [← mk.1]; have := mk.2.1; omega
  | csStore ex v =>
    rw [hm] at mk
    cases ex
    · have := need_mono calls (show s.k + 1 ≤ calls.length from mk.1); have := mk.2.2.2; omega
    · rw [← mk.1]; have := mk.2.1; omega
  | csLock ex v =>
    rw [hm] at mk
    cases ex
    · have := need_mono calls (show s.k + 1 ≤ calls.length from mk.1); have := mk.2.2.2; omega
    · rw [← mk.1]; have := mk.2.1; omega
  | csNotify ex v =>
    rw [hm] at mk
    cases ex
    · have := need_mono calls (show s.k + 1 ≤ calls.length from mk.1); have := mk.2.2.2; omega
    · rw [← mk.1]; have := mk.2.1; omega
  | csUnlock ex v =>
    rw [hm] at mk
    cases ex
    · have := need_mono calls (show s.k + 1 ≤ calls.length from mk.1); have := mk.2.2.2; omega
    · rw [← mk.1]; have := mk.2.1; omega
  | run0 =>
    rw [hm] at mk
    have := need_mono calls (show s.k + 1 ≤ calls.length from mk.1); have := mk.2.2.2; omega
  | join v => rw [hm] at mk; rw [← mk.1]; have := mk.2.1; omega
  | gone => rw [hm] at mk; rw [← mk.1]; have := mk.2; omega

theorem running_step {t : Nat} {cl : Call σ} (inv : Inv calls s) (hr : Running s t)
    (hcl : calls[s.k]? = some cl) (h : step calls s t c = .ok s') :
    (∃ m, cl.body t s.mem = some m ∧ s' = { s with mem := m }) ∨
      (cl.body t s.mem = none ∧ (s'.main ≠ s.main ∨ s'.pc ≠ s.pc)) := by
  unfold step at h
  cases t with
  | zero =>
    have hm : s.main = .run0 := hr
    dsimp only at h
    unfold stepM at h
    rw [hm] at h
    dsimp only at h
    rw [hcl] at h
    dsimp only at h
    cases hb : cl.body 0 s.mem with
    | some m => rw [hb] at h; cases h; exact .inl ⟨m, rfl, by rw [hm]⟩
    | none =>
      rw [hb] at h
      dsimp only at h
      split at h <;> cases h <;> exact .inr ⟨rfl, .inl (by rw [hm]; simp [setM])⟩
  | succ w =>
    obtain ⟨hw, k, i, hp⟩ := hr
    dsimp only at h
    rw [if_pos hw] at h
    have hro := inv.workers w hw
    rw [hp] at hro
    have hki : k = s.k ∧ i = w + 1 := by
      cases hx : role s.main (callN calls s.k) w <;> rw [hx] at hro <;>
        simp [RoleOk, WPC.waiting] at hro
      exact ⟨hro.2.2.2.2.1, hro.2.2.2.2.2⟩
    obtain ⟨rfl, rfl⟩ := hki
    unfold stepW at h
    rw [hp] at h
    obtain ⟨-, -, h⟩ := C.bind_ok h
    rw [hcl] at h
    dsimp only at h
    cases hb : cl.body (w + 1) s.mem with
    | some m => rw [hb] at h; cases h; exact .inl ⟨m, rfl, rfl⟩
    | none =>
      rw [hb] at h
      cases h
      refine .inr ⟨rfl, .inr ?_⟩
      intro heq
      have := congrFun heq w
      rw [hp] at this
      simp [setW] at this

/-- The sequence of memories obtained from the interleaving `pre`, then `tr`. -/
def memAt (cl : Call σ) (tr : Nat → Nat) (m : σ) : Nat → σ
  | 0 => m
  | k + 1 => advance cl (tr k) (memAt cl tr m k)

theorem memAt_shift (cl : Call σ) (tr : Nat → Nat) (m : σ) : ∀ k,
    memAt cl tr m (k + 1) = memAt cl (fun j => tr (j + 1)) (advance cl (tr 0) m) k
  | 0 => rfl
  | k + 1 => by
    show advance cl (tr (k + 1)) (memAt cl tr m (k + 1)) = _
    rw [memAt_shift cl tr m k]; rfl

/-- First the list, then the function. -/
def appendFn (l : List Nat) (f : Nat → Nat) (k : Nat) : Nat :=
  if h : k < l.length then l[k] else f (k - l.length)

theorem memAt_append (cl : Call σ) (f : Nat → Nat) : ∀ (l : List Nat) (m : σ) (j : Nat),
    memAt cl (appendFn l f) m (l.length + j) = memAt cl f (runTasks cl l m) j
  | [], m, j => by
    have : appendFn [] f = f := by funext k; simp [appendFn]
    rw [this]; simp [runTasks]
  | a :: l, m, j => by
    have h0 : appendFn (a :: l) f 0 = a := by simp [appendFn]
    have hs : (fun k => appendFn (a :: l) f (k + 1)) = appendFn l f := by
      funext k; simp [appendFn]
    have : (a :: l).length + j = (l.length + j) + 1 := by simp; omega
    rw [this, memAt_shift, h0, hs, memAt_append cl f l]
    rfl

theorem fair_finishes {m0 : σ} {sched : Nat → Nat × Choice} {ex : Nat → State σ}
    (hn : ∀ cl ∈ calls, 1 ≤ cl.n) (hs : ∀ cl ∈ calls, Stable cl)
    (ht : ∀ k m cl, Result calls m0 k m → calls[k]? = some cl → Terminates cl (cl.prepare m))
    (hf : Fair (need calls calls.length) sched) (he : Execution calls m0 sched ex) :
    ∃ k, (ex k).main = .gone := by
  by_contra hno
  have hng : ∀ k, (ex k).main ≠ .gone := fun k h => hno ⟨k, h⟩
  obtain ⟨K, hK⟩ := hf.calm
  have hcl : ∀ k, K ≤ k → ex (k + 1) = ex k ∨ BodyStep calls (ex k) (ex (k + 1)) (sched k).1 ∨
      μ calls (ex (k + 1)) < μ calls (ex k) := fun k hk =>
    step_class (he.inv hn k) (hK k hk) (he.next k)
  obtain ⟨K', hKK, hc⟩ := settles (fun k => μ calls (ex k)) _ K (Nat.le_refl _) (by
    intro k hk
    rcases hcl k hk with h | h | h
    · show μ calls (ex (k + 1)) ≤ _; rw [h]
    · exact Nat.le_of_eq h.μ_eq
    · exact Nat.le_of_lt h)
  have hst : ∀ k, K' ≤ k → ex (k + 1) = ex k ∨ BodyStep calls (ex k) (ex (k + 1)) (sched k).1 := by
    intro k hk
    rcases hcl k (by omega) with h | h | h
    · exact .inl h
    · exact .inr h
    · have : μ calls (ex (k + 1)) = μ calls (ex k) := hc k hk
      omega
  have hmem : ∀ k, K' ≤ k → ex k = { ex K' with mem := (ex k).mem } := by
    intro k hk
    induction k, hk using Nat.le_induction with
    | base => rfl
    | succ k hk ih =>
      rcases hst k hk with h | ⟨-, cl, m, -, -, h⟩
      · rw [h]; exact ih
      · rw [h]
        show { ex k with mem := m } = _
        rw [ih]
  have hrunm : ∀ k, K' ≤ k → ∀ t, Running (ex k) t ↔ Running (ex K') t := by
    intro k hk t
    rw [hmem k hk]
    cases t <;> exact Iff.rfl
  have hthr := (he.inv hn K').threads_le
  have hsr : ∀ t, t ≤ (ex K').threads → ∃ k, K' ≤ k ∧ (Stuck calls (ex k) t ∨ Running (ex k) t) := by
    intro t htl
    obtain ⟨k, hk, hkt⟩ := hf.again t (by omega) K'
    refine ⟨k, hk, ?_⟩
    rcases hst k hk with h | h
    · have hx := he.next k
      rw [h, hkt] at hx
      exact .inl ⟨_, hK k (by omega), hx⟩
    · rw [hkt] at h
      exact .inr h.1
  have hfro := frozenAux (he.inv hn K')
    (fun w hw => by
      obtain ⟨k, hk, h⟩ := hsr (w + 1) (by omega)
      have heq := hmem k hk
      have := Stuck.worker (by rw [heq]; exact hw) h
      rw [heq] at this
      exact this)
    (by
      obtain ⟨k, hk, h⟩ := hsr 0 (by omega)
      have heq := hmem k hk
      have := Stuck.main (he.inv hn k) h
      rw [heq] at this
      exact this)
  rcases hfro with h | ⟨⟨t, htn, hrun⟩, hall⟩
  · exact hng K' h
  have hin := hrun.inCall (he.inv hn K')
  obtain ⟨cl, m1, pre, hcall, hres, hmm, hend⟩ := (he.hist hn hs K').inn hin.1
  have hcn := (callN_of hcall).1
  have hstab := hs cl (List.mem_of_getElem? hcall)
  -- from K' on, the memory evolves by steps of the tasks
  have hadv : ∀ j, (ex (K' + j + 1)).mem = advance cl (sched (K' + j)).1 (ex (K' + j)).mem ∧
      ∀ i, i < cl.n → ¬ Running (ex K') i → cl.body i (ex (K' + j)).mem = none := by
    intro j
    have hnone : ∀ i, i < cl.n → ¬ Running (ex K') i → cl.body i (ex (K' + j)).mem = none := by
      intro i hi hnr
      have hi' := he.hist hn hs (K' + j)
      have heq := hmem (K' + j) (by omega)
      have hin' : InCall calls (ex (K' + j)) := by rw [heq]; exact hin.1
      obtain ⟨cl', m1', pre', hcall', -, -, hend'⟩ := hi'.inn hin'
      have hkk : (ex (K' + j)).k = (ex K').k := by rw [heq]
      have hee : (ex (K' + j)).ended = (ex K').ended := by rw [heq]
      rw [hkk, hcall] at hcall'
      cases hcall'
      refine hend' i hi ?_
      rw [hkk, hee]
      rcases hall i (by omega) with h | h
      · exact absurd h hnr
      · exact h
    refine ⟨?_, hnone⟩
    have heq := hmem (K' + j) (by omega)
    have hkk : (ex (K' + j)).k = (ex K').k := by rw [heq]
    by_cases hr : Running (ex K') (sched (K' + j)).1
    · have hlt := (hr.inCall (he.inv hn K')).2
      have hr' := (hrunm (K' + j) (by omega) _).mpr hr
      have heq1 := hmem (K' + j + 1) (by omega)
      rcases running_step (he.inv hn (K' + j)) hr' (by rw [hkk]; exact hcall) (he.next (K' + j)) with
        ⟨m, hb, h⟩ | ⟨-, h | h⟩
      · rw [h]
        unfold advance
        rw [if_pos (by omega), hb]
        rfl
      · exact absurd (by rw [heq1, heq]) h
      · exact absurd (by rw [heq1, heq]) h
    · have hsame : ex (K' + j + 1) = ex (K' + j) := by
        rcases hst (K' + j) (by omega) with h | h
        · exact h
        · exact absurd ((hrunm (K' + j) (by omega) _).mp h.1) hr
      rw [hsame]
      unfold advance
      split
      · rename_i hlt
        rw [hnone _ hlt hr]; rfl
      · rfl
  have hmemAt : ∀ j, memAt cl (fun j => (sched (K' + j)).1) (ex K').mem j = (ex (K' + j)).mem := by
    intro j
    induction j with
    | zero => rfl
    | succ j ih =>
      show advance cl _ (memAt cl _ _ j) = _
      rw [ih]
      exact (hadv j).1.symm
  have hagain : ∀ i, i < cl.n → ∀ k, ∃ k', k ≤ k' ∧ (sched (K' + k')).1 = i := by
    intro i hi k
    have hle : i ≤ need calls calls.length := by
      have h1 := need_succ hin.1.2
      have h2 := need_mono calls (show (ex K').k + 1 ≤ calls.length from hin.1.2)
      omega
    obtain ⟨k', hk', h⟩ := hf.again i hle (K' + k)
    refine ⟨k' - K', by omega, ?_⟩
    rw [show K' + (k' - K') = k' by omega]
    exact h
  obtain ⟨k, hk⟩ := ht _ _ cl hres hcall
    (appendFn pre (fun j => (sched (K' + j)).1))
    (memAt cl (appendFn pre (fun j => (sched (K' + j)).1)) (cl.prepare m1)) rfl (fun _ => rfl) (by
      intro i hi k
      obtain ⟨k', hk', h⟩ := hagain i hi k
      refine ⟨pre.length + k', by omega, ?_⟩
      unfold appendFn
      rw [dif_neg (by omega), show pre.length + k' - pre.length = k' by omega]
      exact h)
  -- from then on, all tasks have returned
  have hlater : ∀ d i, i < cl.n → cl.body i
      (memAt cl (appendFn pre (fun j => (sched (K' + j)).1)) (cl.prepare m1) (k + d)) = none := by
    intro d
    induction d with
    | zero => exact hk
    | succ d ih => exact fun i hi => hstab.advance hi (ih i hi)
  -- but the running one is scheduled again, and would return
  obtain ⟨k', hk', hkt⟩ := hagain t (by omega) k
  have hbn := hlater (pre.length + k' - k) t (by omega)
  rw [show k + (pre.length + k' - k) = pre.length + k' by omega, memAt_append, ← hmm, hmemAt] at hbn
  have heq := hmem (K' + k') (by omega)
  have heq1 := hmem (K' + k' + 1) (by omega)
  have hkk : (ex (K' + k')).k = (ex K').k := by rw [heq]
  have hx := he.next (K' + k')
  rw [hkt] at hx
  rcases running_step (he.inv hn (K' + k')) ((hrunm (K' + k') (by omega) _).mpr hrun)
    (by rw [hkk]; exact hcall) hx with ⟨m, hb, h⟩ | ⟨-, h | h⟩
  · rw [hbn] at hb; cases hb
  · exact absurd (by rw [heq1, heq]) h
  · exact absurd (by rw [heq1, heq]) h

end Ruy.Pool

import Verif.Pool.Inv
/-
Steps of a worker never fault and preserve the invariant.
-/
namespace Ruy.Pool

variable {σ : Type}

theorem push_self (l : Nat → Nat → List Nat) (k i t : Nat) : push l k i t k i = l k i ++ [t] := by
  simp [push]

theorem push_other (l : Nat → Nat → List Nat) {k i j m : Nat} (t : Nat) (h : j ≠ k ∨ m ≠ i) :
    push l k i t j m = l j m := by
  unfold push
  by_cases hj : j = k
  · subst hj
    have hm : m ≠ i := by rcases h with h | h; exact absurd rfl h; exact h
    simp [hm]
  · simp [hj]

/-- What a step of worker `w` may change. -/
structure LocalTo (s s' : State σ) (w : Nat) : Prop where
  k : s'.k = s.k
  threads : s'.threads = s.threads
  main : s'.main = s.main ∨ ∃ p, s.main = .wait p .asleep ∧ s'.main = .wait p .lock
  pc : ∀ v, v ≠ w → s'.pc v = s.pc v
  st : ∀ v, v ≠ w → s'.st v = s.st v
  task : ∀ v, v ≠ w → s'.task v = s.task v
  sm : ∀ v, v ≠ w → s'.smutex v = s.smutex v
  begun : ∀ j i, j ≠ s.k ∨ i ≠ w + 1 → s'.begun j i = s.begun j i
  ended : ∀ j i, j ≠ s.k ∨ i ≠ w + 1 → s'.ended j i = s.ended j i

section
variable {s s' : State σ} {w : Nat}

theorem LocalTo.role (h : LocalTo s s' w) (n v : Nat) : role s'.main n v = role s.main n v := by
  rcases h.main with h | ⟨p, h1, h2⟩
  · rw [h]
  · rw [h1, h2]; cases p <;> rfl

theorem LocalTo.rem (h : LocalTo s s' w) (n v : Nat) : rem s'.main n v = rem s.main n v := by
  rcases h.main with h | ⟨p, h1, h2⟩
  · rw [h]
  · rw [h1, h2]; rfl

theorem LocalTo.inC (h : LocalTo s s' w) : s'.main.inC = s.main.inC := by
  rcases h.main with h | ⟨p, h1, h2⟩
  · rw [h]
  · rw [h1, h2]; rfl

theorem LocalTo.inS (h : LocalTo s s' w) (v : Nat) : s'.main.inS v = s.main.inS v := by
  rcases h.main with h | ⟨p, h1, h2⟩
  · rw [h]
  · rw [h1, h2]; rfl

theorem LocalTo.wn (h : LocalTo s s' w) (v : Nat) :
    s'.main.willNotify v = s.main.willNotify v := by
  rcases h.main with h | ⟨p, h1, h2⟩
  · rw [h]
  · rw [h1, h2]; rfl

theorem LocalTo.main0 (h : LocalTo s s' w) : main0 s'.main = main0 s.main := by
  rcases h.main with h | ⟨p, h1, h2⟩
  · rw [h]
  · rw [h1, h2]; cases p <;> rfl

theorem LocalTo.mainOk (h : LocalTo s s' w) {calls : List (Call σ)} {k n t : Nat}
    (hm : MainOk calls s.main k n t) : MainOk calls s'.main k n t := by
  rcases h.main with h | ⟨p, h1, h2⟩
  · rw [h]; exact hm
  · rw [h2]; rw [h1] at hm; cases p <;> exact hm

theorem LocalTo.alive (h : LocalTo s s' w) (v : Nat) : Alive s' v ↔ Alive s v := by
  unfold Alive
  rcases h.main with h | ⟨p, h1, h2⟩
  · rw [h]
  · rw [h1, h2]

end

theorem Inv.local {calls : List (Call σ)} {s s' : State σ} {w : Nat} (inv : Inv calls s)
    (hw : w < s.threads) (h : LocalTo s s' w) (hne : s.pc w ≠ .exited)
    (hrole : RoleOk s.k w (role s.main (callN calls s.k) w) (s'.pc w) (s'.st w)
      (s'.task w) (s'.begun s.k (w + 1)) (s'.ended s.k (w + 1)))
    (hcount : s'.count + owe (s.pc w) (s.st w) = s.count + owe (s'.pc w) (s'.st w))
    (hcm0 : s'.cmutex = some 0 ↔ s.cmutex = some 0)
    (hcmv : ∀ v, v ≠ w → (s'.cmutex = some (v + 1) ↔ s.cmutex = some (v + 1)))
    (hcmw : s'.cmutex = some (w + 1) ↔ (s'.pc w).inC)
    (hsm0 : s'.smutex w = some 0 ↔ s.smutex w = some 0)
    (hsmw : ∀ v, s'.smutex w = some (v + 1) ↔ v = w ∧ (s'.pc w).inS)
    (hwakeW : s'.pc w = .asleep → s'.st w ≠ .ready → s.main.willNotify w)
    (hwakeM : ∀ p, s'.main = .wait p .asleep → s'.count = 0 →
      (s.count = 0 ∧ ((s.pc w).willNotify → (s'.pc w).willNotify)) ∨ (s'.pc w).willNotify)
    (hle : s'.count ≤ s.count := by exact Nat.le_refl _) :
    Inv calls s' where
  workers := by
    intro v hv
    rw [h.threads] at hv
    rw [h.k, h.role]
    by_cases hvw : v = w
    · subst hvw; exact hrole
    · rw [h.pc v hvw, h.st v hvw, h.task v hvw, h.begun _ _ (.inr (by omega)),
        h.ended _ _ (.inr (by omega))]
      exact inv.workers v hv
  count := by
    rw [h.k, h.rem, h.threads]
    have hc := cnt_update (f := fun w => owe (s.pc w) (s.st w))
      (g := fun w => owe (s'.pc w) (s'.st w)) (w := w)
      (fun v hv => by simp only [h.pc v hv, h.st v hv]) hw
    have := inv.count
    omega
  cm0 := by rw [h.inC, hcm0]; exact inv.cm0
  cmw := by
    intro v
    rw [h.threads]
    by_cases hvw : v = w
    · subst hvw; rw [hcmw]; simp [hw]
    · rw [h.pc v hvw, hcmv v hvw]; exact inv.cmw v
  sm0 := by
    intro v hv
    rw [h.threads] at hv
    rw [h.inS]
    by_cases hvw : v = w
    · subst hvw; rw [hsm0]; exact inv.sm0 v hv
    · rw [h.sm v hvw]; exact inv.sm0 v hv
  smw := by
    intro v hv u
    rw [h.threads] at hv
    by_cases hvw : v = w
    · subst hvw; exact hsmw u
    · rw [h.sm v hvw, h.pc v hvw]; exact inv.smw v hv u
  wakeW := by
    intro v hv h1 h2
    rw [h.threads] at hv
    rw [h.wn]
    by_cases hvw : v = w
    · subst hvw; exact hwakeW h1 h2
    · rw [h.pc v hvw] at h1; rw [h.st v hvw] at h2; exact inv.wakeW v hv h1 h2
  wakeM := by
    intro p hp hc
    rw [h.threads]
    rcases hwakeM p hp hc with ⟨h0, himp⟩ | h1
    · have hm : s.main = .wait p .asleep := by
        rcases h.main with h | ⟨p', h1, h2⟩
        · rw [← h]; exact hp
        · rw [h2] at hp; cases hp
      obtain ⟨v, hv, hn⟩ := inv.wakeM p hm h0
      by_cases hvw : v = w
      · subst hvw; exact ⟨v, hv, himp hn⟩
      · exact ⟨v, hv, by rw [h.pc v hvw]; exact hn⟩
    · exact ⟨w, hw, h1⟩
  unl := by
    intro p hp
    have hm : s.main = .wait p .unlock := by
      rcases h.main with h | ⟨p', h1, h2⟩
      · rw [← h]; exact hp
      · rw [h2] at hp; cases hp
    have := inv.unl p hm
    omega
  main := by rw [h.k, h.threads]; exact h.mainOk inv.main
  task0 := by
    rw [h.k, h.begun _ _ (.inr (by omega)), h.ended _ _ (.inr (by omega)), h.main0]
    exact inv.task0
  joined := by
    intro v hv hd
    rw [h.threads] at hv
    rw [h.alive] at hd
    have := inv.joined v hv hd
    by_cases hvw : v = w
    · subst hvw; exact absurd this hne
    · rw [h.pc v hvw]; exact this
  past := by
    intro j hj i
    rw [h.k] at hj
    rw [h.begun _ _ (.inl (by omega)), h.ended _ _ (.inl (by omega))]
    exact inv.past j hj i
  future := by
    intro j hj i
    rw [h.k] at hj
    rw [h.begun _ _ (.inl (by omega)), h.ended _ _ (.inl (by omega))]
    exact inv.future j hj i
  rest := by
    intro i hi
    rw [h.threads] at hi
    rw [h.k, h.begun _ _ (.inr (by omega)), h.ended _ _ (.inr (by omega))]
    exact inv.rest i hi

/-- A worker that has not exited still has its Thread object. -/
theorem Inv.alive {calls : List (Call σ)} {s : State σ} {w : Nat} (inv : Inv calls s)
    (hw : w < s.threads) (hne : s.pc w ≠ .exited) : Alive s w := by
  by_contra hd
  exact hne (inv.joined w hw hd)

theorem posted_live {m : MPC} {n w : Nat} (h : role m n w = .posted) : m ≠ .idle := by
  rintro rfl; cases h

theorem MainOk.posted_lt {calls : List (Call σ)} {m : MPC} {k n t w : Nat}
    (h : MainOk calls m k n t) (hr : Pool.role m n w = .posted) : k < calls.length := by
  cases m with
  | idle => cases hr
  | resetLoad p => cases hr
  | resetStore p => cases hr
  | spawn => cases hr
  | wait p q =>
    cases p with
    | create => cases hr
    | work => exact h.1
  | csLoad ex v =>
    cases ex with
    | false => exact h.1
    | true => simp only [Pool.role] at hr; split at hr <;> cases hr
  | csTask v => exact h.1
  | csStore ex v =>
    cases ex with
    | false => exact h.1
    | true => simp only [Pool.role] at hr; split at hr <;> cases hr
  | csLock ex v =>
    cases ex with
    | false => exact h.1
    | true => simp only [Pool.role] at hr; split at hr <;> cases hr
  | csNotify ex v =>
    cases ex with
    | false => exact h.1
    | true => simp only [Pool.role] at hr; split at hr <;> cases hr
  | csUnlock ex v =>
    cases ex with
    | false => exact h.1
    | true => simp only [Pool.role] at hr; split at hr <;> cases hr
  | run0 => exact h.1
  | join v => cases hr
  | gone => cases hr

end Ruy.Pool

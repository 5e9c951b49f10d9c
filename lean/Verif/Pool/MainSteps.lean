import Verif.Pool.MainInv
namespace Ruy.Pool

variable {σ : Type} {calls : List (Call σ)} {s : State σ} {c : Choice}

theorem Inv.cm_ne (inv : Inv calls s) (h : s.main.inC = false) : s.cmutex ≠ some 0 := by
  intro hc; have := inv.cm0.mp hc; rw [h] at this; cases this

theorem step_resetLoad {p : Purpose} (inv : Inv calls s) (hm : s.main = .resetLoad p) :
    ∃ s', stepM calls s c = .ok s' ∧ Inv calls s' := by
  have mk := inv.main
  rw [hm] at mk
  have hcm := inv.cm_ne (by rw [hm]; rfl)
  have h0 : s.count = 0 := by
    have h1 := inv.count
    have h2 : cnt (fun w => owe (s.pc w) (s.st w)) s.threads = 0 :=
      cnt_zero.mpr fun w hw => (inv.workers w hw).owe_zero (by rw [hm]; rfl)
    rw [hm] at h1
    simp only [rem] at h1
    omega
  unfold stepM
  rw [hm]
  dsimp only
  rw [C.check_of h0, C.ok_bind]
  refine ⟨_, rfl, inv.mainPc (m' := .resetStore p) (n' := s.count) (x := s.cmutex) ?_ ?_ ?_
    (fun _ => Iff.rfl) ?_ ?_ ?_ ?_ ?_ ?_⟩
  · intro w hw h; rw [hm] at h; exact h
  · rw [hm]; rfl
  · simp [hcm, MPC.inC]
  · intro w _; rw [hm]; rfl
  · intro w h; rw [hm] at h; cases h
  · intro p h; cases h
  · cases p <;> exact mk
  · rw [hm]; rfl
  · intro w _ h; exact absurd trivial h

theorem step_resetStore {p : Purpose} (inv : Inv calls s) (hm : s.main = .resetStore p) :
    ∃ s', stepM calls s c = .ok s' ∧ Inv calls s' := by
  have mk := inv.main
  rw [hm] at mk
  have hcm := inv.cm_ne (by rw [hm]; rfl)
  have h0 : s.count = 0 := by
    have h1 := inv.count
    have h2 : cnt (fun w => owe (s.pc w) (s.st w)) s.threads = 0 :=
      cnt_zero.mpr fun w hw => (inv.workers w hw).owe_zero (by rw [hm]; rfl)
    rw [hm] at h1
    simp only [rem] at h1
    omega
  unfold stepM
  rw [hm]
  cases p with
  | create =>
    dsimp only
    refine ⟨_, rfl, inv.mainPc (m' := .spawn) (x := s.cmutex) ?_ ?_ ?_
      (fun _ => Iff.rfl) ?_ ?_ ?_ ?_ ?_ ?_⟩
    · intro w hw h; rw [hm] at h; exact h.of_idle
    · rw [hm, h0, curN_eq]; simp only [rem]; omega
    · simp [hcm, MPC.inC]
    · intro w _; rw [hm]; rfl
    · intro w h; rw [hm] at h; cases h
    · intro p h; cases h
    · exact ⟨mk.1, by rw [← mk.2.1]; exact mk.2.2, Nat.le_of_eq mk.2.1.symm, Nat.le_of_lt mk.2.2⟩
    · rw [hm]; rfl
    · intro w _ h; exact absurd trivial h
  | work =>
    dsimp only
    refine ⟨_, rfl, inv.mainPc (m' := .csLoad false 0) (x := s.cmutex) ?_ ?_ ?_
      (fun _ => Iff.rfl) ?_ ?_ ?_ ?_ ?_ ?_⟩
    · intro w hw h; rw [hm] at h; simpa [role] using h
    · rw [hm, h0, curN_eq]; simp only [rem]; omega
    · simp [hcm, MPC.inC]
    · intro w _; rw [hm]; rfl
    · intro w h; rw [hm] at h; cases h
    · intro p h; cases h
    · exact ⟨mk.1, by have := mk.2.1; omega, mk.2.2.1, mk.2.2.2⟩
    · rw [hm]; rfl
    · intro w _ h; exact absurd trivial h

theorem step_spawn (inv : Inv calls s) (hm : s.main = .spawn) :
    ∃ s', stepM calls s c = .ok s' ∧ Inv calls s' := by
  have mk := inv.main
  rw [hm] at mk
  obtain ⟨mk1, mk2, mk3, mk4⟩ := mk
  have hcm := inv.cm_ne (by rw [hm]; rfl)
  unfold stepM
  rw [hm]
  dsimp only
  rw [curN_eq]
  split
  · rename_i hlt
    refine ⟨_, rfl, ?_⟩
    have hre := inv.rest (s.threads + 1) (by omega)
    constructor
    · intro w hw
      have hw : w < s.threads + 1 := hw
      by_cases h : w = s.threads
      · subst h
        simp [role, RoleOk, hm, hre]
      · have := inv.workers w (by omega)
        rw [hm] at this
        simpa [h] using this
    · have h1 := inv.count
      rw [hm] at h1
      have h2 : cnt (fun w => owe (Function.update s.pc s.threads WPC.enter w)
          (Function.update s.st s.threads WState.startup w)) s.threads =
          cnt (fun w => owe (s.pc w) (s.st w)) s.threads := by
        apply cnt_congr
        intro w hw
        have : w ≠ s.threads := by omega
        simp [this]
      simp only [cnt]
      rw [h2]
      simp only [Function.update_self, owe, hm, rem] at h1 ⊢
      omega
    · have := inv.cm0; rw [hm] at this; exact this
    · intro w
      have := inv.cmw w
      simp only at this ⊢
      rw [this]
      by_cases h : w = s.threads
      · subst h; simp [WPC.inC]
      · simp only [Function.update_of_ne h]
        constructor
        · intro ⟨h1, h2⟩; exact ⟨by omega, h2⟩
        · intro ⟨h1, h2⟩; exact ⟨by omega, h2⟩
    · intro w hw
      have hw : w < s.threads + 1 := hw
      by_cases h : w = s.threads
      · subst h; simp [hm, MPC.inS]
      · have := inv.sm0 w (by omega)
        rw [hm] at this
        simpa [h] using this
    · intro w hw u
      have hw : w < s.threads + 1 := hw
      by_cases h : w = s.threads
      · subst h; simp [WPC.inS]
      · have := inv.smw w (by omega) u
        simpa [h] using this
    · intro w hw h1 h2
      have hw : w < s.threads + 1 := hw
      by_cases h : w = s.threads
      · subst h; simp at h1
      · simp only [Function.update_of_ne h] at h1 h2
        have := inv.wakeW w (by omega) h1 h2
        rw [hm] at this
        exact this
    · intro p hp; cases hp
    · intro p hp; cases hp
    · exact ⟨mk1, mk2, Nat.le_succ_of_le mk3, hlt⟩
    · have := inv.task0; rw [hm] at this; exact this
    · intro w _ h; exact absurd trivial h
    · exact inv.past
    · exact inv.future
    · intro i hi
      have hi : s.threads + 1 < i := hi
      exact inv.rest i (by omega)
  · have hneed := need_succ (calls := calls) mk1
    refine ⟨_, rfl, inv.mainPc (m' := .wait .create .first) (n' := s.count) (x := s.cmutex) ?_ ?_ ?_
      (fun _ => Iff.rfl) ?_ ?_ ?_ ?_ ?_ ?_⟩
    · intro w hw h; rw [hm] at h; exact h
    · rw [hm]; simp only [rem]; omega
    · simp [hcm, MPC.inC]
    · intro w _; rw [hm]; rfl
    · intro w h; rw [hm] at h; cases h
    · intro p h; cases h
    · exact ⟨mk1, by omega, by omega, by omega⟩
    · rw [hm]; rfl
    · intro w _ h; exact absurd trivial h

/-- Returning from `Wait`. -/
theorem Inv.afterWait {p : Purpose} {q : WaitPC} {x : Option Nat} (inv : Inv calls s)
    (hm : s.main = .wait p q) (h0 : s.count = 0) (hx0 : x ≠ some 0)
    (hx : ∀ w, x = some (w + 1) ↔ s.cmutex = some (w + 1)) :
    Inv calls { afterWait s p with cmutex := x } := by
  have mk := inv.main
  rw [hm] at mk
  cases p with
  | create =>
    obtain ⟨mk1, mk2, mk3, mk4⟩ := mk
    refine inv.mainPc (m' := .resetLoad .work) (n' := s.count) (x := x) ?_ ?_ ?_
      hx ?_ ?_ ?_ ?_ ?_ ?_
    · intro w hw h
      rw [hm] at h
      exact RoleOk.boot_idle h (inv.owe_zero h0 hw)
    · rw [hm]; rfl
    · simp [hx0, MPC.inC]
    · intro w _; rw [hm]; rfl
    · intro w h; rw [hm] at h; cases h
    · intro p h; cases h
    · exact ⟨mk1, mk2, by omega, mk4⟩
    · rw [hm]; rfl
    · intro w _ h; exact absurd trivial h
  | work =>
    obtain ⟨mk1, mk2, mk3, mk4⟩ := mk
    have t0 := inv.task0
    rw [hm] at t0
    refine inv.ret (e' := s.ended) mk1 mk4 mk3 (by omega) ?_ t0.1 t0.2 (fun _ _ _ => rfl) h0 hx0 hx
      ?_ ?_
    · intro w hw
      have hr := inv.workers w hw
      rw [hm] at hr
      simp only [role] at hr
      split at hr
      · rename_i hlt
        rw [if_pos (by omega)]
        exact hr.posted_idle (inv.owe_zero h0 hw)
      · rename_i hlt
        rw [if_neg (by omega)]
        exact hr
    · intro w _; rw [hm]; rfl
    · intro w _; rw [hm]; rfl

theorem step_wait {p : Purpose} {q : WaitPC} (inv : Inv calls s) (hm : s.main = .wait p q) :
    ∃ s', stepM calls s c = .ok s' ∧ Inv calls s' := by
  have mk := inv.main
  rw [hm] at mk
  -- moving within Wait
  have move : ∀ (q' : WaitPC) (x : Option Nat), (x = some 0 ↔ (MPC.wait p q').inC) →
      (∀ w, x = some (w + 1) ↔ s.cmutex = some (w + 1)) → (q' = .asleep → s.count ≠ 0) →
      (q' = .unlock → s.count = 0) →
      Inv calls { setM s (.wait p q') with cmutex := x } := by
    intro q' x hx hxw ha hu
    refine inv.mainPc (m' := .wait p q') (n' := s.count) (x := x) ?_ ?_ hx hxw ?_ ?_ ?_ ?_ ?_ ?_
      (by intro p' h; cases h; exact hu rfl)
    · intro w hw h; rw [hm] at h; cases p <;> exact h
    · rw [hm]; rfl
    · intro w _; rw [hm]; rfl
    · intro w h; rw [hm] at h; cases h
    · intro p' h; cases h; exact ha rfl
    · cases p <;> exact mk
    · rw [hm]; cases p <;> rfl
    · intro w _ h; exact absurd trivial h
  unfold stepM
  rw [hm]
  dsimp only
  unfold stepWait
  cases q with
  | first =>
    have hcm := inv.cm_ne (by rw [hm]; rfl)
    dsimp only
    split
    · exact ⟨_, rfl, by cases p <;> exact inv.afterWait hm (by assumption) hcm (fun _ => Iff.rfl)⟩
    · exact ⟨_, rfl, move .spin s.cmutex (by simp [hcm, MPC.inC]) (fun _ => Iff.rfl)
        (by intro h; cases h) (by intro h; cases h)⟩
  | spin =>
    have hcm := inv.cm_ne (by rw [hm]; rfl)
    dsimp only
    split
    · exact ⟨_, rfl, move .lock s.cmutex (by simp [hcm, MPC.inC]) (fun _ => Iff.rfl)
        (by intro h; cases h) (by intro h; cases h)⟩
    · split
      · exact ⟨_, rfl, by cases p <;> exact inv.afterWait hm (by assumption) hcm (fun _ => Iff.rfl)⟩
      · exact ⟨_, rfl, inv⟩
  | lock =>
    dsimp only
    split
    · rename_i hcm
      exact ⟨_, rfl, move .check (some 0) (by simp [MPC.inC]) (by intro w; simp [hcm])
        (by intro h; cases h) (by intro h; cases h)⟩
    · exact ⟨_, rfl, inv⟩
  | check =>
    have hcm : s.cmutex = some 0 := inv.cm0.mpr (by rw [hm]; rfl)
    dsimp only
    rw [C.require_of hcm, C.ok_bind]
    split
    · exact ⟨_, rfl, move .unlock s.cmutex (by simp [hcm, MPC.inC]) (fun _ => Iff.rfl)
        (by intro h; cases h) (fun _ => by assumption)⟩
    · rename_i h0
      exact ⟨_, rfl, move .asleep none (by simp [MPC.inC]) (by intro w; simp [hcm]) (fun _ => h0)
        (by intro h; cases h)⟩
  | asleep =>
    have hcm := inv.cm_ne (by rw [hm]; rfl)
    dsimp only
    split
    · exact ⟨_, rfl, move .lock s.cmutex (by simp [hcm, MPC.inC]) (fun _ => Iff.rfl)
        (by intro h; cases h) (by intro h; cases h)⟩
    · exact ⟨_, rfl, inv⟩
  | unlock =>
    have hcm : s.cmutex = some 0 := inv.cm0.mpr (by rw [hm]; rfl)
    have h0 : s.count = 0 := (inv.unl p hm)
    dsimp only
    rw [C.require_of hcm, C.ok_bind]
    exact ⟨_, rfl, inv.afterWait hm h0 (by simp) (by intro w; simp [hcm])⟩

/-- The role facts when work is posted to a worker. -/
theorem RoleOk.post {k w : Nat} {p : WPC} {x : WState} {τ : Option (Nat × Nat)}
    {b e : List Nat} (h : RoleOk k w .wrote p x τ b e) : RoleOk k w .posted p .hasWork τ b e := by
  obtain ⟨h1, h2, h3, h4, h5⟩ := h
  exact .inl ⟨rfl, h2, h4, h5, .inl h3⟩

/-- The role facts when a worker is told to exit. -/
theorem RoleOk.exit {k w : Nat} {p : WPC} {x : WState} {τ : Option (Nat × Nat)}
    {b e : List Nat} (h : RoleOk k w .idle p x τ b e) : RoleOk k w .exiting p .exit τ b e := by
  obtain ⟨h1, h2, h3, h4, h5⟩ := h
  exact ⟨rfl, h2, h4, h5, .inl h3⟩

theorem MainOk.csBound {m : MPC} {k n t v : Nat} {ex : Bool}
    (h : MainOk calls m k n t) (hm : m = .csLoad ex v ∨ m = .csStore ex v ∨ m = .csLock ex v ∨
      m = .csNotify ex v ∨ m = .csUnlock ex v) : v < t := by
  cases ex <;> rcases hm with rfl | rfl | rfl | rfl | rfl <;> simp only [MainOk] at h <;> omega

theorem step_csLoad {ex : Bool} {v : Nat} (inv : Inv calls s) (hm : s.main = .csLoad ex v) :
    ∃ s', stepM calls s c = .ok s' ∧ Inv calls s' := by
  have mk := inv.main
  rw [hm] at mk
  have hv : v < s.threads := mk.csBound (.inl rfl)
  have hcm := inv.cm_ne (by rw [hm]; rfl)
  have hr := inv.workers v hv
  have hro : role s.main (callN calls s.k) v = .idle := by rw [hm]; cases ex <;> simp [role]
  rw [hro] at hr
  have hst : s.st v = .ready := hr.1
  unfold stepM
  rw [hm]
  dsimp only
  rw [C.require_of hv, C.ok_bind, C.check_of (by rw [hst]; cases ex <;> simp [posted]), C.ok_bind,
    C.check_of (.inl hst), C.ok_bind]
  cases ex with
  | true =>
    refine ⟨_, rfl, inv.mainPc (m' := .csStore true v) (n' := s.count) (x := s.cmutex) ?_ ?_ ?_
      (fun _ => Iff.rfl) ?_ ?_ ?_ ?_ ?_ ?_⟩
    · intro w hw h; rw [hm] at h; exact h
    · rw [hm]; rfl
    · simp [hcm, MPC.inC]
    · intro w _; rw [hm]; rfl
    · intro w h; rw [hm] at h; cases h
    · intro p h; cases h
    · exact mk
    · rw [hm]; rfl
    · intro w _ h; exact absurd trivial h
  | false =>
    refine ⟨_, rfl, inv.mainPc (m' := .csTask v) (n' := s.count) (x := s.cmutex) ?_ ?_ ?_
      (fun _ => Iff.rfl) ?_ ?_ ?_ ?_ ?_ ?_⟩
    · intro w hw h; rw [hm] at h; exact h
    · rw [hm]; rfl
    · simp [hcm, MPC.inC]
    · intro w _; rw [hm]; rfl
    · intro w h; rw [hm] at h; cases h
    · intro p h; cases h
    · exact mk
    · rw [hm]; rfl
    · intro w _ h; exact absurd trivial h

theorem step_csTask {v : Nat} (inv : Inv calls s) (hm : s.main = .csTask v) :
    ∃ s', stepM calls s c = .ok s' ∧ Inv calls s' := by
  have mk := inv.main
  rw [hm] at mk
  have hv : v < s.threads := by simp only [MainOk] at mk; omega
  have hcm := inv.cm_ne (by rw [hm]; rfl)
  have hr := inv.workers v hv
  have hro : role s.main (callN calls s.k) v = .idle := by rw [hm]; simp [role]
  rw [hro] at hr
  have ht : s.task v = none := hr.2.1
  unfold stepM
  rw [hm]
  dsimp only
  rw [C.check_of ht, C.ok_bind]
  refine ⟨_, rfl, inv.mainAt v rfl rfl (fun _ _ => rfl) (fun _ _ _ => rfl) (fun _ _ _ => rfl)
    ?_ ?_ ?_ (fun _ => Iff.rfl) rfl ?_ (fun _ _ _ => Iff.rfl) rfl ?_ ?_ ?_ ?_ ?_⟩
  · intro w hw
    have hw' := inv.workers w hw
    rw [hm] at hw'
    simp only [setM, role] at hw' ⊢
    by_cases h : w = v
    · subst h
      rw [if_neg (by omega), if_pos rfl]
      rw [if_neg (by omega)] at hw'
      obtain ⟨h1, h2, h3, h4, h5⟩ := hw'
      exact ⟨h1, by simp, h3, h4, h5⟩
    · rw [if_neg h, Function.update_of_ne h]
      exact hw'
  · have := inv.count; rw [hm] at this; exact this
  · show s.cmutex = some 0 ↔ false = true
    simp [hcm]
  · intro w hw
    have := inv.sm0 w hw
    rw [hm] at this
    exact this
  · intro w hw h1 h2
    have := inv.wakeW w hw h1 h2
    rw [hm] at this
    exact this
  · intro p h; cases h
  · exact mk
  · have := inv.task0; rw [hm] at this; exact this
  · intro w _ h; exact absurd trivial h

theorem owe_of_waiting {p : WPC} (h : p.waiting) (x : WState) :
    owe p x = if x = .hasWork then 1 else 0 := by
  cases p <;> simp [WPC.waiting] at h <;> simp [owe]

theorem step_csStore {ex : Bool} {v : Nat} (inv : Inv calls s) (hm : s.main = .csStore ex v) :
    ∃ s', stepM calls s c = .ok s' ∧ Inv calls s' := by
  have mk := inv.main
  rw [hm] at mk
  have hv : v < s.threads := mk.csBound (.inr (.inl rfl))
  have hcm := inv.cm_ne (by rw [hm]; rfl)
  have hr := inv.workers v hv
  rw [hm] at hr
  unfold stepM
  rw [hm]
  dsimp only
  refine ⟨_, rfl, inv.mainAt v rfl rfl (fun _ _ => rfl) (fun _ _ _ => rfl) (fun _ _ _ => rfl)
    ?_ ?_ ?_ (fun _ => Iff.rfl) rfl ?_ (fun _ _ _ => Iff.rfl) rfl ?_ ?_ ?_ ?_ ?_⟩
  · intro w hw
    have hw' := inv.workers w hw
    rw [hm] at hw'
    cases ex with
    | true =>
      simp only [setM, role] at hw' ⊢
      by_cases h : w = v
      · subst h
        rw [if_pos (by omega)]
        rw [if_neg (by omega)] at hw'
        simp only [Function.update_self]
        exact hw'.exit
      · rw [Function.update_of_ne h]
        by_cases h2 : w < v
        · rw [if_pos (by omega)]; rw [if_pos h2] at hw'; exact hw'
        · rw [if_neg (by omega)]; rw [if_neg h2] at hw'; exact hw'
    | false =>
      simp only [setM, role] at hw' ⊢
      by_cases h : w = v
      · subst h
        rw [if_pos (by omega)]
        rw [if_neg (by omega), if_pos rfl] at hw'
        simp only [Function.update_self]
        exact hw'.post
      · rw [Function.update_of_ne h]
        by_cases h2 : w < v
        · rw [if_pos (by omega)]; rw [if_pos h2] at hw'; exact hw'
        · rw [if_neg (by omega)]; rw [if_neg h2, if_neg h] at hw'; exact hw'
  · have h1 := inv.count
    rw [hm] at h1
    have h2 := cnt_update (f := fun w => owe (s.pc w) (s.st w))
      (g := fun w => owe (s.pc w) (Function.update s.st v (posted ex) w)) (w := v)
      (fun u hu => by simp only [Function.update_of_ne hu]) hv
    simp only [Function.update_self] at h2
    simp only [setM]
    cases ex with
    | true =>
      simp only [role] at hr
      rw [if_neg (by omega)] at hr
      rw [owe_of_waiting hr.2.2.1, owe_of_waiting hr.2.2.1, hr.1] at h2
      simp only [rem] at h1 ⊢
      simp [posted] at h2 ⊢
      omega
    | false =>
      simp only [role] at hr
      rw [if_neg (by omega), if_pos trivial] at hr
      rw [owe_of_waiting hr.2.2.1, owe_of_waiting hr.2.2.1, hr.1] at h2
      simp only [rem] at h1 ⊢
      simp [posted] at h2 ⊢
      simp only [MainOk] at mk
      omega
  · show s.cmutex = some 0 ↔ false = true
    simp [hcm]
  · intro w hw
    have := inv.sm0 w hw
    rw [hm] at this
    exact this
  · intro w hw h1 h2
    by_cases h : w = v
    · subst h; simp [setM, MPC.willNotify]
    · simp only [Function.update_of_ne h] at h2
      have := inv.wakeW w hw h1 h2
      rw [hm] at this
      cases this
  · intro p h; cases h
  · cases ex <;> exact mk
  · have := inv.task0; rw [hm] at this; exact this
  · intro w _ h; exact absurd trivial h

theorem step_csLock {ex : Bool} {v : Nat} (inv : Inv calls s) (hm : s.main = .csLock ex v) :
    ∃ s', stepM calls s c = .ok s' ∧ Inv calls s' := by
  have mk := inv.main
  rw [hm] at mk
  have hv : v < s.threads := mk.csBound (.inr (.inr (.inl rfl)))
  have hcm := inv.cm_ne (by rw [hm]; rfl)
  unfold stepM
  rw [hm]
  dsimp only
  split
  · rename_i hsm
    refine ⟨_, rfl, inv.mainAt v rfl rfl (fun _ _ => rfl) (fun _ _ _ => rfl) (fun _ _ _ => rfl)
      ?_ ?_ ?_ (fun _ => Iff.rfl) rfl ?_ ?_ rfl ?_ ?_ ?_ ?_ ?_⟩
    · intro w hw
      have hw' := inv.workers w hw
      rw [hm] at hw'
      cases ex <;> exact hw'
    · have := inv.count
      rw [hm] at this
      cases ex <;> exact this
    · show s.cmutex = some 0 ↔ false = true
      simp [hcm]
    · intro w hw
      by_cases h : w = v
      · subst h; simp [setM, MPC.inS]
      · have := inv.sm0 w hw
        rw [hm] at this
        simp only [Function.update_of_ne h]
        rw [this]
        simp [setM, MPC.inS, Ne.symm h]
    · intro w hw u
      by_cases h : w = v
      · subst h; simp [hsm]
      · simp only [Function.update_of_ne h]
    · intro w hw h1 h2
      have := inv.wakeW w hw h1 h2
      rw [hm] at this
      exact this
    · intro p h; cases h
    · cases ex <;> exact mk
    · have := inv.task0; rw [hm] at this; exact this
    · intro w _ h; exact absurd trivial h
  · exact ⟨_, rfl, inv⟩

theorem step_csNotify {ex : Bool} {v : Nat} (inv : Inv calls s) (hm : s.main = .csNotify ex v) :
    ∃ s', stepM calls s c = .ok s' ∧ Inv calls s' := by
  have mk := inv.main
  rw [hm] at mk
  have hv : v < s.threads := mk.csBound (.inr (.inr (.inr (.inl rfl))))
  have hcm := inv.cm_ne (by rw [hm]; rfl)
  have e1 : (notifyWorker s v).k = s.k ∧ (notifyWorker s v).threads = s.threads ∧
      (notifyWorker s v).st = s.st ∧ (notifyWorker s v).task = s.task ∧
      (notifyWorker s v).smutex = s.smutex ∧ (notifyWorker s v).begun = s.begun ∧
      (notifyWorker s v).ended = s.ended ∧ (notifyWorker s v).cmutex = s.cmutex ∧
      (notifyWorker s v).count = s.count ∧ (∀ w, w ≠ v → (notifyWorker s v).pc w = s.pc w) ∧
      ((s.pc v = .asleep ∧ (notifyWorker s v).pc v = .lock) ∨
        (s.pc v ≠ .asleep ∧ (notifyWorker s v).pc v = s.pc v)) := by
    unfold notifyWorker
    split
    · rename_i h; simp [setW, h]; intro w hw; simp [hw]
    · rename_i h; simp; exact .inr h
  unfold stepM
  rw [hm]
  dsimp only
  generalize notifyWorker s v = s1 at e1 ⊢
  obtain ⟨e1, e2, e3, e4, e5, e6, e7, e8, e9, e10, e11⟩ := e1
  have hwt : (s.pc v = .asleep) → (s.pc v).waiting := fun h => by rw [h]; rfl
  refine ⟨_, rfl, inv.mainAt v e1 e2 e10 ?_ ?_ ?_ ?_ ?_ ?_ ?_ ?_ ?_ ?_ ?_ ?_ ?_ ?_ ?_⟩
  · intro j i _; simp [setM, e6]
  · intro j i _; simp [setM, e7]
  · intro w hw
    have hw' := inv.workers w hw
    have hrr : role (.csUnlock ex v) (callN calls s.k) w = role s.main (callN calls s.k) w := by
      rw [hm]; cases ex <;> rfl
    show RoleOk s.k w (role (.csUnlock ex v) (callN calls s.k) w) (s1.pc w) (s1.st w) (s1.task w)
      _ _
    rw [hrr, e3, e4]
    by_cases h : w = v
    · subst h
      rcases e11 with ⟨h1, h2⟩ | ⟨h1, h2⟩
      · rw [h2]; exact (hw'.waiting (hwt h1)).2 _ (.inl rfl)
      · rw [h2]; exact hw'
    · rw [e10 w h]; exact hw'
  · have h1 := inv.count
    have h2 : cnt (fun w => owe (s1.pc w) (s1.st w)) s.threads =
        cnt (fun w => owe (s.pc w) (s.st w)) s.threads := by
      apply cnt_congr
      intro w hw
      by_cases h : w = v
      · subst h
        rcases e11 with ⟨h1, h2⟩ | ⟨h1, h2⟩
        · rw [h1, h2, e3]; exact owe_waiting (.inl rfl) (.inl rfl)
        · rw [h2, e3]
      · rw [e10 w h, e3]
    show s1.count = cnt (fun w => owe (s1.pc w) (s1.st w)) s.threads +
      rem (.csUnlock ex v) (callN calls s.k) s.threads
    rw [h2, e9, h1, hm]
    cases ex <;> rfl
  · show s1.cmutex = some 0 ↔ false = true
    simp [hcm, e8]
  · intro w; simp [setM, e8]
  · show (s1.pc v).inC = _
    rcases e11 with ⟨h1, h2⟩ | ⟨h1, h2⟩
    · rw [h1, h2]; rfl
    · rw [h2]
  · intro w hw
    have := inv.sm0 w hw
    rw [hm] at this
    simp only [setM, e5]
    exact this
  · intro w hw u; simp [setM, e5]
  · show (s1.pc v).inS = _
    rcases e11 with ⟨h1, h2⟩ | ⟨h1, h2⟩
    · rw [h1, h2]; rfl
    · rw [h2]
  · intro w hw h1' h2'
    exfalso
    have h1 : s1.pc w = .asleep := h1'
    have h2 : s1.st w ≠ .ready := h2'
    clear h1' h2'
    by_cases h : w = v
    · subst h
      rcases e11 with ⟨h3, h4⟩ | ⟨h3, h4⟩
      · rw [h4] at h1; cases h1
      · rw [h4] at h1; exact h3 h1
    · rw [e10 w h] at h1
      rw [e3] at h2
      have := inv.wakeW w hw h1 h2
      rw [hm] at this
      simp [MPC.willNotify] at this
      exact h this.symm
  · intro p h; cases h
  · cases ex <;> exact mk
  · have := inv.task0
    rw [hm] at this
    simp only [setM, e6, e7]
    exact this
  · intro w _ h; exact absurd trivial h

/-- After posting to a worker. -/
theorem step_csUnlock {ex : Bool} {v : Nat} (inv : Inv calls s) (hm : s.main = .csUnlock ex v) :
    ∃ s', stepM calls s c = .ok s' ∧ Inv calls s' := by
  have mk := inv.main
  rw [hm] at mk
  have hv : v < s.threads := mk.csBound (.inr (.inr (.inr (.inr rfl))))
  have hcm := inv.cm_ne (by rw [hm]; rfl)
  have hsm : s.smutex v = some 0 := (inv.sm0 v hv).mpr (by rw [hm]; simp [MPC.inS])
  have hx0 : ∀ w, w < s.threads → Function.update s.smutex v none w ≠ some 0 := by
    intro w hw
    by_cases h : w = v
    · subst h; simp
    · rw [Function.update_of_ne h]
      intro h0
      have := (inv.sm0 w hw).mp h0
      rw [hm] at this
      simp [MPC.inS] at this
      exact h this.symm
  have hxw : ∀ w, w < s.threads → ∀ u, Function.update s.smutex v none w = some (u + 1) ↔
      s.smutex w = some (u + 1) := by
    intro w hw u
    by_cases h : w = v
    · subst h; simp [hsm]
    · rw [Function.update_of_ne h]
  -- moving to a place with the same roles, not holding a mutex
  have move : ∀ m' : MPC, (∀ w, w < s.threads → role m' (callN calls s.k) w =
      role s.main (callN calls s.k) w) → rem m' (callN calls s.k) s.threads =
      rem s.main (callN calls s.k) s.threads → m'.inC = false → (∀ w, m'.inS w = false) →
      (∀ p q, m' ≠ .wait p q) → MainOk calls m' s.k (callN calls s.k) s.threads →
      main0 m' = ([], []) → (∀ w, Alive (setM s m') w) →
      Inv calls { setM s m' with smutex := Function.update s.smutex v none } := by
    intro m' h1 h2 h3 h4 h5 h6 h7 h8
    refine inv.mainAt v rfl rfl (fun _ _ => rfl) (fun _ _ _ => rfl) (fun _ _ _ => rfl)
      ?_ ?_ ?_ (fun _ => Iff.rfl) rfl ?_ hxw rfl ?_ ?_ h6 ?_ ?_ ?_
    · intro w hw
      have := inv.workers w hw
      rw [← h1 w hw] at this
      exact this
    · have := inv.count
      rw [← h2] at this
      exact this
    · show s.cmutex = some 0 ↔ m'.inC = true
      rw [h3]; simp [hcm]
    · intro w hw
      show _ ↔ m'.inS w = true
      rw [h4]
      exact ⟨fun h => absurd h (hx0 w hw), fun h => by cases h⟩
    · intro w hw h1 h2
      have := inv.wakeW w hw h1 h2
      rw [hm] at this
      cases this
    · intro p h; exact absurd h (h5 p _)
    · have := inv.task0
      rw [hm] at this
      show s.begun s.k 0 = (main0 m').1 ∧ s.ended s.k 0 = (main0 m').2
      rw [h7]; exact this
    · intro w _ h; exact absurd (h8 w) h
    · intro p h; exact absurd h (h5 p _)
  unfold stepM
  rw [hm]
  dsimp only
  rw [C.require_of hsm, C.ok_bind]
  unfold afterPost
  cases ex with
  | true =>
    obtain ⟨mk1, mk2, mk3⟩ := mk
    rw [if_pos rfl]
    split
    · rename_i h
      refine ⟨_, rfl, move (.csLoad true (v + 1)) ?_ ?_ rfl (fun _ => rfl) ?_ ⟨mk1, mk2, h⟩ rfl
        (fun _ => trivial)⟩
      · intro w _; rw [hm]; rfl
      · rw [hm]; rfl
      · intro p q h; cases h
    · rename_i h
      refine ⟨_, rfl, move (.join 0) ?_ ?_ rfl (fun _ => rfl) ?_ ⟨mk1, mk2, Nat.zero_le _⟩ rfl
        (fun _ => Nat.zero_le _)⟩
      · intro w hw
        rw [hm]
        simp only [role]
        rw [if_pos (by omega)]
      · rw [hm]; rfl
      · intro p q h; cases h
  | false =>
    obtain ⟨mk1, mk2, mk3, mk4⟩ := mk
    rw [if_neg (by simp), curN_eq]
    split
    · rename_i h
      refine ⟨_, rfl, move (.csLoad false (v + 1)) ?_ ?_ rfl (fun _ => rfl) ?_ ⟨mk1, h, mk3, mk4⟩ rfl
        (fun _ => trivial)⟩
      · intro w _; rw [hm]; rfl
      · rw [hm]; rfl
      · intro p q h; cases h
    · rename_i h
      refine ⟨_, rfl, inv.startZero mk1 (by omega) mk3 mk4 ?_ ?_ ?_ ?_ ?_ hx0 hxw⟩
      · intro w hw
        rw [hm]
        simp only [role]
        rw [show v + 1 = callN calls s.k - 1 by omega]
      · rw [hm]; simp only [rem]; omega
      · rw [hm]; rfl
      · rw [hm]; rfl
      · intro w; rw [hm]; rfl

theorem step_run0 (inv : Inv calls s) (hm : s.main = .run0) :
    ∃ s', stepM calls s c = .ok s' ∧ Inv calls s' := by
  have mk := inv.main
  rw [hm] at mk
  obtain ⟨mk1, mk2, mk3, mk4⟩ := mk
  have hcm := inv.cm_ne (by rw [hm]; rfl)
  have t0 := inv.task0
  rw [hm] at t0
  unfold stepM
  rw [hm]
  dsimp only
  have hcl : callN calls s.k = (calls[s.k]).n := (callN_of (List.getElem?_eq_getElem mk1)).1
  rw [List.getElem?_eq_getElem mk1]
  dsimp only
  cases hb : (calls[s.k]).body 0 s.mem with
  | some m =>
    refine ⟨_, rfl, ?_⟩
    rw [← hm]
    exact ⟨inv.workers, inv.count, inv.cm0, inv.cmw, inv.sm0, inv.smw, inv.wakeW, inv.wakeM,
      inv.unl, inv.main, inv.task0, inv.joined, inv.past, inv.future, inv.rest⟩
  | none =>
    have pe : push s.ended s.k 0 0 s.k 0 = [0] := by rw [push_self, t0.2]; rfl
    dsimp only
    split
    · rename_i h1
      refine ⟨_, rfl, inv.ret (x := s.cmutex) mk1 mk4 mk3 mk2 ?_ t0.1 pe
        (fun j i h => push_other _ _ h) ?_ hcm (fun _ => Iff.rfl) ?_ ?_⟩
      · intro w hw
        have hr := inv.workers w hw
        rw [hm] at hr
        simp only [role] at hr
        rw [if_neg (by omega)] at hr
        rw [if_neg (by omega)]
        exact hr
      · have h2 := inv.count
        have h3 : cnt (fun w => owe (s.pc w) (s.st w)) s.threads = 0 :=
          cnt_zero.mpr fun w hw => (inv.workers w hw).owe_zero (by
            rw [hm]; simp only [role]; rw [if_neg (by omega)])
        rw [hm] at h2
        simp only [rem] at h2
        omega
      · intro w _; rw [hm]; rfl
      · intro w _; rw [hm]; rfl
    · rename_i h1
      refine ⟨_, rfl, inv.mainAt 0 rfl rfl (fun _ _ => rfl) (fun _ _ _ => rfl)
        (fun j i h => push_other _ _ h) ?_ ?_ ?_ (fun _ => Iff.rfl) rfl ?_ (fun _ _ _ => Iff.rfl) rfl
        ?_ ?_ ⟨mk1, by omega, mk3, mk4⟩ ⟨t0.1, pe⟩ ?_⟩
      · intro w hw
        have hr := inv.workers w hw
        rw [hm] at hr
        exact hr
      · have := inv.count; rw [hm] at this; exact this
      · show s.cmutex = some 0 ↔ false = true
        simp [hcm]
      · intro w hw
        have := inv.sm0 w hw
        rw [hm] at this
        exact this
      · intro w hw h1 h2
        have := inv.wakeW w hw h1 h2
        rw [hm] at this
        cases this
      · intro p h; cases h
      · intro w _ h; exact absurd trivial h

theorem step_join {v : Nat} (inv : Inv calls s) (hm : s.main = .join v) :
    ∃ s', stepM calls s c = .ok s' ∧ Inv calls s' := by
  have mk := inv.main
  rw [hm] at mk
  obtain ⟨mk1, mk2, mk3⟩ := mk
  have hcm := inv.cm_ne (by rw [hm]; rfl)
  have hj := inv.joined
  unfold stepM
  rw [hm]
  dsimp only
  split
  · rename_i hv
    have hr := inv.workers v hv
    rw [hm] at hr
    rw [C.check_of hr.1, C.ok_bind]
    split
    · rename_i hex
      refine ⟨_, rfl, inv.mainPc (m' := .join (v + 1)) (n' := s.count) (x := s.cmutex) ?_ ?_ ?_
        (fun _ => Iff.rfl) ?_ ?_ ?_ ⟨mk1, mk2, hv⟩ ?_ ?_⟩
      · intro w hw h; rw [hm] at h; exact h
      · rw [hm]; rfl
      · simp [hcm, MPC.inC]
      · intro w _; rw [hm]; rfl
      · intro w h; rw [hm] at h; cases h
      · intro p h; cases h
      · rw [hm]; rfl
      · intro w hw h
        simp only [Alive, setM] at h
        by_cases hwv : w = v
        · subst hwv; exact hex
        · exact hj w hw (by unfold Alive; rw [hm]; simp only; omega)
    · exact ⟨_, rfl, inv⟩
  · refine ⟨_, rfl, inv.mainPc (m' := .gone) (n' := s.count) (x := s.cmutex) ?_ ?_ ?_
      (fun _ => Iff.rfl) ?_ ?_ ?_ ⟨mk1, mk2⟩ ?_ ?_⟩
    · intro w hw h; rw [hm] at h; exact h
    · rw [hm]; rfl
    · simp [hcm, MPC.inC]
    · intro w _; rw [hm]; rfl
    · intro w h; rw [hm] at h; cases h
    · intro p h; cases h
    · rw [hm]; rfl
    · intro w hw _
      exact hj w hw (by unfold Alive; rw [hm]; simp only; omega)

/-- The main thread never faults, and preserves the invariant. -/
theorem stepM_inv (hn : ∀ cl ∈ calls, 1 ≤ cl.n) (inv : Inv calls s) :
    ∃ s', stepM calls s c = .ok s' ∧ Inv calls s' := by
  cases hm : s.main with
  | idle =>
    have := stepIdle_inv hn inv hm
    unfold stepM; rw [hm]; exact this
  | resetLoad p => exact step_resetLoad inv hm
  | resetStore p => exact step_resetStore inv hm
  | spawn => exact step_spawn inv hm
  | wait p q => exact step_wait inv hm
  | csLoad ex v => exact step_csLoad inv hm
  | csTask v => exact step_csTask inv hm
  | csStore ex v => exact step_csStore inv hm
  | csLock ex v => exact step_csLock inv hm
  | csNotify ex v => exact step_csNotify inv hm
  | csUnlock ex v => exact step_csUnlock inv hm
  | run0 => exact step_run0 inv hm
  | join v => exact step_join inv hm
  | gone => exact ⟨s, by unfold stepM; rw [hm], inv⟩

theorem step_inv (hn : ∀ cl ∈ calls, 1 ≤ cl.n) (inv : Inv calls s) (t : Nat) :
    ∃ s', step calls s t c = .ok s' ∧ Inv calls s' := by
  unfold step
  cases t with
  | zero => exact stepM_inv hn inv
  | succ w =>
    dsimp only
    split
    · exact stepW_inv inv (by assumption)
    · exact ⟨s, rfl, inv⟩

theorem run_inv (hn : ∀ cl ∈ calls, 1 ≤ cl.n) :
    ∀ (sched : List (Nat × Choice)) (s : State σ), Inv calls s →
      ∃ s', run calls sched s = .ok s' ∧ Inv calls s'
  | [], s, inv => ⟨s, rfl, inv⟩
  | (t, c) :: ts, s, inv => by
    obtain ⟨s1, h1, i1⟩ := step_inv (c := c) hn inv t
    obtain ⟨s2, h2, i2⟩ := run_inv hn ts s1 i1
    exact ⟨s2, by simp only [run]; rw [h1, C.ok_bind]; exact h2, i2⟩

end Ruy.Pool

import Verif.Pool.WorkerInv
/-
Steps of the main thread never fault and preserve the invariant.
-/
namespace Ruy.Pool

variable {σ : Type}

section
variable {calls : List (Call σ)} {s s' : State σ} {c : Choice}

theorem Inv.mainAt (v : Nat) (inv : Inv calls s) (hk : s'.k = s.k) (hth : s'.threads = s.threads)
    (hpc : ∀ w, w ≠ v → s'.pc w = s.pc w)
    (hb : ∀ j i, j ≠ s.k ∨ i ≠ 0 → s'.begun j i = s.begun j i)
    (he : ∀ j i, j ≠ s.k ∨ i ≠ 0 → s'.ended j i = s.ended j i)
    (hrole : ∀ w, w < s.threads → RoleOk s.k w (role s'.main (callN calls s.k) w) (s'.pc w)
      (s'.st w) (s'.task w) (s.begun s.k (w + 1)) (s.ended s.k (w + 1)))
    (hcount : s'.count = cnt (fun w => owe (s'.pc w) (s'.st w)) s.threads +
      rem s'.main (callN calls s.k) s.threads)
    (hcm0 : s'.cmutex = some 0 ↔ s'.main.inC)
    (hcmw : ∀ w, s'.cmutex = some (w + 1) ↔ s.cmutex = some (w + 1))
    (hinC : (s'.pc v).inC = (s.pc v).inC)
    (hsm0 : ∀ w, w < s.threads → (s'.smutex w = some 0 ↔ s'.main.inS w))
    (hsmw : ∀ w, w < s.threads → ∀ u, s'.smutex w = some (u + 1) ↔ s.smutex w = some (u + 1))
    (hinS : (s'.pc v).inS = (s.pc v).inS)
    (hwakeW : ∀ w, w < s.threads → s'.pc w = .asleep → s'.st w ≠ .ready → s'.main.willNotify w)
    (hwakeM : ∀ p, s'.main = .wait p .asleep → s'.count ≠ 0)
    (hmain : MainOk calls s'.main s.k (callN calls s.k) s.threads)
    (ht0 : s'.begun s.k 0 = (main0 s'.main).1 ∧ s'.ended s.k 0 = (main0 s'.main).2)
    (hjoin : ∀ w, w < s.threads → ¬ Alive s' w → s'.pc w = .exited)
    (hunl : ∀ p, s'.main = .wait p .unlock → s'.count = 0 := by intro p h; cases h) :
    Inv calls s' where
  workers := by
    rw [hth]; intro w hw
    rw [hk, hb _ _ (.inr (by omega)), he _ _ (.inr (by omega))]
    exact hrole w hw
  count := by rw [hk, hth]; exact hcount
  cm0 := hcm0
  cmw := by
    intro w
    rw [hcmw, hth, inv.cmw w]
    by_cases h : w = v
    · subst h; rw [hinC]
    · rw [hpc w h]
  sm0 := by rw [hth]; exact hsm0
  smw := by
    rw [hth]; intro w hw u
    rw [hsmw w hw u, inv.smw w hw u]
    by_cases h : w = v
    · subst h; rw [hinS]
    · rw [hpc w h]
  wakeW := by rw [hth]; exact hwakeW
  wakeM := by intro p hp h0; exact absurd h0 (hwakeM p hp)
  unl := hunl
  main := by rw [hk, hth]; exact hmain
  task0 := by rw [hk]; exact ht0
  joined := by rw [hth]; exact hjoin
  past := by
    intro j hj i
    rw [hk] at hj
    rw [hb _ _ (.inl (by omega)), he _ _ (.inl (by omega))]
    exact inv.past j hj i
  future := by
    intro j hj i
    rw [hk] at hj
    rw [hb _ _ (.inl (by omega)), he _ _ (.inl (by omega))]
    exact inv.future j hj i
  rest := by
    intro i hi
    rw [hth] at hi
    rw [hk, hb _ _ (.inr (by omega)), he _ _ (.inr (by omega))]
    exact inv.rest i hi

/-- A step changing only the main thread's program counter, the counter and (by the main
thread) the owner of the counter's mutex. -/
theorem Inv.mainPc {m' : MPC} {n' : Nat} {x : Option Nat} (inv : Inv calls s)
    (hrole : ∀ w, w < s.threads → RoleOk s.k w (role s.main (callN calls s.k) w) (s.pc w)
      (s.st w) (s.task w) (s.begun s.k (w + 1)) (s.ended s.k (w + 1)) →
      RoleOk s.k w (role m' (callN calls s.k) w) (s.pc w)
      (s.st w) (s.task w) (s.begun s.k (w + 1)) (s.ended s.k (w + 1)))
    (hcount : n' + rem s.main (callN calls s.k) s.threads =
      s.count + rem m' (callN calls s.k) s.threads)
    (hx : x = some 0 ↔ m'.inC) (hxw : ∀ w, x = some (w + 1) ↔ s.cmutex = some (w + 1))
    (hinS : ∀ w, w < s.threads → m'.inS w = s.main.inS w)
    (hwn : ∀ w, s.main.willNotify w → m'.willNotify w)
    (hwakeM : ∀ p, m' = .wait p .asleep → n' ≠ 0)
    (hmain : MainOk calls m' s.k (callN calls s.k) s.threads)
    (ht0 : main0 m' = main0 s.main)
    (hjoin : ∀ w, w < s.threads → ¬ Alive (setM s m') w → s.pc w = .exited)
    (hunl : ∀ p, m' = .wait p .unlock → n' = 0 := by intro p h; cases h) :
    Inv calls { setM s m' with count := n', cmutex := x } := by
  refine inv.mainAt 0 rfl rfl (fun _ _ => rfl) (fun _ _ _ => rfl) (fun _ _ _ => rfl)
    (fun w hw => hrole w hw (inv.workers w hw)) ?_ hx hxw rfl ?_ (fun _ _ _ => Iff.rfl) rfl ?_
    hwakeM hmain ?_ hjoin hunl
  · have := inv.count
    show n' = _ + rem m' _ _
    simp only [setM]
    omega
  · intro w hw
    show s.smutex w = some 0 ↔ m'.inS w = true
    rw [hinS w hw]; exact inv.sm0 w hw
  · intro w hw h1 h2; exact hwn w (inv.wakeW w hw h1 h2)
  · show s.begun s.k 0 = (main0 m').1 ∧ s.ended s.k 0 = (main0 m').2
    rw [ht0]; exact inv.task0

/-- A worker that is idle or exiting owes nothing. -/
theorem RoleOk.owe_zero {k w : Nat} {r : Role} {p : WPC} {x : WState} {τ : Option (Nat × Nat)}
    {b e : List Nat} (h : RoleOk k w r p x τ b e) (hr : r = .idle) : owe p x = 0 := by
  subst hr
  obtain ⟨rfl, -, h, -⟩ := h
  cases p <;> simp [WPC.waiting] at h <;> simp [owe]

theorem RoleOk.of_idle {k w : Nat} {p : WPC} {x : WState} {τ : Option (Nat × Nat)}
    {b e : List Nat} (h : RoleOk k w .idle p x τ b e) : RoleOk k w .boot p x τ b e := by
  obtain ⟨h1, h2, h3, h4, h5⟩ := h
  exact ⟨h2, h4, h5, .inr ⟨h1, .inr h3⟩⟩

/-- A booting worker that owes nothing is idle. -/
theorem RoleOk.boot_idle {k w : Nat} {p : WPC} {x : WState} {τ : Option (Nat × Nat)}
    {b e : List Nat} (h : RoleOk k w .boot p x τ b e) (h0 : owe p x = 0) :
    RoleOk k w .idle p x τ b e := by
  obtain ⟨h1, h2, h3, h | h⟩ := h
  · rcases h with ⟨rfl, rfl | rfl⟩ <;> simp [owe] at h0
  · obtain ⟨rfl, rfl | h⟩ := h
    · simp [owe] at h0
    · exact ⟨rfl, h1, h, h2, h3⟩

/-- A worker that was given work and owes nothing has run its task. -/
theorem RoleOk.posted_idle {k w : Nat} {p : WPC} {x : WState} {τ : Option (Nat × Nat)}
    {b e : List Nat} (h : RoleOk k w .posted p x τ b e) (h0 : owe p x = 0) :
    x = .ready ∧ τ = none ∧ p.waiting ∧ b = [w + 1] ∧ e = [w + 1] := by
  rcases h with ⟨rfl, h1, h2, h3, h⟩ | ⟨rfl, h1, h2, h3, rfl⟩ | ⟨rfl, h1, h2, h3, rfl⟩ |
    ⟨rfl, h1, h2, h3, rfl⟩ | ⟨rfl, h1, h2, h3, h⟩
  · exfalso; cases p <;> simp [WPC.waiting, owe] at h h0
  · simp [owe] at h0
  · simp [owe] at h0
  · simp [owe] at h0
  · rcases h with rfl | h
    · simp [owe] at h0
    · exact ⟨rfl, h1, h, h2, h3⟩

/-- When the counter is zero nobody owes a decrement. -/
theorem Inv.owe_zero (inv : Inv calls s) (h0 : s.count = 0) {w : Nat} (hw : w < s.threads) :
    owe (s.pc w) (s.st w) = 0 := by
  have := inv.count
  exact cnt_zero.mp (show cnt (fun w => owe (s.pc w) (s.st w)) s.threads = 0 by omega) w hw

/-- Execute returns. -/
theorem Inv.ret (inv : Inv calls s) {e' : Nat → Nat → List Nat} {x : Option Nat}
    (hk : s.k < calls.length) (hth : s.threads = need calls (s.k + 1))
    (hn : callN calls s.k - 1 ≤ s.threads) (hn1 : 1 ≤ callN calls s.k)
    (hw : ∀ w, w < s.threads → s.st w = .ready ∧ s.task w = none ∧ (s.pc w).waiting ∧
      s.begun s.k (w + 1) = (if w + 1 < callN calls s.k then [w + 1] else []) ∧
      s.ended s.k (w + 1) = (if w + 1 < callN calls s.k then [w + 1] else []))
    (hb : s.begun s.k 0 = [0]) (he0 : e' s.k 0 = [0])
    (he : ∀ j i, j ≠ s.k ∨ i ≠ 0 → e' j i = s.ended j i)
    (h0 : s.count = 0) (hx0 : x ≠ some 0) (hx : ∀ w, x = some (w + 1) ↔ s.cmutex = some (w + 1))
    (hS : ∀ w, w < s.threads → s.main.inS w = false)
    (hN : ∀ w, w < s.threads → s.main.willNotify w = false) :
    Inv calls { setM s .idle with k := s.k + 1, ended := e', cmutex := x } where
  workers := by
    intro w hlt
    obtain ⟨h1, h2, h3, -⟩ := hw w hlt
    have hf := inv.future (s.k + 1) (by omega) (w + 1)
    refine ⟨h1, h2, h3, hf.1, ?_⟩
    show e' (s.k + 1) (w + 1) = []
    rw [he _ _ (.inr (by omega))]; exact hf.2
  count := by
    have h1 : cnt (fun w => owe (s.pc w) (s.st w)) s.threads = 0 :=
      cnt_zero.mpr fun w hlt => inv.owe_zero h0 hlt
    show s.count = cnt (fun w => owe (s.pc w) (s.st w)) s.threads + 0
    omega
  cm0 := by
    show x = some 0 ↔ false = true
    simp [hx0]
  cmw := by intro w; show x = some (w + 1) ↔ _; rw [hx]; exact inv.cmw w
  sm0 := by
    intro w hlt
    have := inv.sm0 w hlt
    rw [hS w hlt] at this
    exact this
  smw := inv.smw
  wakeW := by
    intro w hlt h1 h2
    have := inv.wakeW w hlt h1 h2
    rw [hN w hlt] at this; cases this
  wakeM := by intro p hp; cases hp
  unl := by intro p hp; cases hp
  main := ⟨hk, hth⟩
  task0 := by
    have hf := inv.future (s.k + 1) (by omega) 0
    refine ⟨hf.1, ?_⟩
    show e' (s.k + 1) 0 = []
    rw [he _ _ (.inl (by omega))]; exact hf.2
  joined := by intro w _ h; exact absurd trivial h
  past := by
    intro j hj i
    have hj : j < s.k + 1 := hj
    show s.begun j i = _ ∧ e' j i = _
    by_cases hjk : j = s.k
    · subst hjk
      cases i with
      | zero => rw [if_pos (by omega), hb, he0]; exact ⟨rfl, rfl⟩
      | succ w =>
        rw [he _ _ (.inr (by omega))]
        by_cases hlt : w < s.threads
        · exact (hw w hlt).2.2.2
        · rw [if_neg (by omega)]
          exact inv.rest (w + 1) (by omega)
    · rw [he _ _ (.inl hjk)]
      exact inv.past j (by omega) i
  future := by
    intro j hj i
    have hj : s.k + 1 < j := hj
    show s.begun j i = _ ∧ e' j i = _
    rw [he _ _ (.inl (by omega))]
    exact inv.future j (by omega) i
  rest := by
    intro i hi
    have hf := inv.future (s.k + 1) (by omega) i
    refine ⟨hf.1, ?_⟩
    show e' (s.k + 1) i = []
    rw [he _ _ (.inl (by omega))]; exact hf.2

theorem callN_of {k : Nat} {cl : Call σ} (h : calls[k]? = some cl) :
    callN calls k = cl.n ∧ k < calls.length := by
  refine ⟨by simp [callN, h], ?_⟩
  by_contra hk
  rw [List.getElem?_eq_none (by omega)] at h
  cases h

theorem Inv.no_willNotify (inv : Inv calls s) (h : ∀ w, s.main.willNotify w = false) {w : Nat}
    (hw : w < s.threads) (h1 : s.pc w = .asleep) (h2 : s.st w ≠ .ready) : False := by
  have := inv.wakeW w hw h1 h2
  rw [h w] at this; cases this

/-- The start of task 0. -/
theorem Inv.startZero (inv : Inv calls s) (hk : s.k < calls.length)
    (hn : 1 ≤ callN calls s.k) (hth : callN calls s.k - 1 ≤ s.threads)
    (hneed : s.threads = need calls (s.k + 1)) {x : Nat → Option Nat}
    (hrole : ∀ w, w < s.threads → role s.main (callN calls s.k) w =
      if w < callN calls s.k - 1 then .posted else .idle)
    (hrem : rem s.main (callN calls s.k) s.threads = 0)
    (hC : s.main.inC = false) (hm0 : main0 s.main = ([], []))
    (hN : ∀ w, s.main.willNotify w = false)
    (hx0 : ∀ w, w < s.threads → x w ≠ some 0)
    (hx : ∀ w, w < s.threads → ∀ u, x w = some (u + 1) ↔ s.smutex w = some (u + 1)) :
    Inv calls { setM s .run0 with begun := push s.begun s.k 0 0, smutex := x } := by
  refine inv.mainAt 0 rfl rfl (fun _ _ => rfl) ?_ (fun _ _ _ => rfl) ?_ ?_ ?_ (fun _ => Iff.rfl) rfl
    ?_ hx rfl ?_ ?_ ⟨hk, hn, hth, hneed⟩ ?_ ?_
  · intro j i hji; exact push_other _ _ hji
  · intro w hw
    have := inv.workers w hw
    rw [hrole w hw] at this
    exact this
  · have := inv.count
    rw [hrem] at this
    exact this
  · have := inv.cm0
    rw [hC] at this
    exact this
  · intro w hw
    exact ⟨fun h => absurd h (hx0 w hw), fun h => by cases h⟩
  · intro w hw h1 h2
    exact (inv.no_willNotify hN hw h1 h2).elim
  · intro p hp; cases hp
  · have := inv.task0
    rw [hm0] at this
    refine ⟨?_, this.2⟩
    show push s.begun s.k 0 0 s.k 0 = [0]
    rw [push_self, this.1]; rfl
  · intro w _ h; exact absurd trivial h

theorem stepIdle_inv (hn : ∀ cl ∈ calls, 1 ≤ cl.n) (inv : Inv calls s) (hm : s.main = .idle) :
    ∃ s', stepIdle calls s = .ok s' ∧ Inv calls s' := by
  have mk := inv.main
  rw [hm] at mk
  obtain ⟨mk, hth⟩ := mk
  have hcm : s.cmutex ≠ some 0 := by
    intro h; have := inv.cm0.mp h; rw [hm] at this; cases this
  unfold stepIdle
  cases hc : calls[s.k]? with
  | none =>
    have hlen : calls.length ≤ s.k := by
      by_contra h
      rw [List.getElem?_eq_getElem (by omega)] at hc; cases hc
    have hkl : s.k = calls.length := Nat.le_antisymm mk hlen
    dsimp only
    split
    · rename_i hpos
      refine ⟨_, rfl, inv.mainPc (m' := .csLoad true 0) (n' := s.count) (x := s.cmutex) ?_ ?_ ?_
        (fun _ => Iff.rfl) ?_ ?_ ?_ ?_ ?_ ?_⟩
      · intro w hw h; rw [hm] at h; simpa [role] using h
      · rw [hm]; rfl
      · simp [hcm, MPC.inC]
      · intro w _; rw [hm]; rfl
      · intro w h; rw [hm] at h; cases h
      · intro p h; cases h
      · exact ⟨hkl, hth, hpos⟩
      · rw [hm]; rfl
      · intro w _ h; exact absurd trivial h
    · rename_i hpos
      have h0 : s.threads = 0 := by omega
      refine ⟨_, rfl, inv.mainPc (m' := .join 0) (n' := s.count) (x := s.cmutex) ?_ ?_ ?_
        (fun _ => Iff.rfl) ?_ ?_ ?_ ?_ ?_ ?_⟩
      · intro w hw; omega
      · rw [hm]; rfl
      · simp [hcm, MPC.inC]
      · intro w _; rw [hm]; rfl
      · intro w h; rw [hm] at h; cases h
      · intro p h; cases h
      · exact ⟨hkl, hth, Nat.zero_le _⟩
      · rw [hm]; rfl
      · intro w hw; omega
  | some cl =>
    obtain ⟨hcn, hk⟩ := callN_of hc
    have hcl : 1 ≤ cl.n := hn cl (List.mem_of_getElem? hc)
    have hneed := need_succ (calls := calls) hk
    rw [hcn] at hneed
    dsimp only
    rw [C.check_of hcl, C.ok_bind]
    have inv1 : Inv calls { s with mem := cl.prepare s.mem } :=
      ⟨inv.workers, inv.count, inv.cm0, inv.cmw, inv.sm0, inv.smw, inv.wakeW, inv.wakeM,
        inv.unl, inv.main, inv.task0, inv.joined, inv.past, inv.future, inv.rest⟩
    have move : ∀ s1 : State σ, Inv calls s1 → s1.main = .idle → s1.threads = s.threads →
        s1.k = s.k → s1.cmutex ≠ some 0 → ∀ p : Purpose,
        MainOk calls (.resetLoad p) s.k (callN calls s.k) s.threads →
        Inv calls (setM s1 (.resetLoad p)) := by
      intro s1 inv1 e1 e2 e3 e4
      intro p hp
      refine inv1.mainPc (m' := .resetLoad p) (n' := s1.count) (x := s1.cmutex) ?_ ?_ ?_
        (fun _ => Iff.rfl) ?_ ?_ ?_ ?_ ?_ ?_
      · intro w hw h; rw [e1] at h; exact h
      · rw [e1]; rfl
      · simp [e4, MPC.inC]
      · intro w _; rw [e1]; rfl
      · intro w h; rw [e1] at h; cases h
      · intro p h; cases h
      · rw [e2, e3]; exact hp
      · rw [e1]; rfl
      · intro w _ h; exact absurd trivial h
    split
    · rename_i h1
      refine ⟨_, rfl, ?_⟩
      have zero : ∀ s1 : State σ, Inv calls s1 → s1.main = .idle → s1.threads = s.threads →
          s1.k = s.k → Inv calls { setM s1 .run0 with begun := push s1.begun s1.k 0 0 } := by
        intro s1 inv1 e1 e2 e3
        exact inv1.startZero (x := s1.smutex) (by omega) (by rw [e3]; omega)
          (by rw [e2, e3]; omega) (by rw [e2, e3]; omega)
          (by intro w _; rw [e1, e3, hcn, h1]; simp [role]) (by rw [e1]; rfl) (by rw [e1]; rfl)
          (by rw [e1]; rfl) (by intro w; rw [e1]; rfl)
          (by intro w hw h; have := (inv1.sm0 w hw).mp h; rw [e1] at this; cases this)
          (fun _ _ _ => Iff.rfl)
      exact zero _ inv1 hm rfl rfl
    · split
      · exact ⟨_, rfl, move _ inv1 hm rfl rfl hcm _ ⟨hk, by omega, by omega, by omega⟩⟩
      · exact ⟨_, rfl, move _ inv1 hm rfl rfl hcm _ ⟨hk, hth, by omega⟩⟩

end
end Ruy.Pool

import Verif.Pool.WorkerStep
namespace Ruy.Pool

variable {σ : Type}

/-- Changing only the program counter of `w`, between places that hold no mutex. -/
theorem Inv.move {calls : List (Call σ)} {s : State σ} {w : Nat} {p' : WPC} (inv : Inv calls s)
    (hw : w < s.threads) (hne : s.pc w ≠ .exited)
    (hrole : RoleOk s.k w (role s.main (callN calls s.k) w) p' (s.st w)
      (s.task w) (s.begun s.k (w + 1)) (s.ended s.k (w + 1)))
    (hcount : owe (s.pc w) (s.st w) = owe p' (s.st w))
    (hC : p'.inC = (s.pc w).inC) (hS : p'.inS = (s.pc w).inS)
    (hN : (s.pc w).willNotify → p'.willNotify)
    (hA : p' = .asleep → s.pc w = .asleep) :
    Inv calls (setW s w p') := by
  refine inv.local hw ⟨rfl, rfl, .inl rfl, ?_, fun _ _ => rfl, fun _ _ => rfl, fun _ _ => rfl,
    fun _ _ _ => rfl, fun _ _ _ => rfl⟩ hne ?_ ?_ Iff.rfl (fun _ _ => Iff.rfl) ?_ Iff.rfl ?_ ?_ ?_
  · intro v hv; simp [setW, hv]
  · simpa [setW] using hrole
  · simp [setW, hcount]
  · have := inv.cmw w
    simp [setW, hC, this, hw]
  · intro v
    have := inv.smw w hw v
    simp [setW, hS, this]
  · intro h1 h2
    simp only [setW, Function.update_self] at h1
    exact inv.wakeW w hw (hA h1) h2
  · intro p hp hc
    exact .inl ⟨hc, by simpa [setW] using hN⟩

theorem stepW_enter {calls : List (Call σ)} {s : State σ} {w : Nat} {c : Choice}
    (inv : Inv calls s) (hw : w < s.threads) (hp : s.pc w = .enter) :
    ∃ s', stepW calls s w c = .ok s' ∧ Inv calls s' := by
  have hne : s.pc w ≠ .exited := by rw [hp]; intro h; cases h
  have hr := inv.workers w hw
  have ha := inv.alive hw hne
  unfold stepW
  rw [hp]
  dsimp only
  rw [C.require_of ha, C.ok_bind]
  cases hro : role s.main (callN calls s.k) w with
  | idle => rw [hro, hp] at hr; simp [RoleOk, WPC.waiting] at hr
  | wrote => rw [hro, hp] at hr; simp [RoleOk, WPC.waiting] at hr
  | exiting => rw [hro, hp] at hr; simp [RoleOk, WPC.waiting] at hr
  | boot =>
    rw [hro, hp] at hr; simp [RoleOk, WPC.waiting] at hr
    rw [hr.1]
    refine ⟨_, rfl, inv.move hw hne ?_ ?_ ?_ ?_ ?_ ?_⟩
    · rw [hro]; simp [RoleOk, WPC.waiting, hr]
    all_goals simp [hp, owe, WPC.inC, WPC.inS, WPC.willNotify]
  | posted =>
    rw [hro, hp] at hr; simp [RoleOk, WPC.waiting] at hr
    obtain ⟨hst, ht, hb, he⟩ := hr
    rw [ht]
    refine ⟨_, rfl, inv.local hw ⟨rfl, rfl, .inl rfl, ?_, fun _ _ => rfl, fun _ _ => rfl,
      fun _ _ => rfl, ?_, fun _ _ _ => rfl⟩ hne ?_ ?_ Iff.rfl (fun _ _ => Iff.rfl) ?_ Iff.rfl ?_ ?_ ?_⟩
    · intro v hv; simp [setW, hv]
    · intro j i hji; exact push_other _ _ hji
    · rw [hro]
      refine .inr (.inl ⟨hst, ht, ?_, he, ?_⟩)
      · show push _ _ _ _ _ _ = _
        rw [push_self, hb]; rfl
      · simp [setW]
    · simp [setW, hp, owe]
    · have := inv.cmw w
      rw [hp] at this
      simp [setW, WPC.inC] at this ⊢; exact this
    · intro v
      have := inv.smw w hw v
      rw [hp] at this
      simp [setW, WPC.inS] at this ⊢; exact this
    · intro h1; simp [setW] at h1
    · intro p _ hc; exact .inl ⟨hc, by rw [hp]; intro h; cases h⟩

theorem stepW_running {calls : List (Call σ)} {s : State σ} {w : Nat} {c : Choice} {k i : Nat}
    (inv : Inv calls s) (hw : w < s.threads) (hp : s.pc w = .running k i) :
    ∃ s', stepW calls s w c = .ok s' ∧ Inv calls s' := by
  have hne : s.pc w ≠ .exited := by rw [hp]; intro h; cases h
  have hr := inv.workers w hw
  have ha := inv.alive hw hne
  unfold stepW
  rw [hp]
  dsimp only
  cases hro : role s.main (callN calls s.k) w with
  | idle => rw [hro, hp] at hr; simp [RoleOk, WPC.waiting] at hr
  | wrote => rw [hro, hp] at hr; simp [RoleOk, WPC.waiting] at hr
  | exiting => rw [hro, hp] at hr; simp [RoleOk, WPC.waiting] at hr
  | boot => rw [hro, hp] at hr; simp [RoleOk, WPC.waiting] at hr
  | posted =>
    rw [hro, hp] at hr; simp [RoleOk, WPC.waiting] at hr
    obtain ⟨hst, ht, hb, he, rfl, rfl⟩ := hr
    rw [C.require_of ⟨rfl, posted_live hro⟩, C.ok_bind]
    have hk := inv.main.posted_lt hro
    rw [List.getElem?_eq_getElem hk]
    dsimp only
    cases hb' : (calls[s.k]).body (w + 1) s.mem with
    | some m =>
      refine ⟨_, rfl, ?_⟩
      exact ⟨inv.workers, inv.count, inv.cm0, inv.cmw, inv.sm0, inv.smw, inv.wakeW, inv.wakeM,
        inv.unl, inv.main, inv.task0, inv.joined, inv.past, inv.future, inv.rest⟩
    | none =>
      refine ⟨_, rfl, inv.local hw ⟨rfl, rfl, .inl rfl, ?_, fun _ _ => rfl, fun _ _ => rfl,
        fun _ _ => rfl, fun _ _ _ => rfl, ?_⟩ hne ?_ ?_ Iff.rfl (fun _ _ => Iff.rfl) ?_ Iff.rfl
        ?_ ?_ ?_⟩
      · intro v hv; simp [setW, hv]
      · intro j i hji; exact push_other _ _ hji
      · rw [hro]
        refine .inr (.inr (.inl ⟨hst, ht, hb, ?_, ?_⟩))
        · show push _ _ _ _ _ _ = _
          rw [push_self, he]; rfl
        · simp [setW]
      · simp [setW, hp, owe]
      · have := inv.cmw w
        rw [hp] at this
        simp [setW, WPC.inC] at this ⊢; exact this
      · intro v
        have := inv.smw w hw v
        rw [hp] at this
        simp [setW, WPC.inS] at this ⊢; exact this
      · intro h1; simp [setW] at h1
      · intro p _ hc; exact .inl ⟨hc, by rw [hp]; intro h; cases h⟩

theorem stepW_clear {calls : List (Call σ)} {s : State σ} {w : Nat} {c : Choice}
    (inv : Inv calls s) (hw : w < s.threads) (hp : s.pc w = .clear) :
    ∃ s', stepW calls s w c = .ok s' ∧ Inv calls s' := by
  have hne : s.pc w ≠ .exited := by rw [hp]; intro h; cases h
  have hr := inv.workers w hw
  have ha := inv.alive hw hne
  unfold stepW
  rw [hp]
  dsimp only
  rw [C.require_of ha, C.ok_bind]
  cases hro : role s.main (callN calls s.k) w with
  | idle => rw [hro, hp] at hr; simp [RoleOk, WPC.waiting] at hr
  | wrote => rw [hro, hp] at hr; simp [RoleOk, WPC.waiting] at hr
  | exiting => rw [hro, hp] at hr; simp [RoleOk, WPC.waiting] at hr
  | boot => rw [hro, hp] at hr; simp [RoleOk, WPC.waiting] at hr
  | posted =>
    rw [hro, hp] at hr; simp [RoleOk, WPC.waiting] at hr
    obtain ⟨hst, ht, hb, he⟩ := hr
    refine ⟨_, rfl, inv.local hw ⟨rfl, rfl, .inl rfl, ?_, fun _ _ => rfl, ?_,
      fun _ _ => rfl, fun _ _ _ => rfl, fun _ _ _ => rfl⟩ hne ?_ ?_ Iff.rfl (fun _ _ => Iff.rfl)
      ?_ Iff.rfl ?_ ?_ ?_⟩
    · intro v hv; simp [setW, hv]
    · intro v hv; simp [hv]
    · rw [hro]
      refine .inr (.inr (.inr (.inl ⟨hst, ?_, hb, he, ?_⟩)))
      · simp
      · simp [setW]
    · simp [setW, hp, owe]
    · have := inv.cmw w
      rw [hp] at this
      simp [setW, WPC.inC] at this ⊢; exact this
    · intro v
      have := inv.smw w hw v
      rw [hp] at this
      simp [setW, WPC.inS] at this ⊢; exact this
    · intro h1; simp [setW] at h1
    · intro p _ hc; exact .inl ⟨hc, by rw [hp]; intro h; cases h⟩

theorem stepW_storeReady {calls : List (Call σ)} {s : State σ} {w : Nat} {c : Choice}
    (inv : Inv calls s) (hw : w < s.threads) (hp : s.pc w = .storeReady) :
    ∃ s', stepW calls s w c = .ok s' ∧ Inv calls s' := by
  have hne : s.pc w ≠ .exited := by rw [hp]; intro h; cases h
  have hr := inv.workers w hw
  have ha := inv.alive hw hne
  unfold stepW
  rw [hp]
  dsimp only
  rw [C.require_of ha, C.ok_bind]
  refine ⟨_, rfl, inv.local hw ⟨rfl, rfl, .inl rfl, ?_, ?_, fun _ _ => rfl,
    fun _ _ => rfl, fun _ _ _ => rfl, fun _ _ _ => rfl⟩ hne ?_ ?_ Iff.rfl (fun _ _ => Iff.rfl)
    ?_ Iff.rfl ?_ ?_ ?_⟩
  · intro v hv; simp [setW, hv]
  · intro v hv; simp [hv]
  · cases hro : role s.main (callN calls s.k) w with
    | idle => rw [hro, hp] at hr; simp [RoleOk, WPC.waiting] at hr
    | wrote => rw [hro, hp] at hr; simp [RoleOk, WPC.waiting] at hr
    | exiting => rw [hro, hp] at hr; simp [RoleOk, WPC.waiting] at hr
    | boot =>
      rw [hro, hp] at hr; simp [RoleOk, WPC.waiting] at hr
      simp [RoleOk, setW, hr]
    | posted =>
      rw [hro, hp] at hr; simp [RoleOk, WPC.waiting] at hr
      simp [RoleOk, setW, hr]
  · simp [setW, hp, owe]
  · have := inv.cmw w
    rw [hp] at this
    simp [setW, WPC.inC] at this ⊢; exact this
  · intro v
    have := inv.smw w hw v
    rw [hp] at this
    simp [setW, WPC.inS] at this ⊢; exact this
  · intro h1; simp [setW] at h1
  · intro p _ hc; exact .inl ⟨hc, by rw [hp]; intro h; cases h⟩

theorem cnt_pos {f : Nat → Nat} {n w : Nat} (hw : w < n) (h : 0 < f w) : 0 < cnt f n := by
  by_contra h0
  have := (cnt_zero (f := f) (n := n)).mp (by omega) w hw
  omega

/-- The role facts at `dec`: the state is Ready, and both `decLock` and `first` are fine. -/
theorem RoleOk.dec {k w : Nat} {r : Role} {x : WState} {τ : Option (Nat × Nat)} {b e : List Nat}
    (h : RoleOk k w r .dec x τ b e) :
    x = .ready ∧ ∀ p : WPC, p.waiting → RoleOk k w r p x τ b e := by
  cases r with
  | idle => simp [RoleOk, WPC.waiting] at h
  | wrote => simp [RoleOk, WPC.waiting] at h
  | exiting => simp [RoleOk, WPC.waiting] at h
  | boot =>
    simp [RoleOk, WPC.waiting] at h
    exact ⟨h.2.2.2, fun p hp => by simp [RoleOk, h, hp]⟩
  | posted =>
    simp [RoleOk, WPC.waiting] at h
    exact ⟨h.1, fun p hp => by simp [RoleOk, h, hp]⟩

theorem stepW_dec {calls : List (Call σ)} {s : State σ} {w : Nat} {c : Choice}
    (inv : Inv calls s) (hw : w < s.threads) (hp : s.pc w = .dec) :
    ∃ s', stepW calls s w c = .ok s' ∧ Inv calls s' := by
  have hne : s.pc w ≠ .exited := by rw [hp]; intro h; cases h
  have hr := inv.workers w hw
  have ha := inv.alive hw hne
  rw [hp] at hr
  obtain ⟨hst, hr⟩ := hr.dec
  have hpos : 0 < s.count := by
    have h1 := cnt_pos (f := fun w => owe (s.pc w) (s.st w)) hw (by simp [hp, owe])
    have := inv.count
    omega
  have key : ∀ p' : WPC, (p' = .decLock ∨ p' = .first ∧ s.count ≠ 1) →
      Inv calls { setW s w p' with count := s.count - 1 } := by
    intro p' hp'
    have hwt : p'.waiting := by rcases hp' with rfl | ⟨rfl, _⟩ <;> rfl
    have hC : p'.inC = false := by rcases hp' with rfl | ⟨rfl, _⟩ <;> rfl
    have hS : p'.inS = false := by rcases hp' with rfl | ⟨rfl, _⟩ <;> rfl
    refine inv.local hw ⟨rfl, rfl, .inl rfl, ?_, fun _ _ => rfl, fun _ _ => rfl,
      fun _ _ => rfl, fun _ _ _ => rfl, fun _ _ _ => rfl⟩ hne ?_ ?_ Iff.rfl (fun _ _ => Iff.rfl)
      ?_ Iff.rfl ?_ ?_ ?_ (Nat.sub_le _ _)
    · intro v hv; simp [setW, hv]
    · simpa [setW] using hr p' hwt
    · rcases hp' with rfl | ⟨rfl, _⟩ <;> simp [setW, hp, owe, hst] <;> omega
    · have := inv.cmw w
      rw [hp] at this
      simp [WPC.inC] at this; simp [setW, hC, this]
    · intro v
      have := inv.smw w hw v
      rw [hp] at this
      simp [WPC.inS] at this; simp [setW, hS, this]
    · intro h1; rcases hp' with rfl | ⟨rfl, _⟩ <;> simp [setW] at h1
    · intro p _ hc
      rcases hp' with rfl | ⟨rfl, h1⟩
      · right; simp [setW, WPC.willNotify]
      · exact absurd (show s.count - 1 = 0 from hc) (by omega)
  unfold stepW
  rw [hp]
  dsimp only
  rw [C.require_of ha, C.ok_bind, C.check_of hpos, C.ok_bind]
  split
  · exact ⟨_, rfl, key _ (.inl rfl)⟩
  · exact ⟨_, rfl, key _ (.inr ⟨rfl, by assumption⟩)⟩

/-- Within the waiting places, the role facts do not depend on the program counter. -/
theorem RoleOk.waiting {k w : Nat} {r : Role} {q : WPC} {x : WState} {τ : Option (Nat × Nat)}
    {b e : List Nat} (h : RoleOk k w r q x τ b e) (hq : q.waiting) :
    x ≠ .startup ∧ ∀ p : WPC, (p.waiting ∨ (x ≠ .ready ∧ (p = .unlock x ∨ p = .got x))) →
      RoleOk k w r p x τ b e := by
  cases r with
  | idle =>
    obtain ⟨rfl, h⟩ := h
    refine ⟨by simp, fun p hp => ?_⟩
    simp at hp
    simp [RoleOk, h, hp]
  | wrote =>
    obtain ⟨rfl, h⟩ := h
    refine ⟨by simp, fun p hp => ?_⟩
    simp at hp
    simp [RoleOk, h, hp]
  | exiting =>
    obtain ⟨rfl, h1, h2, h3, h⟩ := h
    refine ⟨by simp, fun p hp => ?_⟩
    simp at hp
    refine ⟨rfl, h1, h2, h3, ?_⟩
    rcases hp with h | h | h
    · exact .inl h
    · exact .inr (.inl h)
    · exact .inr (.inr (.inl h))
  | boot =>
    obtain ⟨h1, h2, h3, h⟩ := h
    rcases h with ⟨rfl, rfl | rfl⟩ | ⟨rfl, h⟩
    · cases hq
    · cases hq
    · refine ⟨by simp, fun p hp => ?_⟩
      simp at hp
      simp [RoleOk, h1, h2, h3, hp]
  | posted =>
    rcases h with ⟨rfl, h1, h2, h3, h⟩ | ⟨rfl, h1, h2, h3, rfl⟩ | ⟨rfl, h1, h2, h3, rfl⟩ |
      ⟨rfl, h1, h2, h3, rfl⟩ | ⟨rfl, h1, h2, h3, h⟩
    · refine ⟨by simp, fun p hp => .inl ⟨rfl, h1, h2, h3, ?_⟩⟩
      simp at hp
      rcases hp with h | h | h
      · exact .inl h
      · exact .inr (.inl h)
      · exact .inr (.inr (.inl h))
    · cases hq
    · cases hq
    · cases hq
    · refine ⟨by simp, fun p hp => ?_⟩
      simp at hp
      simp [RoleOk, h1, h2, h3, hp]

theorem owe_waiting {p q : WPC} {x : WState} (hp : p.waiting ∨ p = .unlock x ∨ p = .got x)
    (hq : q.waiting ∨ q = .unlock x ∨ q = .got x) : owe p x = owe q x := by
  have key : ∀ p : WPC, p.waiting ∨ p = .unlock x ∨ p = .got x →
      owe p x = if x = .hasWork then 1 else 0 := by
    intro p hp
    cases p <;> simp [WPC.waiting] at hp <;> simp [owe]
  rw [key p hp, key q hq]

section
variable {calls : List (Call σ)} {s : State σ} {w : Nat} {c : Choice}

/-- `Inv.move` from a waiting place. -/
theorem Inv.hop {p' : WPC} (inv : Inv calls s) (hw : w < s.threads) (hq : (s.pc w).waiting)
    (hp' : p'.waiting ∨ (s.st w ≠ .ready ∧ (p' = .unlock (s.st w) ∨ p' = .got (s.st w))))
    (hC : p'.inC = (s.pc w).inC) (hS : p'.inS = (s.pc w).inS)
    (hN : (s.pc w).willNotify → p'.willNotify)
    (hA : p' = .asleep → s.pc w = .asleep) : Inv calls (setW s w p') := by
  have hr := (inv.workers w hw).waiting hq
  refine inv.move hw ?_ (hr.2 p' hp') (owe_waiting (.inl hq) ?_) hC hS hN hA
  · intro h; rw [h] at hq; cases hq
  · rcases hp' with h | ⟨_, h⟩
    · exact .inl h
    · exact .inr h

theorem Inv.ne_exited (hq : (s.pc w).waiting) : s.pc w ≠ .exited := by
  intro h; rw [h] at hq; cases hq

theorem stepW_first (inv : Inv calls s) (hw : w < s.threads) (hp : s.pc w = .first) :
    ∃ s', stepW calls s w c = .ok s' ∧ Inv calls s' := by
  have hq : (s.pc w).waiting := by rw [hp]; rfl
  have ha := inv.alive hw (Inv.ne_exited hq)
  unfold stepW
  rw [hp]
  dsimp only
  rw [C.require_of ha, C.ok_bind]
  split
  · exact ⟨_, rfl, inv.hop hw hq (.inr ⟨by assumption, .inr rfl⟩) (by rw [hp]; rfl)
      (by rw [hp]; rfl) (by rw [hp]; intro h; cases h) (by intro h; cases h)⟩
  · exact ⟨_, rfl, inv.hop hw hq (.inl rfl) (by rw [hp]; rfl)
      (by rw [hp]; rfl) (by rw [hp]; intro h; cases h) (by intro h; cases h)⟩

theorem stepW_spin (inv : Inv calls s) (hw : w < s.threads) (hp : s.pc w = .spin) :
    ∃ s', stepW calls s w c = .ok s' ∧ Inv calls s' := by
  have hq : (s.pc w).waiting := by rw [hp]; rfl
  have ha := inv.alive hw (Inv.ne_exited hq)
  unfold stepW
  rw [hp]
  dsimp only
  rw [C.require_of ha, C.ok_bind]
  split
  · exact ⟨_, rfl, inv.hop hw hq (.inl rfl) (by rw [hp]; rfl)
      (by rw [hp]; rfl) (by rw [hp]; intro h; cases h) (by intro h; cases h)⟩
  · split
    · exact ⟨_, rfl, inv.hop hw hq (.inr ⟨by assumption, .inr rfl⟩) (by rw [hp]; rfl)
        (by rw [hp]; rfl) (by rw [hp]; intro h; cases h) (by intro h; cases h)⟩
    · exact ⟨_, rfl, inv⟩

theorem stepW_asleep (inv : Inv calls s) (hw : w < s.threads) (hp : s.pc w = .asleep) :
    ∃ s', stepW calls s w c = .ok s' ∧ Inv calls s' := by
  have hq : (s.pc w).waiting := by rw [hp]; rfl
  have ha := inv.alive hw (Inv.ne_exited hq)
  unfold stepW
  rw [hp]
  dsimp only
  rw [C.require_of ha, C.ok_bind]
  split
  · exact ⟨_, rfl, inv.hop hw hq (.inl rfl) (by rw [hp]; rfl)
      (by rw [hp]; rfl) (by rw [hp]; intro h; cases h) (by intro h; cases h)⟩
  · exact ⟨_, rfl, inv⟩

/-- Acquiring or releasing the worker's own mutex. -/
theorem Inv.smutexStep {p' : WPC} {x : Option Nat} (inv : Inv calls s) (hw : w < s.threads)
    (hne : s.pc w ≠ .exited)
    (hr : RoleOk s.k w (role s.main (callN calls s.k) w) p' (s.st w)
      (s.task w) (s.begun s.k (w + 1)) (s.ended s.k (w + 1)))
    (hcount : owe (s.pc w) (s.st w) = owe p' (s.st w))
    (hC : p'.inC = false) (hC0 : (s.pc w).inC = false)
    (hold : s.smutex w = none ∨ s.smutex w = some (w + 1))
    (hx : (x = some (w + 1) ∧ p'.inS) ∨ (x = none ∧ p'.inS = false))
    (hN : (s.pc w).willNotify = false)
    (hA : p' = .asleep → s.st w = .ready) :
    Inv calls { setW s w p' with smutex := Function.update s.smutex w x } := by
  refine inv.local hw ⟨rfl, rfl, .inl rfl, ?_, fun _ _ => rfl, fun _ _ => rfl, ?_,
    fun _ _ _ => rfl, fun _ _ _ => rfl⟩ hne ?_ ?_ Iff.rfl (fun _ _ => Iff.rfl) ?_ ?_ ?_ ?_ ?_
  · intro v hv; simp [setW, hv]
  · intro v hv; simp [hv]
  · simpa [setW] using hr
  · simp [setW, hcount]
  · have := inv.cmw w
    rw [hC0] at this
    simp [setW, hC] at this ⊢; exact this
  · rcases hx with ⟨rfl, _⟩ | ⟨rfl, _⟩ <;> rcases hold with h | h <;> simp [h]
  · intro v
    rcases hx with ⟨rfl, h⟩ | ⟨rfl, h⟩
    · simp [setW, h, eq_comm]
    · simp [setW, h]
  · intro h1 h2
    exact absurd (hA (by simpa [setW] using h1)) h2
  · intro p _ hc
    exact .inl ⟨hc, by rw [hN]; intro h; cases h⟩

theorem stepW_lock (inv : Inv calls s) (hw : w < s.threads) (hp : s.pc w = .lock) :
    ∃ s', stepW calls s w c = .ok s' ∧ Inv calls s' := by
  have hq : (s.pc w).waiting := by rw [hp]; rfl
  have hne := Inv.ne_exited hq
  have ha := inv.alive hw hne
  have hr := (inv.workers w hw).waiting hq
  unfold stepW
  rw [hp]
  dsimp only
  rw [C.require_of ha, C.ok_bind]
  split
  · rename_i hsm
    refine ⟨_, rfl, inv.smutexStep hw hne (hr.2 _ (.inl rfl)) (owe_waiting (.inl hq) (.inl rfl))
      rfl (by rw [hp]; rfl) (.inl hsm) (.inl ⟨rfl, rfl⟩) (by rw [hp]; rfl) (by intro h; cases h)⟩
  · exact ⟨_, rfl, inv⟩

theorem stepW_check (inv : Inv calls s) (hw : w < s.threads) (hp : s.pc w = .check) :
    ∃ s', stepW calls s w c = .ok s' ∧ Inv calls s' := by
  have hq : (s.pc w).waiting := by rw [hp]; rfl
  have hne := Inv.ne_exited hq
  have ha := inv.alive hw hne
  have hr := (inv.workers w hw).waiting hq
  have hsm : s.smutex w = some (w + 1) := (inv.smw w hw w).mpr ⟨rfl, by rw [hp]; rfl⟩
  unfold stepW
  rw [hp]
  dsimp only
  rw [C.require_of ha, C.ok_bind, C.require_of hsm, C.ok_bind]
  split
  · exact ⟨_, rfl, inv.hop hw hq (.inr ⟨by assumption, .inl rfl⟩) (by rw [hp]; rfl)
      (by rw [hp]; rfl) (by rw [hp]; intro h; cases h) (by intro h; cases h)⟩
  · rename_i hst
    refine ⟨_, rfl, inv.smutexStep hw hne (hr.2 _ (.inl rfl)) (owe_waiting (.inl hq) (.inl rfl))
      rfl (by rw [hp]; rfl) (.inr hsm) (.inr ⟨rfl, rfl⟩) (by rw [hp]; rfl) (fun _ => ?_)⟩
    exact Classical.not_not.mp hst

/-- The role facts once a worker has seen a new state. -/
theorem RoleOk.seen {k w : Nat} {r : Role} {q : WPC} {x y : WState} {τ : Option (Nat × Nat)}
    {b e : List Nat} (h : RoleOk k w r q x τ b e) (hq : q = .unlock y ∨ q = .got y) :
    y = x ∧ ((x = .hasWork ∧ RoleOk k w r .enter x τ b e) ∨
      (x = .exit ∧ RoleOk k w r .exited x τ b e)) ∧ RoleOk k w r (.got x) x τ b e := by
  cases r with
  | idle => rcases hq with rfl | rfl <;> simp [RoleOk, WPC.waiting] at h
  | wrote => rcases hq with rfl | rfl <;> simp [RoleOk, WPC.waiting] at h
  | boot => rcases hq with rfl | rfl <;> simp [RoleOk, WPC.waiting] at h
  | exiting =>
    rcases hq with rfl | rfl <;> simp [RoleOk, WPC.waiting] at h <;>
      obtain ⟨rfl, h1, h2, h3, rfl⟩ := h <;> simp [RoleOk, WPC.waiting, h1, h2, h3]
  | posted =>
    rcases hq with rfl | rfl <;> simp [RoleOk, WPC.waiting] at h <;>
      obtain ⟨rfl, h1, h2, h3, rfl⟩ := h <;> simp [RoleOk, WPC.waiting, h1, h2, h3]

theorem stepW_unlock {y : WState} (inv : Inv calls s) (hw : w < s.threads)
    (hp : s.pc w = .unlock y) : ∃ s', stepW calls s w c = .ok s' ∧ Inv calls s' := by
  have hne : s.pc w ≠ .exited := by rw [hp]; intro h; cases h
  have ha := inv.alive hw hne
  have hr := (inv.workers w hw).seen (.inl hp)
  obtain ⟨rfl, -, hr⟩ := hr
  have hsm : s.smutex w = some (w + 1) := (inv.smw w hw w).mpr ⟨rfl, by rw [hp]; rfl⟩
  unfold stepW
  rw [hp]
  dsimp only
  rw [C.require_of ha, C.ok_bind, C.require_of hsm, C.ok_bind]
  refine ⟨_, rfl, inv.smutexStep hw hne hr ?_ rfl (by rw [hp]; rfl) (.inr hsm) (.inr ⟨rfl, rfl⟩)
    (by rw [hp]; rfl) (by intro h; cases h)⟩
  exact owe_waiting (.inr (.inl hp)) (.inr (.inr rfl))

theorem stepW_got {y : WState} (inv : Inv calls s) (hw : w < s.threads)
    (hp : s.pc w = .got y) : ∃ s', stepW calls s w c = .ok s' ∧ Inv calls s' := by
  have hne : s.pc w ≠ .exited := by rw [hp]; intro h; cases h
  have ha := inv.alive hw hne
  have hr := (inv.workers w hw).seen (.inr hp)
  obtain ⟨rfl, hr, -⟩ := hr
  unfold stepW
  rw [hp]
  dsimp only
  rw [C.require_of ha, C.ok_bind]
  rcases hr with ⟨hx, hr⟩ | ⟨hx, hr⟩
  · rw [if_pos hx]
    refine ⟨_, rfl, inv.move hw hne hr ?_ (by rw [hp]; rfl) (by rw [hp]; rfl)
      (by rw [hp]; intro h; cases h) (by intro h; cases h)⟩
    simp [hp, owe, hx]
  · rw [if_neg (by rw [hx]; simp), C.check_of hx, C.ok_bind]
    refine ⟨_, rfl, inv.move hw hne hr ?_ (by rw [hp]; rfl) (by rw [hp]; rfl)
      (by rw [hp]; intro h; cases h) (by intro h; cases h)⟩
    simp [hp, owe]

theorem stepW_decLock (inv : Inv calls s) (hw : w < s.threads) (hp : s.pc w = .decLock) :
    ∃ s', stepW calls s w c = .ok s' ∧ Inv calls s' := by
  have hq : (s.pc w).waiting := by rw [hp]; rfl
  have hne := Inv.ne_exited hq
  have ha := inv.alive hw hne
  have hr := (inv.workers w hw).waiting hq
  unfold stepW
  rw [hp]
  dsimp only
  rw [C.require_of ha, C.ok_bind]
  split
  · rename_i hcm
    refine ⟨_, rfl, inv.local hw ⟨rfl, rfl, .inl rfl, ?_, fun _ _ => rfl, fun _ _ => rfl,
      fun _ _ => rfl, fun _ _ _ => rfl, fun _ _ _ => rfl⟩ hne ?_ ?_ ?_ ?_ ?_ Iff.rfl ?_ ?_ ?_⟩
    · intro v hv; simp [setW, hv]
    · simpa [setW] using hr.2 .decNotify (.inl rfl)
    · simp only [setW, Function.update_self]; rw [owe_waiting (q := .decNotify) (.inl hq) (.inl rfl)]
    · simp [hcm]
    · intro v hv; simp [hcm, hv.symm]
    · simp [setW, WPC.inC]
    · intro v
      have := inv.smw w hw v
      rw [hp] at this
      simp [setW, WPC.inS] at this ⊢; exact this
    · intro h1; simp [setW] at h1
    · intro p _ hc; exact .inr (by simp [setW, WPC.willNotify])
  · exact ⟨_, rfl, inv⟩

theorem stepW_decNotify (inv : Inv calls s) (hw : w < s.threads) (hp : s.pc w = .decNotify) :
    ∃ s', stepW calls s w c = .ok s' ∧ Inv calls s' := by
  have hq : (s.pc w).waiting := by rw [hp]; rfl
  have hne := Inv.ne_exited hq
  have ha := inv.alive hw hne
  have hr := (inv.workers w hw).waiting hq
  have e1 : (notifyMain s).pc = s.pc ∧ (notifyMain s).st = s.st ∧ (notifyMain s).task = s.task ∧
      (notifyMain s).smutex = s.smutex ∧ (notifyMain s).begun = s.begun ∧
      (notifyMain s).ended = s.ended ∧ (notifyMain s).cmutex = s.cmutex ∧
      (notifyMain s).count = s.count ∧ (notifyMain s).k = s.k ∧
      (notifyMain s).threads = s.threads := by
    unfold notifyMain; split <;> simp [setM]
  obtain ⟨e1, e2, e3, e4, e5, e6, e7, e8, e9, e10⟩ := e1
  unfold stepW
  rw [hp]
  dsimp only
  rw [C.require_of ha, C.ok_bind]
  refine ⟨_, rfl, inv.local hw ⟨e9, e10, ?_, ?_, ?_, ?_, ?_, ?_, ?_⟩ hne ?_ ?_ ?_ ?_ ?_ ?_ ?_ ?_ ?_
    (Nat.le_of_eq e8)⟩
  · simp only [setW]
    unfold notifyMain
    split
    · rename_i p hm; exact .inr ⟨p, hm, rfl⟩
    · exact .inl rfl
  · intro v hv; simp [setW, hv, e1]
  · intro v hv; simp [setW, e2]
  · intro v hv; simp [setW, e3]
  · intro v hv; simp [setW, e4]
  · intro j i hji; simp [setW, e5]
  · intro j i hji; simp [setW, e6]
  · simpa [setW, e2, e3, e5, e6] using hr.2 .decUnlock (.inl rfl)
  · simp [setW, hp, owe, e2, e8]
  · simp [setW, e7]
  · intro v hv; simp [setW, e7]
  · have := inv.cmw w
    rw [hp] at this
    simp [setW, WPC.inC, hw, e7] at this ⊢; exact this
  · simp [setW, e4]
  · intro v
    have := inv.smw w hw v
    rw [hp] at this
    simp [setW, WPC.inS, e4] at this ⊢; exact this
  · intro h1; simp [setW] at h1
  · intro p hm _
    exfalso
    simp only [setW] at hm
    unfold notifyMain at hm
    split at hm
    · cases hm
    · rename_i hh; exact hh p hm

theorem stepW_decUnlock (inv : Inv calls s) (hw : w < s.threads) (hp : s.pc w = .decUnlock) :
    ∃ s', stepW calls s w c = .ok s' ∧ Inv calls s' := by
  have hq : (s.pc w).waiting := by rw [hp]; rfl
  have hne := Inv.ne_exited hq
  have ha := inv.alive hw hne
  have hr := (inv.workers w hw).waiting hq
  have hcm : s.cmutex = some (w + 1) := (inv.cmw w).mpr ⟨hw, by rw [hp]; rfl⟩
  unfold stepW
  rw [hp]
  dsimp only
  rw [C.require_of ha, C.ok_bind, C.require_of hcm, C.ok_bind]
  refine ⟨_, rfl, inv.local hw ⟨rfl, rfl, .inl rfl, ?_, fun _ _ => rfl, fun _ _ => rfl,
    fun _ _ => rfl, fun _ _ _ => rfl, fun _ _ _ => rfl⟩ hne ?_ ?_ ?_ ?_ ?_ Iff.rfl ?_ ?_ ?_⟩
  · intro v hv; simp [setW, hv]
  · simpa [setW] using hr.2 .first (.inl rfl)
  · simp only [setW, Function.update_self]; rw [owe_waiting (q := .first) (.inl hq) (.inl rfl)]
  · simp [hcm]
  · intro v hv; simp [hcm, hv.symm]
  · simp [setW, WPC.inC]
  · intro v
    have := inv.smw w hw v
    rw [hp] at this
    simp [setW, WPC.inS] at this ⊢; exact this
  · intro h1; simp [setW] at h1
  · intro p _ hc; exact .inl ⟨hc, by rw [hp]; intro h; cases h⟩

/-- Workers never fault, and preserve the invariant. -/
theorem stepW_inv (inv : Inv calls s) (hw : w < s.threads) :
    ∃ s', stepW calls s w c = .ok s' ∧ Inv calls s' := by
  cases hp : s.pc w with
  | enter => exact stepW_enter inv hw hp
  | running k i => exact stepW_running inv hw hp
  | clear => exact stepW_clear inv hw hp
  | storeReady => exact stepW_storeReady inv hw hp
  | dec => exact stepW_dec inv hw hp
  | decLock => exact stepW_decLock inv hw hp
  | decNotify => exact stepW_decNotify inv hw hp
  | decUnlock => exact stepW_decUnlock inv hw hp
  | first => exact stepW_first inv hw hp
  | spin => exact stepW_spin inv hw hp
  | lock => exact stepW_lock inv hw hp
  | check => exact stepW_check inv hw hp
  | asleep => exact stepW_asleep inv hw hp
  | unlock y => exact stepW_unlock inv hw hp
  | got y => exact stepW_got inv hw hp
  | exited => exact ⟨s, by unfold stepW; rw [hp], inv⟩

end

end Ruy.Pool

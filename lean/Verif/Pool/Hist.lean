import Verif.Pool.Measure
/-
What the tasks do to the shared memory.
-/
namespace Ruy.Pool

variable {σ : Type} {calls : List (Call σ)} {s s' : State σ} {c : Choice}

/-- One step of task `i`, if it exists and has not returned. -/
def advance (cl : Call σ) (i : Nat) (m : σ) : σ :=
  if i < cl.n then (cl.body i m).getD m else m

/-- The tasks of a call take steps in the order given by `tr`. -/
def runTasks (cl : Call σ) (tr : List Nat) (m : σ) : σ := tr.foldl (fun m i => advance cl i m) m

/-- A task that has returned is not disturbed by the other tasks. -/
def Stable (cl : Call σ) : Prop :=
  ∀ i j m m', i < cl.n → j < cl.n → cl.body i m = none → cl.body j m = some m' →
    cl.body i m' = none

/-- `m` is a possible memory after the first `k` calls: in each call the tasks were executed
in some interleaving, until all of them had returned. -/
inductive Result (calls : List (Call σ)) (m0 : σ) : Nat → σ → Prop
  | zero : Result calls m0 0 m0
  | succ {k : Nat} {m : σ} {cl : Call σ} (tr : List Nat) (h : Result calls m0 k m)
      (hc : calls[k]? = some cl) (hd : ∀ i, i < cl.n → cl.body i (runTasks cl tr (cl.prepare m)) = none) :
      Result calls m0 (k + 1) (runTasks cl tr (cl.prepare m))

/-- Inside a call. -/
def InCall (calls : List (Call σ)) (s : State σ) : Prop := s.main ≠ .idle ∧ s.k < calls.length

structure Hist (calls : List (Call σ)) (m0 : σ) (s : State σ) : Prop where
  out : ¬ InCall calls s → Result calls m0 s.k s.mem
  inn : InCall calls s → ∃ cl m tr, calls[s.k]? = some cl ∧ Result calls m0 s.k m ∧
    s.mem = runTasks cl tr (cl.prepare m) ∧
    ∀ i, i < cl.n → s.ended s.k i ≠ [] → cl.body i s.mem = none

/-- Effect of a step on what matters here. -/
inductive Effect (calls : List (Call σ)) (s s' : State σ) : Prop
  | plain (hm : s'.mem = s.mem) (hk : s'.k = s.k) (he : s'.ended = s.ended)
      (hi : InCall calls s' ↔ InCall calls s)
  | body (t : Nat) (h : BodyStep calls s s' t)
  | finish (t : Nat) (cl : Call σ) (hc : calls[s.k]? = some cl) (ht : t < cl.n)
      (hb : cl.body t s.mem = none) (hm : s'.mem = s.mem) (hk : s'.k = s.k)
      (he : s'.ended = push s.ended s.k t t) (hi : InCall calls s' ↔ InCall calls s)
  | start (cl : Call σ) (hc : calls[s.k]? = some cl) (hm : s.main = .idle)
      (hm' : s'.mem = cl.prepare s.mem) (hk : s'.k = s.k) (he : s'.ended = s.ended)
      (hl : s'.main ≠ .idle)
  | ret (cl : Call σ) (hc : calls[s.k]? = some cl) (hm : s'.main = .idle) (hm' : s.main ≠ .idle)
      (hmem : s'.mem = s.mem) (hk : s'.k = s.k + 1)
      (he : ∀ i, i < cl.n → s'.ended s.k i ≠ [])
      (hb : ∀ i, i < cl.n → s.ended s.k i ≠ [] ∨ cl.body i s.mem = none)

theorem inCall_congr (h1 : s'.main = .idle ↔ s.main = .idle) (h2 : s'.k = s.k) :
    InCall calls s' ↔ InCall calls s := by
  unfold InCall; rw [h2, Ne, Ne, h1]

/-- A posted worker has a task of the current call. -/
theorem Inv.posted_bound {w : Nat} (inv : Inv calls s) (hro : role s.main (callN calls s.k) w = .posted) :
    w + 1 < callN calls s.k := by
  have mk := inv.main
  have hne := posted_live hro
  cases hm : s.main with
  | idle => exact absurd hm hne
  | resetLoad p => rw [hm] at hro; cases hro
  | resetStore p => rw [hm] at hro; cases hro
  | spawn => rw [hm] at hro; cases hro
  | wait p q =>
    rw [hm] at hro
    cases p with
    | create => cases hro
    | work =>
      simp only [role] at hro
      split at hro
      · omega
      · cases hro
  | csTask v =>
    rw [hm] at hro mk
    simp only [role, MainOk] at hro mk
    split at hro
    · omega
    · cases hro
  | csLoad ex v =>
    rw [hm] at hro mk
    cases ex <;> simp only [role, MainOk] at hro mk
    · split at hro
      · omega
      · cases hro
    · split at hro <;> cases hro
  | csStore ex v =>
    rw [hm] at hro mk
    cases ex <;> simp only [role, MainOk] at hro mk
    · split at hro
      · omega
      · split at hro <;> cases hro
    · split at hro <;> cases hro
  | csLock ex v =>
    rw [hm] at hro mk
    cases ex <;> simp only [role, MainOk] at hro mk
    · split at hro
      · omega
      · cases hro
    · split at hro <;> cases hro
  | csNotify ex v =>
    rw [hm] at hro mk
    cases ex <;> simp only [role, MainOk] at hro mk
    · split at hro
      · omega
      · cases hro
    · split at hro <;> cases hro
  | csUnlock ex v =>
    rw [hm] at hro mk
    cases ex <;> simp only [role, MainOk] at hro mk
    · split at hro
      · omega
      · cases hro
    · split at hro <;> cases hro
  | run0 =>
    rw [hm] at hro
    simp only [role] at hro
    split at hro
    · omega
    · cases hro
  | join v => rw [hm] at hro; cases hro
  | gone => rw [hm] at hro; cases hro

/-- A running task belongs to the current call. -/
theorem Running.inCall {t : Nat} (inv : Inv calls s) (h : Running s t) :
    InCall calls s ∧ t < callN calls s.k := by
  cases t with
  | zero =>
    have hm : s.main = .run0 := h
    have mk := inv.main
    rw [hm] at mk
    exact ⟨⟨by rw [hm]; simp, mk.1⟩, mk.2.1⟩
  | succ w =>
    obtain ⟨hw, k, i, hp⟩ := h
    have hr := inv.workers w hw
    have mk := inv.main
    rw [hp] at hr
    cases hro : role s.main (callN calls s.k) w <;> rw [hro] at hr <;>
      simp [RoleOk, WPC.waiting] at hr
    have hne := posted_live hro
    exact ⟨⟨hne, mk.posted_lt hro⟩, inv.posted_bound hro⟩

theorem stepW_effect {w : Nat} (inv : Inv calls s) (hw : w < s.threads)
    (h : stepW calls s w c = .ok s') : Effect calls s s' := by
  have pl : ∀ s1 : State σ, s1.mem = s.mem → s1.k = s.k → s1.ended = s.ended → s1.main = s.main →
      Effect calls s s1 := fun s1 h1 h2 h3 h4 => .plain h1 h2 h3 (inCall_congr (by rw [h4]) h2)
  unfold stepW at h
  cases hp : s.pc w with
  | running k i =>
    have hr := inv.workers w hw
    rw [hp] at h hr
    obtain ⟨-, -, h⟩ := C.bind_ok h
    have hki : k = s.k ∧ i = w + 1 ∧ role s.main (callN calls s.k) w = .posted := by
      cases hro : role s.main (callN calls s.k) w <;> rw [hro] at hr <;>
        simp [RoleOk, WPC.waiting] at hr
      exact ⟨hr.2.2.2.2.1, hr.2.2.2.2.2, rfl⟩
    obtain ⟨rfl, rfl, hro⟩ := hki
    cases hcl : calls[s.k]? with
    | none => rw [hcl] at h; cases h
    | some cl =>
      have hn := (callN_of hcl).1
      have hwn := (Running.inCall (t := w + 1) inv ⟨hw, _, _, hp⟩).2
      rw [hcl] at h
      dsimp only at h
      cases hb : cl.body (w + 1) s.mem with
      | some m =>
        rw [hb] at h
        cases h
        exact .body (w + 1) ⟨⟨hw, _, _, hp⟩, cl, m, hcl, hb, rfl⟩
      | none =>
        rw [hb] at h
        cases h
        exact .finish (w + 1) cl hcl (by omega) hb rfl rfl rfl (inCall_congr Iff.rfl rfl)
  | exited => rw [hp] at h; cases h; exact pl _ rfl rfl rfl rfl
  | enter =>
    rw [hp] at h
    obtain ⟨-, -, h⟩ := C.bind_ok h
    split at h <;> cases h <;> exact pl _ rfl rfl rfl rfl
  | clear =>
    rw [hp] at h
    obtain ⟨-, -, h⟩ := C.bind_ok h
    cases h; exact pl _ rfl rfl rfl rfl
  | storeReady =>
    rw [hp] at h
    obtain ⟨-, -, h⟩ := C.bind_ok h
    cases h; exact pl _ rfl rfl rfl rfl
  | dec =>
    rw [hp] at h
    obtain ⟨-, -, h⟩ := C.bind_ok h
    obtain ⟨-, -, h⟩ := C.bind_ok h
    split at h <;> cases h <;> exact pl _ rfl rfl rfl rfl
  | decLock =>
    rw [hp] at h
    obtain ⟨-, -, h⟩ := C.bind_ok h
    split at h <;> cases h <;> exact pl _ rfl rfl rfl rfl
  | decNotify =>
    rw [hp] at h
    obtain ⟨-, -, h⟩ := C.bind_ok h
    cases h
    unfold notifyMain
    split
    · rename_i p hm
      refine .plain rfl rfl rfl (inCall_congr ?_ rfl)
      simp only [setW, setM, hm]
      constructor <;> intro h <;> cases h
    · exact pl _ rfl rfl rfl rfl
  | decUnlock =>
    rw [hp] at h
    obtain ⟨-, -, h⟩ := C.bind_ok h
    obtain ⟨-, -, h⟩ := C.bind_ok h
    cases h; exact pl _ rfl rfl rfl rfl
  | first =>
    rw [hp] at h
    obtain ⟨-, -, h⟩ := C.bind_ok h
    split at h <;> cases h <;> exact pl _ rfl rfl rfl rfl
  | spin =>
    rw [hp] at h
    obtain ⟨-, -, h⟩ := C.bind_ok h
    split at h
    · cases h; exact pl _ rfl rfl rfl rfl
    · split at h <;> cases h <;> exact pl _ rfl rfl rfl rfl
  | lock =>
    rw [hp] at h
    obtain ⟨-, -, h⟩ := C.bind_ok h
    split at h <;> cases h <;> exact pl _ rfl rfl rfl rfl
  | check =>
    rw [hp] at h
    obtain ⟨-, -, h⟩ := C.bind_ok h
    obtain ⟨-, -, h⟩ := C.bind_ok h
    split at h <;> cases h <;> exact pl _ rfl rfl rfl rfl
  | asleep =>
    rw [hp] at h
    obtain ⟨-, -, h⟩ := C.bind_ok h
    split at h <;> cases h <;> exact pl _ rfl rfl rfl rfl
  | unlock y =>
    rw [hp] at h
    obtain ⟨-, -, h⟩ := C.bind_ok h
    obtain ⟨-, -, h⟩ := C.bind_ok h
    cases h; exact pl _ rfl rfl rfl rfl
  | got y =>
    rw [hp] at h
    obtain ⟨-, -, h⟩ := C.bind_ok h
    split at h
    · cases h; exact pl _ rfl rfl rfl rfl
    · obtain ⟨-, -, h⟩ := C.bind_ok h
      injection h with h
      subst h; exact pl _ rfl rfl rfl rfl

/-- Returning from the wait at the end of Execute: every task has ended. -/
theorem Inv.all_ended (inv : Inv calls s) {q : WaitPC} (hm : s.main = .wait .work q)
    (h0 : s.count = 0) {i : Nat} (hi : i < callN calls s.k) : s.ended s.k i ≠ [] := by
  have mk := inv.main
  rw [hm] at mk
  obtain ⟨mk1, mk2, mk3, mk4⟩ := mk
  cases i with
  | zero =>
    have := inv.task0
    rw [hm] at this
    rw [this.2]; simp [main0]
  | succ w =>
    have hr := inv.workers w (by omega)
    rw [hm] at hr
    simp only [role] at hr
    rw [if_pos (by omega)] at hr
    have := (hr.posted_idle (inv.owe_zero h0 (by omega))).2.2.2.2
    rw [this]; simp

theorem afterWait_effect {p : Purpose} {q : WaitPC} {x : Option Nat} (inv : Inv calls s)
    (hm : s.main = .wait p q) (h0 : s.count = 0) :
    Effect calls s { afterWait s p with cmutex := x } := by
  cases p with
  | create =>
    refine .plain rfl rfl rfl (inCall_congr ?_ rfl)
    rw [hm]
    simp [afterWait, setM]
  | work =>
    have mk := inv.main
    rw [hm] at mk
    have hk := mk.1
    have hcl := List.getElem?_eq_getElem hk
    have hn := (callN_of hcl).1
    exact .ret _ hcl rfl (by rw [hm]; simp) rfl rfl
      (fun i hi => inv.all_ended hm h0 (by omega)) (fun i hi => .inl (inv.all_ended hm h0 (by omega)))

theorem stepM_effect (inv : Inv calls s) (h : stepM calls s c = .ok s') : Effect calls s s' := by
  have mk := inv.main
  have pl : ∀ s1 : State σ, s1.mem = s.mem → s1.k = s.k → s1.ended = s.ended →
      s.main ≠ .idle → s1.main ≠ .idle →
      Effect calls s s1 := fun s1 h1 h2 h3 h4 h5 => .plain h1 h2 h3 (inCall_congr (by simp [h4, h5]) h2)
  unfold stepM at h
  cases hm : s.main with
  | idle =>
    rw [hm] at h mk
    unfold stepIdle at h
    dsimp only at h
    cases hcl : calls[s.k]? with
    | none =>
      have hlen : calls.length ≤ s.k := by
        by_contra h
        rw [List.getElem?_eq_getElem (by omega)] at hcl; cases hcl
      rw [hcl] at h
      dsimp only at h
      have hi : ∀ m, InCall calls (setM s m) ↔ InCall calls s := by
        intro m
        unfold InCall
        simp only [setM]
        constructor <;> intro h <;> omega
      split at h <;> cases h <;> exact .plain rfl rfl rfl (hi _)
    | some cl =>
      rw [hcl] at h
      dsimp only at h
      obtain ⟨-, -, h⟩ := C.bind_ok h
      split at h
      · cases h; exact .start cl hcl hm rfl rfl rfl (by simp [setM])
      · split at h <;> cases h <;> exact .start cl hcl hm rfl rfl rfl (by simp [setM])
  | resetLoad p =>
    rw [hm] at h
    obtain ⟨-, -, h⟩ := C.bind_ok h
    cases h; exact pl _ rfl rfl rfl (by rw [hm]; simp) (by simp [setM])
  | resetStore p =>
    rw [hm] at h
    cases p <;> cases h <;> exact pl _ rfl rfl rfl (by rw [hm]; simp) (by simp [setM])
  | spawn =>
    rw [hm] at h
    dsimp only at h
    split at h
    · cases h; exact pl _ rfl rfl rfl (by rw [hm]; simp) (by simp)
    · cases h; exact pl _ rfl rfl rfl (by rw [hm]; simp) (by simp [setM])
  | wait p q =>
    rw [hm] at h
    dsimp only at h
    unfold stepWait at h
    have hne : s.main ≠ .idle := by rw [hm]; simp
    cases q with
    | first =>
      dsimp only at h
      split at h
      · rename_i h0
        cases h; cases p <;> exact afterWait_effect (x := s.cmutex) inv hm h0
      · cases h; exact pl _ rfl rfl rfl hne (by simp [setM])
    | spin =>
      dsimp only at h
      split at h
      · cases h; exact pl _ rfl rfl rfl hne (by simp [setM])
      · split at h
        · rename_i h0
          cases h; cases p <;> exact afterWait_effect (x := s.cmutex) inv hm h0
        · cases h; exact pl _ rfl rfl rfl hne hne
    | lock =>
      dsimp only at h
      split at h
      · cases h; exact pl _ rfl rfl rfl hne (by simp [setM])
      · cases h; exact pl _ rfl rfl rfl hne hne
    | check =>
      obtain ⟨-, -, h⟩ := C.bind_ok h
      split at h
      · cases h; exact pl _ rfl rfl rfl hne (by simp [setM])
      · cases h; exact pl _ rfl rfl rfl hne (by simp [setM])
    | asleep =>
      dsimp only at h
      split at h
      · cases h; exact pl _ rfl rfl rfl hne (by simp [setM])
      · cases h; exact pl _ rfl rfl rfl hne hne
    | unlock =>
      obtain ⟨-, -, h⟩ := C.bind_ok h
      cases h
      exact afterWait_effect inv hm (inv.unl p hm)
  | csLoad ex v =>
    rw [hm] at h
    obtain ⟨-, -, h⟩ := C.bind_ok h
    obtain ⟨-, -, h⟩ := C.bind_ok h
    obtain ⟨-, -, h⟩ := C.bind_ok h
    cases ex <;> cases h <;> exact pl _ rfl rfl rfl (by rw [hm]; simp) (by simp [setM])
  | csTask v =>
    rw [hm] at h
    obtain ⟨-, -, h⟩ := C.bind_ok h
    cases h; exact pl _ rfl rfl rfl (by rw [hm]; simp) (by simp [setM])
  | csStore ex v =>
    rw [hm] at h
    cases h; exact pl _ rfl rfl rfl (by rw [hm]; simp) (by simp [setM])
  | csLock ex v =>
    rw [hm] at h
    dsimp only at h
    split at h
    · cases h; exact pl _ rfl rfl rfl (by rw [hm]; simp) (by simp [setM])
    · cases h; exact pl _ rfl rfl rfl (by rw [hm]; simp) (by rw [hm]; simp)
  | csNotify ex v =>
    rw [hm] at h
    cases h
    unfold notifyWorker
    split
    · exact pl _ rfl rfl rfl (by rw [hm]; simp) (by simp [setM])
    · exact pl _ rfl rfl rfl (by rw [hm]; simp) (by simp [setM])
  | csUnlock ex v =>
    rw [hm] at h
    obtain ⟨-, -, h⟩ := C.bind_ok h
    cases h
    unfold afterPost
    have hne : s.main ≠ .idle := by rw [hm]; simp
    split
    · split
      · exact pl _ rfl rfl rfl hne (by simp [setM])
      · exact pl _ rfl rfl rfl hne (by simp [setM])
    · split
      · exact pl _ rfl rfl rfl hne (by simp [setM])
      · exact pl _ rfl rfl rfl hne (by simp [setM])
  | run0 =>
    rw [hm] at h mk
    have hne : s.main ≠ .idle := by rw [hm]; simp
    dsimp only at h
    cases hcl : calls[s.k]? with
    | none => rw [hcl] at h; cases h
    | some cl =>
      have hn := (callN_of hcl).1
      rw [hcl] at h
      dsimp only at h
      cases hb : cl.body 0 s.mem with
      | some m =>
        rw [hb] at h
        cases h
        refine .body 0 ⟨hm, cl, m, hcl, hb, ?_⟩
        rw [hm]
      | none =>
        rw [hb] at h
        dsimp only at h
        split at h
        · rename_i h1
          cases h
          refine .ret cl hcl rfl hne rfl rfl ?_ ?_
          · intro i hi
            have hi : i = 0 := by omega
            subst hi
            show push s.ended s.k 0 0 s.k 0 ≠ []
            rw [push_self]; simp
          · intro i hi
            have hi : i = 0 := by omega
            subst hi
            exact .inr hb
        · cases h
          exact .finish 0 cl hcl (by have := mk.2.1; omega) hb rfl rfl rfl
            (inCall_congr (by simp [setM, hm]) rfl)
  | join v =>
    rw [hm] at h
    have hne : s.main ≠ .idle := by rw [hm]; simp
    dsimp only at h
    split at h
    · obtain ⟨-, -, h⟩ := C.bind_ok h
      split at h
      · cases h; exact pl _ rfl rfl rfl hne (by simp [setM])
      · cases h; exact pl _ rfl rfl rfl hne hne
    · cases h; exact pl _ rfl rfl rfl hne (by simp [setM])
  | gone =>
    rw [hm] at h; cases h
    exact pl _ rfl rfl rfl (by rw [hm]; simp) (by rw [hm]; simp)

theorem step_effect {t : Nat} (inv : Inv calls s) (h : step calls s t c = .ok s') :
    Effect calls s s' := by
  unfold step at h
  cases t with
  | zero => exact stepM_effect inv h
  | succ w =>
    dsimp only at h
    split at h
    · exact stepW_effect inv (by assumption) h
    · cases h; exact .plain rfl rfl rfl Iff.rfl

theorem Hist.init (m0 : σ) : Hist calls m0 (initState m0) where
  out := fun _ => .zero
  inn := fun h => absurd rfl h.1

theorem runTasks_append (cl : Call σ) (tr : List Nat) (i : Nat) (m : σ) :
    runTasks cl (tr ++ [i]) m = advance cl i (runTasks cl tr m) := by
  simp [runTasks]

theorem Hist.step {m0 : σ} {t : Nat} (hs : ∀ cl ∈ calls, Stable cl) (inv : Inv calls s)
    (hi : Hist calls m0 s) (h : step calls s t c = .ok s') : Hist calls m0 s' := by
  cases step_effect inv h with
  | plain hm hk he hin =>
    constructor
    · intro h; rw [hin] at h; rw [hk, hm]; exact hi.out h
    · intro h; rw [hin] at h; rw [hk, hm, he]; exact hi.inn h
  | body t hb =>
    obtain ⟨hrun, cl, m, hcl, hbody, rfl⟩ := hb
    have hic := hrun.inCall inv
    have htn : t < cl.n := by rw [← (callN_of hcl).1]; exact hic.2
    constructor
    · intro h; exact absurd hic.1 h
    · intro _
      obtain ⟨cl', m1, tr, hcl', hres, hmem, hend⟩ := hi.inn hic.1
      rw [hcl] at hcl'
      cases hcl'
      refine ⟨cl, m1, tr ++ [t], hcl, hres, ?_, ?_⟩
      · rw [runTasks_append, ← hmem]
        show m = _
        unfold advance
        rw [if_pos htn, hbody]; rfl
      · intro i hi he
        exact hs cl (List.mem_of_getElem? hcl) i t s.mem m hi htn (hend i hi he) hbody
  | finish t cl hcl ht hb hm hk he hin =>
    constructor
    · intro h; rw [hin] at h; rw [hk, hm]; exact hi.out h
    · intro h
      rw [hin] at h
      obtain ⟨cl', m1, tr, hcl', hres, hmem, hend⟩ := hi.inn h
      rw [hcl] at hcl'
      cases hcl'
      rw [hk, hm, he]
      refine ⟨cl, m1, tr, hcl, hres, hmem, ?_⟩
      intro i hi hne
      by_cases hit : i = t
      · subst hit; exact hb
      · rw [push_other _ _ (.inr hit)] at hne
        exact hend i hi hne
  | start cl hcl hm hm' hk he hl =>
    have hres := hi.out (fun h => h.1 hm)
    have hlt := (callN_of hcl).2
    constructor
    · intro h
      exfalso
      apply h
      exact ⟨hl, by omega⟩
    · intro _
      rw [hk, hm', he]
      refine ⟨cl, s.mem, [], hcl, hres, rfl, ?_⟩
      intro i hi hne
      exfalso
      apply hne
      cases i with
      | zero => have := inv.task0; rw [hm] at this; exact this.2
      | succ w =>
        by_cases hw : w < s.threads
        · have hr := inv.workers w hw
          rw [hm] at hr
          exact hr.2.2.2.2
        · exact (inv.rest (w + 1) (by omega)).2
  | ret cl hcl hm hm' hmem hk he hb =>
    have hlt := (callN_of hcl).2
    constructor
    · intro _
      obtain ⟨cl', m1, tr, hcl', hres, hmem', hend⟩ := hi.inn ⟨hm', hlt⟩
      rw [hcl] at hcl'
      cases hcl'
      rw [hk, hmem, hmem']
      refine .succ tr hres hcl ?_
      intro i hi
      rw [← hmem']
      rcases hb i hi with h | h
      · exact hend i hi h
      · exact h
    · intro h; exact absurd hm h.1

end Ruy.Pool

import Verif.Pool.MainSteps
/-
A measure that every step decreases, except steps inside tasks, unsuccessful attempts
(spinning, waiting for a mutex, sleeping) and spurious wake-ups.
-/
namespace Ruy.Pool

variable {σ : Type} {calls : List (Call σ)} {s s' : State σ} {c : Choice}

def wpos : WPC → Nat
  | .enter => 20
  | .running _ _ => 19
  | .clear => 18
  | .storeReady => 17
  | .dec => 16
  | .decLock => 15
  | .decNotify => 14
  | .decUnlock => 10
  | .first => 9
  | .spin => 8
  | .lock => 7
  | .check => 6
  | .asleep => 5
  | .unlock _ => 4
  | .got _ => 3
  | .exited => 0

def extra : WState → Nat
  | .hasWork => 20
  | _ => 0

def bonus (p : WPC) (x : WState) : Nat :=
  match p with
  | .enter | .running _ _ | .clear | .storeReady => 0
  | _ => extra x

def weight (p : WPC) (x : WState) : Nat := wpos p + bonus p x

/-- Work for the calls from `k` on and the destructor. -/
def rest (calls : List (Call σ)) (k : Nat) : Nat :=
  ((calls.drop k).map fun c => 80 * c.n + 100).sum + 41 * need calls calls.length + 20

def waitPos : WaitPC → Nat
  | .first => 9
  | .spin => 8
  | .lock => 7
  | .check => 6
  | .asleep => 5
  | .unlock => 4

def mpos (calls : List (Call σ)) (m : MPC) (k n t : Nat) : Nat :=
  match m with
  | .idle => rest calls k
  | .resetLoad .create => 24 + (n - 1) * 40 + (n - 1 - t) * 40 + rest calls (k + 1)
  | .resetStore .create => 23 + (n - 1) * 40 + (n - 1 - t) * 40 + rest calls (k + 1)
  | .spawn => 22 + (n - 1) * 40 + (n - 1 - t) * 40 + rest calls (k + 1)
  | .wait .create q => 12 + (n - 1) * 40 + waitPos q + rest calls (k + 1)
  | .resetLoad .work => 12 + (n - 1) * 40 + rest calls (k + 1)
  | .resetStore .work => 11 + (n - 1) * 40 + rest calls (k + 1)
  | .csLoad false v => 40 + (n - 1 - (v + 1)) * 40 + rest calls (k + 1)
  | .csTask v => 39 + (n - 1 - (v + 1)) * 40 + rest calls (k + 1)
  | .csStore false v => 38 + (n - 1 - (v + 1)) * 40 + rest calls (k + 1)
  | .csLock false v => 17 + (n - 1 - (v + 1)) * 40 + rest calls (k + 1)
  | .csNotify false v => 16 + (n - 1 - (v + 1)) * 40 + rest calls (k + 1)
  | .csUnlock false v => 11 + (n - 1 - (v + 1)) * 40 + rest calls (k + 1)
  | .run0 => 10 + rest calls (k + 1)
  | .wait .work q => waitPos q + rest calls (k + 1)
  | .csLoad true v => 12 + t + (t - (v + 1)) * 40
  | .csStore true v => 11 + t + (t - (v + 1)) * 40
  | .csLock true v => 10 + t + (t - (v + 1)) * 40
  | .csNotify true v => 9 + t + (t - (v + 1)) * 40
  | .csUnlock true v => 4 + t + (t - (v + 1)) * 40
  | .join v => 2 + (t - v)
  | .gone => 0

/-- The measure. -/
def μ (calls : List (Call σ)) (s : State σ) : Nat :=
  cnt (fun w => weight (s.pc w) (s.st w)) s.threads +
    mpos calls s.main s.k (callN calls s.k) s.threads

theorem rest_succ {k : Nat} (h : k < calls.length) :
    rest calls k = 80 * callN calls k + 100 + rest calls (k + 1) := by
  unfold rest callN
  rw [List.drop_eq_getElem_cons h, List.getElem?_eq_getElem h]
  simp only [List.map_cons, List.sum_cons]
  omega

/-- The thread is inside the body of a task. -/
def Running (s : State σ) (t : Nat) : Prop :=
  match t with
  | 0 => s.main = .run0
  | w + 1 => w < s.threads ∧ ∃ k i, s.pc w = .running k i

/-- One step inside the body of the task that thread `t` runs. -/
def BodyStep (calls : List (Call σ)) (s s' : State σ) (t : Nat) : Prop :=
  Running s t ∧ ∃ cl m, calls[s.k]? = some cl ∧ cl.body t s.mem = some m ∧ s' = { s with mem := m }

/-- A worker's step decreases the measure if it decreases the worker's own weight by more
than it adds to the main thread's. -/
theorem μ_worker {w : Nat} (hw : w < s.threads) (hth : s'.threads = s.threads)
    (hk : s'.k = s.k) (hpc : ∀ v, v ≠ w → s'.pc v = s.pc v) (hst : ∀ v, v ≠ w → s'.st v = s.st v)
    (hlt : weight (s'.pc w) (s'.st w) + mpos calls s'.main s.k (callN calls s.k) s.threads <
      weight (s.pc w) (s.st w) + mpos calls s.main s.k (callN calls s.k) s.threads) :
    μ calls s' < μ calls s := by
  unfold μ
  rw [hth, hk]
  have := cnt_update (f := fun w => weight (s.pc w) (s.st w))
    (g := fun w => weight (s'.pc w) (s'.st w)) (w := w)
    (fun v hv => by simp only [hpc v hv, hst v hv]) hw
  omega

/-- Changing only the program counter of a worker. -/
theorem μ_setW {w : Nat} {p : WPC} (hw : w < s.threads)
    (hlt : weight p (s.st w) < weight (s.pc w) (s.st w)) : μ calls (setW s w p) < μ calls s := by
  refine μ_worker hw rfl rfl (fun v hv => by simp [setW, hv]) (fun _ _ => rfl) ?_
  simp only [setW, Function.update_self]
  omega

theorem μ_same (h1 : s'.pc = s.pc) (h2 : s'.st = s.st) (h3 : s'.threads = s.threads)
    (h4 : s'.main = s.main) (h5 : s'.k = s.k) : μ calls s' = μ calls s := by
  unfold μ; rw [h1, h2, h3, h4, h5]

/-- Classification of the steps of a worker. -/
theorem stepW_class {w : Nat} (inv : Inv calls s) (hw : w < s.threads) (hc : c ≠ .spurious)
    (h : stepW calls s w c = .ok s') :
    s' = s ∨ BodyStep calls s s' (w + 1) ∨ μ calls s' < μ calls s := by
  unfold stepW at h
  cases hp : s.pc w with
  | exited => rw [hp] at h; cases h; exact .inl rfl
  | enter =>
    rw [hp] at h
    obtain ⟨-, -, h⟩ := C.bind_ok h
    right; right
    split at h
    · cases h
      refine μ_worker hw rfl rfl (fun v hv => by simp [setW, hv]) (fun _ _ => rfl) ?_
      simp [setW, hp, weight, wpos, bonus]
    · cases h
      exact μ_setW hw (by simp [hp, weight, wpos, bonus])
  | running k i =>
    have hr := inv.workers w hw
    rw [hp] at h hr
    obtain ⟨-, hta, h⟩ := C.bind_ok h
    have hki : k = s.k ∧ i = w + 1 := by
      cases hro : role s.main (callN calls s.k) w <;> rw [hro] at hr <;>
        simp [RoleOk, WPC.waiting] at hr
      exact ⟨hr.2.2.2.2.1, hr.2.2.2.2.2⟩
    obtain ⟨rfl, rfl⟩ := hki
    cases hcl : calls[s.k]? with
    | none => rw [hcl] at h; cases h
    | some cl =>
      rw [hcl] at h
      dsimp only at h
      cases hb : cl.body (w + 1) s.mem with
      | some m =>
        rw [hb] at h
        cases h
        exact .inr (.inl ⟨⟨hw, _, _, hp⟩, cl, m, hcl, hb, rfl⟩)
      | none =>
        rw [hb] at h
        cases h
        right; right
        refine μ_worker hw rfl rfl (fun v hv => by simp [setW, hv]) (fun _ _ => rfl) ?_
        simp [setW, hp, weight, wpos, bonus]
  | clear =>
    rw [hp] at h
    obtain ⟨-, -, h⟩ := C.bind_ok h
    cases h
    right; right
    refine μ_worker hw rfl rfl (fun v hv => by simp [setW, hv]) (fun _ _ => rfl) ?_
    simp [setW, hp, weight, wpos, bonus]
  | storeReady =>
    rw [hp] at h
    obtain ⟨-, -, h⟩ := C.bind_ok h
    cases h
    right; right
    refine μ_worker hw rfl rfl (fun v hv => by simp [setW, hv])
      (fun v hv => by simp [hv]) ?_
    simp [setW, hp, weight, wpos, bonus, extra]
  | dec =>
    have hr := inv.workers w hw
    rw [hp] at h hr
    have hst := hr.dec.1
    obtain ⟨-, -, h⟩ := C.bind_ok h
    obtain ⟨-, -, h⟩ := C.bind_ok h
    right; right
    split at h
    · cases h
      refine μ_worker hw rfl rfl (fun v hv => by simp [setW, hv]) (fun _ _ => rfl) ?_
      simp [setW, hp, weight, wpos, bonus, hst, extra]
    · cases h
      refine μ_worker hw rfl rfl (fun v hv => by simp [setW, hv]) (fun _ _ => rfl) ?_
      simp [setW, hp, weight, wpos, bonus, hst, extra]
  | decLock =>
    rw [hp] at h
    obtain ⟨-, -, h⟩ := C.bind_ok h
    split at h
    · cases h
      right; right
      refine μ_worker hw rfl rfl (fun v hv => by simp [setW, hv]) (fun _ _ => rfl) ?_
      simp [setW, hp, weight, wpos, bonus]
    · cases h; exact .inl rfl
  | decNotify =>
    rw [hp] at h
    obtain ⟨-, -, h⟩ := C.bind_ok h
    cases h
    right; right
    unfold notifyMain
    split
    · rename_i p hm
      refine μ_worker hw rfl rfl (fun v hv => by simp [setW, setM, hv]) (fun _ _ => rfl) ?_
      cases p <;> simp [setW, setM, hp, weight, wpos, bonus, hm, mpos, waitPos] <;> omega
    · exact μ_setW hw (by simp [hp, weight, wpos, bonus])
  | decUnlock =>
    rw [hp] at h
    obtain ⟨-, -, h⟩ := C.bind_ok h
    obtain ⟨-, -, h⟩ := C.bind_ok h
    cases h
    right; right
    refine μ_worker hw rfl rfl (fun v hv => by simp [setW, hv]) (fun _ _ => rfl) ?_
    simp [setW, hp, weight, wpos, bonus]
  | first =>
    rw [hp] at h
    obtain ⟨-, -, h⟩ := C.bind_ok h
    right; right
    split at h
    · cases h; exact μ_setW hw (by simp [hp, weight, wpos, bonus])
    · cases h; exact μ_setW hw (by simp [hp, weight, wpos, bonus])
  | spin =>
    rw [hp] at h
    obtain ⟨-, -, h⟩ := C.bind_ok h
    split at h
    · cases h; exact .inr (.inr (μ_setW hw (by simp [hp, weight, wpos, bonus])))
    · split at h
      · cases h; exact .inr (.inr (μ_setW hw (by simp [hp, weight, wpos, bonus])))
      · cases h; exact .inl rfl
  | lock =>
    rw [hp] at h
    obtain ⟨-, -, h⟩ := C.bind_ok h
    split at h
    · cases h
      right; right
      refine μ_worker hw rfl rfl (fun v hv => by simp [setW, hv]) (fun _ _ => rfl) ?_
      simp [setW, hp, weight, wpos, bonus]
    · cases h; exact .inl rfl
  | check =>
    rw [hp] at h
    obtain ⟨-, -, h⟩ := C.bind_ok h
    obtain ⟨-, -, h⟩ := C.bind_ok h
    right; right
    split at h
    · cases h; exact μ_setW hw (by simp [hp, weight, wpos, bonus])
    · cases h
      refine μ_worker hw rfl rfl (fun v hv => by simp [setW, hv]) (fun _ _ => rfl) ?_
      simp [setW, hp, weight, wpos, bonus]
  | asleep =>
    rw [hp] at h
    obtain ⟨-, -, h⟩ := C.bind_ok h
    rw [if_neg hc] at h
    cases h; exact .inl rfl
  | unlock y =>
    rw [hp] at h
    obtain ⟨-, -, h⟩ := C.bind_ok h
    obtain ⟨-, -, h⟩ := C.bind_ok h
    cases h
    right; right
    refine μ_worker hw rfl rfl (fun v hv => by simp [setW, hv]) (fun _ _ => rfl) ?_
    simp [setW, hp, weight, wpos, bonus]
  | got y =>
    have hr := (inv.workers w hw).seen (.inr hp)
    rw [hp] at h
    obtain ⟨-, -, h⟩ := C.bind_ok h
    right; right
    split at h
    · rename_i hy
      cases h
      exact μ_setW hw (by simp [hp, weight, wpos, bonus, ← hr.1, hy, extra])
    · obtain ⟨_, hx, h⟩ := C.bind_ok h
      have hx := C.check_ok hx
      injection h with h
      subst h
      exact μ_setW hw (by simp [hp, weight, wpos, bonus, hx, extra])

/-- A step changing the main thread's program counter only. -/
theorem μ_setM (h1 : s'.pc = s.pc) (h2 : s'.st = s.st) (h3 : s'.threads = s.threads)
    (hlt : mpos calls s'.main s'.k (callN calls s'.k) s.threads <
      mpos calls s.main s.k (callN calls s.k) s.threads) : μ calls s' < μ calls s := by
  unfold μ
  rw [h1, h2, h3]
  omega

/-- Returning from `Wait`. -/
theorem μ_afterWait {p : Purpose} {q : WaitPC} {x : Option Nat} (hm : s.main = .wait p q) :
    μ calls { afterWait s p with cmutex := x } < μ calls s := by
  have hq : 0 < waitPos q := by cases q <;> simp [waitPos]
  cases p with
  | create =>
    refine μ_setM rfl rfl rfl ?_
    rw [hm]
    simp only [afterWait, setM, mpos]
    omega
  | work =>
    refine μ_setM rfl rfl rfl ?_
    rw [hm]
    simp only [afterWait, setM, mpos]
    omega

theorem stepWait_class {p : Purpose} {q : WaitPC} (hm : s.main = .wait p q)
    (hc : c ≠ .spurious) (h : stepWait s p q c = .ok s') : s' = s ∨ μ calls s' < μ calls s := by
  have move : ∀ (q' : WaitPC) (x : Option Nat), waitPos q' < waitPos q →
      μ calls { setM s (.wait p q') with cmutex := x } < μ calls s := by
    intro q' x hlt
    refine μ_setM rfl rfl rfl ?_
    rw [hm]
    cases p <;> simp only [setM, mpos] <;> omega
  unfold stepWait at h
  cases q with
  | first =>
    dsimp only at h
    right
    split at h
    · cases h; cases p <;> exact μ_afterWait (x := s.cmutex) hm
    · cases h; exact move .spin s.cmutex (by simp [waitPos])
  | spin =>
    dsimp only at h
    split at h
    · cases h; exact .inr (move .lock s.cmutex (by simp [waitPos]))
    · split at h
      · cases h; right; cases p <;> exact μ_afterWait (x := s.cmutex) hm
      · cases h; exact .inl rfl
  | lock =>
    dsimp only at h
    split at h
    · cases h; exact .inr (move .check (some 0) (by simp [waitPos]))
    · cases h; exact .inl rfl
  | check =>
    obtain ⟨-, -, h⟩ := C.bind_ok h
    right
    split at h
    · cases h; exact move .unlock s.cmutex (by simp [waitPos])
    · cases h; exact move .asleep none (by simp [waitPos])
  | asleep =>
    dsimp only at h
    rw [if_neg hc] at h
    cases h; exact .inl rfl
  | unlock =>
    obtain ⟨-, -, h⟩ := C.bind_ok h
    cases h
    exact .inr (μ_afterWait hm)

theorem stepIdle_class (inv : Inv calls s) (hm : s.main = .idle)
    (h : stepIdle calls s = .ok s') : μ calls s' < μ calls s := by
  have mk := inv.main
  rw [hm] at mk
  obtain ⟨mk, hth⟩ := mk
  unfold stepIdle at h
  cases hcl : calls[s.k]? with
  | none =>
    have hlen : calls.length ≤ s.k := by
      by_contra h
      rw [List.getElem?_eq_getElem (by omega)] at hcl; cases hcl
    have hkl : s.k = calls.length := Nat.le_antisymm mk hlen
    have hr : 41 * s.threads + 20 ≤ rest calls s.k := by unfold rest; rw [hth, hkl]; omega
    rw [hcl] at h
    dsimp only at h
    split at h
    · cases h
      refine μ_setM rfl rfl rfl ?_
      rw [hm]; simp only [setM, mpos]; omega
    · cases h
      refine μ_setM rfl rfl rfl ?_
      rw [hm]; simp only [setM, mpos]; omega
  | some cl =>
    obtain ⟨hcn, hk⟩ := callN_of hcl
    have hr := rest_succ hk
    rw [hcl] at h
    dsimp only at h
    obtain ⟨_, h1, h⟩ := C.bind_ok h
    have h1 := C.check_ok h1
    split at h
    · cases h
      refine μ_setM rfl rfl rfl ?_
      rw [hm]; simp only [setM, mpos]; omega
    · split at h
      · cases h
        refine μ_setM rfl rfl rfl ?_
        rw [hm]; simp only [setM, mpos]; omega
      · cases h
        refine μ_setM rfl rfl rfl ?_
        rw [hm]; simp only [setM, mpos]; omega

theorem bonus_le (p : WPC) (x : WState) : bonus p x ≤ 20 := by
  have : extra x ≤ 20 := by cases x <;> simp [extra]
  unfold bonus; split <;> omega

/-- Classification of the steps of the main thread. -/
theorem stepM_class (inv : Inv calls s) (hc : c ≠ .spurious) (h : stepM calls s c = .ok s') :
    s' = s ∨ BodyStep calls s s' 0 ∨ μ calls s' < μ calls s := by
  have mk := inv.main
  unfold stepM at h
  cases hm : s.main with
  | idle => rw [hm] at h; exact .inr (.inr (stepIdle_class inv hm h))
  | resetLoad p =>
    rw [hm] at h
    obtain ⟨-, -, h⟩ := C.bind_ok h
    cases h
    refine .inr (.inr (μ_setM rfl rfl rfl ?_))
    rw [hm]; cases p <;> simp only [setM, mpos] <;> omega
  | resetStore p =>
    rw [hm] at h mk
    cases p with
    | create =>
      cases h
      refine .inr (.inr (μ_setM rfl rfl rfl ?_))
      rw [hm]; simp only [setM, mpos]; omega
    | work =>
      cases h
      refine .inr (.inr (μ_setM rfl rfl rfl ?_))
      simp only [MainOk] at mk
      rw [hm]; simp only [setM, mpos]; omega
  | spawn =>
    rw [hm] at h mk
    simp only [MainOk] at mk
    dsimp only at h
    rw [curN_eq] at h
    split at h
    · rename_i hlt
      cases h
      refine .inr (.inr ?_)
      unfold μ
      have h2 : cnt (fun w => weight (Function.update s.pc s.threads WPC.enter w)
          (Function.update s.st s.threads WState.startup w)) s.threads =
          cnt (fun w => weight (s.pc w) (s.st w)) s.threads := by
        apply cnt_congr
        intro w hw
        have : w ≠ s.threads := by omega
        simp [this]
      simp only [cnt]
      rw [h2]
      simp only [Function.update_self, weight, wpos, bonus, hm, mpos]
      omega
    · cases h
      refine .inr (.inr (μ_setM rfl rfl rfl ?_))
      rw [hm]; simp only [setM, mpos, waitPos]; omega
  | wait p q =>
    rw [hm] at h
    rcases stepWait_class (calls := calls) hm hc h with h | h
    · exact .inl h
    · exact .inr (.inr h)
  | csLoad ex v =>
    rw [hm] at h
    obtain ⟨-, -, h⟩ := C.bind_ok h
    obtain ⟨-, -, h⟩ := C.bind_ok h
    obtain ⟨-, -, h⟩ := C.bind_ok h
    cases ex with
    | true =>
      cases h
      refine .inr (.inr (μ_setM rfl rfl rfl ?_))
      rw [hm]; simp only [setM, mpos]; omega
    | false =>
      cases h
      refine .inr (.inr (μ_setM rfl rfl rfl ?_))
      rw [hm]; simp only [setM, mpos]; omega
  | csTask v =>
    rw [hm] at h
    obtain ⟨-, -, h⟩ := C.bind_ok h
    cases h
    refine .inr (.inr (μ_setM rfl rfl rfl ?_))
    rw [hm]; simp only [setM, mpos]; omega
  | csStore ex v =>
    rw [hm] at h mk
    have hv : v < s.threads := mk.csBound (.inr (.inl rfl))
    cases h
    right; right
    have h2 := cnt_update (f := fun w => weight (s.pc w) (s.st w))
      (g := fun w => weight (s.pc w) (Function.update s.st v (posted ex) w)) (w := v)
      (fun u hu => by simp only [Function.update_of_ne hu]) hv
    have hr := inv.workers v hv
    rw [hm] at hr
    simp only [Function.update_self] at h2
    unfold μ
    simp only [setM, hm]
    cases ex with
    | true =>
      have : bonus (s.pc v) (posted true) = 0 := by unfold bonus; split <;> simp [posted, extra]
      simp only [weight, this] at h2 ⊢
      simp only [mpos]
      omega
    | false =>
      have := bonus_le (s.pc v) (posted false)
      simp only [weight] at h2 ⊢
      simp only [mpos]
      omega
  | csLock ex v =>
    rw [hm] at h
    dsimp only at h
    split at h
    · cases h
      refine .inr (.inr (μ_setM rfl rfl rfl ?_))
      rw [hm]; cases ex <;> simp only [setM, mpos] <;> omega
    · cases h; exact .inl rfl
  | csNotify ex v =>
    rw [hm] at h mk
    have hv : v < s.threads := mk.csBound (.inr (.inr (.inr (.inl rfl))))
    cases h
    right; right
    unfold notifyWorker
    split
    · rename_i hp
      refine μ_worker hv rfl rfl (fun u hu => by simp [setW, setM, hu]) (fun _ _ => rfl) ?_
      cases ex <;> simp [setW, setM, hp, weight, wpos, bonus, hm, mpos] <;> omega
    · refine μ_setM rfl rfl rfl ?_
      rw [hm]; cases ex <;> simp only [setM, mpos] <;> omega
  | csUnlock ex v =>
    rw [hm] at h mk
    obtain ⟨-, -, h⟩ := C.bind_ok h
    cases h
    right; right
    unfold afterPost
    cases ex with
    | true =>
      simp only [MainOk] at mk
      rw [if_pos rfl]
      split
      · refine μ_setM rfl rfl rfl ?_
        rw [hm]; simp only [setM, mpos]; omega
      · refine μ_setM rfl rfl rfl ?_
        rw [hm]; simp only [setM, mpos]; omega
    | false =>
      simp only [MainOk] at mk
      rw [if_neg (by simp), curN_eq]
      split
      · refine μ_setM rfl rfl rfl ?_
        rw [hm]; simp only [setM, mpos]; omega
      · refine μ_setM rfl rfl rfl ?_
        rw [hm]; simp only [setM, mpos]; omega
  | run0 =>
    rw [hm] at h
    dsimp only at h
    cases hcl : calls[s.k]? with
    | none => rw [hcl] at h; cases h
    | some cl =>
      rw [hcl] at h
      dsimp only at h
      cases hb : cl.body 0 s.mem with
      | some m =>
        rw [hb] at h
        cases h
        refine .inr (.inl ⟨hm, cl, m, hcl, hb, ?_⟩)
        rw [hm]
      | none =>
        rw [hb] at h
        dsimp only at h
        right; right
        split at h
        · cases h
          refine μ_setM rfl rfl rfl ?_
          rw [hm]; simp only [setM, mpos]; omega
        · cases h
          refine μ_setM rfl rfl rfl ?_
          rw [hm]; simp only [setM, mpos, waitPos]; omega
  | join v =>
    rw [hm] at h
    dsimp only at h
    split at h
    · obtain ⟨-, -, h⟩ := C.bind_ok h
      split at h
      · cases h
        refine .inr (.inr (μ_setM rfl rfl rfl ?_))
        rw [hm]; simp only [setM, mpos]; omega
      · cases h; exact .inl rfl
    · cases h
      refine .inr (.inr (μ_setM rfl rfl rfl ?_))
      rw [hm]; simp only [setM, mpos]; omega
  | gone => rw [hm] at h; cases h; exact .inl rfl

/-- Every step without a spurious wake-up is an unsuccessful attempt, a step inside a task,
or progress. -/
theorem step_class {t : Nat} (inv : Inv calls s) (hc : c ≠ .spurious)
    (h : step calls s t c = .ok s') :
    s' = s ∨ BodyStep calls s s' t ∨ μ calls s' < μ calls s := by
  unfold step at h
  cases t with
  | zero => exact stepM_class inv hc h
  | succ w =>
    dsimp only at h
    split at h
    · exact stepW_class inv (by assumption) hc h
    · cases h; exact .inl rfl

end Ruy.Pool

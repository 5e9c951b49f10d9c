import Verif.Pool.Model
/-
Invariant of the thread pool.
-/
namespace Ruy.Pool

variable {σ : Type}

/-- Sum of `f` over the workers below `n`. -/
def cnt (f : Nat → Nat) : Nat → Nat
  | 0 => 0
  | n + 1 => cnt f n + f n

theorem cnt_congr {f g : Nat → Nat} : ∀ {n : Nat}, (∀ w, w < n → f w = g w) → cnt f n = cnt g n
  | 0, _ => rfl
  | n + 1, h => by
    have := cnt_congr (n := n) fun w hw => h w (by omega)
    simp only [cnt]; rw [this, h n (by omega)]

theorem cnt_update {f g : Nat → Nat} {w : Nat} (h : ∀ v, v ≠ w → g v = f v) :
    ∀ {n : Nat}, w < n → cnt g n + f w = cnt f n + g w
  | 0, hw => by omega
  | n + 1, hw => by
    simp only [cnt]
    by_cases hn : w = n
    · subst hn
      rw [cnt_congr (f := g) (g := f) fun v hv => h v (by omega)]; omega
    · have := cnt_update (n := n) h (by omega)
      rw [h n (by omega)]; omega

theorem cnt_zero {f : Nat → Nat} : ∀ {n : Nat}, cnt f n = 0 ↔ ∀ w, w < n → f w = 0
  | 0 => by simp [cnt]
  | n + 1 => by
    have ih := cnt_zero (f := f) (n := n)
    simp only [cnt]
    constructor
    · intro h w hw
      by_cases hn : w = n
      · subst hn; omega
      · exact ih.mp (by omega) w (by omega)
    · intro h
      have := ih.mpr fun w hw => h w (by omega)
      have := h n (by omega)
      omega

/-- In `Wait`, or notifying on the way there; the state was not yet seen to have changed. -/
def WPC.waiting : WPC → Bool
  | .decLock | .decNotify | .decUnlock | .first | .spin | .lock | .check | .asleep => true
  | _ => false

/-- Holding the counter's mutex. -/
def WPC.inC : WPC → Bool
  | .decNotify | .decUnlock => true
  | _ => false

/-- Holding the worker's own mutex. -/
def WPC.inS : WPC → Bool
  | .check | .unlock _ => true
  | _ => false

/-- On the way to notifying the main thread. -/
def WPC.willNotify : WPC → Bool
  | .decLock | .decNotify => true
  | _ => false

def MPC.inC : MPC → Bool
  | .wait _ .check | .wait _ .unlock => true
  | _ => false

/-- Holding worker `w`'s mutex. -/
def MPC.inS (w : Nat) : MPC → Bool
  | .csNotify _ v | .csUnlock _ v => v == w
  | _ => false

/-- On the way to notifying worker `w`. -/
def MPC.willNotify (w : Nat) : MPC → Bool
  | .csLock _ v | .csNotify _ v => v == w
  | _ => false

/-- Will this worker decrement the counter? -/
def owe (p : WPC) (x : WState) : Nat :=
  match p with
  | .enter | .running _ _ | .clear | .storeReady | .dec => 1
  | _ => if x = .hasWork then 1 else 0

/-- What the main thread has done with a worker. -/
inductive Role where
  | idle
  | boot
  | wrote
  | posted
  | exiting
  deriving DecidableEq

/-- The role of worker `w`, given the main thread's program counter and the current n. -/
def role (m : MPC) (n w : Nat) : Role :=
  match m with
  | .idle | .resetLoad _ | .resetStore _ => .idle
  | .spawn | .wait .create _ => .boot
  | .csLoad false v | .csTask v => if w < v then .posted else .idle
  | .csStore false v => if w < v then .posted else if w = v then .wrote else .idle
  | .csLock false v | .csNotify false v | .csUnlock false v =>
    if w < v + 1 then .posted else .idle
  | .run0 | .wait .work _ => if w < n - 1 then .posted else .idle
  | .csLoad true v | .csStore true v => if w < v then .exiting else .idle
  | .csLock true v | .csNotify true v | .csUnlock true v => if w < v + 1 then .exiting else .idle
  | .join _ | .gone => .exiting

/-- What is known of worker `w` in call `k` given its role. -/
def RoleOk (k w : Nat) (r : Role) (p : WPC) (x : WState) (τ : Option (Nat × Nat))
    (b e : List Nat) : Prop :=
  match r with
  | .idle => x = .ready ∧ τ = none ∧ p.waiting ∧ b = [] ∧ e = []
  | .boot => τ = none ∧ b = [] ∧ e = [] ∧
      ((x = .startup ∧ (p = .enter ∨ p = .storeReady)) ∨ (x = .ready ∧ (p = .dec ∨ p.waiting)))
  | .wrote => x = .ready ∧ τ = some (k, w + 1) ∧ p.waiting ∧ b = [] ∧ e = []
  | .posted =>
      (x = .hasWork ∧ τ = some (k, w + 1) ∧ b = [] ∧ e = [] ∧
        (p.waiting ∨ p = .unlock .hasWork ∨ p = .got .hasWork ∨ p = .enter)) ∨
      (x = .hasWork ∧ τ = some (k, w + 1) ∧ b = [w + 1] ∧ e = [] ∧ p = .running k (w + 1)) ∨
      (x = .hasWork ∧ τ = some (k, w + 1) ∧ b = [w + 1] ∧ e = [w + 1] ∧ p = .clear) ∨
      (x = .hasWork ∧ τ = none ∧ b = [w + 1] ∧ e = [w + 1] ∧ p = .storeReady) ∨
      (x = .ready ∧ τ = none ∧ b = [w + 1] ∧ e = [w + 1] ∧ (p = .dec ∨ p.waiting))
  | .exiting => x = .exit ∧ τ = none ∧ b = [] ∧ e = [] ∧
      (p.waiting ∨ p = .unlock .exit ∨ p = .got .exit ∨ p = .exited)

/-- Decrements of the counter by workers that were not yet started. -/
def rem (m : MPC) (n threads : Nat) : Nat :=
  match m with
  | .spawn => n - 1 - threads
  | .csLoad false v | .csTask v | .csStore false v => n - 1 - v
  | .csLock false v | .csNotify false v | .csUnlock false v => n - 1 - (v + 1)
  | _ => 0

/-- The number of workers needed by the first `k` calls: max (n - 1). -/
def need (calls : List (Call σ)) (k : Nat) : Nat :=
  (calls.take k).foldl (fun a c => max a (c.n - 1)) 0

/-- Where the main thread is, with the bounds that hold there. -/
def MainOk (calls : List (Call σ)) (m : MPC) (k n threads : Nat) : Prop :=
  match m with
  | .idle => k ≤ calls.length ∧ threads = need calls k
  | .resetLoad .create | .resetStore .create =>
    k < calls.length ∧ threads = need calls k ∧ threads < n - 1
  | .spawn => k < calls.length ∧ need calls k < n - 1 ∧ need calls k ≤ threads ∧ threads ≤ n - 1
  | .wait .create _ => k < calls.length ∧ 2 ≤ n ∧ threads = n - 1 ∧ threads = need calls (k + 1)
  | .resetLoad .work | .resetStore .work | .wait .work _ =>
    k < calls.length ∧ 2 ≤ n ∧ n - 1 ≤ threads ∧ threads = need calls (k + 1)
  | .csLoad false v | .csTask v | .csStore false v | .csLock false v | .csNotify false v
  | .csUnlock false v =>
    k < calls.length ∧ v < n - 1 ∧ n - 1 ≤ threads ∧ threads = need calls (k + 1)
  | .run0 => k < calls.length ∧ 1 ≤ n ∧ n - 1 ≤ threads ∧ threads = need calls (k + 1)
  | .csLoad true v | .csStore true v | .csLock true v | .csNotify true v | .csUnlock true v =>
    k = calls.length ∧ threads = need calls k ∧ v < threads
  | .join v => k = calls.length ∧ threads = need calls k ∧ v ≤ threads
  | .gone => k = calls.length ∧ threads = need calls k

/-- Task 0 of the current call. -/
def main0 (m : MPC) : List Nat × List Nat :=
  match m with
  | .run0 => ([0], [])
  | .wait .work _ => ([0], [0])
  | _ => ([], [])

/-- `n` of call `j` -/
def callN (calls : List (Call σ)) (j : Nat) : Nat :=
  match calls[j]? with
  | none => 0
  | some cl => cl.n

theorem curN_eq (calls : List (Call σ)) (s : State σ) : curN calls s = callN calls s.k := rfl

theorem need_succ {calls : List (Call σ)} {k : Nat} (h : k < calls.length) :
    need calls (k + 1) = max (need calls k) (callN calls k - 1) := by
  unfold need callN
  rw [List.take_succ, List.foldl_append, List.getElem?_eq_getElem h]
  simp

structure Inv (calls : List (Call σ)) (s : State σ) : Prop where
  workers : ∀ w, w < s.threads → RoleOk s.k w (role s.main (callN calls s.k) w) (s.pc w) (s.st w)
    (s.task w) (s.begun s.k (w + 1)) (s.ended s.k (w + 1))
  count : s.count = cnt (fun w => owe (s.pc w) (s.st w)) s.threads +
    rem s.main (callN calls s.k) s.threads
  cm0 : s.cmutex = some 0 ↔ s.main.inC
  cmw : ∀ w, s.cmutex = some (w + 1) ↔ w < s.threads ∧ (s.pc w).inC
  sm0 : ∀ w, w < s.threads → (s.smutex w = some 0 ↔ s.main.inS w)
  smw : ∀ w, w < s.threads → ∀ v, (s.smutex w = some (v + 1) ↔ v = w ∧ (s.pc w).inS)
  wakeW : ∀ w, w < s.threads → s.pc w = .asleep → s.st w ≠ .ready → s.main.willNotify w
  wakeM : ∀ p, s.main = .wait p .asleep → s.count = 0 →
    ∃ w, w < s.threads ∧ (s.pc w).willNotify
  unl : ∀ p, s.main = .wait p .unlock → s.count = 0
  main : MainOk calls s.main s.k (callN calls s.k) s.threads
  task0 : s.begun s.k 0 = (main0 s.main).1 ∧ s.ended s.k 0 = (main0 s.main).2
  joined : ∀ w, w < s.threads → ¬ Alive s w → s.pc w = .exited
  past : ∀ j, j < s.k → ∀ i, s.begun j i = (if i < callN calls j then [i] else []) ∧
    s.ended j i = (if i < callN calls j then [i] else [])
  future : ∀ j, s.k < j → ∀ i, s.begun j i = [] ∧ s.ended j i = []
  rest : ∀ i, s.threads < i → s.begun s.k i = [] ∧ s.ended s.k i = []

theorem init_inv (calls : List (Call σ)) (m : σ) : Inv calls (initState m) where
  workers := by intro w hw; exact absurd hw (Nat.not_lt_zero w)
  count := rfl
  cm0 := by simp [initState, MPC.inC]
  cmw := by simp [initState]
  sm0 := by intro w hw; exact absurd hw (Nat.not_lt_zero w)
  smw := by intro w hw; exact absurd hw (Nat.not_lt_zero w)
  wakeW := by intro w hw; exact absurd hw (Nat.not_lt_zero w)
  wakeM := by intro p hp; cases hp
  unl := by intro p hp; cases hp
  main := by simp [MainOk, initState, need]
  task0 := ⟨rfl, rfl⟩
  joined := by intro w hw; exact absurd hw (Nat.not_lt_zero w)
  past := by intro j hj; exact absurd hj (Nat.not_lt_zero j)
  future := by intro j _ i; exact ⟨rfl, rfl⟩
  rest := by intro i _; exact ⟨rfl, rfl⟩

end Ruy.Pool

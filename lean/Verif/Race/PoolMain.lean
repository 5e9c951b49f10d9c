import Verif.Race.PoolLocal
/-
What the thread that owns the pool has done when it is at a given point.
-/
namespace Ruy.Race.Pool

variable {T L C : Type} {d : Bool} {wk : Nat → T} {w : Nat}

/-- Case analysis of a step, for conclusions that simp can decide at each point. -/
macro "steps" h:ident ", " s:ident ", " d:ident " with " "[" ls:Lean.Parser.Tactic.simpLemma,* "]" : tactic => `(tactic|
  cases $h:ident with
  | user hu _ => rcases hu with hu | hu | hu | hu <;> simp_all [$ls,*] <;> omega
  | begin h1 h2 => unfold MS.begin; split_ifs <;> simp_all [$ls,*] <;> omega
  | xStore h => cases $d:ident <;> simp_all [give, $ls,*] <;> omega
  | @xGive i h => cases $d:ident <;> by_cases c : i + 1 < ($s).n <;> (first | rw [if_pos c] | rw [if_neg c]) <;> simp_all [give, $ls,*] <;> omega
  | @leave h => by_cases c : ($s).n = 1 <;> (first | rw [if_pos c] | rw [if_neg c]) <;> simp_all [$ls,*] <;> omega
  | @cSpawn w h => by_cases c : w + 1 < ($s).n - 1 <;> (first | rw [if_pos c] | rw [if_neg c]) <;> simp_all [$ls,*] <;> omega
  | @destroy h => cases $d:ident <;> by_cases c : ($s).size = 0 <;> (first | rw [if_pos c] | rw [if_neg c]) <;> simp_all [request, $ls,*] <;> omega
  | @dExit w h => cases $d:ident <;> by_cases c : w + 1 < ($s).size <;> (first | rw [if_pos c] | rw [if_neg c]) <;> simp_all [request, Pool.destroy, $ls,*] <;> omega
  | @dJoin w h => cases $d:ident <;> by_cases c : w + 1 < ($s).size <;> (first | rw [if_pos c] | rw [if_neg c]) <;> simp_all [Pool.destroy, $ls,*] <;> omega
  | _ => simp_all [$ls,*] <;> omega)

set_option linter.unusedTactic false
set_option linter.unreachableTactic false
set_option linter.unusedSimpArgs false

/-- What the fields of the state are at each point. -/
def MS.Wf (s : MS) : Prop := match s.pc with
  | .fresh => s.ph.id = 0 ∧ s.size = 0
  | .cLoad | .cStore | .cWait => 1 ≤ s.ph.id ∧ s.size < s.n - 1 ∧ s.ph.lo = s.size ∧ s.ph.m = s.n - 1 - s.size ∧ s.ph.create = true
  | .cState w | .cTask w | .cSpawn w =>
    1 ≤ s.ph.id ∧ s.size < s.n - 1 ∧ s.ph.lo = s.size ∧ s.ph.m = s.n - 1 - s.size ∧ s.ph.create = true ∧ s.size ≤ w ∧ w < s.n - 1
  | .xLoad | .xStore | .wait => 1 ≤ s.ph.id ∧ 2 ≤ s.n ∧ s.n - 1 ≤ s.size ∧ s.ph.lo = 0 ∧ s.ph.m = s.n - 1 ∧ s.ph.create = false
  | .xChk i | .xNull i | .xTask i | .xGive i =>
    1 ≤ s.ph.id ∧ 2 ≤ s.n ∧ s.n - 1 ≤ s.size ∧ s.ph.lo = 0 ∧ s.ph.m = s.n - 1 ∧ s.ph.create = false ∧ 1 ≤ i ∧ i < s.n
  | .enter | .body | .executed =>
    1 ≤ s.n ∧ (s.n ≠ 1 → 1 ≤ s.ph.id ∧ s.n - 1 ≤ s.size ∧ s.ph.lo = 0 ∧ s.ph.m = s.n - 1 ∧ s.ph.create = false)
  | .dChk w | .dExit w | .dLast w | .dJoin w => w < s.size
  | .out | .gone | .failed => True

theorem MStep.wf {s s' : MS} {a : PAct T L C} (h : MStep d wk s a s') (hs : s.Wf) : s'.Wf := by
  steps h, s, d with [MS.Wf]

theorem MStep.ph {s s' : MS} {a : PAct T L C} (h : MStep d wk s a s') : s'.ph = s.ph ∨ s.ph.id + 1 = s'.ph.id := by
  cases h with
  | begin => unfold MS.begin; split_ifs <;> simp
  | _ => simp

/-- The counter has not been waited for. -/
def MS.isOpen (s : MS) : Bool := match s.pc with
  | .cLoad | .cStore | .cWait | .cState _ | .cTask _ | .cSpawn _ | .xLoad | .xStore | .wait | .xChk _ | .xNull _ | .xTask _ | .xGive _
  | .failed => true
  | .enter | .body => s.n ≠ 1
  | _ => false

/-- How a step changes which uses of the counter are over. -/
theorem MStep.waits {s s' : MS} {a : PAct T L C} (h : MStep d wk s a s') (hw : s.Wf) :
    (s'.ph.id = s.ph.id ∧ (s'.isOpen = false → s.isOpen = false)) ∨
    (a = .load .acquire .count 0 ∧ (s.pc = .cWait ∨ s.pc = .wait) ∧ (s'.ph.id = s.ph.id ∨ (s'.ph.id = s.ph.id + 1 ∧ s'.isOpen = true))) ∨
    (s.isOpen = false ∧ s'.ph.id = s.ph.id + 1 ∧ s'.isOpen = true) := by
  cases h with
  | user => exact .inl ⟨rfl, id⟩
  | cSpin => exact .inl ⟨rfl, id⟩
  | spin => exact .inl ⟨rfl, id⟩
  | begin h1 h2 => unfold MS.begin; split_ifs <;> simp_all [MS.isOpen]
  | cWait h => exact .inr (.inl ⟨rfl, .inl h, .inr ⟨rfl, rfl⟩⟩)
  | wait h => exact .inr (.inl ⟨rfl, .inr h, .inl rfl⟩)
  | xStore h => cases d <;> simp_all [MS.isOpen, give]
  | @xGive i h => cases d <;> by_cases c : i + 1 < s.n <;> (first | rw [if_pos c] | rw [if_neg c]) <;> simp_all [MS.isOpen, give, MS.Wf] <;> omega
  | @leave h => by_cases c : s.n = 1 <;> (first | rw [if_pos c] | rw [if_neg c]) <;> simp_all [MS.isOpen]
  | @cSpawn w h => by_cases c : w + 1 < s.n - 1 <;> (first | rw [if_pos c] | rw [if_neg c]) <;> simp_all [MS.isOpen]
  | @destroy h => cases d <;> by_cases c : s.size = 0 <;> (first | rw [if_pos c] | rw [if_neg c]) <;> simp_all [MS.isOpen, request]
  | @dExit w h => cases d <;> by_cases c : w + 1 < s.size <;> (first | rw [if_pos c] | rw [if_neg c]) <;> simp_all [MS.isOpen, request, Pool.destroy]
  | @dJoin w h => cases d <;> by_cases c : w + 1 < s.size <;> (first | rw [if_pos c] | rw [if_neg c]) <;> simp_all [MS.isOpen, Pool.destroy]
  | _ => simp_all [MS.isOpen]

/-- Before the counter is reset. -/
def MPc.pre : MPc → Bool
  | .cLoad | .cStore | .xLoad | .xStore => true
  | _ => false

/-- After worker `k - 1` has been given work, or worker `k` has been started. -/
def MPc.later (k : Nat) : MPc → Prop
  | .cLoad | .cStore | .xLoad | .xStore => False
  | .cState i | .cTask i | .cSpawn i | .xChk i | .xNull i | .xTask i | .xGive i => k < i
  | _ => True

/-- Running a batch of several tasks. -/
def MS.busy (s : MS) : Bool := match s.pc with
  | .xLoad | .xStore | .wait | .xChk _ | .xNull _ | .xTask _ | .xGive _ => true
  | .enter | .body | .executed => s.n ≠ 1
  | _ => false


theorem MStep.resets {s s' : MS} {a : PAct T L C} (h : MStep d wk s a s') (hw : s.Wf) (h1 : 1 ≤ s'.ph.id) (h2 : s'.pc.pre = false)
    (h3 : s'.pc ≠ .failed) : s'.ph = s.ph ∧ ((s.pc.pre = false ∧ s.pc ≠ .failed) ∨
      (a = .store .release .count s.ph.m ∧ (s.pc = .cStore ∨ s.pc = .xStore))) := by
  steps h, s, d with [MPc.pre, MS.Wf, MS.begin]

theorem MStep.pre_past {s s' : MS} {a : PAct T L C} {q : Nat} (h : MStep d wk s a s')
    (hs : q < s.ph.id ∨ (q = s.ph.id ∧ (s.pc.pre = false ∨ s.pc = .cStore ∨ s.pc = .xStore))) :
    q < s'.ph.id ∨ (q = s'.ph.id ∧ s'.pc.pre = false) := by
  rcases hs with hs | ⟨hs, hp⟩
  · rcases h.ph with e | e
    · exact .inl (e ▸ hs)
    · exact .inl (by omega)
  · subst hs
    steps h, s, d with [MPc.pre]

theorem MStep.later {s s' : MS} {a : PAct T L C} {q k : Nat} (h : MStep d wk s a s')
    (hs : q < s.ph.id ∨ (q = s.ph.id ∧ (s.pc.later k ∨ s.pc = .xGive k ∨ s.pc = .cSpawn k))) :
    q < s'.ph.id ∨ (q = s'.ph.id ∧ s'.pc.later k) := by
  rcases hs with hs | ⟨hs, hp⟩
  · rcases h.ph with e | e
    · exact .inl (e ▸ hs)
    · exact .inl (by omega)
  · subst hs
    steps h, s, d with [MPc.later]

theorem MStep.same_batch {s s' : MS} {a : PAct T L C} {q b : Nat} (h : MStep d wk s a s') (hw : s.Wf)
    (hs : q < s.ph.id ∨ (q = s.ph.id ∧ (s.busy = true → s.b = b))) :
    q < s'.ph.id ∨ (q = s'.ph.id ∧ (s'.busy = true → s'.b = b)) := by
  steps h, s, d with [MS.busy, MS.Wf]

/-- Within Execute. -/
def MPc.inBatch : MPc → Bool
  | .cLoad | .cStore | .cWait | .cState _ | .cTask _ | .cSpawn _ | .xLoad | .xStore | .wait | .xChk _ | .xNull _ | .xTask _ | .xGive _
  | .enter | .body | .executed => true
  | _ => false

theorem MStep.batch {s s' : MS} {a : PAct T L C} (h : MStep d wk s a s') (h1 : s'.pc.inBatch = true) :
    s'.b = s.b ∧ ((s.pc.inBatch = true ∧ s'.n = s.n) ∨ (a = .call (.execute s.b s'.n) ∧ s.pc = .out)) := by
  steps h, s, d with [MPc.inBatch, MS.begin]

theorem MStep.batch_past {s s' : MS} {a : PAct T L C} {b n : Nat} (h : MStep d wk s a s')
    (hs : b < s.b ∨ (b = s.b ∧ n = s.n ∧ (s.pc.inBatch = true ∨ s.pc = .failed))) :
    b < s'.b ∨ (b = s'.b ∧ n = s'.n ∧ (s'.pc.inBatch = true ∨ s'.pc = .failed)) := by
  rcases hs with hs | ⟨h1, h2, h3⟩
  · have : s.b ≤ s'.b := by steps h, s, d with [MS.begin]
    exact .inl (by omega)
  · steps h, s, d with [MPc.inBatch]

/-- Worker `w` has been created, or is being created in use `q` of the counter. -/
def MS.has (w q : Nat) (s : MS) : Prop := w < s.size ∨ (q = s.ph.id ∧ w < s.n - 1 ∧ match s.pc with
  | .cState _ | .cTask _ | .cSpawn _ | .cWait | .failed => True
  | _ => False)

theorem MStep.has {s s' : MS} {a : PAct T L C} {q : Nat} (h : MStep d wk s a s') (hw : s.Wf) (hs : s.has w q) : s'.has w q := by
  steps h, s, d with [MS.has, MS.Wf]

theorem MStep.later_task {s s' : MS} {a : PAct T L C} {q k : Nat} (h : MStep d wk s a s')
    (hs : q < s.ph.id ∨ (q = s.ph.id ∧ (s.pc.later k ∨ s.pc = .xGive k ∨ s.pc = .xTask k))) :
    q < s'.ph.id ∨ (q = s'.ph.id ∧ (s'.pc.later k ∨ s'.pc = .xGive k)) := by
  rcases hs with hs | ⟨hs, hp⟩
  · rcases h.ph with e | e
    · exact .inl (e ▸ hs)
    · exact .inl (by omega)
  · subst hs
    steps h, s, d with [MPc.later]

/-- After the state of worker `w` has been changed to ExitAsSoonAsPossible. -/
def MPc.asked (w : Nat) : MPc → Prop
  | .dChk k | .dExit k => w < k
  | .dLast _ | .dJoin _ | .gone | .failed => True
  | _ => False

theorem MStep.asked {s s' : MS} {a : PAct T L C} (h : MStep d wk s a s') (hs : s.pc.asked w ∨ s.pc = .dExit w) : s'.pc.asked w := by
  steps h, s, d with [MPc.asked]

/-- Requests to exit. -/
theorem MStep.exits {s s' : MS} {a : PAct T L C} (h : MStep d wk s a s') (hw : s.Wf) (h1 : w < s'.size)
    (hs : (∃ k, (s'.pc = .dChk k ∨ s'.pc = .dExit k) ∧ w < k) ∨ (∃ k, s'.pc = .dLast k ∨ s'.pc = .dJoin k) ∨ s'.pc = .gone) :
    s'.size = s.size ∧ (((∃ k, (s.pc = .dChk k ∨ s.pc = .dExit k) ∧ w < k) ∨ (∃ k, s.pc = .dLast k ∨ s.pc = .dJoin k) ∨ s.pc = .gone) ∨
      (a = .store .release (.state w) exit ∧ s.pc = .dExit w)) := by
  steps h, s, d with [MS.Wf, MS.begin]

theorem MStep.joins {s s' : MS} {a : PAct T L C} (h : MStep d wk s a s') (hw : s.Wf) (h1 : w < s'.size)
    (hs : (∃ k, (s'.pc = .dLast k ∨ s'.pc = .dJoin k) ∧ w < k) ∨ s'.pc = .gone) :
    s'.size = s.size ∧ (((∃ k, (s.pc = .dLast k ∨ s.pc = .dJoin k) ∧ w < k) ∨ s.pc = .gone) ∨ s.pc = .dJoin w) := by
  steps h, s, d with [MS.Wf, MS.begin]

section
variable {ls : List (MS × PAct T L C)} {s : MS} (h : LSteps (MStep d wk) .init ls s)
include h

theorem m_wf : (∀ (i : Nat) t a, ls[i]? = some (t, a) → t.Wf) ∧ s.Wf :=
  h.induct (P := fun _ s => s.Wf) (by simp [MS.init, MS.Wf]) fun _ _ _ _ _ ih hr => hr.wf ih

theorem m_ph {i j : Nat} {t u : MS} {a b : PAct T L C} (hi : ls[i]? = some (t, a)) (hj : ls[j]? = some (u, b)) (hij : i ≤ j) :
    t.ph = u.ph ∨ t.ph.id < u.ph.id := by
  rcases Nat.lt_or_eq_of_le hij with c | c
  · refine (h.since (Q := fun s => t.ph = s.ph ∨ t.ph.id < s.ph.id) hi (fun s h => ?_) (fun s a s' h hr => ?_)).1 j u b hj c
    · rcases h.ph with e | e
      · exact .inl e.symm
      · exact .inr (by omega)
    · rcases hr.ph with e | e
      · rw [e]; exact h
      · refine .inr ?_
        rcases h with h | h
        · rw [h]; omega
        · omega
  · subst c
    rw [hi] at hj
    cases hj
    exact .inl rfl

theorem m_ph_eq {i j : Nat} {t u : MS} {a b : PAct T L C} (hi : ls[i]? = some (t, a)) (hj : ls[j]? = some (u, b))
    (he : t.ph.id = u.ph.id) : t.ph = u.ph := by
  rcases Nat.le_total i j with c | c
  · rcases m_ph h hi hj c with e | e
    · exact e
    · omega
  · rcases m_ph h hj hi c with e | e
    · exact e.symm
    · omega

theorem m_order {i j : Nat} {t u : MS} {a b : PAct T L C} (hi : ls[i]? = some (t, a)) (hj : ls[j]? = some (u, b))
    (he : t.ph.id < u.ph.id) : i < j := by
  by_contra hc
  rcases m_ph h hj hi (by omega) with e | e
  · rw [e] at he; omega
  · omega

/-- Uses of the counter that are over. -/
theorem m_waited {i : Nat} {t : MS} {a : PAct T L C} (hi : ls[i]? = some (t, a)) {q : Nat} (h1 : 1 ≤ q)
    (hq : q < t.ph.id ∨ (q = t.ph.id ∧ t.isOpen = false)) :
    ∃ j u, j < i ∧ ls[j]? = some (u, .load .acquire .count 0) ∧ u.ph.id = q ∧ (u.pc = .cWait ∨ u.pc = .wait) := by
  refine (h.induct (P := fun i t => ∀ q, 1 ≤ q → (q < t.ph.id ∨ (q = t.ph.id ∧ t.isOpen = false)) →
    ∃ j u, j < i ∧ ls[j]? = some (u, .load .acquire .count 0) ∧ u.ph.id = q ∧ (u.pc = .cWait ∨ u.pc = .wait)) ?_ ?_).1 i t a hi q h1 hq
  · intro q h1 h2
    simp [MS.init] at h2
    omega
  · intro i s a s' hi ih hr q h1 h2
    have hw := (m_wf h).1 i s a hi
    rcases hr.waits hw with ⟨e1, e2⟩ | ⟨e1, e2, e3⟩ | ⟨e1, e2, e3⟩
    · obtain ⟨j, u, hj, e⟩ := ih q h1 (h2.imp (fun h => e1 ▸ h) fun h => ⟨e1 ▸ h.1, e2 h.2⟩)
      exact ⟨j, u, by omega, e⟩
    · by_cases c : q = s.ph.id
      · exact ⟨i, s, Nat.lt_succ_self _, e1 ▸ hi, c.symm, e2⟩
      · obtain ⟨j, u, hj, e⟩ := ih q h1 (.inl (by
          rcases h2 with h2 | ⟨h2, h3⟩ <;> rcases e3 with e3 | ⟨e3, e4⟩
          · omega
          · omega
          · omega
          · rw [e4] at h3; cases h3))
        exact ⟨j, u, by omega, e⟩
    · obtain ⟨j, u, hj, e⟩ := ih q h1 (by
        rcases h2 with h2 | ⟨_, h2⟩
        · rcases Nat.lt_or_eq_of_le (show q ≤ s.ph.id by omega) with c | c
          · exact .inl c
          · exact .inr ⟨c, e1⟩
        · rw [e3] at h2; cases h2)
      exact ⟨j, u, by omega, e⟩

/-- A use of the counter begins with a reset. -/
theorem m_reset {i : Nat} {t : MS} {a : PAct T L C} (hi : ls[i]? = some (t, a)) (h1 : 1 ≤ t.ph.id) (h2 : t.pc.pre = false)
    (h3 : t.pc ≠ .failed) :
    ∃ j u, j < i ∧ ls[j]? = some (u, .store .release .count u.ph.m) ∧ u.ph = t.ph ∧ (u.pc = .cStore ∨ u.pc = .xStore) := by
  refine (h.induct (P := fun i t => 1 ≤ t.ph.id → t.pc.pre = false → t.pc ≠ .failed →
    ∃ j u, j < i ∧ ls[j]? = some (u, .store .release .count u.ph.m) ∧ u.ph = t.ph ∧ (u.pc = .cStore ∨ u.pc = .xStore)) ?_ ?_).1 i t a hi h1 h2 h3
  · intro h; simp [MS.init] at h
  · intro i s a s' hi ih hr h1 h2 h3
    obtain ⟨e, c | ⟨c, c'⟩⟩ := hr.resets ((m_wf h).1 i s a hi) h1 h2 h3
    · obtain ⟨j, u, hj, e1, e2, e3⟩ := ih (e ▸ h1) c.1 c.2
      exact ⟨j, u, by omega, e1, e2.trans e.symm, e3⟩
    · subst c
      exact ⟨i, s, Nat.lt_succ_self _, hi, e.symm, c'⟩

/-- The counter is reset once for each use. -/
theorem m_reset_one {i j : Nat} {t u : MS} {a b : PAct T L C} (hi : ls[i]? = some (t, a)) (hj : ls[j]? = some (u, b))
    (ht : t.pc = .cStore ∨ t.pc = .xStore) (hu : u.pc = .cStore ∨ u.pc = .xStore) (he : t.ph.id = u.ph.id) : i = j := by
  have main : ∀ {i j : Nat} {t u : MS} {a b : PAct T L C}, ls[i]? = some (t, a) → ls[j]? = some (u, b) →
      (t.pc = .cStore ∨ t.pc = .xStore) → (u.pc = .cStore ∨ u.pc = .xStore) → t.ph.id = u.ph.id → ¬i < j := by
    intro i j t u a b hi hj ht hu he hlt
    have := (h.since (Q := fun s => t.ph.id < s.ph.id ∨ (t.ph.id = s.ph.id ∧ s.pc.pre = false)) hi
      (fun s hr => hr.pre_past (.inr ⟨rfl, .inr ht⟩))
      (fun s a s' hs hr => hr.pre_past (hs.imp id fun h => ⟨h.1, .inl h.2⟩))).1 j u b hj hlt
    rcases this with c | ⟨_, c⟩
    · omega
    · rcases hu with e | e <;> rw [e] at c <;> cases c
  rcases Nat.lt_trichotomy i j with c | c | c
  · exact absurd c (main hi hj ht hu he)
  · exact c
  · exact absurd c (main hj hi hu ht he.symm)

theorem m_later {i j k : Nat} {t u : MS} {a b : PAct T L C} (hi : ls[i]? = some (t, a)) (hj : ls[j]? = some (u, b))
    (ht : t.pc = .xGive k ∨ t.pc = .cSpawn k) (hij : i < j) : t.ph.id < u.ph.id ∨ (t.ph.id = u.ph.id ∧ u.pc.later k) :=
  (h.since (Q := fun s => t.ph.id < s.ph.id ∨ (t.ph.id = s.ph.id ∧ s.pc.later k)) hi
      (fun _ hr => hr.later (.inr ⟨rfl, .inr ht⟩))
      (fun _ _ _ hs hr => hr.later (hs.imp id fun h => ⟨h.1, .inl h.2⟩))).1 j u b hj hij

/-- A worker is given work once for each use of the counter. -/
theorem m_give_one {i j k : Nat} {t u : MS} {a b : PAct T L C} (hi : ls[i]? = some (t, a)) (hj : ls[j]? = some (u, b))
    (ht : t.pc = .xGive k) (hu : u.pc = .xGive k) (he : t.ph.id = u.ph.id) : i = j := by
  rcases Nat.lt_trichotomy i j with c | c | c
  · rcases m_later h hi hj (.inl ht) c with e | ⟨_, e⟩
    · omega
    · rw [hu] at e; exact absurd e (Nat.lt_irrefl _)
  · exact c
  · rcases m_later h hj hi (.inl hu) c with e | ⟨_, e⟩
    · omega
    · rw [ht] at e; exact absurd e (Nat.lt_irrefl _)

/-- The pointer is stored before the state. -/
theorem m_give {i k : Nat} {t : MS} {a : PAct T L C} (hi : ls[i]? = some (t, a)) (ht : t.pc = .xGive k) :
    ∃ j, j < i ∧ ls[j]? = some ({ t with pc := .xTask k }, .store .relaxed (.task (k - 1)) (obj t.b k)) := by
  refine (h.induct (P := fun i t => ∀ k, t.pc = .xGive k →
    ∃ j, j < i ∧ ls[j]? = some ({ t with pc := .xTask k }, .store .relaxed (.task (k - 1)) (obj t.b k))) ?_ ?_).1 i t a hi k ht
  · intro k h; cases h
  · intro i s a s' hi ih hr k h1
    cases hr with
    | xTask hp =>
      cases h1
      refine ⟨i, Nat.lt_succ_self _, ?_⟩
      rw [hi, ← hp]
    | user hu _ => rcases hu with hu | hu | hu | hu <;> simp_all
    | begin => unfold MS.begin at h1; split_ifs at h1 <;> simp_all
    | xStore h => cases d <;> simp_all [give]
    | @xGive i h => cases d <;> simp only [give] at h1 <;> split_ifs at h1 <;> simp_all
    | @leave h => simp only at h1; split_ifs at h1
    | @cSpawn w h => simp only at h1; split_ifs at h1
    | @destroy h => cases d <;> simp only [request] at h1 <;> split_ifs at h1 <;> simp_all
    | @dExit w h => cases d <;> simp only [request, Pool.destroy] at h1 <;> split_ifs at h1 <;> simp_all
    | @dJoin w h => cases d <;> simp only [Pool.destroy] at h1 <;> split_ifs at h1 <;> simp_all
    | _ => simp_all

/-- The members of a worker are initialized before its thread is started. -/
theorem m_spawn_task {i k : Nat} {t : MS} {a : PAct T L C} (hi : ls[i]? = some (t, a)) (ht : t.pc = .cSpawn k) :
    ∃ j, j < i ∧ ls[j]? = some ({ t with pc := .cTask k }, .store .relaxed (.task k) 0) := by
  refine (h.induct (P := fun i t => ∀ k, t.pc = .cSpawn k →
    ∃ j, j < i ∧ ls[j]? = some ({ t with pc := .cTask k }, .store .relaxed (.task k) 0)) ?_ ?_).1 i t a hi k ht
  · intro k h; cases h
  · intro i s a s' hi ih hr k h1
    cases hr with
    | cTask hp =>
      cases h1
      refine ⟨i, Nat.lt_succ_self _, ?_⟩
      rw [hi, ← hp]
    | user hu _ => rcases hu with hu | hu | hu | hu <;> simp_all
    | begin => unfold MS.begin at h1; split_ifs at h1 <;> simp_all
    | xStore h => cases d <;> simp_all [give]
    | @xGive i h => cases d <;> simp only [give] at h1 <;> split_ifs at h1 <;> simp_all
    | @leave h => simp only at h1; split_ifs at h1
    | @cSpawn w h => simp only at h1; split_ifs at h1
    | @destroy h => cases d <;> simp only [request] at h1 <;> split_ifs at h1 <;> simp_all
    | @dExit w h => cases d <;> simp only [request, Pool.destroy] at h1 <;> split_ifs at h1 <;> simp_all
    | @dJoin w h => cases d <;> simp only [Pool.destroy] at h1 <;> split_ifs at h1 <;> simp_all
    | _ => simp_all

/-- The members of a worker are initialized before its thread is started. -/
theorem m_task_state {i k : Nat} {t : MS} {a : PAct T L C} (hi : ls[i]? = some (t, a)) (ht : t.pc = .cTask k) :
    ∃ j, j < i ∧ ls[j]? = some ({ t with pc := .cState k }, .store .relaxed (.state k) startup) := by
  refine (h.induct (P := fun i t => ∀ k, t.pc = .cTask k →
    ∃ j, j < i ∧ ls[j]? = some ({ t with pc := .cState k }, .store .relaxed (.state k) startup)) ?_ ?_).1 i t a hi k ht
  · intro k h; cases h
  · intro i s a s' hi ih hr k h1
    cases hr with
    | cState hp =>
      cases h1
      refine ⟨i, Nat.lt_succ_self _, ?_⟩
      rw [hi, ← hp]
    | user hu _ => rcases hu with hu | hu | hu | hu <;> simp_all
    | begin => unfold MS.begin at h1; split_ifs at h1 <;> simp_all
    | xStore h => cases d <;> simp_all [give]
    | @xGive i h => cases d <;> simp only [give] at h1 <;> split_ifs at h1 <;> simp_all
    | @leave h => simp only at h1; split_ifs at h1
    | @cSpawn w h => simp only at h1; split_ifs at h1
    | @destroy h => cases d <;> simp only [request] at h1 <;> split_ifs at h1 <;> simp_all
    | @dExit w h => cases d <;> simp only [request, Pool.destroy] at h1 <;> split_ifs at h1 <;> simp_all
    | @dJoin w h => cases d <;> simp only [Pool.destroy] at h1 <;> split_ifs at h1 <;> simp_all
    | _ => simp_all

/-- The pool is constructed first. -/
theorem m_init {i : Nat} {t : MS} {a : PAct T L C} (hi : ls[i]? = some (t, a)) (ht : t.pc ≠ .fresh) :
    ∃ j u, j < i ∧ ls[j]? = some (u, .store .relaxed .count 0) ∧ u.pc = .fresh := by
  refine (h.induct (P := fun i t => t.pc ≠ .fresh → ∃ j u, j < i ∧ ls[j]? = some (u, .store .relaxed .count 0) ∧ u.pc = .fresh) ?_ ?_).1 i t a hi ht
  · intro h; exact absurd rfl h
  · intro i s a s' hi ih hr h1
    by_cases c : s.pc = .fresh
    · cases hr with
      | construct hp => exact ⟨i, s, Nat.lt_succ_self _, hi, hp⟩
      | user => exact absurd c h1
      | _ => simp_all
    · obtain ⟨j, u, hj, e⟩ := ih c
      exact ⟨j, u, by omega, e⟩

theorem m_init_one {i j : Nat} {t u : MS} {b : PAct T L C} (hi : ls[i]? = some (t, .store .relaxed .count 0))
    (hj : ls[j]? = some (u, b)) (hij : i < j) (ht : t.pc = .fresh) : u.pc ≠ .fresh := by
  refine (h.since (Q := fun s => s.pc ≠ .fresh) hi (fun s hr => ?_) (fun s a s' hs hr => ?_)).1 j u b hj hij
  · cases hr <;> simp_all
    rename_i hu; cases hu
  · steps hr, s, d with [MS.begin]

/-- Marks of the batch that is being executed. -/
theorem m_batch {i : Nat} {t : MS} {a : PAct T L C} (hi : ls[i]? = some (t, a)) (ht : t.pc.inBatch = true) :
    ∃ j u, j < i ∧ ls[j]? = some (u, .call (.execute t.b t.n)) ∧ u.pc = .out := by
  refine (h.induct (P := fun i t => t.pc.inBatch = true → ∃ j u, j < i ∧ ls[j]? = some (u, .call (.execute t.b t.n)) ∧ u.pc = .out) ?_ ?_).1 i t a hi ht
  · intro h; cases h
  · intro i s a s' hi ih hr h1
    obtain ⟨e, ⟨c, c'⟩ | ⟨c, c'⟩⟩ := hr.batch h1
    · obtain ⟨j, u, hj, e1, e2⟩ := ih c
      rw [e, c']
      exact ⟨j, u, by omega, e1, e2⟩
    · rw [e]
      exact ⟨i, s, Nat.lt_succ_self _, c ▸ hi, c'⟩

/-- The number of the batch determines its mark. -/
theorem m_batch_one {i j b n n' : Nat} {t u : MS} (hi : ls[i]? = some (t, .call (.execute b n)))
    (hj : ls[j]? = some (u, .call (.execute b n'))) : i = j := by
  have main : ∀ {i j b n n' : Nat} {t u : MS}, ls[i]? = some (t, .call (.execute b n)) → ls[j]? = some (u, .call (.execute b n')) → ¬i < j := by
    intro i j b n n' t u hi hj hlt
    have := (h.since (Q := fun s => b < s.b ∨ (b = s.b ∧ n = s.n ∧ (s.pc.inBatch = true ∨ s.pc = .failed))) hi (fun s hr => by
      cases hr with
      | user _ hu => cases hu
      | begin h1 h2 => unfold MS.begin; split_ifs <;> simp_all [MPc.inBatch])
      (fun _ _ _ hs hr => hr.batch_past hs)).1 j u _ hj hlt
    obtain ⟨_, hr⟩ := h.step hj
    cases hr with
    | user _ hu => cases hu
    | begin h1 h2 =>
      rcases this with c | ⟨_, _, c | c⟩
      · omega
      · rw [h1] at c; cases c
      · rw [h1] at c; cases c
  rcases Nat.lt_trichotomy i j with c | c | c
  · exact absurd c (main hi hj)
  · exact c
  · exact absurd c (main hj hi)

/-- The same use of the counter, the same batch. -/
theorem m_same_batch {i j : Nat} {t u : MS} {a b : PAct T L C} (hi : ls[i]? = some (t, a)) (hj : ls[j]? = some (u, b))
    (he : t.ph.id = u.ph.id) (ht : t.busy = true) (hu : u.busy = true) : t.b = u.b := by
  have main : ∀ {i j : Nat} {t u : MS} {a b : PAct T L C}, ls[i]? = some (t, a) → ls[j]? = some (u, b) → t.ph.id = u.ph.id →
      t.busy = true → u.busy = true → i < j → u.b = t.b := by
    intro i j t u a b hi hj he ht hu hlt
    have := (h.since (Q := fun s => s.Wf ∧ (t.ph.id < s.ph.id ∨ (t.ph.id = s.ph.id ∧ (s.busy = true → s.b = t.b)))) hi
      (fun s hr => ⟨hr.wf ((m_wf h).1 _ _ _ hi), hr.same_batch ((m_wf h).1 _ _ _ hi) (.inr ⟨rfl, fun _ => rfl⟩)⟩)
      (fun s a s' hs hr => ⟨hr.wf hs.1, hr.same_batch hs.1 hs.2⟩)).1 j u b hj hlt
    rcases this.2 with c | ⟨_, c⟩
    · omega
    · exact c hu
  rcases Nat.lt_trichotomy i j with c | c | c
  · exact (main hi hj he ht hu c).symm
  · subst c; rw [hi] at hj; cases hj; rfl
  · exact main hj hi he.symm hu ht c

/-- Workers that have been started are counted. -/
theorem m_has {i j w : Nat} {t u : MS} {a b : PAct T L C} (hi : ls[i]? = some (t, a)) (hj : ls[j]? = some (u, b))
    (ht : t.pc = .cSpawn w) (hij : i < j) : u.has w t.ph.id := by
  refine ((h.since (Q := fun s => s.Wf ∧ s.has w t.ph.id) hi (fun s hr => ?_)
    (fun s a s' hs hr => ⟨hr.wf hs.1, hr.has hs.1 hs.2⟩)).1 j u b hj hij).2
  have hw := (m_wf h).1 _ _ _ hi
  refine ⟨hr.wf hw, hr.has hw ?_⟩
  simp only [MS.Wf, ht] at hw
  exact .inr ⟨rfl, hw.2.2.2.2.2.2, by rw [ht]; trivial⟩

/-- The members of a worker are not initialized after its thread has been started. -/
theorem m_spawned {i j w : Nat} {t u : MS} {a b : PAct T L C} (hi : ls[i]? = some (t, a)) (hj : ls[j]? = some (u, b))
    (ht : t.pc = .cSpawn w) (hu : u.pc = .cState w ∨ u.pc = .cTask w ∨ u.pc = .cSpawn w) : j ≤ i := by
  by_contra hc
  have wf := (m_wf h).1 _ _ _ hj
  have c1 : ¬w < u.size := by rcases hu with e | e | e <;> simp only [MS.Wf, e] at wf <;> omega
  rcases m_has h hi hj ht (by omega) with c | ⟨e, _⟩
  · exact c1 c
  · rcases m_later h hi hj (.inr ht) (by omega) with c | ⟨_, c⟩
    · omega
    · rcases hu with e | e | e <;> rw [e] at c <;> exact absurd c (Nat.lt_irrefl _)

theorem m_later_task {i j k : Nat} {t u : MS} {a b : PAct T L C} (hi : ls[i]? = some (t, a)) (hj : ls[j]? = some (u, b))
    (ht : t.pc = .xTask k ∨ t.pc = .xGive k) (hij : i < j) : t.ph.id < u.ph.id ∨ (t.ph.id = u.ph.id ∧ (u.pc.later k ∨ u.pc = .xGive k)) :=
  (h.since (Q := fun s => t.ph.id < s.ph.id ∨ (t.ph.id = s.ph.id ∧ (s.pc.later k ∨ s.pc = .xGive k))) hi
      (fun _ hr => hr.later_task (.inr ⟨rfl, .inr ht.symm⟩))
      (fun _ _ _ hs hr => hr.later_task (hs.imp id fun h => ⟨h.1, h.2.imp id .inl⟩))).1 j u b hj hij

/-- A worker is asked to exit once. -/
theorem m_asked {i j w : Nat} {t u : MS} {a b : PAct T L C} (hi : ls[i]? = some (t, a)) (hj : ls[j]? = some (u, b))
    (ht : t.pc = .dExit w) (hij : i < j) : u.pc.asked w :=
  (h.since (Q := fun s => s.pc.asked w) hi (fun _ hr => hr.asked (.inr ht)) (fun _ _ _ hs hr => hr.asked (.inl hs))).1 j u b hj hij

theorem m_exits {i w : Nat} {t : MS} {a : PAct T L C} (hi : ls[i]? = some (t, a)) (h1 : w < t.size)
    (ht : (∃ k, (t.pc = .dChk k ∨ t.pc = .dExit k) ∧ w < k) ∨ (∃ k, t.pc = .dLast k ∨ t.pc = .dJoin k) ∨ t.pc = .gone) :
    ∃ j u, j < i ∧ ls[j]? = some (u, .store .release (.state w) exit) ∧ u.pc = .dExit w := by
  refine (h.induct (P := fun i t => w < t.size →
    ((∃ k, (t.pc = .dChk k ∨ t.pc = .dExit k) ∧ w < k) ∨ (∃ k, t.pc = .dLast k ∨ t.pc = .dJoin k) ∨ t.pc = .gone) →
    ∃ j u, j < i ∧ ls[j]? = some (u, .store .release (.state w) exit) ∧ u.pc = .dExit w) ?_ ?_).1 i t a hi h1 ht
  · intro h; simp [MS.init] at h
  · intro i s a s' hi ih hr h1 h2
    obtain ⟨e, c | ⟨c, c'⟩⟩ := hr.exits ((m_wf h).1 _ _ _ hi) h1 h2
    · obtain ⟨j, u, hj, e⟩ := ih (e ▸ h1) c
      exact ⟨j, u, by omega, e⟩
    · subst c
      exact ⟨i, s, Nat.lt_succ_self _, hi, c'⟩

theorem m_joins {i w : Nat} {t : MS} {a : PAct T L C} (hi : ls[i]? = some (t, a)) (h1 : w < t.size) (ht : t.pc = .gone) :
    ∃ j u, j < i ∧ ls[j]? = some (u, .join (wk w)) := by
  refine (h.induct (P := fun i t => w < t.size → ((∃ k, (t.pc = .dLast k ∨ t.pc = .dJoin k) ∧ w < k) ∨ t.pc = .gone) →
    ∃ j u, j < i ∧ ls[j]? = some (u, .join (wk w))) ?_ ?_).1 i t a hi h1 (.inr ht)
  · intro h; simp [MS.init] at h
  · intro i s a s' hi ih hr h1 h2
    obtain ⟨e, c | c⟩ := hr.joins ((m_wf h).1 _ _ _ hi) h1 h2
    · obtain ⟨j, u, hj, e⟩ := ih (e ▸ h1) c
      exact ⟨j, u, by omega, e⟩
    · cases hr <;> simp_all
      exact ⟨i, Nat.lt_succ_self _, s, hi⟩

end

end Ruy.Race.Pool

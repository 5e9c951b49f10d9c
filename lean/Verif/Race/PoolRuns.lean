import Verif.Race.PoolFacts
/-
Runs of tasks in a pool.
-/
namespace Ruy.Race.Pool
open Exec
variable {T L C : Type}

set_option linter.unusedTactic false
set_option linter.unreachableTactic false

theorem obj_inj {b i b' i' : Nat} (h : obj b i = obj b' i') : b = b' ∧ i = i' := by
  simpa [obj, Nat.pair_eq_pair] using h

/-! ### The main thread -/

section
variable {d : Bool} {wk : Nat → T} {w : Nat} {ls : List (MS × PAct T L C)} {s : MS}

theorem MStep.b_le {s s' : MS} {a : PAct T L C} (h : MStep d wk s a s') : s.b ≤ s'.b := by
  steps h, s, d with [MS.begin]

theorem MStep.given {s s' : MS} {a : PAct T L C} {k : Nat} (h : MStep d wk s a s') (hs : s.pc = .xGive k ∨ (match s.pc with
    | .xChk i | .xNull i | .xTask i | .xGive i => k < i
    | .enter | .body | .wait | .executed | .failed => True
    | _ => False)) : s.b < s'.b ∨ (s.b = s'.b ∧ (match s'.pc with
    | .xChk i | .xNull i | .xTask i | .xGive i => k < i
    | .enter | .body | .wait | .executed | .failed => True
    | _ => False)) := by
  steps h, s, d with [MS.begin]

theorem MStep.entered {s s' : MS} {a : PAct T L C} (h : MStep d wk s a s')
    (hs : (s.pc = .enter ∧ a = .call (.enter (obj s.b 0))) ∨ s.pc = .body ∨ s.pc = .wait ∨ s.pc = .executed ∨ s.pc = .failed) :
    s.b < s'.b ∨ (s.b = s'.b ∧ (s'.pc = .body ∨ s'.pc = .wait ∨ s'.pc = .executed ∨ s'.pc = .failed)) := by
  steps h, s, d with [MS.begin]

variable (h : LSteps (MStep d wk) .init ls s)
include h

theorem m_b_le {i j : Nat} {t u : MS} {a b : PAct T L C} (hi : ls[i]? = some (t, a)) (hj : ls[j]? = some (u, b)) (hij : i ≤ j) :
    t.b ≤ u.b := by
  rcases Nat.lt_or_eq_of_le hij with c | c
  · exact (h.since (Q := fun s => t.b ≤ s.b) hi (fun _ hr => hr.b_le) (fun _ _ _ hs hr => Nat.le_trans hs hr.b_le)).1 j u b hj c
  · subst c
    rw [hi] at hj
    injection hj with e; injection e with e _; rw [e]

theorem m_executed {i j k : Nat} {t u : MS} {b : PAct T L C} (hi : ls[i]? = some (t, .call (.executed k)))
    (hj : ls[j]? = some (u, b)) (hij : i < j) : k < u.b := by
  refine (h.since (Q := fun s => k < s.b) hi (fun s hr => ?_) (fun _ _ _ hs hr => Nat.lt_of_lt_of_le hs hr.b_le)).1 j u b hj hij
  generalize ha : (Act.call (.executed k) : PAct T L C) = a at hr
  cases hr with
  | user _ hu => cases hu <;> cases ha
  | executed hp => cases ha; exact Nat.lt_succ_self _
  | _ => cases ha

theorem m_give_batch {i j k : Nat} {t u : MS} {a b : PAct T L C} (hi : ls[i]? = some (t, a)) (hj : ls[j]? = some (u, b))
    (ht : t.pc = .xGive k) (hu : u.pc = .xGive k) (he : t.b = u.b) : i = j := by
  have main : ∀ {i j : Nat} {t u : MS} {a b : PAct T L C}, ls[i]? = some (t, a) → ls[j]? = some (u, b) → t.pc = .xGive k → u.pc = .xGive k →
      t.b = u.b → ¬i < j := by
    intro i j t u a b hi hj ht hu he hlt
    have := (h.since (Q := fun s => t.b < s.b ∨ (t.b = s.b ∧ (match s.pc with
      | .xChk i | .xNull i | .xTask i | .xGive i => k < i
      | .enter | .body | .wait | .executed | .failed => True
      | _ => False))) hi (fun s hr => hr.given (.inl ht)) (fun s a s' hs hr => by
        rcases hs with hs | ⟨e, hs⟩
        · exact .inl (Nat.lt_of_lt_of_le hs hr.b_le)
        · rw [e]
          exact hr.given (.inr hs))).1 j u b hj hlt
    rw [hu] at this
    simp at this
    omega
  rcases Nat.lt_trichotomy i j with c | c | c
  · exact absurd c (main hi hj ht hu he)
  · exact c
  · exact absurd c (main hj hi hu ht he.symm)

/-- A call of `Run` on the main thread is that of task 0. -/
theorem m_enter_pc {i v : Nat} {t : MS} (hi : ls[i]? = some (t, .call (.enter v))) : t.pc = .enter ∧ v = obj t.b 0 := by
  obtain ⟨t', hr⟩ := h.step hi
  generalize ha : (Act.call (.enter v) : PAct T L C) = a at hr
  cases hr with
  | user _ hu => cases hu <;> cases ha
  | enter hp => cases ha; exact ⟨hp, rfl⟩
  | _ => cases ha

theorem m_executed_pc {i k : Nat} {t : MS} (hi : ls[i]? = some (t, .call (.executed k))) : t.pc = .executed ∧ k = t.b := by
  obtain ⟨t', hr⟩ := h.step hi
  generalize ha : (Act.call (.executed k) : PAct T L C) = a at hr
  cases hr with
  | user _ hu => cases hu <;> cases ha
  | executed hp => cases ha; exact ⟨hp, rfl⟩
  | _ => cases ha

theorem m_enter_one {i j : Nat} {t u : MS} {v : Nat} (hi : ls[i]? = some (t, .call (.enter v))) (hj : ls[j]? = some (u, .call (.enter v))) :
    i = j := by
  have main : ∀ {i j : Nat} {t u : MS}, ls[i]? = some (t, .call (.enter v)) → ls[j]? = some (u, .call (.enter v)) → ¬i < j := by
    intro i j t u hi hj hlt
    obtain ⟨p, e⟩ := m_enter_pc h hi
    obtain ⟨p', e'⟩ := m_enter_pc h hj
    have := (h.since (Q := fun s => t.b < s.b ∨ (t.b = s.b ∧ (s.pc = .body ∨ s.pc = .wait ∨ s.pc = .executed ∨ s.pc = .failed))) hi
      (fun s hr => hr.entered (.inl ⟨p, by rw [e]⟩)) (fun s a s' hs hr => by
        rcases hs with hs | ⟨e, hs⟩
        · exact .inl (Nat.lt_of_lt_of_le hs hr.b_le)
        · rw [e]
          exact hr.entered (.inr hs))).1 j u _ hj hlt
    rw [p'] at this
    have := (obj_inj (e.symm.trans e')).1
    simp at *
    omega
  rcases Nat.lt_trichotomy i j with c | c | c
  · exact absurd c (main hi hj)
  · exact c
  · exact absurd c (main hj hi)

/-- Task 0 has run when the others are waited for. -/
theorem m_ran {i : Nat} {t : MS} {a : PAct T L C} (hi : ls[i]? = some (t, a)) (ht : t.pc = .wait ∨ t.pc = .executed) :
    ∃ j k u u', j < k ∧ k < i ∧ ls[j]? = some (u, .call (.enter (obj t.b 0))) ∧ ls[k]? = some (u', .call (.leave (obj t.b 0))) := by
  have key := (h.induct (P := fun i t => (t.pc = .body → ∃ j u, j < i ∧ ls[j]? = some (u, .call (.enter (obj t.b 0)))) ∧
    (t.pc = .wait ∨ t.pc = .executed →
      ∃ j k u u', j < k ∧ k < i ∧ ls[j]? = some (u, .call (.enter (obj t.b 0))) ∧ ls[k]? = some (u', .call (.leave (obj t.b 0))))) ?_ ?_).1 i t a hi
  · exact key.2 ht
  · simp [MS.init]
  · intro i s a s' hi ih hr
    have keep1 : s.pc = .body → ∃ j u, j < i + 1 ∧ ls[j]? = some (u, .call (.enter (obj s.b 0))) := fun hp => by
      obtain ⟨j, u, hj, e⟩ := ih.1 hp
      exact ⟨j, u, by omega, e⟩
    have keep2 : s.pc = .wait ∨ s.pc = .executed →
      ∃ j k u u', j < k ∧ k < i + 1 ∧ ls[j]? = some (u, .call (.enter (obj s.b 0))) ∧ ls[k]? = some (u', .call (.leave (obj s.b 0))) := fun hp => by
      obtain ⟨j, k, u, u', hj, hk, e⟩ := ih.2 hp
      exact ⟨j, k, u, u', hj, by omega, e⟩
    cases hr with
    | user _ _ => exact ⟨keep1, keep2⟩
    | enter hp => exact ⟨fun _ => ⟨i, s, Nat.lt_succ_self _, hi⟩, fun h => by simp at h⟩
    | leave hp =>
      obtain ⟨j, u, hj, e⟩ := ih.1 hp
      refine ⟨fun h => by split_ifs at h <;> simp at h, fun _ => ⟨j, i, u, s, hj, Nat.lt_succ_self _, e, hi⟩⟩
    | spin hp _ => exact ⟨keep1, keep2⟩
    | wait hp => exact ⟨fun h => by simp at h, fun _ => keep2 (.inl hp)⟩
    | cSpin _ _ => exact ⟨keep1, keep2⟩
    | _ =>
      refine ⟨fun h => ?_, fun h => ?_⟩ <;> exfalso <;> revert h <;> simp [MS.begin, give, request, Pool.destroy] <;>
        (try split_ifs) <;> simp <;> (try (cases d <;> simp))

/-- Within `Run` on the main thread. -/
theorem m_inside {i f v : Nat} {t : MS} (hi : ls[i]? = some (t, .call (.enter v))) (hif : i < f)
    (hl : ∀ (j : Nat) u, i < j → j ≤ f → ls[j]? ≠ some (u, .call (.leave v))) {u : MS} {a : PAct T L C} (hf : ls[f]? = some (u, a)) :
    u.pc = .body ∧ u.b = t.b ∧ v = obj t.b 0 := by
  obtain ⟨p, e⟩ := m_enter_pc h hi
  refine ⟨?_, ?_, e⟩ <;>
  · have key := (h.induct (P := fun j s => i < j → j ≤ f → s.pc = .body ∧ s.b = t.b) (fun h => by omega) ?_).1 f u a hf hif (Nat.le_refl _)
    · first | exact key.1 | exact key.2
    · intro j s a s' hj ih hr h1 h2
      rcases Nat.lt_or_eq_of_le (Nat.le_of_lt_succ h1) with c | c
      · obtain ⟨g1, g2⟩ := ih c (by omega)
        cases hr with
        | user _ _ => exact ⟨g1, g2⟩
        | leave hp =>
          refine absurd hj (hl j s c (by omega) ∘ fun hh => ?_)
          rw [hh, e, g2]
        | _ => simp_all
      · subst c
        rw [hi] at hj
        injection hj with hj; injection hj with hs ha
        subst hs; subst ha
        generalize ha : (Act.call (.enter v) : PAct T L C) = a at hr
        cases hr with
        | user _ hu => cases hu <;> cases ha
        | enter hp => exact ⟨rfl, rfl⟩
        | _ => cases ha

end

/-! ### Workers -/

section
variable {d : Bool} {wk : Nat → T} {w : Nat} {ls : List (WS × PAct T L C)} {s : WS} (h : LSteps (WStep d wk w) ⟨.fetch, 0⟩ ls s)
include h

theorem w_enter_pc {i v : Nat} {t : WS} (hi : ls[i]? = some (t, .call (.enter v))) : t.pc = .enter v := by
  obtain ⟨t', hr⟩ := h.step hi
  cases hr with
  | body hu => cases hu
  | enter => rfl

/-- Within `Run` on a worker. -/
theorem w_inside {i f v : Nat} {t : WS} (hi : ls[i]? = some (t, .call (.enter v))) (hif : i < f)
    (hl : ∀ (j : Nat) u, i < j → j ≤ f → ls[j]? ≠ some (u, .call (.leave v))) {u : WS} {a : PAct T L C} (hf : ls[f]? = some (u, a)) :
    u.pc = .body v ∧ u.r = t.r := by
  refine (h.induct (P := fun j s => i < j → j ≤ f → s.pc = .body v ∧ s.r = t.r) (fun h => by omega) ?_).1 f u a hf hif (Nat.le_refl _)
  intro j s a s' hj ih hr h1 h2
  rcases Nat.lt_or_eq_of_le (Nat.le_of_lt_succ h1) with c | c
  · obtain ⟨g1, g2⟩ := ih c (by omega)
    cases hr with
    | body _ => exact ⟨g1, g2⟩
    | leave =>
      simp at g1
      exact absurd (g1 ▸ hj) (hl j _ c (by omega))
    | _ => simp_all
  · subst c
    rw [hi] at hj
    injection hj with hj; injection hj with hs ha
    subst hs; subst ha
    cases hr with
    | body hu => cases hu
    | enter => exact ⟨rfl, rfl⟩

end

/-! ### In an execution -/

variable {x : Exec T (PLoc L) Nat (PCode C)} {K : Run x}

/-- What a worker runs is the task that main has given it. -/
theorem worker_task (h : K.Ok) (hx : x.Consistent) {w k v q : Nat} {u : WS} {a : PAct T L C} (hk : K.W w k u a)
    (hu : u.pc = .enter v ∨ u.pc = .body v) (ho : K.Of w u.r q) : ∃ i s, K.M i s (.store .release (.state w) hasWork) ∧
      s.pc = .xGive (w + 1) ∧ s.ph.id = q ∧ v = obj s.b (w + 1) ∧ w + 1 < s.n := by
  obtain ⟨j, hj, e⟩ := w_read (h.work w) hk hu
  obtain ⟨j', v', _, hv, e'⟩ := w_again (h.work w) e rfl
  have e' : K.W w j' ⟨.fetch, u.r⟩ (.load .relaxed (.task w) v') := e'
  have e : K.W w j ⟨.again, u.r⟩ (.load .relaxed (.task w) v) := e
  have ho' : K.Of w (WS.mk .fetch u.r).r q := ho
  rcases ho with ⟨r0, i, t, hi, p, et⟩ | ⟨r0, i, t, _, hi, p, et, _, _⟩
  · have := task_read h hx e' (.inl rfl) ho' hi et (fun c => absurd r0 c)
    rw [if_pos r0] at this
    exact absurd this hv
  · have := task_read h hx e (.inr rfl) ho' hi et (fun _ => by simp [MS.busy, p])
    rw [if_neg r0] at this
    have wf := (m_wf h.main).1 _ _ _ hi
    simp only [MS.Wf, p] at wf
    exact ⟨i, t, hi, p, et, this, by omega⟩

end Ruy.Race.Pool

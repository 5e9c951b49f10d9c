import Verif.Race.Pool
/-
What the thread that owns a pool, and a worker, have done when they are at a given point of their code.
-/
namespace Ruy.Race.Pool

section
variable {S A : Type} {R : S → A → S → Prop} {s0 s : S} {ls : List (S × A)}

theorem LSteps.induct' {P : Nat → S → Prop} (h : LSteps R s0 ls s) : ∀ full, ls <+: full →
    P 0 s0 → (∀ i s a s', full[i]? = some (s, a) → P i s → R s a s' → P (i + 1) s') →
    (∀ i s a, ls[i]? = some (s, a) → P i s) ∧ P ls.length s := by
  induction h with
  | nil => intro full _ h0 _; exact ⟨fun i s a h => by simp at h, h0⟩
  | @snoc ls s a s' h hr ih =>
    intro full hp h0 hs
    obtain ⟨i1, i2⟩ := ih full ((List.prefix_append _ _).trans hp) h0 hs
    have hf : full[ls.length]? = some (s, a) := by
      obtain ⟨t, rfl⟩ := hp
      simp
    refine ⟨fun i t b hi => ?_, ?_⟩
    · rcases Nat.lt_trichotomy i ls.length with c | c | c
      · rw [List.getElem?_append_left c] at hi
        exact i1 i t b hi
      · subst c
        simp at hi
        obtain ⟨rfl, rfl⟩ := hi
        exact i2
      · rw [List.getElem?_eq_none (by simp; omega)] at hi
        cases hi
    · rw [List.length_append]
      exact hs _ _ _ _ hf i2 hr

/-- Induction over a run: a property of the number of actions so far and the state. -/
theorem LSteps.induct {P : Nat → S → Prop} (h : LSteps R s0 ls s) (h0 : P 0 s0)
    (hs : ∀ i s a s', ls[i]? = some (s, a) → P i s → R s a s' → P (i + 1) s') :
    (∀ i s a, ls[i]? = some (s, a) → P i s) ∧ P ls.length s :=
  h.induct' ls (List.prefix_refl _) h0 hs

/-- Every action is a step from the state recorded with it. -/
theorem LSteps.step (h : LSteps R s0 ls s) : ∀ {i : Nat} {t a}, ls[i]? = some (t, a) → ∃ t', R t a t' := by
  induction h with
  | nil => intro i t a h; simp at h
  | @snoc ls s a s' h hr ih =>
    intro i t b hi
    rcases Nat.lt_trichotomy i ls.length with c | c | c
    · rw [List.getElem?_append_left c] at hi
      exact ih hi
    · subst c
      simp at hi
      obtain ⟨rfl, rfl⟩ := hi
      exact ⟨_, hr⟩
    · rw [List.getElem?_eq_none (by simp; omega)] at hi
      cases hi

/-- The last step. -/
theorem LSteps.last (h : LSteps R s0 ls s) : s = s0 ∨ ∃ (i : Nat) (t : S) (a : A), ls[i]? = some (t, a) ∧ R t a s := by
  cases h with
  | nil => exact .inl rfl
  | @snoc ls s a _ _ hr => exact .inr ⟨ls.length, s, a, by simp, hr⟩

/-- A property that every step keeps, from a point on. -/
theorem LSteps.since {Q : S → Prop} (h : LSteps R s0 ls s) {j : Nat} {t : S} {b : A} (hj : ls[j]? = some (t, b))
    (h1 : ∀ t', R t b t' → Q t') (h2 : ∀ s a s', Q s → R s a s' → Q s') :
    (∀ i s a, ls[i]? = some (s, a) → j < i → Q s) ∧ Q s := by
  obtain ⟨e1, e2⟩ := h.induct (P := fun i s => j < i → Q s) (fun h => by omega) (fun i s a s' hi ih hr hlt => by
    rcases Nat.lt_or_eq_of_le (Nat.le_of_lt_succ hlt) with c | c
    · exact h2 _ _ _ (ih c) hr
    · subst c
      rw [hj] at hi
      cases hi
      exact h1 _ hr)
  exact ⟨fun i s a hi => e1 i s a hi, e2 (List.getElem?_eq_some_iff.1 hj).1⟩
end

variable {T L C : Type} {d : Bool} {wk : Nat → T} {w : Nat}

/-! ### Workers -/

/-- Position within a round. -/
def WPc.rank : WPc → Nat
  | .wait => 0 | .fetch => 1 | .again => 2 | .enter _ => 3 | .body _ => 4 | .clear => 5 | .ready => 6 | .dec => 7
  | .last => 8 | .done => 9 | .failed => 10

def WPc.inRound : WPc → Bool
  | .fetch | .again | .enter _ | .body _ | .clear | .ready | .dec => true
  | _ => false

def WS.key (s : WS) : Nat := 16 * s.r + s.pc.rank

theorem WPc.rank_lt (p : WPc) : p.rank < 16 := by cases p <;> simp [rank]

theorem WStep.key_le {s s' : WS} {a : PAct T L C} (h : WStep d wk w s a s') : s.key ≤ s'.key := by
  cases h <;> simp [WS.key, WPc.rank] <;> omega

theorem WStep.key_lt {s s' : WS} {a : PAct T L C} (h : WStep d wk w s a s') (h1 : s.pc ≠ .wait) (h2 : ∀ v, s.pc ≠ .body v) :
    s.key < s'.key := by
  cases h <;> simp_all [WS.key, WPc.rank] <;> omega

section
variable {ls : List (WS × PAct T L C)} {s : WS} (h : LSteps (WStep d wk w) ⟨.fetch, 0⟩ ls s)
include h

theorem w_le {i j : Nat} {t u : WS} {a b : PAct T L C} (hi : ls[i]? = some (t, a)) (hj : ls[j]? = some (u, b)) (hij : i ≤ j) :
    t.key ≤ u.key := by
  rcases Nat.lt_or_eq_of_le hij with c | c
  · exact (h.since (Q := fun s => t.key ≤ s.key) hi (fun _ h => h.key_le)
      (fun _ _ _ h h' => Nat.le_trans h h'.key_le)).1 j u b hj c
  · subst c
    rw [hi] at hj
    cases hj
    exact Nat.le_refl _

theorem w_lt {i j : Nat} {t u : WS} {a b : PAct T L C} (hi : ls[i]? = some (t, a)) (hj : ls[j]? = some (u, b)) (hij : i < j)
    (h1 : t.pc ≠ .wait) (h2 : ∀ v, t.pc ≠ .body v) : t.key < u.key :=
  (h.since (Q := fun s => t.key < s.key) hi (fun _ h => h.key_lt h1 h2)
      (fun _ _ _ h h' => Nat.lt_of_lt_of_le h h'.key_le)).1 j u b hj hij

theorem w_order {i j : Nat} {t u : WS} {a b : PAct T L C} (hi : ls[i]? = some (t, a)) (hj : ls[j]? = some (u, b))
    (hk : t.key < u.key) : i < j := by
  by_contra hc
  have := w_le h hj hi (by omega)
  omega

/-- Only one action at a given point of a given round. -/
theorem w_one {i j : Nat} {t : WS} {a b : PAct T L C} (hi : ls[i]? = some (t, a)) (hj : ls[j]? = some (t, b))
    (h1 : t.pc ≠ .wait) (h2 : ∀ v, t.pc ≠ .body v) : i = j := by
  rcases Nat.lt_trichotomy i j with c | c | c
  · exact absurd (w_lt h hi hj c h1 h2) (Nat.lt_irrefl _)
  · exact c
  · exact absurd (w_lt h hj hi c h1 h2) (Nat.lt_irrefl _)

/-- A round after the first begins with a load that finds work. -/
theorem w_work {i : Nat} {t : WS} {a : PAct T L C} (hi : ls[i]? = some (t, a)) (h1 : t.pc.inRound = true) (h2 : t.r ≠ 0) :
    ∃ j, j < i ∧ ls[j]? = some (⟨.wait, t.r⟩, .load .acquire (.state w) hasWork) := by
  refine (h.induct (P := fun i t => t.pc.inRound = true → t.r ≠ 0 →
    ∃ j, j < i ∧ ls[j]? = some (⟨.wait, t.r⟩, .load .acquire (.state w) hasWork)) (fun _ h => absurd rfl h) ?_).1 i t a hi h1 h2
  intro i s a s' hi ih hr h1 h2
  cases hr with
  | work => exact ⟨i, Nat.lt_succ_self _, hi⟩
  | fetch_null | fetch _ | again _ | enter | body _ | leave | clear | ready =>
    obtain ⟨j, hj, e⟩ := ih rfl h2
    exact ⟨j, by omega, e⟩
  | again_null => cases h1
  | dec _ => cases h1
  | dec_fail _ => cases h1
  | spin => cases h1
  | quit _ _ => cases d <;> cases h1
  | last => cases h1
  | last_fail _ => cases h1

/-- In a round the counter is decremented after the state is changed. -/
theorem w_ready {i : Nat} {r : Nat} {a : PAct T L C} (hi : ls[i]? = some (⟨.dec, r⟩, a)) :
    ∃ j, j < i ∧ ls[j]? = some (⟨.ready, r⟩, .store .relaxed (.state w) ready) := by
  refine (h.induct (P := fun i t => t.pc = .dec →
    ∃ j, j < i ∧ ls[j]? = some (⟨.ready, t.r⟩, .store .relaxed (.state w) ready)) (fun h => by cases h) ?_).1 i _ a hi rfl
  intro i s a s' hi ih hr h1
  cases hr with
  | ready => exact ⟨i, Nat.lt_succ_self _, hi⟩
  | quit _ _ => cases d <;> cases h1
  | _ => cases h1

/-- Rounds that are over. -/
theorem w_past {i : Nat} {t : WS} {a : PAct T L C} (hi : ls[i]? = some (t, a)) {r : Nat} (hr : r < t.r) :
    ∃ j v, j < i ∧ ls[j]? = some (⟨.dec, r⟩, .rmw .acqRel .count v (v - 1)) := by
  refine (h.induct (P := fun i t => ∀ r, r < t.r →
    ∃ j v, j < i ∧ ls[j]? = some (⟨.dec, r⟩, .rmw .acqRel .count v (v - 1))) (fun r h => absurd h (Nat.not_lt_zero _)) ?_).1 i t a hi r hr
  intro i s a s' hi ih hr r hlt
  have old : r < s.r → ∃ j v, j < i + 1 ∧ ls[j]? = some (⟨.dec, r⟩, .rmw .acqRel .count v (v - 1)) := fun h => by
    obtain ⟨j, v, hj, e⟩ := ih r h
    exact ⟨j, v, by omega, e⟩
  cases hr with
  | @dec r' v _ =>
    rcases Nat.lt_or_eq_of_le (Nat.le_of_lt_succ hlt) with c | c
    · exact old c
    · subst c; exact ⟨i, v, Nat.lt_succ_self _, hi⟩
  | @dec_fail r' _ =>
    rcases Nat.lt_or_eq_of_le (Nat.le_of_lt_succ hlt) with c | c
    · exact old c
    · subst c; exact ⟨i, 0, Nat.lt_succ_self _, hi⟩
  | _ => exact old hlt

/-- The task that is run has been read in the same round. -/
theorem w_read {i : Nat} {t : WS} {a : PAct T L C} (hi : ls[i]? = some (t, a)) {v : Nat} (ht : t.pc = .enter v ∨ t.pc = .body v) :
    ∃ j, j < i ∧ ls[j]? = some (⟨.again, t.r⟩, .load .relaxed (.task w) v) := by
  refine (h.induct (P := fun i t => ∀ v, t.pc = .enter v ∨ t.pc = .body v →
    ∃ j, j < i ∧ ls[j]? = some (⟨.again, t.r⟩, .load .relaxed (.task w) v)) (fun v h => by simp at h) ?_).1 i t a hi v ht
  intro i s a s' hi ih hr v h1
  cases hr with
  | again _ =>
    rcases h1 with h1 | h1 <;> cases h1
    exact ⟨i, Nat.lt_succ_self _, hi⟩
  | enter =>
    rcases h1 with h1 | h1 <;> cases h1
    obtain ⟨j, hj, e⟩ := ih v (.inl rfl)
    exact ⟨j, by omega, e⟩
  | body _ =>
    rcases h1 with h1 | h1 <;> cases h1
    obtain ⟨j, hj, e⟩ := ih v (.inr rfl)
    exact ⟨j, by omega, e⟩
  | quit _ _ => cases d <;> simp at h1
  | _ => simp at h1

/-- While a task runs, it has been entered. -/
theorem w_enter {i : Nat} {t : WS} {a : PAct T L C} (hi : ls[i]? = some (t, a)) {v : Nat} (ht : t.pc = .body v) :
    ∃ j, j < i ∧ ls[j]? = some (⟨.enter v, t.r⟩, .call (.enter v)) := by
  refine (h.induct (P := fun i t => ∀ v, t.pc = .body v →
    ∃ j, j < i ∧ ls[j]? = some (⟨.enter v, t.r⟩, .call (.enter v))) (fun v h => by simp at h) ?_).1 i t a hi v ht
  intro i s a s' hi ih hr v h1
  cases hr with
  | enter => cases h1; exact ⟨i, Nat.lt_succ_self _, hi⟩
  | body _ =>
    cases h1
    obtain ⟨j, hj, e⟩ := ih v rfl
    exact ⟨j, by omega, e⟩
  | quit _ _ => cases d <;> simp at h1
  | _ => simp at h1

/-- When a worker decrements the counter, the round has run its task and forgotten it, or there was none. -/
theorem w_ran {i r : Nat} {a : PAct T L C} (hi : ls[i]? = some (⟨.dec, r⟩, a)) :
    (∃ j, j < i ∧ ls[j]? = some (⟨.fetch, r⟩, .load .relaxed (.task w) 0)) ∨
      ∃ j k v, j < k ∧ k < i ∧ ls[j]? = some (⟨.body v, r⟩, .call (.leave v)) ∧
        ls[k]? = some (⟨.clear, r⟩, .store .relaxed (.task w) 0) := by
  have key := (h.induct (P := fun i t => (t.pc = .clear → ∃ j v, j < i ∧ ls[j]? = some (⟨.body v, t.r⟩, .call (.leave v))) ∧
    (t.pc = .ready ∨ t.pc = .dec →
    (∃ j, j < i ∧ ls[j]? = some (⟨.fetch, t.r⟩, .load .relaxed (.task w) 0)) ∨
      ∃ j k v, j < k ∧ k < i ∧ ls[j]? = some (⟨.body v, t.r⟩, .call (.leave v)) ∧
        ls[k]? = some (⟨.clear, t.r⟩, .store .relaxed (.task w) 0))) ⟨fun h => by simp at h, fun h => by simp at h⟩ ?_).1 i _ a hi
  · exact key.2 (.inr rfl)
  · intro i s a s' hi ih hr
    cases hr with
    | @leave r v => exact ⟨fun _ => ⟨i, v, Nat.lt_succ_self _, hi⟩, fun h => by simp at h⟩
    | fetch_null => exact ⟨fun h => by simp at h, fun _ => .inl ⟨i, Nat.lt_succ_self _, hi⟩⟩
    | clear =>
      obtain ⟨j, v, hj, e⟩ := ih.1 rfl
      exact ⟨fun h => by simp at h, fun _ => .inr ⟨j, i, v, hj, Nat.lt_succ_self _, e, hi⟩⟩
    | ready =>
      refine ⟨fun h => by simp at h, fun _ => ?_⟩
      rcases ih.2 (.inl rfl) with ⟨j, hj, e⟩ | ⟨j, k, v, hj, hk, e, e'⟩
      · exact .inl ⟨j, by omega, e⟩
      · exact .inr ⟨j, k, v, hj, by omega, e, e'⟩
    | quit _ _ => cases d <;> exact ⟨fun h => by simp at h, fun h => by simp at h⟩
    | _ => exact ⟨fun h => by simp at h, fun h => by simp at h⟩

/-- The pointer is read a second time if it was not null. -/
theorem w_again {i : Nat} {t : WS} {a : PAct T L C} (hi : ls[i]? = some (t, a)) (ht : t.pc = .again) :
    ∃ j v, j < i ∧ v ≠ 0 ∧ ls[j]? = some (⟨.fetch, t.r⟩, .load .relaxed (.task w) v) := by
  refine (h.induct (P := fun i t => t.pc = .again →
    ∃ j v, j < i ∧ v ≠ 0 ∧ ls[j]? = some (⟨.fetch, t.r⟩, .load .relaxed (.task w) v)) (fun h => by simp at h) ?_).1 i t a hi ht
  intro i s a s' hi ih hr h1
  cases hr with
  | @fetch r v hv => exact ⟨i, v, Nat.lt_succ_self _, hv, hi⟩
  | quit _ _ => cases d <;> simp at h1
  | _ => simp at h1

/-- The last check of a worker comes after a load that found neither `Ready` nor `HasWork`. -/
theorem w_last {i : Nat} {t : WS} {a : PAct T L C} (hi : ls[i]? = some (t, a)) (ht : t.pc = .last) :
    ∃ j v, j < i ∧ v ≠ ready ∧ v ≠ hasWork ∧ ls[j]? = some (⟨.wait, t.r⟩, .load .acquire (.state w) v) := by
  refine (h.induct (P := fun i t => t.pc = .last →
    ∃ j v, j < i ∧ v ≠ ready ∧ v ≠ hasWork ∧ ls[j]? = some (⟨.wait, t.r⟩, .load .acquire (.state w) v)) (fun h => by simp at h) ?_).1 i t a hi ht
  intro i s a s' hi ih hr h1
  cases hr with
  | @quit r v g1 g2 => exact ⟨i, v, Nat.lt_succ_self _, g1, g2, hi⟩
  | _ => simp at h1

/-- A worker that waits has had a round. -/
theorem w_wait {i : Nat} {t : WS} {a : PAct T L C} (hi : ls[i]? = some (t, a)) (ht : t.pc = .wait) : 0 < t.r := by
  refine (h.induct (P := fun _ t => t.pc = .wait → 0 < t.r) (fun h => by simp at h) ?_).1 i t a hi ht
  intro i s a s' hi ih hr h1
  cases hr with
  | dec _ => exact Nat.succ_pos _
  | spin => exact ih rfl
  | quit _ _ => cases d <;> simp at h1
  | _ => simp at h1
end

end Ruy.Race.Pool

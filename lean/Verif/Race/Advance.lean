import Verif.Race.Task
/-
Every step of a task, computed from the value that its atomic operation returns: no state but the last has no
successor, and whatever is returned, there is one.
-/
namespace Ruy.Race
open Ruy.Mat Ruy.Mul Ruy.BlockMap
open Ruy.TrMul (setSide Locals Call)

variable {T : Type} {p : Prog}

/-- The next step, if atomic operations return `v`. -/
def advance (T : Type) (p : Prog) (s : TS) (v : Nat) : Option (Option (TAct T) × TS) :=
  match s.pc with
  | .start t => some (some (.call .resolve), ⟨.head t, s.packed⟩)
  | .head b => match enter p b 0 with
    | .ok none => some (none, ⟨.done, s.packed⟩)
    | _ => match enter p b v with
      | .ok none => none
      | .ok (some e) => some (some (.rmw .relaxed .next v (v + 1)), ⟨.req e .lhs true, s.packed⟩)
      | .error _ => some (none, ⟨.failed, s.packed⟩)
  | .packing e c sd b lo hi => some (some (.call (.pack sd b lo hi)), ⟨.publish e c sd b, s.packed⟩)
  | .publish e c sd b => some (some (.store .release (.status sd b) finished), ⟨.confirm e c sd b, s.packed⟩)
  | .confirm e c sd b =>
    if p.debug then
      if v = finished then some (some (.load .acquire (.status sd b) finished), ⟨afterTry e c sd true, mark s.packed sd b⟩)
      else some (some (.load .acquire (.status sd b) v), ⟨.failed, s.packed⟩)
    else some (none, ⟨afterTry e c sd true, mark s.packed sd b⟩)
  | .kernel e => some (some (.call (.kernel e.bid e.block e.start e.stop)), ⟨.head e.next, s.packed⟩)
  | .done => none
  | .failed => none
  | .req e sd both => go (.req e sd both)
  | .ahead e => go (.ahead e)
where
  go (pc : Pc) : Option (Option (TAct T) × TS) :=
    match nextTry p pc with
    | .error _ => some (none, ⟨.failed, s.packed⟩)
    | .ok (.inr pc') => some (none, ⟨pc', s.packed⟩)
    | .ok (.inl y) => match early p s.packed y with
      | .error _ => some (none, ⟨.failed, s.packed⟩)
      | .ok true => some (none, ⟨afterTry y.e y.c y.side true, s.packed⟩)
      | .ok false =>
        if v = notStarted then
          some (some (.rmw .acqRel (.status y.side y.block) notStarted inProgress), ⟨.packing y.e y.c y.side y.block y.lo y.hi, s.packed⟩)
        else if v = inProgress then
          some (some (.load .acquire (.status y.side y.block) inProgress), ⟨afterTry y.e y.c y.side false, s.packed⟩)
        else some (some (.load .acquire (.status y.side y.block) v), ⟨.confirm y.e y.c y.side y.block, s.packed⟩)

/-- Whether there is a next block does not depend on the block after it. -/
theorem enter_none {b v w : Nat} (h : enter p b v = .ok none) : enter p b w = .ok none := by
  unfold enter at h ⊢
  cases hn : numBlocks p.bm with
  | error e => rw [hn] at h; cases h
  | ok n =>
    rw [hn, C.ok_bind] at h
    rw [C.ok_bind]
    split at h
    · cases h1 : getBlockByIndex p.bm b with
      | error e => rw [h1] at h; cases h
      | ok bl =>
        rw [h1, C.ok_bind] at h
        cases h2 : getBlockMatrixCoords .lhs p.bm bl.lhs with
        | error e => rw [h2] at h; cases h
        | ok x =>
          rw [h2, C.ok_bind] at h
          cases h3 : getBlockMatrixCoords .rhs p.bm bl.rhs with
          | error e => rw [h3] at h; cases h
          | ok y => rw [h3, C.ok_bind] at h; cases h
    · rename_i hb
      rw [if_neg hb]
      rfl

theorem go_step {s : TS} {v : Nat} {pc : Pc} (hpc : s.pc = pc) (hk : (∃ e sd both, pc = .req e sd both) ∨ ∃ e, pc = .ahead e)
    {r : Option (TAct T) × TS} (h : advance.go T p s v pc = some r) : Step T p s r.1 r.2 := by
  obtain ⟨pc', f⟩ := s
  dsimp only at hpc
  subst hpc
  unfold advance.go at h
  dsimp only at h
  split at h
  · rename_i he
    cases h
    exact .stuck he
  · rename_i he
    cases h
    rcases hk with ⟨e, sd, both, rfl⟩ | ⟨e, rfl⟩
    · cases he
    · exact .skip he
  · rename_i y hy
    split at h
    · rename_i he
      cases h
      exact .outside hy he
    · rename_i he
      cases h
      exact .already hy he
    · rename_i he
      split at h
      · cases h
        exact .won hy he
      · split at h
        · cases h
          exact .busy hy he
        · cases h
          exact .seen hy he (by assumption) (by assumption)

/-- It is a step. -/
theorem advance_step {s : TS} {v : Nat} {r : Option (TAct T) × TS} (h : advance T p s v = some r) : Step T p s r.1 r.2 := by
  obtain ⟨pc, f⟩ := s
  unfold advance at h
  dsimp only at h
  cases pc with
  | start t => cases h; exact .resolve
  | head b =>
    dsimp only at h
    split at h
    · rename_i he
      cases h
      exact .leave he
    · split at h
      · cases h
      · rename_i he
        cases h
        exact .fetch he
      · rename_i he
        cases h
        exact .fault he
  | packing => cases h; exact .pack
  | publish => cases h; exact .publish
  | confirm =>
    dsimp only at h
    split at h
    · rename_i hd
      split at h
      · cases h; exact .confirm hd
      · cases h; exact .deny hd (by assumption)
    · rename_i hd
      cases h; exact .unchecked (by simpa using hd)
  | kernel => cases h; exact .kernel
  | done => cases h
  | failed => cases h
  | req e sd both => exact go_step rfl (Or.inl ⟨e, sd, both, rfl⟩) h
  | ahead e => exact go_step rfl (Or.inr ⟨e, rfl⟩) h

/-- There is a next step, whatever the atomic operations return. -/
theorem advance_some {s : TS} (h1 : s.pc ≠ .done) (h2 : s.pc ≠ .failed) (v : Nat) : ∃ r, advance T p s v = some r := by
  obtain ⟨pc, f⟩ := s
  have go : ∀ pc, ∃ r, advance.go T p ⟨pc, f⟩ v pc = some r := fun pc => by
    unfold advance.go
    repeat' split
    all_goals exact ⟨_, rfl⟩
  unfold advance
  dsimp only at h1 h2 ⊢
  cases pc with
  | start t => exact ⟨_, rfl⟩
  | head b =>
    dsimp only
    split
    · exact ⟨_, rfl⟩
    · rename_i hne
      split
      · rename_i he
        exact absurd (enter_none he) (by intro h; exact hne h)
      · exact ⟨_, rfl⟩
      · exact ⟨_, rfl⟩
  | packing => exact ⟨_, rfl⟩
  | publish => exact ⟨_, rfl⟩
  | confirm => dsimp only; repeat' split
               all_goals exact ⟨_, rfl⟩
  | kernel => exact ⟨_, rfl⟩
  | done => exact absurd rfl h1
  | failed => exact absurd rfl h2
  | req e sd both =>
    obtain ⟨r, hr⟩ := go (.req e sd both)
    exact ⟨r, hr⟩
  | ahead e =>
    obtain ⟨r, hr⟩ := go (.ahead e)
    exact ⟨r, hr⟩

/-- Up to `k` steps of a task whose atomic operations return `vs`. -/
def runTask (T : Type) (p : Prog) : Nat → List Nat → List (TAct T) → TS → List (TAct T) × TS
  | 0, _, l, s => (l, s)
  | k + 1, vs, l, s => match advance T p s (vs.headD 0) with
    | none => (l, s)
    | some (none, s') => runTask T p k vs l s'
    | some (some a, s') => runTask T p k (match a with | .load .. | .rmw .. => vs.tail | _ => vs) (l ++ [a]) s'

theorem runTask_steps {tid : Nat} : ∀ (k : Nat) (vs : List Nat) {l : List (TAct T)} {s : TS}, Steps T p tid l s →
    Steps T p tid (runTask T p k vs l s).1 (runTask T p k vs l s).2 := by
  intro k
  induction k with
  | zero => exact fun _ _ _ h => h
  | succ k ih =>
    intro vs l s h
    unfold runTask
    split
    · exact h
    · rename_i s' he
      exact ih _ (.silent h (advance_step he))
    · rename_i a s' he
      exact ih _ (.act h (advance_step he))

end Ruy.Race

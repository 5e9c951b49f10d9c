import Verif.Tune.Model
import Mathlib.Tactic.SplitIfs
import Mathlib.Data.List.Induction
/-
C40: tuning resolution.
-/
namespace Ruy.Tune

/-- Specification: the tuning that suits a processor. -/
def suits (cpu : Cpu) : Tuning :=
  match cpu.isA55ish, cpu.isX1 with
  | true, _ => .a55ish
  | false, true => .x1
  | false, false => .generic

/-- Specification: `h` contains a call that looked at the processor at time `t` and found `v`. -/
def Measured (h : List Op) (t : Int) (v : Tuning) : Prop :=
  ∃ cpu, Op.resolve t cpu ∈ h ∧ suits cpu = v

theorem resolveNow_suits (cpu : Cpu) : resolveNow cpu = suits cpu := by
  obtain ⟨a, b⟩ := cpu; cases a <;> cases b <;> rfl

theorem resolveNow_ne_auto (cpu : Cpu) : resolveNow cpu ≠ .auto := by
  unfold resolveNow; split_ifs <;> decide

theorem inv (h : List Op) : (Resolver.new.run h).last = .auto ∨
    Measured h (Resolver.new.run h).lastTime (Resolver.new.run h).last := by
  induction h using List.reverseRecOn with
  | nil => exact Or.inl rfl
  | append_singleton h o ih =>
    have hm : ∀ t v, Measured h t v → Measured (h ++ [o]) t v := fun t v ⟨cpu, hc, hs⟩ =>
      ⟨cpu, List.mem_append_left _ hc, hs⟩
    unfold Resolver.run at *
    rw [List.foldl_append]
    generalize List.foldl Resolver.step Resolver.new h = r at ih
    show (r.step o).last = _ ∨ Measured _ (r.step o).lastTime (r.step o).last
    cases o with
    | set t => exact ih.imp id (hm _ _)
    | resolve now cpu =>
      show ((r.resolve now cpu).1).last = _ ∨ Measured _ (r.resolve now cpu).1.lastTime (r.resolve now cpu).1.last
      unfold Resolver.resolve
      split_ifs
      · exact ih.imp id (hm _ _)
      · exact ih.imp id (hm _ _)
      · exact Or.inr ⟨cpu, by simp, (resolveNow_suits cpu).symm⟩

/-- The tuning last set explicitly. -/
def lastSet (h : List Op) : Tuning :=
  (h.reverse.findSome? (fun o => match o with | .set t => some t | _ => none)).getD .auto

theorem unresolved_eq (h : List Op) : (Resolver.new.run h).unresolved = lastSet h := by
  induction h using List.reverseRecOn with
  | nil => rfl
  | append_singleton h o ih =>
    unfold Resolver.run lastSet at *
    rw [List.foldl_append, List.reverse_append, List.reverse_singleton, List.singleton_append,
      List.findSome?_cons]
    generalize List.foldl Resolver.step Resolver.new h = r at ih
    show (r.step o).unresolved = _
    cases o with
    | set t => rfl
    | resolve now cpu =>
      show ((r.resolve now cpu).1).unresolved = _
      unfold Resolver.resolve
      split_ifs <;> exact ih

/-- C40: a tuning set explicitly is returned unconditionally, whatever happened before. -/
theorem c40_explicit (h : List Op) (now : Int) (cpu : Cpu) (hs : lastSet h ≠ .auto) :
    ((Resolver.new.run h).resolve now cpu).2 = lastSet h := by
  unfold Resolver.resolve
  rw [unresolved_eq, if_pos hs]

/-- C40: otherwise the tuning returned was found by a look at the processor during this call or
during an earlier one whose clock reading is less than 250 ms before (for clocks that do not go
backwards: at most 250 ms ago), and it is the one that suited the processor then.  It is never
"auto". -/
theorem c40_fresh (h : List Op) (now : Int) (cpu : Cpu) (hs : lastSet h = .auto)
    (hmono : ∀ t cpu', Op.resolve t cpu' ∈ h → t ≤ now) :
    ∃ t, Measured (h ++ [.resolve now cpu]) t ((Resolver.new.run h).resolve now cpu).2 ∧
      t ≤ now ∧ now < t + 250000000 ∧ ((Resolver.new.run h).resolve now cpu).2 ≠ .auto := by
  unfold Resolver.resolve
  rw [unresolved_eq, if_neg (by simpa using hs)]
  split_ifs with hc
  · rcases inv h with ha | ⟨cpu', hm, hv⟩
    · exact absurd ha hc.1
    · exact ⟨_, ⟨cpu', List.mem_append_left _ hm, hv⟩, hmono _ _ hm, by
        have := hc.2; unfold expiry at this; omega, hc.1⟩
  · exact ⟨now, ⟨cpu, by simp, (resolveNow_suits cpu).symm⟩, Int.le_refl _, by omega, resolveNow_ne_auto cpu⟩

/-- C40: a resolution less than 250 ms after the last look is not repeated. -/
theorem c40_cached (h : List Op) (t now : Int) (cpu cpu' : Cpu) (hs : lastSet h = .auto)
    (hfirst : ∀ s c, Op.resolve s c ∈ h → 250000000 ≤ t - s) (hnow : now < t + 250000000)
    (hle : t ≤ now) :
    ((Resolver.new.run (h ++ [.resolve t cpu])).resolve now cpu').2 = suits cpu := by
  have e : Resolver.new.run (h ++ [.resolve t cpu]) =
      { Resolver.new.run h with last := resolveNow cpu, lastTime := t } := by
    unfold Resolver.run
    rw [List.foldl_append]
    show ((Resolver.new.run h).resolve t cpu).1 = _
    unfold Resolver.resolve
    rw [unresolved_eq, if_neg (by simpa using hs), if_neg]
    · rw [← unresolved_eq]; rfl
    · rintro ⟨h1, h2⟩
      rcases inv h with ha | ⟨c, hm, _⟩
      · exact h1 ha
      · have := hfirst _ _ hm; unfold expiry at h2; omega
  rw [e]
  unfold Resolver.resolve
  have hu := unresolved_eq h
  dsimp only
  rw [hu, if_neg (by simpa using hs), if_pos ⟨resolveNow_ne_auto cpu, by unfold expiry; omega⟩,
    resolveNow_suits]

/-- C40: the bound depends on the clock: one that goes backwards (which steady clocks do not) makes
a tuning outlive 250 ms of real time. -/
theorem c40_clock_backwards :
    let h := [Op.resolve 1000000000 ⟨true, false⟩]
    ((Resolver.new.run h).resolve 0 ⟨false, true⟩).2 = .a55ish := by decide

-- The hypotheses of the theorems are met by ordinary histories.
example : let h := [Op.set .x1, .resolve 5 ⟨true, false⟩, .set .auto, .resolve 300000000 ⟨true, false⟩]
    lastSet h = .auto ∧ ((Resolver.new.run h).resolve 549999999 ⟨false, false⟩).2 = .a55ish ∧
    ((Resolver.new.run h).resolve 550000000 ⟨false, false⟩).2 = .generic := by decide
example : lastSet [Op.set .x1, .resolve 5 ⟨true, false⟩] = .x1 := by decide

/-! ### Contexts -/

/-- The calls that the resolver of thread `i` has seen. -/
def seen (i : Nat) (e : Tuning) : List CtxOp → List Op
  | [] => []
  | .setExplicit t :: h => seen i t h
  | .use j now cpu :: h =>
    if j = i then .set e :: .resolve now cpu :: seen i e h else seen i e h

theorem ctx_run (i : Nat) : ∀ (h : List CtxOp) (c : TuneCtx),
    (c.run h).resolver i = (c.resolver i).run (seen i c.explicit h) := by
  intro h
  induction h with
  | nil => intro c; rfl
  | cons o h ih =>
    intro c
    cases o with
    | setExplicit t => exact ih (c.setExplicit t)
    | use j now cpu =>
      have e := ih (c.threadTuning j now cpu).1
      show TuneCtx.resolver (TuneCtx.run (c.threadTuning j now cpu).1 h) i = _
      rw [e]
      show Resolver.run (if i = j then _ else c.resolver i) (seen i c.explicit h) =
        Resolver.run (c.resolver i) (if j = i then _ else seen i c.explicit h)
      by_cases hj : j = i
      · subst hj
        rw [if_pos rfl, if_pos rfl]; rfl
      · rw [if_neg hj, if_neg (fun h => hj h.symm)]

/-- The explicit tuning of a context after a history. -/
def ctxLastSet (h : List CtxOp) : Tuning :=
  (h.reverse.findSome? (fun o => match o with | .setExplicit t => some t | _ => none)).getD .auto

theorem explicit_eq (h : List CtxOp) : (TuneCtx.new.run h).explicit = ctxLastSet h := by
  induction h using List.reverseRecOn with
  | nil => rfl
  | append_singleton h o ih =>
    unfold TuneCtx.run ctxLastSet at *
    rw [List.foldl_append, List.reverse_append, List.reverse_singleton, List.singleton_append,
      List.findSome?_cons]
    cases o with
    | setExplicit t => rfl
    | use i now cpu => exact ih

theorem seen_mem {i : Nat} {t : Int} {cpu : Cpu} : ∀ {h : List CtxOp} {e : Tuning},
    Op.resolve t cpu ∈ seen i e h → CtxOp.use i t cpu ∈ h := by
  intro h
  induction h with
  | nil => intro e hm; cases hm
  | cons o h ih =>
    intro e hm
    cases o with
    | setExplicit t => exact List.mem_cons_of_mem _ (ih hm)
    | use j now c =>
      unfold seen at hm
      split_ifs at hm with hj
      · simp only [List.mem_cons, reduceCtorEq, Op.resolve.injEq, false_or] at hm
        rcases hm with ⟨rfl, rfl⟩ | hm
        · subst hj; exact List.mem_cons_self
        · exact List.mem_cons_of_mem _ (ih hm)
      · exact List.mem_cons_of_mem _ (ih hm)

/-- C40 for a context: in every history, the explicit tuning of the context is used by every thread
from the next Mul on, and without one each thread uses a tuning that it found itself, less than
250 ms before. -/
theorem c40_context (h : List CtxOp) (i : Nat) (now : Int) (cpu : Cpu)
    (hmono : ∀ t cpu', CtxOp.use i t cpu' ∈ h → t ≤ now) :
    (ctxLastSet h ≠ .auto → ((TuneCtx.new.run h).threadTuning i now cpu).2 = ctxLastSet h) ∧
    (ctxLastSet h = .auto → ∃ t cpu', CtxOp.use i t cpu' ∈ h ++ [.use i now cpu] ∧
      ((TuneCtx.new.run h).threadTuning i now cpu).2 = suits cpu' ∧
      t ≤ now ∧ now < t + 250000000) := by
  have e : ((TuneCtx.new.run h).threadTuning i now cpu).2 =
      ((Resolver.new.run (seen i .auto h ++ [.set (ctxLastSet h)])).resolve now cpu).2 := by
    show ((((TuneCtx.new.run h).resolver i).setTuning (TuneCtx.new.run h).explicit).resolve now cpu).2 = _
    rw [ctx_run, explicit_eq]
    unfold Resolver.run
    rw [List.foldl_append]
    rfl
  have hl : lastSet (seen i .auto h ++ [.set (ctxLastSet h)]) = ctxLastSet h := by
    unfold lastSet
    rw [List.reverse_append, List.reverse_singleton, List.singleton_append, List.findSome?_cons]
    rfl
  rw [e]
  have hsub : ∀ t cpu', Op.resolve t cpu' ∈ seen i .auto h ++ [.set (ctxLastSet h)] →
      CtxOp.use i t cpu' ∈ h := by
    intro t cpu' hm
    simp only [List.mem_append, List.mem_singleton, reduceCtorEq, or_false] at hm
    exact seen_mem hm
  constructor
  · intro hne
    rw [c40_explicit _ now cpu (by rw [hl]; exact hne), hl]
  · intro ha
    obtain ⟨t, ⟨cpu', hm, hv⟩, h1, h2, _⟩ := c40_fresh _ now cpu (by rw [hl]; exact ha)
      (fun t c hm => hmono t c (hsub t c hm))
    refine ⟨t, cpu', ?_, hv.symm, h1, h2⟩
    rw [List.mem_append] at hm
    rcases hm with hm | hm
    · exact List.mem_append_left _ (hsub _ _ hm)
    · simp only [List.mem_singleton, Op.resolve.injEq] at hm
      obtain ⟨rfl, rfl⟩ := hm
      simp

example : let h := [CtxOp.use 1 0 ⟨true, false⟩, .use 0 10 ⟨false, true⟩, .setExplicit .generic,
      .use 1 20 ⟨true, false⟩, .setExplicit .auto]
    ((TuneCtx.new.run h).threadTuning 1 30 ⟨false, false⟩).2 = .a55ish ∧
    ((TuneCtx.new.run h).threadTuning 0 30 ⟨false, false⟩).2 = .x1 ∧
    ((TuneCtx.new.run h).threadTuning 2 30 ⟨false, false⟩).2 = .generic := by decide

end Ruy.Tune

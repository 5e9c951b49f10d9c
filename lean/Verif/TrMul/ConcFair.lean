import Verif.TrMul.ConcLive
/-
Fair executions finish.
-/
namespace Ruy.TrMul
open Ruy.Mat Ruy.Mul Ruy.BlockMap

variable {A : Type}

/-- An infinite execution following the schedule `σ`. -/
structure Execution (cfg : Cfg A) (m0 : Mem A) (σ : Nat → Nat) (ex : Nat → State A) : Prop where
  start : ex 0 = initState cfg m0
  next : ∀ k, step cfg (ex k) (σ k) = .ok (ex (k + 1))

/-- Every thread is scheduled again and again. -/
def Fair (threads : Nat) (σ : Nat → Nat) : Prop :=
  ∀ t, t < threads → ∀ k, ∃ k', k ≤ k' ∧ σ k' = t

theorem Execution.inv {cfg : Cfg A} {n : SidePair Nat} {m0 : Mem A} {σ : Nat → Nat}
    {ex : Nat → State A} (su : Setup cfg m0 n) (h : Execution cfg m0 σ ex) (k : Nat) :
    Inv cfg n m0 (ex k) ∧ Own cfg n (ex k) := by
  induction k with
  | zero => rw [h.start]; exact ⟨init_inv su, Own.init⟩
  | succ k ih => exact ⟨step_inv su ih.1 (h.next k), ih.2.step su ih.1 (h.next k)⟩

theorem step_done {cfg : Cfg A} {s s' : State A} {t : Nat} (hd : s.pc t = .done)
    (h : step cfg s t = .ok s') : s' = s := by
  unfold step at h; rw [hd] at h; cases h; rfl

/-- A step leaves other threads' program counters alone. -/
theorem step_other {cfg : Cfg A} {n : SidePair Nat} {m0 : Mem A} {s s' : State A} {t u : Nat}
    (su : Setup cfg m0 n) (inv : Inv cfg n m0 s) (h : step cfg s t = .ok s') (hu : u ≠ t) :
    s'.pc u = s.pc u := by
  by_cases hd : s.pc t = .done
  · rw [step_done hd h]
  · obtain ⟨p', hp, _⟩ := step_eff su inv hd h
    rw [hp, Function.update_of_ne hu]

theorem step_work_le {cfg : Cfg A} {n : SidePair Nat} {m0 : Mem A} {s s' : State A} {t : Nat}
    (su : Setup cfg m0 n) (inv : Inv cfg n m0 s) (own : Own cfg n s) (h : step cfg s t = .ok s') :
    workLeft cfg n m0 s' ≤ workLeft cfg n m0 s := by
  by_cases hd : s.pc t = .done
  · rw [step_done hd h]
  · rcases step_progress su inv own hd h with h | h
    · exact Nat.le_of_lt h
    · exact Nat.le_of_eq h.1

/-- Steps that make no progress leave the statuses alone. -/
theorem step_quiet_status {cfg : Cfg A} {n : SidePair Nat} {m0 : Mem A} {s s' : State A} {t : Nat}
    (su : Setup cfg m0 n) (inv : Inv cfg n m0 s) (own : Own cfg n s) (h : step cfg s t = .ok s')
    (hq : workLeft cfg n m0 s' = workLeft cfg n m0 s) : s'.status = s.status := by
  by_cases hd : s.pc t = .done
  · rw [step_done hd h]
  · rcases step_progress su inv own hd h with h | h
    · omega
    · exact h.2.1

section
variable {cfg : Cfg A} {n : SidePair Nat} {m0 : Mem A} {σ : Nat → Nat} {ex : Nat → State A}
  (su : Setup cfg m0 n) (h : Execution cfg m0 σ ex) (fair : Fair cfg.threads σ)
include su h

theorem Execution.mono (k d : Nat) :
    workLeft cfg n m0 (ex (k + d)) ≤ workLeft cfg n m0 (ex k) := by
  induction d with
  | zero => exact Nat.le_refl _
  | succ d ih =>
    have i := h.inv su (k + d)
    exact Nat.le_trans (step_work_le su i.1 i.2 (h.next (k + d))) ih

/-- If no progress is ever made after `k`, statuses stay as they are. -/
theorem Execution.stuck_status {k : Nat}
    (hq : ∀ d, workLeft cfg n m0 (ex (k + d)) = workLeft cfg n m0 (ex k)) (d : Nat) :
    (ex (k + d)).status = (ex k).status := by
  induction d with
  | zero => rfl
  | succ d ih =>
    have i := h.inv su (k + d)
    rw [← ih]
    exact step_quiet_status su i.1 i.2 (h.next (k + d)) (by
      rw [hq d]; exact hq (d + 1))

include fair

/-- The next time thread `t` runs, it is still where it was. -/
theorem Execution.next_time {t : Nat} (ht : t < cfg.threads) (k : Nat) :
    ∃ d, σ (k + d) = t ∧ (ex (k + d)).pc t = (ex k).pc t := by
  classical
  have hex : ∃ d, σ (k + d) = t := by
    obtain ⟨k', h1, h2⟩ := fair t ht k
    exact ⟨k' - k, by rw [show k + (k' - k) = k' by omega]; exact h2⟩
  refine ⟨Nat.find hex, Nat.find_spec hex, ?_⟩
  have key : ∀ d, d ≤ Nat.find hex → (ex (k + d)).pc t = (ex k).pc t := by
    intro d
    induction d with
    | zero => intro _; rfl
    | succ d ih =>
      intro hd
      rw [← ih (by omega)]
      exact step_other su (h.inv su (k + d)).1 (h.next (k + d))
        (Ne.symm (Nat.find_min hex (show d < Nat.find hex by omega)))
  exact key _ (Nat.le_refl _)

/-- Without progress, every thread still running is at a waiting point. -/
theorem Execution.stuck_spin {k : Nat}
    (hq : ∀ d, workLeft cfg n m0 (ex (k + d)) = workLeft cfg n m0 (ex k)) {t : Nat}
    (hd : (ex k).pc t ≠ .done) :
    ((ex k).pc t).spin = true ∧ ∃ d, (NoneInProgress (ex k) →
      ((ex (k + d)).pc t).rank < ((ex k).pc t).rank) ∧ (ex (k + d)).pc t ≠ .done := by
  have ht := ne_done_lt (h.inv su k).1 hd
  obtain ⟨d, h1, h2⟩ := h.next_time su fair ht k
  have i := h.inv su (k + d)
  have hstep := h.next (k + d)
  rw [h1] at hstep
  rcases step_progress su i.1 i.2 (by rw [h2]; exact hd) hstep with hp | ⟨_, _, hs, p', hpc, hsp, hr⟩
  · have := hq d; have := hq (d + 1); rw [← Nat.add_assoc] at this; omega
  · rw [h2] at hs hr
    refine ⟨hs, d + 1, fun hn => ?_, ?_⟩
    · rw [← Nat.add_assoc, hpc, Function.update_self]
      refine hr ?_
      unfold NoneInProgress
      rw [h.stuck_status su hq d]
      exact hn
    · rw [← Nat.add_assoc, hpc, Function.update_self]
      intro hc; rw [hc] at hsp; cases hsp

/-- Progress is made until every thread has returned. -/
theorem Execution.progress {k : Nat} (hf : ¬ Finished cfg (ex k)) :
    ∃ d, workLeft cfg n m0 (ex (k + d)) < workLeft cfg n m0 (ex k) := by
  by_contra hno
  have hq : ∀ d, workLeft cfg n m0 (ex (k + d)) = workLeft cfg n m0 (ex k) := fun d =>
    Nat.le_antisymm (h.mono su k d) (Nat.le_of_not_lt (fun hc => hno ⟨d, hc⟩))
  have hn : NoneInProgress (ex k) := by
    intro sd b hs
    obtain ⟨t, ht⟩ := (h.inv su k).1.inProgress sd b hs
    have := (h.stuck_spin su fair hq (t := t) (by intro hc; rw [hc] at ht; cases ht)).1
    cases hp : (ex k).pc t <;> rw [hp] at ht this <;> simp_all [PC.packs, PC.spin]
  have hex : ∃ t, t < cfg.threads ∧ (ex k).pc t ≠ .done := by
    by_contra hc
    exact hf (fun t ht => by by_contra hd; exact hc ⟨t, ht, hd⟩)
  obtain ⟨t, ht, hd⟩ := hex
  have desc : ∀ r j, (∀ d, workLeft cfg n m0 (ex (j + d)) = workLeft cfg n m0 (ex j)) →
      NoneInProgress (ex j) → (ex j).pc t ≠ .done → ((ex j).pc t).rank ≠ r := by
    intro r
    induction r using Nat.strong_induction_on with
    | _ r ih =>
      intro j hqj hnj hdj hr
      obtain ⟨_, d, hrank, hd'⟩ := h.stuck_spin su fair hqj hdj
      refine ih _ (by have := hrank hnj; omega) (j + d) ?_ ?_ hd' rfl
      · intro d'
        rw [Nat.add_assoc, hqj, hqj]
      · unfold NoneInProgress
        rw [h.stuck_status su hqj d]; exact hnj
  exact desc _ k hq hn hd rfl

theorem Execution.finishes : ∃ k, Finished cfg (ex k) := by
  by_contra hno
  have key : ∀ w k, workLeft cfg n m0 (ex k) ≠ w := by
    intro w
    induction w using Nat.strong_induction_on with
    | _ w ih =>
      intro k hk
      obtain ⟨d, hd⟩ := h.progress su fair (k := k) (fun hf => hno ⟨k, hf⟩)
      exact ih _ (by omega) (k + d) rfl
  exact key _ 0 rfl

end

/-! ### Solo progress -/

/-- From every state satisfying the invariant in which some thread has not returned, some
thread makes progress after at most 11 consecutive steps of its own. -/
theorem solo_progress {cfg : Cfg A} {n : SidePair Nat} {m0 : Mem A} (su : Setup cfg m0 n)
    (tot : ∀ s, Inv cfg n m0 s → ∀ t, ∃ s', step cfg s t = .ok s')
    {s : State A} (inv : Inv cfg n m0 s) (own : Own cfg n s) (hf : ¬ Finished cfg s) :
    ∃ t k s', t < cfg.threads ∧ 0 < k ∧ k ≤ 11 ∧ run cfg (List.replicate k t) s = .ok s' ∧
      workLeft cfg n m0 s' < workLeft cfg n m0 s := by
  by_cases hn : NoneInProgress s
  · have hex : ∃ t, t < cfg.threads ∧ s.pc t ≠ .done := by
      by_contra hc
      exact hf (fun t ht => by by_contra hd; exact hc ⟨t, ht, hd⟩)
    obtain ⟨t, ht, hd⟩ := hex
    have hrk : ∀ p : PC, p.rank ≤ 10 := by
      intro p
      unfold PC.rank
      split <;> omega
    have desc : ∀ r (u : State A), Inv cfg n m0 u → Own cfg n u → NoneInProgress u →
        u.pc t ≠ .done → (u.pc t).rank = r →
        ∃ k s', 0 < k ∧ k ≤ r + 1 ∧ run cfg (List.replicate k t) u = .ok s' ∧
          workLeft cfg n m0 s' < workLeft cfg n m0 u := by
      intro r
      induction r using Nat.strong_induction_on with
      | _ r ih =>
        intro u hi ho hnu hdu hr
        obtain ⟨u', hu'⟩ := tot u hi t
        rcases step_progress su hi ho hdu hu' with hp | ⟨hw, hst, _, p', hpc, hsp, hrank⟩
        · refine ⟨1, u', by omega, by omega, ?_, hp⟩
          simp [run, List.replicate, hu', C.ok_bind]
        · have hlt := hrank hnu
          have hpc' : u'.pc t = p' := by rw [hpc, Function.update_self]
          obtain ⟨k, s', h1, h2, h3, h4⟩ := ih p'.rank (by omega) u' (step_inv su hi hu')
            (ho.step su hi hu') (by unfold NoneInProgress; rw [hst]; exact hnu)
            (by rw [hpc']; intro hc; rw [hc] at hsp; cases hsp) (by rw [hpc'])
          refine ⟨k + 1, s', by omega, by omega, ?_, by omega⟩
          simp only [List.replicate_succ, run, hu', C.ok_bind]
          exact h3
    obtain ⟨k, s', h1, h2, h3, h4⟩ := desc _ s inv own hn hd rfl
    exact ⟨t, k, s', ht, h1, by have := hrk (s.pc t); omega, h3, h4⟩
  · unfold NoneInProgress at hn
    simp only [not_forall, not_not] at hn
    obtain ⟨sd, b, hs⟩ := hn
    obtain ⟨t, ht⟩ := inv.inProgress sd b hs
    have hd : s.pc t ≠ .done := by intro hc; rw [hc] at ht; cases ht
    obtain ⟨s', hs'⟩ := tot s inv t
    rcases step_progress su inv own hd hs' with hp | ⟨_, _, hsp, _⟩
    · refine ⟨t, 1, s', ne_done_lt inv hd, by omega, by omega, ?_, hp⟩
      simp [run, List.replicate, hs', C.ok_bind]
    · cases hp : s.pc t <;> rw [hp] at ht hsp <;> simp_all [PC.packs, PC.spin]

/-! ### Counting progress steps -/

/-- Step `s → s'` of thread `t` is a wait step: the thread has returned, or it goes from one
point of EnsurePacked to another without having packed anything. -/
def Waits (s s' : State A) (t : Nat) : Bool :=
  (s.pc t == .done) || ((s.pc t).spin && (s'.pc t).spin)

/-- Number of steps of a run that are not wait steps. -/
def progressSteps (cfg : Cfg A) : List Nat → State A → Nat
  | [], _ => 0
  | t :: ts, s =>
    match step cfg s t with
    | .error _ => 0
    | .ok s' => (if Waits s s' t then 0 else 1) + progressSteps cfg ts s'

theorem progressSteps_le {cfg : Cfg A} {n : SidePair Nat} {m0 : Mem A} (su : Setup cfg m0 n)
    (sched : List Nat) {s : State A} (inv : Inv cfg n m0 s) (own : Own cfg n s) :
    progressSteps cfg sched s ≤ workLeft cfg n m0 s := by
  induction sched generalizing s with
  | nil => exact Nat.zero_le _
  | cons t ts ih =>
    unfold progressSteps
    cases hstep : step cfg s t with
    | error => exact Nat.zero_le _
    | ok s' =>
      dsimp only
      have h1 := ih (step_inv su inv hstep) (own.step su inv hstep)
      have h2 := step_work_le su inv own hstep
      split
      · omega
      · rename_i hw
        by_cases hd : s.pc t = .done
        · exact absurd (by simp [Waits, hd]) hw
        · rcases step_progress su inv own hd hstep with hp | ⟨_, _, hsp, p', hpc, hsp', _⟩
          · omega
          · refine absurd ?_ hw
            unfold Waits
            rw [hpc, Function.update_self, hsp, hsp']
            simp

end Ruy.TrMul

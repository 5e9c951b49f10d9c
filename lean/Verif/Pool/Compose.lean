import Verif.Pool.Live
import Verif.TrMul.Props
/-
The pool executing the tasks of TrMul (trmul.cc:400-415).
-/
namespace Ruy.Pool
open Ruy.TrMul Ruy.BlockMap

variable {A : Type}

/-- The tasks of a multi-threaded TrMul as a call of Execute (trmul.cc:400-415); the memory they
share is TrMul's state, or the fault it led to. -/
def taskCall (cfg : Cfg A) (m : Mem A) : Call (C (TrMul.State A)) where
  n := cfg.threads
  prepare := fun _ => .ok (TrMul.initState cfg m)
  body := fun t x =>
    match x with
    | .error _ => none
    | .ok s => match s.pc t with
      | .done => none
      | _ => some (TrMul.step cfg s t)

theorem afterTry_other {s s' : TrMul.State A} {t u : Nat} {e : Locals} {c : TrMul.Call} {sd : Side}
    {b : Bool} (h : afterTry s t e c sd b = .ok s') (hu : u ≠ t) : s'.pc u = s.pc u := by
  unfold afterTry enterKernel at h
  split at h
  · cases h; simp [setPC, Function.update_of_ne hu]
  · cases h; simp [setPC, Function.update_of_ne hu]
  · split at h
    · obtain ⟨_, -, h⟩ := C.bind_ok h
      obtain ⟨_, -, h⟩ := C.bind_ok h
      cases h; simp [setPC, Function.update_of_ne hu]
    · cases h; simp [setPC, Function.update_of_ne hu]

theorem tryPack_other {cfg : Cfg A} {s s' : TrMul.State A} {t u : Nat} {e : Locals} {c : TrMul.Call}
    {sd : Side} {b x y : Nat} (h : tryPack cfg s t e c sd b x y = .ok s') (hu : u ≠ t) :
    s'.pc u = s.pc u := by
  unfold tryPack at h
  split at h
  · exact afterTry_other h hu
  · obtain ⟨_, -, h⟩ := C.bind_ok h
    obtain ⟨_, -, h⟩ := C.bind_ok h
    split at h
    · exact afterTry_other h hu
    · unfold tryCas at h
      split at h
      · obtain ⟨_, -, h⟩ := C.bind_ok h
        cases h; simp [setPC, Function.update_of_ne hu]
      · exact afterTry_other h hu
      · cases h; simp [setPC, Function.update_of_ne hu]

theorem trmul_step_other {cfg : Cfg A} {s s' : TrMul.State A} {t u : Nat}
    (h : TrMul.step cfg s t = .ok s') (hu : u ≠ t) : s'.pc u = s.pc u := by
  unfold TrMul.step at h
  split at h
  · unfold stepHead at h
    obtain ⟨_, -, h⟩ := C.bind_ok h
    split at h
    · obtain ⟨_, -, h⟩ := C.bind_ok h
      obtain ⟨_, -, h⟩ := C.bind_ok h
      obtain ⟨_, -, h⟩ := C.bind_ok h
      cases h; simp [setPC, Function.update_of_ne hu]
    · cases h; simp [setPC, Function.update_of_ne hu]
  · exact tryPack_other h hu
  · unfold stepAhead at h
    obtain ⟨_, -, h⟩ := C.bind_ok h
    split at h
    · cases h; simp [setPC, Function.update_of_ne hu]
    · obtain ⟨_, -, h⟩ := C.bind_ok h
      exact tryPack_other h hu
  · unfold stepPacking at h
    split at h
    · obtain ⟨_, -, h⟩ := C.bind_ok h
      cases h; simp [setPC, Function.update_of_ne hu]
    · cases h; simp [setPC, Function.update_of_ne hu]
  · unfold stepConfirm at h
    obtain ⟨_, -, h⟩ := C.bind_ok h
    rw [afterTry_other h hu]
  · unfold stepKernel at h
    split at h
    · split at h
      · obtain ⟨_, -, h⟩ := C.bind_ok h
        cases h; simp [setPC, Function.update_of_ne hu]
      · cases h; simp [setPC, Function.update_of_ne hu]
    · cases h; simp [setPC, Function.update_of_ne hu]
  · cases h; rfl

theorem body_none {cfg : Cfg A} {m : Mem A} {t : Nat} {s : TrMul.State A} :
    (taskCall cfg m).body t (.ok s) = none ↔ s.pc t = .done := by
  unfold taskCall
  cases hp : s.pc t <;> simp [hp]

theorem taskCall_stable (cfg : Cfg A) (m : Mem A) : Stable (taskCall cfg m) := by
  intro i j x x' _ _ hi hj
  cases x with
  | error f => cases hj
  | ok s =>
    have hd := body_none.mp hi
    cases x' with
    | error f => rfl
    | ok s' =>
      refine body_none.mpr ?_
      have hs : TrMul.step cfg s j = .ok s' := by
        unfold taskCall at hj
        cases hp : s.pc j <;> simp [hp] at hj <;> exact hj
      by_cases hij : i = j
      · subst hij
        unfold TrMul.step at hs
        rw [hd] at hs
        cases hs; exact hd
      · rw [trmul_step_other hs hij]; exact hd

theorem advance_ok {cfg : Cfg A} {m : Mem A} {t : Nat} {s : TrMul.State A} (ht : t < cfg.threads) :
    advance (taskCall cfg m) t (.ok s) = TrMul.step cfg s t := by
  unfold advance
  rw [if_pos (show t < (taskCall cfg m).n from ht)]
  by_cases hd : s.pc t = .done
  · rw [body_none.mpr hd]
    unfold TrMul.step; rw [hd]; rfl
  · unfold taskCall
    cases hp : s.pc t <;> simp [hp] at hd ⊢

theorem advance_error {cfg : Cfg A} {m : Mem A} {t : Nat} {f : Fault} :
    advance (taskCall cfg m) t (.error f) = .error f := by
  unfold advance
  split <;> rfl

theorem runTasks_run {cfg : Cfg A} {m : Mem A} : ∀ (tr : List Nat) (s : TrMul.State A),
    runTasks (taskCall cfg m) tr (.ok s) = TrMul.run cfg (tr.filter (· < cfg.threads)) s
  | [], s => rfl
  | t :: tr, s => by
    have err : ∀ (tr : List Nat) (f : Fault), runTasks (taskCall cfg m) tr (.error f) = .error f := by
      intro tr f
      induction tr with
      | nil => rfl
      | cons t tr ih =>
        show runTasks (taskCall cfg m) tr (advance (taskCall cfg m) t (.error f)) = _
        rw [advance_error, ih]
    show runTasks (taskCall cfg m) tr (advance (taskCall cfg m) t (.ok s)) = _
    by_cases ht : t < cfg.threads
    · rw [List.filter_cons_of_pos (by simpa using ht), advance_ok ht]
      show _ = (TrMul.step cfg s t >>= fun s' => TrMul.run cfg _ s')
      cases hs : TrMul.step cfg s t with
      | error f => rw [err]; rfl
      | ok s' => rw [runTasks_run tr s']; rfl
    · rw [List.filter_cons_of_neg (by simpa using ht)]
      unfold advance
      rw [if_neg (show ¬ t < (taskCall cfg m).n from ht), runTasks_run tr s]

theorem taskCall_terminates (tp : Params A) (m : Mem A) (bm : BlockMap) (threads : Nat)
    (hr : Ready tp m) (hs : Safe tp m) (hm : MapFor m bm) (x : C (TrMul.State A)) :
    Terminates (taskCall ⟨tp, bm, threads⟩ m) ((taskCall ⟨tp, bm, threads⟩ m).prepare x) := by
  intro tr mem h0 hstep hfair
  obtain ⟨ex, hex⟩ := c07_executions_exist tp m bm threads tr hr hs hm
  obtain ⟨k, hk⟩ := c07_fair_executions_finish tp m bm threads tr ex hr hm hex hfair
  have key : ∀ k, mem k = .ok (ex k) ∧ ∀ t, threads ≤ t → (ex k).pc t = .done := by
    intro k
    induction k with
    | zero =>
      rw [h0, hex.start]
      refine ⟨rfl, fun t ht => ?_⟩
      simp only [TrMul.initState]
      rw [if_neg (by omega)]
    | succ k ih =>
      have hn := hex.next k
      have hdone : ∀ t, threads ≤ t → (ex (k + 1)).pc t = .done := by
        intro t ht
        by_cases htk : t = tr k
        · subst htk
          unfold TrMul.step at hn
          rw [ih.2 _ ht] at hn
          rw [← Except.ok.inj hn]
          exact ih.2 _ ht
        · rw [trmul_step_other hn htk]; exact ih.2 _ ht
      refine ⟨?_, hdone⟩
      rw [hstep, ih.1]
      by_cases ht : tr k < threads
      · rw [advance_ok ht, hn]
      · unfold advance
        rw [if_neg (show ¬ tr k < (taskCall ⟨tp, bm, threads⟩ m).n from ht)]
        have := hn
        unfold TrMul.step at this
        rw [ih.2 _ (by omega)] at this
        rw [← Except.ok.inj this]
  refine ⟨k, fun i hi => ?_⟩
  rw [(key k).1]
  exact body_none.mpr (hk i hi)

end Ruy.Pool

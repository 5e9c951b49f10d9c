import Verif.Ctx.Model
import Verif.SizeUtil.Lemmas
/- Helper lemmas about paths. -/
namespace Ruy.Ctx

theorem mostSignificant_zero : mostSignificantPath 0#8 = .error .abort := by decide

/-- The most significant bit of a mask (all 256 masks). -/
theorem mostSignificant_spec : ∀ mask : Path, mask ≠ 0#8 →
    ∃ i, i < 8 ∧ mostSignificantPath mask = .ok (1#8 <<< i) ∧ mask.getLsbD i = true ∧
      ∀ j, j < 8 → i < j → mask.getLsbD j = false := by
  decide +kernel

theorem and_bit_ne_zero (s : Path) (n : Nat) (hn : n < 8) :
    (s &&& (1#8 <<< n)) ≠ kNone ↔ s.getLsbD n = true := by
  have key : ∀ s : Path, ∀ n, n < 8 → ((s &&& (1#8 <<< n)) ≠ kNone ↔ s.getLsbD n = true) := by
    decide +kernel
  exact key s n hn

theorem bit_inj {i j : Nat} (hi : i < 8) (hj : j < 8) (h : 1#8 <<< i = 1#8 <<< j) : i = j := by
  have key : ∀ i, i < 8 → ∀ j, j < 8 → 1#8 <<< i = 1#8 <<< j → i = j := by decide
  exact key i hi j hj h

theorem search_found (s : Path) (i : Nat) (hb : s.getLsbD i = true) :
    ∀ n, i < n → n ≤ 8 → pathSearch s n (1#8 <<< i) = .ok (1#8 <<< i) := by
  intro n
  induction n with
  | zero => intro h _; omega
  | succ n ih =>
    intro h1 h2
    rw [pathSearch]
    by_cases hin : n = i
    · subst hin
      rw [if_pos ((and_bit_ne_zero s n (by omega)).2 hb), if_pos rfl]
    · have hne : ¬ 1#8 <<< n = 1#8 <<< i := fun h => hin (bit_inj (by omega) (by omega) h)
      rw [if_neg hne, ih (by omega) (by omega)]
      split <;> rfl

theorem search_missing (s p : Path) (h : ∀ i, i < 8 → s.getLsbD i = true → p ≠ 1#8 <<< i) :
    ∀ n, n ≤ 8 → pathSearch s n p = .error .abort := by
  intro n
  induction n with
  | zero => intro _; rfl
  | succ n ih =>
    intro h2
    rw [pathSearch]
    split
    · next hb =>
      have := h n (by omega) ((and_bit_ne_zero s n (by omega)).1 hb)
      rw [if_neg (fun h => this h.symm), ih (by omega)]
    · exact ih (by omega)

theorem detect_ok (m : Machine) : ∃ d, detectRuntimeSupportedPaths m m.platform.allPaths = .ok d ∧
    d = addArchPaths m m.platform.allPaths kNonArchPathsIncludingInternalVariants ∧
    d.getLsbD 0 = true := by
  obtain ⟨pl, a, b, c, d, e, f, g⟩ := m
  have key : ∀ a b c d e f g : Bool, ∀ pl ∈ [Platform.neon64, .neon32, .x86, .other],
      let m : Machine := ⟨pl, a, b, c, d, e, f, g⟩
      let r := addArchPaths m m.platform.allPaths kNonArchPathsIncludingInternalVariants
      (kNonArchPaths &&& ~~~ r) = kNone ∧
        (r &&& ~~~ (kNonArchPathsIncludingInternalVariants ||| m.platform.allPaths)) = kNone ∧
        r.getLsbD 0 = true := by
    decide +kernel
  obtain ⟨h1, h2, h3⟩ := key a b c d e f g pl (by cases pl <;> simp)
  refine ⟨_, ?_, rfl, h3⟩
  rw [detectRuntimeSupportedPaths]
  dsimp only
  rw [C.check_of h1, C.ok_bind, C.check_of h2]
  rfl

/-- What a query does to the context: the path set becomes (or stays) the answer. -/
theorem get_ok {c c' : Ctx} {m : Machine} {env : Option (List Char)} {r : Path}
    (h : c.getRuntimeEnabledPaths m env = .ok (c', r)) :
    c' = { c with runtimeEnabledPaths := r } ∧ r ≠ kNone := by
  unfold Ctx.getRuntimeEnabledPaths at h
  split at h
  · next hne => cases h; exact ⟨rfl, hne⟩
  · obtain ⟨e, he, h⟩ := C.bind_ok h
    split at h
    · next hne => cases h; exact ⟨rfl, hne⟩
    · obtain ⟨d, hd, h⟩ := C.bind_ok h
      obtain ⟨d', hd', _, h0⟩ := detect_ok m
      rw [hd] at hd'
      cases hd'
      cases h
      refine ⟨rfl, fun hz => ?_⟩
      rw [hz] at h0
      exact absurd h0 (by decide)

theorem get_set {c : Ctx} (m : Machine) (env : Option (List Char)) (h : c.runtimeEnabledPaths ≠ kNone) :
    c.getRuntimeEnabledPaths m env = .ok (c, c.runtimeEnabledPaths) := by
  rw [Ctx.getRuntimeEnabledPaths, if_pos h]

theorem step_paths {c c' : Ctx} {m : Machine} {env : Option (List Char)} {op : Op}
    (hop : ∀ p, op ≠ .setPaths p) (hne : c.runtimeEnabledPaths ≠ kNone)
    (h : c.step m env op = .ok c') : c'.runtimeEnabledPaths = c.runtimeEnabledPaths := by
  cases op with
  | setPaths p => exact absurd rfl (hop p)
  | queryPaths =>
    rw [Ctx.step, Ctx.reportPaths, get_set m env hne] at h
    simp only [C.ok_bind] at h
    cases h; rfl
  | mul compiled body =>
    rw [Ctx.step, Ctx.mul] at h
    dsimp only at h
    obtain ⟨s, hs, h⟩ := C.bind_ok h
    obtain ⟨p, _, h⟩ := C.bind_ok h
    obtain ⟨adv, _, h⟩ := C.bind_ok h
    cases h
    rw [Ctx.selectPath, get_set m env (c := { c with advisory := false }) hne] at hs
    simp only [C.ok_bind] at hs
    obtain ⟨q, _, hs⟩ := C.bind_ok hs
    cases hs; rfl

theorem run_paths {m : Machine} : ∀ (h : List (Option (List Char) × Op)) {c c' : Ctx},
    (∀ x ∈ h, ∀ p, x.2 ≠ .setPaths p) → c.runtimeEnabledPaths ≠ kNone →
    Ctx.run m h c = .ok c' → c'.runtimeEnabledPaths = c.runtimeEnabledPaths
  | [], _, _, _, _, hr => by cases hr; rfl
  | (env, op) :: h, c, c', hs, hne, hr => by
    rw [Ctx.run] at hr
    obtain ⟨c₁, h₁, hr⟩ := C.bind_ok hr
    have e₁ := step_paths (hs (env, op) (by simp)) hne h₁
    have e₂ := run_paths h (fun x hx => hs x (by simp [hx])) (by rw [e₁]; exact hne) hr
    rw [e₂, e₁]

theorem run_append {m : Machine} : ∀ (h₁ h₂ : List (Option (List Char) × Op)) (c : Ctx),
    Ctx.run m (h₁ ++ h₂) c = (Ctx.run m h₁ c >>= fun c' => Ctx.run m h₂ c')
  | [], _, _ => rfl
  | (env, op) :: h₁, h₂, c => by
    rw [List.cons_append, Ctx.run, Ctx.run]
    cases h : c.step m env op with
    | error e => rfl
    | ok c₁ => simp only [C.ok_bind]; exact run_append h₁ h₂ c₁

end Ruy.Ctx

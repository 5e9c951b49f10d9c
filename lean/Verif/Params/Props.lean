import Verif.Params.Model
import Verif.Front.Props
import Verif.SizeUtil.Props
/-
C39 (what the getters of MulParams report) and C27 (the default multiplier).
-/
namespace Ruy.Params
open Ruy.Mul Ruy.Mat Ruy.Front

variable {P : Type}

/-! ### Specification: what a user can expect from the history of calls alone -/

/-- The mode a call asks for: some true for per-channel, some false for uniform. -/
def Op.mode : Op P → Option Bool
  | .fixed _ | .exponent _ => some false
  | .fixedPer _ | .exponentPer _ => some true
  | _ => none

/-- The last mode asked for. -/
def lastMode (h : List (Op P)) : Bool := (h.reverse.findSome? Op.mode).getD false

/-- The calls since the last one that asked for the other mode than `m`, last call first. -/
def since (m : Bool) (h : List (Op P)) : List (Op P) :=
  h.reverse.takeWhile (fun o => decide (o.mode ≠ some (!m)))

def Op.fixed? : Op P → Option Int | .fixed v => some v | _ => none
def Op.exponent? : Op P → Option Int | .exponent v => some v | _ => none
def Op.fixedPer? : Op P → Option (Option P) | .fixedPer p => some p | _ => none
def Op.exponentPer? : Op P → Option (Option P) | .exponentPer p => some p | _ => none
def Op.bias? : Op P → Option (Option P) | .bias p => some p | _ => none
def Op.clampMin? : Op P → Option Int | .clampMin v => some v | _ => none
def Op.clampMax? : Op P → Option Int | .clampMax v => some v | _ => none
def Op.channelDim? : Op P → Option ChannelDim | .channelDim v => some v | _ => none
def Op.rounding? : Op P → Option (BitVec 32) | .rounding v => some v | _ => none

/-- The last value passed to one of the other setters. -/
def lastOf {β : Type} (f : Op P → Option β) (dflt : β) (h : List (Op P)) : β :=
  (h.reverse.findSome? f).getD dflt

/-- The last value passed to a multiplier setter of mode `m`, forgetting everything before the last
switch from the other mode. -/
def recent {β : Type} (m : Bool) (f : Op P → Option β) (dflt : β) (h : List (Op P)) : β :=
  ((since m h).findSome? f).getD dflt

/-! ### Lemmas -/

theorem run_snoc {debug : Bool} {o : Op P} : ∀ {h : List (Op P)} {s s' : Storage P},
    run debug (h ++ [o]) s = .ok s' → ∃ t, run debug h s = .ok t ∧ t.set debug o = .ok s' := by
  intro h
  induction h with
  | nil =>
    intro s s' hr
    obtain ⟨t, ht, hr⟩ := C.bind_ok hr
    cases hr
    exact ⟨s, rfl, ht⟩
  | cons a h ih =>
    intro s s' hr
    obtain ⟨t, ht, hr⟩ := C.bind_ok hr
    obtain ⟨u, hu, hr⟩ := ih hr
    exact ⟨u, by unfold run; rw [ht]; exact hu, hr⟩

theorem run_append {debug : Bool} {h₂ : List (Op P)} : ∀ {h₁ : List (Op P)} {s t : Storage P},
    run debug h₁ s = .ok t → run debug (h₁ ++ h₂) s = run debug h₂ t := by
  intro h₁
  induction h₁ with
  | nil => intro s t hr; cases hr; rfl
  | cons a h ih =>
    intro s t hr
    obtain ⟨u, hu, hr⟩ := C.bind_ok hr
    show (s.set debug a >>= fun s => run debug (h ++ h₂) s) = _
    rw [hu]
    exact ih hr

theorem setPerchannel_ok {s s' : Storage P} {v : Bool} (h : s.setPerchannel true v = .ok s') :
    s' = { s with perchannel := v } ∧
      (s.perchannel ≠ v → if v then s.fixed = 0 ∧ s.exponent = 0
        else s.fixedPer = none ∧ s.exponentPer = none) := by
  unfold Storage.setPerchannel at h
  split at h
  · next he => cases h; subst he; exact ⟨rfl, fun hne => absurd rfl hne⟩
  · split at h
    · next hv =>
      obtain ⟨_, h1, h⟩ := C.bind_ok h
      obtain ⟨_, h2, h⟩ := C.bind_ok h
      cases h
      rw [if_pos hv]
      exact ⟨rfl, fun _ => ⟨C.check_ok h1, C.check_ok h2⟩⟩
    · next hv =>
      obtain ⟨_, h1, h⟩ := C.bind_ok h
      obtain ⟨_, h2, h⟩ := C.bind_ok h
      cases h
      rw [if_neg hv]
      exact ⟨rfl, fun _ => ⟨Option.isNone_iff_eq_none.mp (C.check_ok h1),
        Option.isNone_iff_eq_none.mp (C.check_ok h2)⟩⟩

theorem lastOf_snoc {β : Type} (f : Op P → Option β) (d : β) (h : List (Op P)) (o : Op P) :
    lastOf f d (h ++ [o]) = (f o).getD (lastOf f d h) := by
  unfold lastOf
  rw [List.reverse_append, List.reverse_singleton, List.singleton_append, List.findSome?_cons]
  cases f o <;> rfl

theorem lastMode_snoc (h : List (Op P)) (o : Op P) :
    lastMode (h ++ [o]) = o.mode.getD (lastMode h) := lastOf_snoc Op.mode false h o

theorem recent_snoc {β : Type} (m : Bool) (f : Op P → Option β) (d : β) (h : List (Op P)) (o : Op P) :
    recent m f d (h ++ [o]) =
      if o.mode = some (!m) then d else (f o).getD (recent m f d h) := by
  unfold recent since
  rw [List.reverse_append, List.reverse_singleton, List.singleton_append, List.takeWhile_cons]
  by_cases hm : o.mode = some (!m)
  · simp [hm]
  · simp only [ne_eq, hm, not_false_eq_true, decide_true, if_true, if_false, List.findSome?_cons]
    cases f o <;> rfl

/-- What holds of the storage after a history that did not stop. -/
structure Inv (t : ScalarType) (h : List (Op P)) (s : Storage P) : Prop where
  mode : s.perchannel = lastMode h
  fixed : s.fixed = recent false Op.fixed? 0 h
  exponent : s.exponent = recent false Op.exponent? 0 h
  fixedPer : s.fixedPer = recent true Op.fixedPer? none h
  exponentPer : s.exponentPer = recent true Op.exponentPer? none h
  per : s.perchannel = true → s.fixed = 0 ∧ s.exponent = 0
  uni : s.perchannel = false → s.fixedPer = none ∧ s.exponentPer = none
  bias : s.bias = lastOf Op.bias? none h
  cmin : s.clampMin = lastOf Op.clampMin? t.lo h
  cmax : s.clampMax = lastOf Op.clampMax? t.hi h
  chan : s.channelDim = lastOf Op.channelDim? .row h
  round : (lastOf Op.rounding? 1#32 h).toInt = 2 ^ s.roundingLog2 ∧ s.roundingLog2 < 31

theorem inv_run (t : ScalarType) : ∀ (h : List (Op P)) {s : Storage P},
    run true h (.default t) = .ok s → Inv t h s := by
  intro h
  induction h using List.reverseRecOn with
  | nil =>
    intro s hr
    cases hr
    refine ⟨rfl, rfl, rfl, rfl, rfl, ?_, fun _ => ⟨rfl, rfl⟩, rfl, rfl, rfl, rfl, ?_, ?_⟩
    · intro h; cases h
    · show (1#32).toInt = 2 ^ 0; decide
    · show 0 < 31; omega
  | append_singleton h o ih =>
    intro s hr
    obtain ⟨u, hu, hs⟩ := run_snoc hr
    have iv := ih hu
    have hm := lastMode_snoc h o
    cases o with
    | bias p =>
      cases hs
      exact ⟨by rw [hm]; exact iv.mode, by rw [recent_snoc]; exact iv.fixed,
        by rw [recent_snoc]; exact iv.exponent, by rw [recent_snoc]; exact iv.fixedPer,
        by rw [recent_snoc]; exact iv.exponentPer, iv.per, iv.uni, by rw [lastOf_snoc]; rfl,
        by rw [lastOf_snoc]; exact iv.cmin, by rw [lastOf_snoc]; exact iv.cmax,
        by rw [lastOf_snoc]; exact iv.chan, by rw [lastOf_snoc]; exact iv.round⟩
    | clampMin p =>
      cases hs
      exact ⟨by rw [hm]; exact iv.mode, by rw [recent_snoc]; exact iv.fixed,
        by rw [recent_snoc]; exact iv.exponent, by rw [recent_snoc]; exact iv.fixedPer,
        by rw [recent_snoc]; exact iv.exponentPer, iv.per, iv.uni, by rw [lastOf_snoc]; exact iv.bias,
        by rw [lastOf_snoc]; rfl, by rw [lastOf_snoc]; exact iv.cmax,
        by rw [lastOf_snoc]; exact iv.chan, by rw [lastOf_snoc]; exact iv.round⟩
    | clampMax p =>
      cases hs
      exact ⟨by rw [hm]; exact iv.mode, by rw [recent_snoc]; exact iv.fixed,
        by rw [recent_snoc]; exact iv.exponent, by rw [recent_snoc]; exact iv.fixedPer,
        by rw [recent_snoc]; exact iv.exponentPer, iv.per, iv.uni, by rw [lastOf_snoc]; exact iv.bias,
        by rw [lastOf_snoc]; exact iv.cmin, by rw [lastOf_snoc]; rfl,
        by rw [lastOf_snoc]; exact iv.chan, by rw [lastOf_snoc]; exact iv.round⟩
    | channelDim p =>
      cases hs
      exact ⟨by rw [hm]; exact iv.mode, by rw [recent_snoc]; exact iv.fixed,
        by rw [recent_snoc]; exact iv.exponent, by rw [recent_snoc]; exact iv.fixedPer,
        by rw [recent_snoc]; exact iv.exponentPer, iv.per, iv.uni, by rw [lastOf_snoc]; exact iv.bias,
        by rw [lastOf_snoc]; exact iv.cmin, by rw [lastOf_snoc]; exact iv.cmax,
        by rw [lastOf_snoc]; rfl, by rw [lastOf_snoc]; exact iv.round⟩
    | rounding v =>
      obtain ⟨k, hk, hs⟩ := C.bind_ok hs
      cases hs
      have hv : v.toInt = 2 ^ k ∧ k < 31 := by
        have hk : SizeUtil.potLog2 v = .ok k := hk
        have hk' := hk
        unfold SizeUtil.potLog2 at hk
        obtain ⟨_, hp, hk⟩ := C.bind_ok hk
        have hp := C.check_ok hp
        obtain ⟨j, hj⟩ := (SizeUtil.c43_is_pot v).mp hp
        have := SizeUtil.c43_pot_log2 v j hj
        rw [hk'] at this
        cases this
        refine ⟨hj, ?_⟩
        by_contra hc
        have h1 : (2 : Int) ^ 31 ≤ 2 ^ k := pow_le_pow_right₀ (by omega) (by omega)
        have h2 := BitVec.toInt_lt (x := v)
        omega
      exact ⟨by rw [hm]; exact iv.mode, by rw [recent_snoc]; exact iv.fixed,
        by rw [recent_snoc]; exact iv.exponent, by rw [recent_snoc]; exact iv.fixedPer,
        by rw [recent_snoc]; exact iv.exponentPer, iv.per, iv.uni, by rw [lastOf_snoc]; exact iv.bias,
        by rw [lastOf_snoc]; exact iv.cmin, by rw [lastOf_snoc]; exact iv.cmax,
        by rw [lastOf_snoc]; exact iv.chan, by rw [lastOf_snoc]; exact hv⟩
    | fixed v =>
      obtain ⟨w, hw, hs⟩ := C.bind_ok hs
      cases hs
      obtain ⟨rfl, hsw⟩ := setPerchannel_ok hw
      have hnone : u.fixedPer = none ∧ u.exponentPer = none := by
        cases hp : u.perchannel
        · exact iv.uni hp
        · simpa using hsw (by rw [hp]; decide)
      have hexp : u.exponent = recent false Op.exponent? 0 h := iv.exponent
      exact ⟨by rw [hm]; rfl, by rw [recent_snoc]; rfl,
        by rw [recent_snoc]; exact hexp, by rw [recent_snoc]; exact hnone.1,
        by rw [recent_snoc]; exact hnone.2, (fun h => by cases h), fun _ => hnone,
        by rw [lastOf_snoc]; exact iv.bias,
        by rw [lastOf_snoc]; exact iv.cmin, by rw [lastOf_snoc]; exact iv.cmax,
        by rw [lastOf_snoc]; exact iv.chan, by rw [lastOf_snoc]; exact iv.round⟩
    | exponent v =>
      obtain ⟨w, hw, hs⟩ := C.bind_ok hs
      cases hs
      obtain ⟨rfl, hsw⟩ := setPerchannel_ok hw
      have hnone : u.fixedPer = none ∧ u.exponentPer = none := by
        cases hp : u.perchannel
        · exact iv.uni hp
        · simpa using hsw (by rw [hp]; decide)
      exact ⟨by rw [hm]; rfl, by rw [recent_snoc]; exact iv.fixed,
        by rw [recent_snoc]; rfl, by rw [recent_snoc]; exact hnone.1,
        by rw [recent_snoc]; exact hnone.2, (fun h => by cases h), fun _ => hnone,
        by rw [lastOf_snoc]; exact iv.bias,
        by rw [lastOf_snoc]; exact iv.cmin, by rw [lastOf_snoc]; exact iv.cmax,
        by rw [lastOf_snoc]; exact iv.chan, by rw [lastOf_snoc]; exact iv.round⟩
    | fixedPer p =>
      obtain ⟨w, hw, hs⟩ := C.bind_ok hs
      cases hs
      obtain ⟨rfl, hsw⟩ := setPerchannel_ok hw
      have hz : u.fixed = 0 ∧ u.exponent = 0 := by
        cases hp : u.perchannel
        · simpa using hsw (by rw [hp]; decide)
        · exact iv.per hp
      exact ⟨by rw [hm]; rfl, by rw [recent_snoc]; exact hz.1,
        by rw [recent_snoc]; exact hz.2, by rw [recent_snoc]; rfl,
        by rw [recent_snoc]; exact iv.exponentPer, fun _ => hz, (fun h => by cases h),
        by rw [lastOf_snoc]; exact iv.bias,
        by rw [lastOf_snoc]; exact iv.cmin, by rw [lastOf_snoc]; exact iv.cmax,
        by rw [lastOf_snoc]; exact iv.chan, by rw [lastOf_snoc]; exact iv.round⟩
    | exponentPer p =>
      obtain ⟨w, hw, hs⟩ := C.bind_ok hs
      cases hs
      obtain ⟨rfl, hsw⟩ := setPerchannel_ok hw
      have hz : u.fixed = 0 ∧ u.exponent = 0 := by
        cases hp : u.perchannel
        · simpa using hsw (by rw [hp]; decide)
        · exact iv.per hp
      exact ⟨by rw [hm]; rfl, by rw [recent_snoc]; exact hz.1,
        by rw [recent_snoc]; exact hz.2, by rw [recent_snoc]; exact iv.fixedPer,
        by rw [recent_snoc]; rfl, fun _ => hz, (fun h => by cases h),
        by rw [lastOf_snoc]; exact iv.bias,
        by rw [lastOf_snoc]; exact iv.cmin, by rw [lastOf_snoc]; exact iv.cmax,
        by rw [lastOf_snoc]; exact iv.chan, by rw [lastOf_snoc]; exact iv.round⟩

/-! ### C39 -/

/-- C39 (debug checks on): after any history of setter calls that was not stopped by a check, the
multiplier getters of the last mode set report the last values set since the switch to that mode
(zero or null if there are none), and those of the other mode report zero and null. -/
theorem c39_getters_partial (t : ScalarType) (h : List (Op P)) (s : Storage P)
    (hr : run true h (.default t) = .ok s) :
    (s.getFixed = if lastMode h then 0 else recent false Op.fixed? 0 h) ∧
    (s.getExponent = if lastMode h then 0 else recent false Op.exponent? 0 h) ∧
    (s.getFixedPer = if lastMode h then recent true Op.fixedPer? none h else none) ∧
    (s.getExponentPer = if lastMode h then recent true Op.exponentPer? none h else none) := by
  have iv := inv_run t h hr
  unfold Storage.getFixed Storage.getExponent Storage.getFixedPer Storage.getExponentPer
  rw [← iv.mode, ← iv.fixed, ← iv.exponent, ← iv.fixedPer, ← iv.exponentPer]
  exact ⟨rfl, rfl, rfl, rfl⟩

/-- C39: the other getters report the last value set, or the documented default. -/
theorem c39_other_getters (t : ScalarType) (h : List (Op P)) (s : Storage P)
    (hr : run true h (.default t) = .ok s) :
    s.bias = lastOf Op.bias? none h ∧ s.clampMin = lastOf Op.clampMin? t.lo h ∧
    s.clampMax = lastOf Op.clampMax? t.hi h ∧ s.channelDim = lastOf Op.channelDim? .row h ∧
    s.getRounding = .ok (lastOf Op.rounding? 1#32 h) := by
  have iv := inv_run t h hr
  refine ⟨iv.bias, iv.cmin, iv.cmax, iv.chan, ?_⟩
  obtain ⟨hv, hk⟩ := iv.round
  unfold Storage.getRounding SizeUtil.shl1
  rw [C.require_of (by omega), C.ok_bind, C.pure_eq]
  congr 1
  apply BitVec.eq_of_toInt_eq
  rw [hv]
  generalize s.roundingLog2 = k at hk
  interval_cases k <;> decide

/-- C39: a call is refused exactly if it would switch the mode while a value of the old mode is set
(or asks for a rounding that is not a power of two). -/
theorem c39_refused_iff (t : ScalarType) (h : List (Op P)) (s : Storage P) (o : Op P)
    (hr : run true h (.default t) = .ok s) :
    run true (h ++ [o]) (.default t) = .error .abort ↔
      (o.mode = some true ∧ (s.getFixed ≠ 0 ∨ s.getExponent ≠ 0)) ∨
      (o.mode = some false ∧ (s.getFixedPer ≠ none ∨ s.getExponentPer ≠ none)) ∨
      (∃ v, o = .rounding v ∧ ¬ ∃ k : Nat, v.toInt = 2 ^ k) := by
  rw [run_append hr]
  have hrun : run true [o] s = s.set true o := by
    show (s.set true o >>= fun s => .ok s) = _
    cases s.set true o <;> rfl
  rw [hrun]
  have iv := inv_run t h hr
  have key : ∀ v : Bool, s.setPerchannel true v = .error .abort ∨
      ∃ s', s.setPerchannel true v = .ok s' := by
    intro v
    unfold Storage.setPerchannel dcheck C.check
    simp only [if_true]
    repeat' split
    all_goals first | exact Or.inr ⟨_, rfl⟩ | exact Or.inl rfl
  have kt : s.setPerchannel true true = .error .abort ↔ (s.getFixed ≠ 0 ∨ s.getExponent ≠ 0) := by
    unfold Storage.getFixed Storage.getExponent
    cases hp : s.perchannel
    · unfold Storage.setPerchannel dcheck C.check
      rw [hp]
      simp only [if_true, Bool.false_eq_true, if_false]
      by_cases h1 : s.fixed = 0 <;> by_cases h2 : s.exponent = 0 <;> simp [h1, h2]
    · unfold Storage.setPerchannel
      rw [if_pos hp]
      simp
  have kf : s.setPerchannel true false = .error .abort ↔
      (s.getFixedPer ≠ none ∨ s.getExponentPer ≠ none) := by
    unfold Storage.getFixedPer Storage.getExponentPer
    cases hp : s.perchannel
    · unfold Storage.setPerchannel
      rw [if_pos hp]
      simp
    · unfold Storage.setPerchannel dcheck C.check
      rw [hp]
      simp only [if_true, Bool.false_eq_true, if_false, Bool.true_eq_false]
      cases s.fixedPer <;> cases s.exponentPer <;> simp
  have step : ∀ (v : Bool) (f : Storage P → Storage P),
      ((s.setPerchannel true v >>= fun s => (.ok (f s) : C (Storage P))) = .error .abort) ↔
        s.setPerchannel true v = .error .abort := by
    intro v f
    rcases key v with h | ⟨s', h⟩ <;> rw [h] <;> simp
  have no : ∀ x : Storage P, ¬ ((.ok x : C (Storage P)) = .error .abort) := fun x h => by cases h
  cases o with
  | fixed v =>
    refine (step false (fun s => { s with fixed := v })).trans (kf.trans ?_)
    simp [Op.mode]
  | exponent v =>
    refine (step false (fun s => { s with exponent := v })).trans (kf.trans ?_)
    simp [Op.mode]
  | fixedPer v =>
    refine (step true (fun s => { s with fixedPer := v })).trans (kt.trans ?_)
    simp [Op.mode]
  | exponentPer v =>
    refine (step true (fun s => { s with exponentPer := v })).trans (kt.trans ?_)
    simp [Op.mode]
  | rounding v =>
    simp only [Op.mode, reduceCtorEq, false_and, false_or, Op.rounding.injEq, exists_eq_left',
      Storage.set, if_true]
    rw [← SizeUtil.c43_is_pot v]
    constructor
    · intro h hp
      obtain ⟨k, hk⟩ := (SizeUtil.c43_is_pot v).mp hp
      rw [SizeUtil.c43_pot_log2 v k hk] at h
      cases h
    · intro hp
      unfold SizeUtil.potLog2 C.check
      rw [if_neg hp]; rfl
  | bias v => simp [Op.mode, Storage.set]
  | clampMin v => simp [Op.mode, Storage.set]
  | clampMax v => simp [Op.mode, Storage.set]
  | channelDim v => simp [Op.mode, Storage.set]

/-- C39: without debug checks nothing changes for histories that the checks would have accepted. -/
theorem c39_release_same : ∀ (h : List (Op P)) (s s' : Storage P),
    run true h s = .ok s' → run false h s = .ok s' := by
  have hset : ∀ (s s' : Storage P) (v : Bool), s.setPerchannel true v = .ok s' →
      s.setPerchannel false v = .ok s' := by
    intro s s' v h
    have := (setPerchannel_ok h).1
    subst this
    unfold Storage.setPerchannel dcheck
    simp only [Bool.false_eq_true, if_false, C.ok_bind]
    by_cases hp : s.perchannel = v
    · rw [if_pos hp]; subst hp; rfl
    · rw [if_neg hp]; split <;> rfl
  have hstep : ∀ (s s' : Storage P) (o : Op P), s.set true o = .ok s' → s.set false o = .ok s' := by
    intro s s' o h
    cases o with
    | fixed v =>
      obtain ⟨w, hw, h⟩ := C.bind_ok h
      show (s.setPerchannel false false >>= _) = _; rw [hset _ _ _ hw]; exact h
    | exponent v =>
      obtain ⟨w, hw, h⟩ := C.bind_ok h
      show (s.setPerchannel false false >>= _) = _; rw [hset _ _ _ hw]; exact h
    | fixedPer v =>
      obtain ⟨w, hw, h⟩ := C.bind_ok h
      show (s.setPerchannel false true >>= _) = _; rw [hset _ _ _ hw]; exact h
    | exponentPer v =>
      obtain ⟨w, hw, h⟩ := C.bind_ok h
      show (s.setPerchannel false true >>= _) = _; rw [hset _ _ _ hw]; exact h
    | rounding v =>
      obtain ⟨w, hw, h⟩ := C.bind_ok h
      have hw : SizeUtil.potLog2 v = .ok w := hw
      unfold SizeUtil.potLog2 at hw
      obtain ⟨_, _, hw⟩ := C.bind_ok hw
      show (SizeUtil.floorLog2 v >>= _) = _; rw [hw]; exact h
    | bias v => exact h
    | clampMin v => exact h
    | clampMax v => exact h
    | channelDim v => exact h
  intro h
  induction h with
  | nil => intro s s' hr; exact hr
  | cons o h ih =>
    intro s s' hr
    obtain ⟨u, hu, hr⟩ := C.bind_ok hr
    show (s.set false o >>= _) = _
    rw [hstep _ _ _ hu]
    exact ih _ _ hr

/-- C39, disagreement: without debug checks a stale value does become visible.  A uniform multiplier
is set, then a per-channel one, then a uniform exponent: the fixed-point part from before the first
switch is back. -/
theorem c39_release_stale (t : ScalarType) (p : P) :
    ∃ s, run false [.fixed 5, .fixedPer (some p), .exponent 1] (.default t) = .ok s ∧
      s.getFixed = 5 ∧ recent false Op.fixed? 0 [Op.fixed 5, .fixedPer (some p), .exponent 1] = 0 ∧
      run true [.fixed 5, .fixedPer (some p), .exponent 1] (.default t) = .error .abort :=
  ⟨_, rfl, rfl, rfl, rfl⟩

-- A history with two switches and what is seen after it.
example : ∃ s : Storage Nat, run true [.fixed 0, .fixedPer (some 7), .exponentPer (some 8),
      .fixedPer none, .exponentPer none, .exponent 3, .rounding 8#32, .clampMax 9]
      (.default .uint8) = .ok s ∧
    s.getFixed = 0 ∧ s.getExponent = 3 ∧ s.getFixedPer = none ∧ s.clampMax = 9 ∧
    s.getRounding = .ok 8#32 := ⟨_, rfl, rfl, rfl, rfl, rfl, rfl⟩
example : lastMode [Op.fixed 1, .fixedPer (some 7), .bias none] = true ∧
    recent true Op.fixedPer? none [Op.fixed 1, .fixedPer (some 7), .bias none] = some 7 := ⟨rfl, rfl⟩
example : run true [.rounding 6#32] (Storage.default (P := Nat) .int8) = .error .abort := rfl

/-! ### C27 -/

/-- C27, what the code does: the multiplier of a new MulParams is 0, so every accumulator is scaled
to 0. -/
theorem c27_default_is_zero (t : ScalarType) (ty packed : SidePair ScalarType) (x : Int)
    (ch : Nat) :
    ∃ mp q, Storage.toFront (.default t) = .ok mp ∧ mp.quant = some q ∧
      applyMultiplier (intScalars Arith.int32 ty packed t) (some q) ch x = .ok 0 := by
  refine ⟨_, _, rfl, rfl, ?_⟩
  show Multiplier.multiplyByQuantizedMultiplier x 0 0 = .ok 0
  unfold Multiplier.multiplyByQuantizedMultiplier
  rw [Int.mul_zero]
  rfl

/-- C27, what the code does: with default MulParams, Mul stores the destination's zero point in
every entry, whatever the sources are. -/
theorem c27_default_stores_zero_point (t : ScalarType) (ty packed : SidePair ScalarType)
    (kern : SidePair KernelLayout) (lhs rhs dst d : Mul.Mat Int) (mp : Front.MulParams Int)
    (hmp : Storage.toFront (.default t) = .ok mp) (hz : t.lo ≤ dst.zp ∧ dst.zp ≤ t.hi)
    (hs : Shapes kern lhs rhs dst) (hi : IntOk ty packed t lhs rhs mp)
    (h : Front.Mul (intScalars Arith.int32 ty packed t) kern lhs rhs dst mp d) (i j : Nat)
    (hr : i < dst.layout.rows) (hc : j < dst.layout.cols) :
    d.elem i j = .ok dst.zp := by
  rw [c01_entries ty packed t kern lhs rhs dst d mp hs hi h i j hr hc]
  have hmp' : mp = ⟨none, some ⟨0, 0, none, none⟩, .row, 1, t.lo, t.hi⟩ := by
    have : Storage.toFront (.default t) =
      (.ok ⟨none, some ⟨0, 0, none, none⟩, .row, 1, t.lo, t.hi⟩ : C (Front.MulParams Int)) := rfl
    rw [this] at hmp
    cases hmp; rfl
  congr 1
  subst hmp'
  show max t.lo (min t.hi (dst.zp + Multiplier.scaled _ 0 0)) = dst.zp
  have h0 : ∀ x, Multiplier.scaled x 0 0 = 0 := by
    intro x; unfold Multiplier.scaled; norm_num
  rw [h0]
  omega

-- A product of non-zero matrices with default parameters: only zero points (10) are stored.
example : ∃ d mp, Storage.toFront (.default .uint8) = .ok mp ∧ Shapes k44 demoLhs demoRhs demoDst ∧
    IntOk ⟨.uint8, .uint8⟩ ⟨.int8, .int8⟩ .uint8 demoLhs demoRhs mp ∧
    Front.Mul demoSc k44 demoLhs demoRhs demoDst mp d ∧
    (List.range 6).map d.data.val = [10, 10, 77, 10, 10, 77] := by
  have h : ((do
    let mp ← Storage.toFront (.default .uint8)
    let r ← frontEnd demoSc k44 demoLhs demoRhs demoDst mp
      ⟨⟨fun _ => 55, fun _ => 66⟩, ⟨fun _ => 44, fun _ => 33⟩⟩
    let m' ← TrMul.simpleLoop r.1 r.2.1
    pure ((List.range 6).map (userView demoDst m'.dst).data.val) : C (List Int))) =
      .ok [10, 10, 77, 10, 10, 77] := by decide +kernel
  obtain ⟨mp, hmp, h⟩ := C.bind_ok h
  obtain ⟨⟨tp, mem, adv⟩, hf, h2⟩ := C.bind_ok h
  obtain ⟨m', hl, h3⟩ := C.bind_ok h2
  have hmp' : Storage.toFront (.default .uint8) =
    (.ok ⟨none, some ⟨0, 0, none, none⟩, .row, 1, 0, 255⟩ : C (Front.MulParams Int)) := rfl
  have he := Except.ok.inj (hmp'.symm.trans hmp)
  subst he
  refine ⟨userView demoDst m'.dst, _, hmp', demo_shapes,
    ⟨demo_intOk.lpack, demo_intOk.rpack, demo_intOk.lty, demo_intOk.rty, ⟨by decide, by decide⟩⟩,
    ⟨_, tp, mem, adv, m'.dst, hf, .simple m' hl rfl, rfl⟩, ?_⟩
  exact Except.ok.inj h3

/-- C27, what the comment in mul_params.h:252-258 describes: with the largest multiplier, all
accumulators up to 2^30 in magnitude are unchanged, in particular all that a narrow destination
can hold. -/
theorem c27_largest_multiplier (x : Int) (h : -2 ^ 30 < x ∧ x ≤ 2 ^ 30) :
    Multiplier.multiplyByQuantizedMultiplier x (2 ^ 31 - 1) 0 = .ok x := by
  unfold Multiplier.multiplyByQuantizedMultiplier
  rw [C.check_of (by omega), C.ok_bind]
  dsimp only
  rw [C.require_of (by omega), C.ok_bind, C.i64_of (by omega) (by omega), C.ok_bind,
    C.i64_of (by rw [show (31 - 0 - 1 : Int).toNat = 30 from rfl]; omega)
      (by rw [show (31 - 0 - 1 : Int).toNat = 30 from rfl]; omega), C.ok_bind]
  have e : (x * (2 ^ 31 - 1) + 2 ^ (31 - 0 - 1 : Int).toNat) / 2 ^ (31 - 0 : Int).toNat = x := by
    show (x * (2 ^ 31 - 1) + 2 ^ 30) / 2 ^ 31 = x
    omega
  rw [e, C.check_of (by omega), C.ok_bind, C.check_of (by omega), C.ok_bind, C.pure_eq]

/-- C27: outside of that range the difference is not hidden: accumulators beyond 2^30 change by one,
but any narrow destination saturates there. -/
theorem c27_largest_multiplier_clamped (x lo hi z : Int) (hx : -2 ^ 31 ≤ x ∧ x < 2 ^ 31)
    (hz : -2 ^ 15 ≤ z ∧ z < 2 ^ 16) (hl : -2 ^ 15 ≤ lo ∧ lo ≤ hi) (hh : hi < 2 ^ 16) :
    ∃ y, Multiplier.multiplyByQuantizedMultiplier x (2 ^ 31 - 1) 0 = .ok y ∧
      max lo (min hi (y + z)) = max lo (min hi (x + z)) := by
  refine ⟨(x * (2 ^ 31 - 1) + 2 ^ 30) / 2 ^ 31, ?_, ?_⟩
  · unfold Multiplier.multiplyByQuantizedMultiplier
    rw [C.check_of (by omega), C.ok_bind]
    dsimp only
    rw [C.require_of (by omega), C.ok_bind, C.i64_of (by omega) (by omega), C.ok_bind,
      C.i64_of (by rw [show (31 - 0 - 1 : Int).toNat = 30 from rfl]; omega)
      (by rw [show (31 - 0 - 1 : Int).toNat = 30 from rfl]; omega), C.ok_bind]
    have e : (x * (2 ^ 31 - 1) + 2 ^ (31 - 0 - 1 : Int).toNat) / 2 ^ (31 - 0 : Int).toNat =
      (x * (2 ^ 31 - 1) + 2 ^ 30) / 2 ^ 31 := rfl
    rw [e, C.check_of (by omega), C.ok_bind, C.check_of (by omega), C.ok_bind, C.pure_eq]
  · omega

end Ruy.Params

import Verif.Arm32.PackRun
import Verif.Neon.DPackLoop
/-
The loop over blocks of four columns: lemmas for property C82.
-/
namespace Ruy.Arm32.Pack
open Ruy.NeonF (St Val Region Ops)
open PJob
variable {A : Type}

/-- A state in which an `asm` statement can start. -/
def begin (j : PJob A) : St A where
  x := fun r => if r < 52 then .ptr (j.reg (r - 48)) (4 * j.off (r - 48)) else if r = 52 then .ptr .packed (4 * j.packedBase)
    else if r = 54 then .int j.srcInc else if r = 58 then .int j.rows else .int (4 * j.width)
  v := fun _ _ => j.ops.zero
  m := j.m
  z := false
  lt := false
  bad := false

theorem begin_ok (j : PJob A) : j.Start (begin j) := by
  refine ⟨fun c hc => ?_, rfl, rfl, rfl, rfl, rfl, rfl⟩
  show (if 48 + c < 52 then _ else _) = _
  rw [if_pos (by omega), show 48 + c - 48 = c by omega]

theorem fromZero_of {cols col i : Nat} (hi : i < 4) : fromZero cols col i = decide (cols ≤ col + i) := by
  unfold fromZero
  by_cases h : cols ≤ col + i
  · rw [decide_eq_true h, decide_eq_true (by omega)]; rfl
  · rw [decide_eq_false h, Bool.and_false]

/-- The arguments for the block at `col`. -/
def job (p : Call A) (col : Nat) (m : Region → Nat → A) : PJob A :=
  { rows := p.rows
    reg := fun i => if fromZero p.cols col i then .zeros else .src
    off := fun i => if fromZero p.cols col i then 0 else p.stride * col + p.stride * i
    inc := fun i => !fromZero p.cols col i
    packedBase := p.packedStride * (p.width * (col / p.width)) + col % p.width
    width := p.width
    size := fun r => if r = .zeros then 4 else p.size r
    ops := p.ops
    m := m }

theorem block_ok {p : Call A} {col : Nat} {m : Region → Nat → A} (ha : col % 4 = 0) (h1 : p.stride * col < 2 ^ 31)
    (h2 : p.packedStride * (p.width * (col / p.width)) < 2 ^ 31) : block p col m = .ok (job p col m) := by
  have e1 : (if p.wide then 8 * (col / 8) else col) = p.width * (col / p.width) := by
    unfold Call.width; cases p.wide
    · show col = 4 * (col / 4); omega
    · rfl
  have e2 : (if p.wide then col &&& 4 else 0) = col % p.width := by
    unfold Call.width; cases p.wide
    · show 0 = col % 4; omega
    · show col &&& 4 = col % 8; have := Neon.DPack.and_four ha; omega
  unfold block C.int
  rw [e1, e2, if_pos h1, if_pos h2]
  rfl

theorem width_or (p : Call A) : p.width = 4 ∨ p.width = 8 := by
  unfold Call.width; cases p.wide
  · exact .inl rfl
  · exact .inr rfl

section
variable {p : Call A} {start stop col : Nat} {m m0 : Region → Nat → A}

theorem job_fits (hf : CallFits p start stop) (hc : col < stop) (ha : col % 4 = 0) : Fits (job p col m) := by
  have hal := hf.aligned
  refine ⟨hf.rows, width_or p, fun c hc => ?_, fun c hc k hk => ?_, fun k hk => ?_⟩
  · unfold job
    dsimp only
    split <;> decide
  · unfold PJob.adv job at *
    dsimp only at *
    simp only [fromZero_of hc]
    by_cases h : p.cols ≤ col + c
    · simp only [decide_eq_true h, if_true, Bool.not_true, Bool.false_eq_true, if_false]
      omega
    · simp only [decide_eq_false h, Bool.false_eq_true, if_false, Bool.not_false, if_true, reduceCtorEq]
      have := hf.src (col + c) (by omega) k hk
      rw [mul_add] at this
      omega
  · show p.packedStride * (p.width * (col / p.width)) + col % p.width + p.width * k + 4 ≤ p.size .packed
    have hk : k < p.rows := hk
    have h1 := hf.stride
    have h2 := hf.packed
    have hw := width_or p
    generalize p.width = W at *
    have h3 : p.packedStride * (W * (col / W) + W) ≤ p.packedStride * stop :=
      Nat.mul_le_mul_left _ (by rcases hw with rfl | rfl <;> omega)
    rw [mul_add] at h3
    rcases hw with rfl | rfl <;> omega

/-- What the `asm` statement stores is what belongs there. -/
theorem job_entry (hs : m .src = m0 .src) (hz : ∀ o, o < 4 → m .zeros o = p.ops.zero) {i : Nat} (hi : i < 4) (k : Nat) :
    (job p col m).raw i k = wanted p m0 k (col + i) := by
  unfold PJob.raw wanted
  show m (if fromZero p.cols col i then .zeros else .src) ((if fromZero p.cols col i then 0 else p.stride * col + p.stride * i) +
    (if !fromZero p.cols col i then 4 else 0) * (k / 4) + k % 4) = _
  rw [fromZero_of hi]
  by_cases h : p.cols ≤ col + i
  · rw [if_neg (c := col + i < p.cols) (by omega)]
    simp only [decide_eq_true h, if_true, Bool.not_true, Bool.false_eq_true, if_false]
    rw [hz _ (by omega)]
  · rw [if_pos (c := col + i < p.cols) (by omega)]
    simp only [decide_eq_false h, Bool.false_eq_true, if_false, Bool.not_false, if_true]
    rw [show p.stride * col + p.stride * i + 4 * (k / 4) + k % 4 = p.stride * (col + i) + k by rw [mul_add]; omega, hs]

theorem spot_of {k i : Nat} (hi : i < 4) (ha : col % 4 = 0) : spot p k (col + i) = (job p col m).packedBase + (job p col m).width * k + i := by
  unfold spot
  show _ = p.packedStride * (p.width * (col / p.width)) + col % p.width + p.width * k + i
  have hw := width_or p
  generalize p.width = W at *
  rw [show (col + i) / W = col / W by rcases hw with rfl | rfl <;> omega,
    show (col + i) % W = col % W + i by rcases hw with rfl | rfl <;> omega]
  omega

/-- Entries of different blocks are apart. -/
theorem spot_ne (hst : p.rows ≤ p.packedStride) {c c' k k' : Nat} (hc : c / 4 < c' / 4) (hk : k < p.rows) : spot p k c ≠ spot p k' c' := by
  unfold spot
  have hw := width_or p
  generalize p.width = W at *
  by_cases h : c / W = c' / W
  · rw [h]; rcases hw with rfl | rfl <;> omega
  · have h2 : p.packedStride * (W * (c / W) + W) ≤ p.packedStride * (W * (c' / W)) :=
      Nat.mul_le_mul_left _ (by rcases hw with rfl | rfl <;> omega)
    rw [mul_add] at h2
    rcases hw with rfl | rfl <;> omega

/-- One more block. -/
theorem packed_step (hf : CallFits p start stop) (h : Packed p start col m0 m) (hsc : start ≤ col)
    (ha : col % 4 = 0) (hz : ∀ o, o < 4 → m .zeros o = p.ops.zero) {s' : St A} (hr : Result (job p col m) s') :
    Packed p start (col + 4) m0 s'.m := by
  have hs : m .src = m0 .src := h.rest _ (by decide) (by decide)
  refine ⟨fun c h1 h2 k hk => ?_, fun o ho => ?_, fun r h1 h2 => ?_⟩
  · by_cases hcc : c < col
    · rw [hr.restPacked _ (fun k' hk' i hi => ?_)]
      · exact h.entry c h1 hcc k hk
      · rw [← spot_of hi ha]
        exact spot_ne hf.stride (by omega) hk
    · obtain ⟨i, rfl⟩ := Nat.exists_eq_add_of_le (by omega : col ≤ c)
      rw [spot_of (m := m) (by omega) ha, ← job_entry (col := col) hs hz (by omega) k]
      exact hr.entry i (by omega) k hk
  · rw [hr.restPacked o (fun k hk i hi => ?_)]
    · exact h.restPacked o (fun c h1 h2 => ho c h1 (by omega))
    · rw [← spot_of hi ha]
      exact ho (col + i) (by omega) (by omega) k hk
  · rw [hr.rest r h1]
    exact h.rest r h1 h2

theorem loop_ok (hf : CallFits p start stop) (n : Nat) : ∀ col m, start ≤ col → col + 4 * n = stop →
    col % 4 = 0 → Packed p start col m0 m → (∀ o, o < 4 → m .zeros o = p.ops.zero) →
    (∃ r, Loop p stop col m r) ∧ ∀ r, Loop p stop col m r → ∃ m', r = .ok m' ∧ Packed p start stop m0 m' := by
  induction n with
  | zero =>
    intro col m h1 h2 _ hp _
    obtain rfl : col = stop := by omega
    refine ⟨⟨_, .done le_rfl⟩, fun r hr => ?_⟩
    cases hr with
    | done h => exact ⟨m, rfl, hp⟩
    | overflow h => omega
    | fault h => omega
    | stuck h => omega
    | next h => omega
  | succ n ih =>
    intro col m h1 h2 h4 hp hz
    have hc : col < stop := by omega
    obtain ⟨o1, -⟩ := hf.offsets col hc h4
    obtain ⟨-, o2⟩ := hf.offsets (p.width * (col / p.width)) (by
      have := Nat.mul_div_le col p.width; omega) (by
      rcases width_or p with e | e <;> rw [e] <;> omega)
    have hb := block_ok (m := m) h4 o1 o2
    have hjf := job_fits (m := m) hf hc h4
    have whole : ∀ s, (job p col m).Start s → ∃ s', Stops (job p col m).env code s s' ∧ Result (job p col m) s' :=
      fun s hs => pack_ok hjf hs
    have step : ∀ s', Result (job p col m) s' → (∃ r, Loop p stop (col + 4) s'.m r) ∧ ∀ r, Loop p stop (col + 4) s'.m r →
        ∃ m', r = .ok m' ∧ Packed p start stop m0 m' := by
      intro s' hr
      refine ih (col + 4) s'.m (by omega) (by omega) (by omega) (packed_step hf hp h1 h4 hz hr) (fun o ho => ?_)
      rw [hr.rest _ (by decide)]
      exact hz o ho
    refine ⟨?_, fun r hr => ?_⟩
    · obtain ⟨s', w1, w2⟩ := whole _ (begin_ok (job p col m))
      obtain ⟨⟨r, hr⟩, _⟩ := step s' w2
      exact ⟨r, .next hc hb (begin_ok (job p col m)) w1 w2.ok hr⟩
    · cases hr with
      | done h => omega
      | overflow h e => rw [hb] at e; cases e
      | fault h e hst hsp hbad =>
        rw [hb] at e; cases e
        obtain ⟨s2, w1, w2⟩ := whole _ hst
        rw [stops_unique hsp w1, w2.ok] at hbad
        cases hbad
      | stuck h e hst hno =>
        rw [hb] at e; cases e
        obtain ⟨s2, w1, _⟩ := whole _ hst
        exact absurd w1 (hno s2)
      | next h e hst hsp hok hl =>
        rw [hb] at e; cases e
        obtain ⟨s2, w1, w2⟩ := whole _ hst
        rw [stops_unique hsp w1] at hl
        exact (step s2 w2).2 _ hl

/-- A whole run. -/
theorem run_ok (hf : CallFits p start stop) :
    (∃ r, Run p start stop m r) ∧ ∀ r, Run p start stop m r → ∃ m', r = .ok m' ∧ Packed p start stop m m' := by
  unfold Run
  simp only [if_pos hf.aligned.1]
  have ha := hf.aligned
  have ho := hf.order
  have hm : start % 4 = 0 ∧ stop % 4 = 0 := by
    have hw := width_or p
    generalize p.width = W at *
    rcases hw with rfl | rfl <;> omega
  refine loop_ok hf ((stop - start) / 4) start (cleared p m) le_rfl (by omega) (by omega) ?_ (fun o _ => ?_)
  · refine ⟨fun c h1 h2 => by omega, fun o _ => ?_, fun r _ h => ?_⟩
    · unfold cleared; rw [if_neg (by decide)]
    · unfold cleared; rw [if_neg h]
  · unfold cleared; rw [if_pos rfl]

end
end Ruy.Arm32.Pack

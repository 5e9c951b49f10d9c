import Verif.Neon.DPackVariants
import Verif.Neon.DPackCall
import Verif.Neon.PackLoop
/-
The loop over blocks of four columns: lemmas for property C66.
-/
namespace Ruy.Neon.DPack
open Simd (wrap8 wrap32)
open PackCall (fromZero_of xor_value wrap8_toInt int8)

/-- The arguments for the block at `col`. -/
def job (p : PackCall) (col : Nat) (m : Region → Nat → Byte) : PJob :=
  { rows := p.rows, zp := p.zp, xor := p.inputXor
    reg := fun i => if p.fromZero col i then .zeros else .src
    off := fun i => if p.fromZero col i then 0 else p.stride * col + p.stride * i
    inc := fun i => if p.fromZero col i then 0 else 16
    packedBase := p.packedStride * (8 * (col / 8)) + 4 * (col % 8)
    sumsAt := if p.hasSums then some (4 * col) else none
    size := fun r => if r = .zeros then 16 else p.size r
    m := m }

theorem and_four {col : Nat} (ha : col % 4 = 0) : (col &&& 4) * 4 = 4 * (col % 8) := by
  have h : col &&& 4 = 4 * (col / 4 % 2) := by
    apply Nat.eq_of_testBit_eq
    intro i
    rw [Nat.testBit_and, show 4 = 2 ^ 2 * 1 from rfl, show 2 ^ 2 * 1 * (col / (2 ^ 2 * 1) % 2) = 2 ^ 2 * (col / 2 ^ 2 % 2 ^ 1) by norm_num,
      Nat.testBit_two_pow_mul, Nat.testBit_two_pow_mul, Nat.testBit_mod_two_pow, Nat.testBit_div_two_pow]
    by_cases h2 : 2 ≤ i
    · have e : i - 2 + 2 = i := by omega
      by_cases h3 : i - 2 < 1
      · obtain rfl : i = 2 := by omega
        simp
      · have : Nat.testBit 1 (i - 2) = false := Nat.testBit_lt_two_pow (lt_of_lt_of_le (show 1 < 2 ^ 1 by norm_num) (Nat.pow_le_pow_right (by omega) (by omega)))
        simp [h3, this]
    · simp [h2]
  rw [h]; omega

theorem block_ok {p : PackCall} {col : Nat} {m : Region → Nat → Byte} (ha : col % 4 = 0) (h1 : p.stride * col < 2 ^ 31)
    (h2 : p.packedStride * (8 * (col / 8)) < 2 ^ 31) : block p col m = .ok (job p col m) := by
  unfold block C.int
  rw [if_pos h1, if_pos h2, and_four ha]
  rfl

section
variable {p : PackCall} {start stop col : Nat} {m m0 : Region → Nat → Byte}

theorem job_fits (hf : CallFits p start stop) (hc : col < stop) (ha : col % 4 = 0) : Fits (job p col m) := by
  have hal := hf.aligned
  refine ⟨hf.rows, fun c hc => ?_, fun c hc k hk => ?_, ?_, fun o ho => ?_⟩
  · unfold job
    dsimp only
    split <;> decide
  · unfold job at *
    dsimp only at *
    rw [fromZero_of hc]
    by_cases h : p.cols ≤ col + c
    · simp only [decide_eq_true h, if_true]
      omega
    · simp only [decide_eq_false h, Bool.false_eq_true, if_false, reduceCtorEq]
      have := hf.src (col + c) (by omega) k hk
      rw [mul_add] at this
      omega
  · show p.packedStride * (8 * (col / 8)) + 4 * (col % 8) + 32 * ((p.rows + 3) / 4) ≤ p.size .packed + 16
    have h1 := hf.stride
    have h2 := hf.packed
    have h3 : p.packedStride * (8 * (col / 8) + 8) ≤ p.packedStride * stop := Nat.mul_le_mul_left _ (by omega)
    unfold packedRows at h1
    rw [mul_add] at h3
    omega
  · have e : (if p.hasSums then some (4 * col) else none) = some o := ho
    cases hs : p.hasSums
    · rw [hs] at e; cases e
    · rw [hs] at e
      obtain rfl : 4 * col = o := by simpa using e
      have := hf.sums hs
      show 4 * col + 16 ≤ p.size .sums
      omega

theorem zp_value (hf : CallFits p start stop) :
    (BitVec.ofInt 8 p.zp ^^^ BitVec.ofNat 8 p.inputXor).toInt = p.zp - p.shift := by
  have h := hf.zp
  unfold PackCall.inputXor PackCall.shift
  cases hu : p.unsigned
  · rw [hu] at h
    simp only [Bool.false_eq_true, if_false] at h ⊢
    rw [show BitVec.ofNat 8 0 = 0#8 from rfl, (xor_value _).2, BitVec.toInt_ofInt]
    unfold Int.bmod
    norm_num
    omega
  · rw [hu] at h
    simp only [if_true] at h ⊢
    rw [show BitVec.ofNat 8 0x80 = 0x80#8 from rfl, (xor_value _).1, BitVec.toNat_ofInt]
    norm_num
    omega

/-- What the `asm` statement stores is what belongs there. -/
theorem job_entry (hf : CallFits p start stop) (hs : m .src = m0 .src)
    (hz : ∀ o, o < 16 → m .zeros o = BitVec.ofInt 8 p.zp) {i : Nat} (hi : i < 4) (k : Nat) :
    int8 ((job p col m).entry i k) = p.wanted m0 k (col + i) := by
  unfold int8 PJob.entry PackCall.wanted
  show ((if k < p.rows then (job p col m).raw i k else BitVec.ofInt 8 p.zp) ^^^ BitVec.ofNat 8 p.inputXor).toInt = _
  by_cases hk : k < p.rows
  · rw [if_pos hk]
    unfold PJob.raw
    show (m (if p.fromZero col i then .zeros else .src) ((if p.fromZero col i then 0 else p.stride * col + p.stride * i) +
      (if p.fromZero col i then 0 else 16) * (k / 16) + k % 16) ^^^ _).toInt = _
    rw [fromZero_of hi]
    by_cases h : p.cols ≤ col + i
    · rw [if_neg (c := k < p.rows ∧ _) (by omega), ← zp_value hf]
      simp only [decide_eq_true h, if_true]
      rw [hz _ (by omega)]
    · rw [if_pos (c := k < p.rows ∧ _) ⟨hk, by omega⟩]
      simp only [decide_eq_false h, Bool.false_eq_true, if_false]
      rw [show p.stride * col + p.stride * i + 16 * (k / 16) + k % 16 = p.stride * (col + i) + k by rw [mul_add]; omega, hs]
      unfold PackCall.element PackCall.inputXor PackCall.shift
      cases p.unsigned
      · simp only [Bool.false_eq_true, if_false]
        rw [show BitVec.ofNat 8 0 = 0#8 from rfl, (xor_value _).2, sub_zero]
      · simp only [if_true]
        exact (xor_value _).1
  · rw [if_neg hk, if_neg (by omega), zp_value hf]

theorem job_sum (hf : CallFits p start stop) (hs : m .src = m0 .src)
    (hz : ∀ o, o < 16 → m .zeros o = BitVec.ofInt 8 p.zp) {i : Nat} (hi : i < 4) :
    colSum (job p col m) i = wrap32 (∑ k ∈ Finset.range (packedRows p), p.wanted m0 k (col + i)) := by
  unfold colSum
  congr 1
  refine Finset.sum_congr rfl (fun k _ => ?_)
  rw [wrap8_toInt]
  exact job_entry hf hs hz hi k

theorem spot_of {k i : Nat} (hi : i < 4) (ha : col % 4 = 0) : spot p k (col + i) = place (job p col m) i k := by
  unfold spot place
  show _ = p.packedStride * (8 * (col / 8)) + 4 * (col % 8) + 32 * (k / 4) + 4 * i + k % 4
  rw [show (col + i) / 8 = col / 8 by omega, show (col + i) % 8 = col % 8 + i by omega]
  ring

/-- Entries of different columns or rows are apart. -/
theorem spot_ne (hst : packedRows p ≤ p.packedStride) {c c' k k' : Nat} (hc : c / 4 < c' / 4) (hk : k < packedRows p) : spot p k c ≠ spot p k' c' := by
  unfold spot packedRows at *
  by_cases h : c / 8 = c' / 8
  · rw [h]; omega
  · have h2 : p.packedStride * (8 * (c / 8) + 8) ≤ p.packedStride * (8 * (c' / 8)) := Nat.mul_le_mul_left _ (by omega)
    rw [mul_add] at h2
    omega

/-- One more block. -/
theorem packed_step (hf : CallFits p start stop) (h : Packed p start col m0 m) (hsc : start ≤ col)
    (ha : col % 4 = 0) (hz : ∀ o, o < 16 → m .zeros o = BitVec.ofInt 8 p.zp) {s' : St} (hr : Result (job p col m) s') :
    Packed p start (col + 4) m0 s'.m := by
  have hs : m .src = m0 .src := h.rest _ (by decide) (by decide) (by decide)
  refine ⟨fun c h1 h2 k hk => ?_, fun hhs c h1 h2 b hb => ?_, fun o ho => ?_, fun o ho => ?_, fun r h1 h2 h3 => ?_⟩
  · by_cases hcc : c < col
    · rw [hr.restPacked _ (fun i hi k' hk' => ?_)]
      · exact h.entry c h1 hcc k hk
      · rw [← spot_of hi ha]
        exact spot_ne hf.stride (by omega) hk
    · obtain ⟨i, rfl⟩ := Nat.exists_eq_add_of_le (by omega : col ≤ c)
      rw [spot_of (m := m) (by omega) ha, ← job_entry (col := col) hf hs hz (by omega) k]
      exact congrArg int8 (hr.entry i (by omega) k hk)
  · by_cases hcc : c < col
    · rw [hr.restSums _ (fun a e => ?_)]
      · exact h.sum hhs c h1 hcc b hb
      · have e' : (if p.hasSums then some (4 * col) else none) = some a := e
        rw [hhs] at e'
        obtain rfl : 4 * col = a := by simpa using e'
        omega
    · obtain ⟨i, rfl⟩ := Nat.exists_eq_add_of_le (by omega : col ≤ c)
      rw [← job_sum (col := col) hf hs hz (by omega)]
      have e : (job p col m).sumsAt = some (4 * col) := by
        show (if p.hasSums then some (4 * col) else none) = _
        rw [hhs]; rfl
      rw [show 4 * (col + i) + b = 4 * col + 4 * i + b by omega]
      exact hr.sum _ e i (by omega) b hb
  · rw [hr.restPacked o (fun i hi k hk => ?_)]
    · exact h.restPacked o (fun c h1 h2 => ho c h1 (by omega))
    · rw [← spot_of hi ha]
      exact ho (col + i) (by omega) (by omega) k hk
  · rw [hr.restSums o (fun a e => ?_)]
    · exact h.restSums o (fun hhs => by have := ho hhs; omega)
    · have e' : (if p.hasSums then some (4 * col) else none) = some a := e
      cases hhs : p.hasSums
      · rw [hhs] at e'; cases e'
      · rw [hhs] at e'
        obtain rfl : 4 * col = a := by simpa using e'
        have := ho hhs
        omega
  · rw [hr.rest r h1 h2]
    exact h.rest r h1 h2 h3

theorem code_whole (p : PackCall) {j : PJob} (hf : Fits j) {s : St} (h : j.Start s) :
    ∃ s', Stops j.env (code p) s s' ∧ Result j s' := by
  unfold code
  cases p.a55
  · exact generic hf h
  · exact a55ish hf h

theorem loop_ok (hf : CallFits p start stop) (n : Nat) : ∀ col m, start ≤ col → col + 4 * n = stop →
    col % 4 = 0 → Packed p start col m0 m → (∀ o, o < 16 → m .zeros o = BitVec.ofInt 8 p.zp) →
    (∃ r, Loop p stop col m r) ∧ ∀ r, Loop p stop col m r → ∃ m', r = .ok m' ∧ Packed p start stop m0 m' := by
  induction n with
  | zero =>
    intro col m h1 h2 _ hp _
    obtain rfl : col = stop := by omega
    refine ⟨⟨_, .done le_rfl⟩, fun r hr => ?_⟩
    cases hr with
    | done h => exact ⟨m, rfl, hp⟩
    | overflow h => omega
    | fault h => omega
    | stuck h => omega
    | next h => omega
  | succ n ih =>
    intro col m h1 h2 h4 hp hz
    have hc : col < stop := by omega
    obtain ⟨o1, -⟩ := hf.offsets col hc
    obtain ⟨-, o2⟩ := hf.offsets (8 * (col / 8)) (by omega)
    have hb := block_ok (m := m) h4 o1 o2
    have hjf := job_fits (m := m) hf hc h4
    have whole : ∀ s, (job p col m).Start s → ∃ s', Stops (job p col m).env (code p) s s' ∧ Result (job p col m) s' :=
      fun s hs => code_whole p hjf hs
    have step : ∀ s', Result (job p col m) s' → (∃ r, Loop p stop (col + 4) s'.m r) ∧ ∀ r, Loop p stop (col + 4) s'.m r →
        ∃ m', r = .ok m' ∧ Packed p start stop m0 m' := by
      intro s' hr
      refine ih (col + 4) s'.m (by omega) (by omega) (by omega) (packed_step hf hp h1 h4 hz hr) (fun o ho => ?_)
      rw [hr.rest _ (by decide) (by decide)]
      exact hz o ho
    refine ⟨?_, fun r hr => ?_⟩
    · obtain ⟨s', w1, w2⟩ := whole _ (job p col m).begin_ok
      obtain ⟨⟨r, hr⟩, _⟩ := step s' w2
      exact ⟨r, .next hc hb (job p col m).begin_ok w1 w2.ok hr⟩
    · cases hr with
      | done h => omega
      | overflow h e => rw [hb] at e; cases e
      | fault h e hst hsp hbad =>
        rw [hb] at e; cases e
        obtain ⟨s2, w1, w2⟩ := whole _ hst
        rw [stops_unique hsp w1, w2.ok] at hbad
        cases hbad
      | stuck h e hst hno =>
        rw [hb] at e; cases e
        obtain ⟨s2, w1, _⟩ := whole _ hst
        exact absurd w1 (hno s2)
      | next h e hst hsp hok hl =>
        rw [hb] at e; cases e
        obtain ⟨s2, w1, w2⟩ := whole _ hst
        rw [stops_unique hsp w1] at hl
        exact (step s2 w2).2 _ hl

end
end Ruy.Neon.DPack

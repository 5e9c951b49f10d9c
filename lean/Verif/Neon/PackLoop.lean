import Verif.Neon.PackVariants
import Verif.Neon.PackCall
/-
The loop over blocks of four columns: lemmas for property C55.
-/
namespace Ruy.Neon
open Simd (wrap8 wrap32)

/-- A state at the start of the statement; registers that are not operands hold 0. -/
def PJob.begin (j : PJob) : St where
  x r := match r with
    | 48 => .ptr (j.reg 0) (j.off 0)
    | 49 => .ptr (j.reg 1) (j.off 1)
    | 50 => .ptr (j.reg 2) (j.off 2)
    | 51 => .ptr (j.reg 3) (j.off 3)
    | 52 => .ptr .packed j.packedBase
    | 53 => match j.sumsAt with | some o => .ptr .sums o | none => .int 0
    | 54 => .int (j.inc 0)
    | 55 => .int (j.inc 1)
    | 56 => .int (j.inc 2)
    | 57 => .int (j.inc 3)
    | 58 => .int j.rows
    | 59 => .int (Job.u32 j.zp)
    | 60 => .int j.xor
    | _ => .int 0
  v := fun _ _ => 0
  m := j.m
  lt := false
  z := false
  bad := false

theorem PJob.begin_ok (j : PJob) : j.Start j.begin := by
  refine ⟨fun c hc => ?_, rfl, rfl, fun c hc => ?_, rfl, rfl, rfl, rfl, rfl⟩ <;> interval_cases c <;> rfl

namespace PackCall

/-- The function chosen, as a variant. -/
def variant (p : PackCall) : PJob.Variant := if p.a55 then PJob.a55ish else PJob.generic

theorem variant_code (p : PackCall) : p.variant.code = p.code := by
  unfold variant code
  cases p.a55 <;> rfl

/-- The arguments for the block at `col`. -/
def job (p : PackCall) (col : Nat) (m : Region → Nat → Byte) : PJob :=
  { rows := p.rows, zp := p.zp, xor := p.inputXor
    reg := fun i => if p.fromZero col i then .zeros else .src
    off := fun i => if p.fromZero col i then 0 else p.stride * col + p.stride * i
    inc := fun i => if p.fromZero col i then 0 else 16
    packedBase := p.packedStride * col
    sumsAt := if p.hasSums then some (4 * col) else none
    size := fun r => if r = .zeros then 16 else p.size r
    m := m }

theorem block_ok {p : PackCall} {col : Nat} {m : Region → Nat → Byte} (h1 : p.stride * col < 2 ^ 31)
    (h2 : p.packedStride * col < 2 ^ 31) : p.block col m = .ok (p.job col m) := by
  unfold block C.int
  rw [if_pos h1, if_pos h2]
  rfl

theorem fromZero_iff {p : PackCall} {col i : Nat} (hi : i < 4) : p.fromZero col i = true ↔ p.cols ≤ col + i := by
  unfold fromZero
  rw [Bool.and_eq_true, decide_eq_true_eq, decide_eq_true_eq]
  omega

theorem fromZero_of {p : PackCall} {col i : Nat} (hi : i < 4) : p.fromZero col i = decide (p.cols ≤ col + i) := by
  rw [Bool.eq_iff_iff, decide_eq_true_eq]; exact fromZero_iff hi

section
variable {p : PackCall} {start stop col : Nat} {m m0 : Region → Nat → Byte}

theorem job_fits (hf : p.Fits start stop) (hc : col + 4 ≤ stop) : (p.job col m).Fits := by
  refine ⟨hf.rows, fun c hc => ?_, fun c hc k hk => ?_, ?_, fun o ho => ?_⟩
  · unfold job
    dsimp only
    split <;> decide
  · unfold job at *
    dsimp only at *
    rw [fromZero_of hc]
    by_cases h : p.cols ≤ col + c
    · simp only [decide_eq_true h, if_true]
      omega
    · simp only [decide_eq_false h, Bool.false_eq_true, if_false, reduceCtorEq]
      have := hf.src (col + c) (by omega) k hk
      rw [mul_add] at this
      omega
  · show p.packedStride * col + 64 * ((p.rows + 15) / 16) ≤ p.size .packed
    have h1 := hf.stride
    have h2 := hf.packed
    have h3 : p.packedStride * (col + 4) ≤ p.packedStride * stop := Nat.mul_le_mul_left _ hc
    unfold packedRows at h1
    rw [mul_add] at h3
    omega
  · have e : (if p.hasSums then some (4 * col) else none) = some o := ho
    cases hs : p.hasSums
    · rw [hs] at e; cases e
    · rw [hs] at e
      obtain rfl : 4 * col = o := by simpa using e
      have := hf.sums hs
      show 4 * col + 16 ≤ p.size .sums
      omega

theorem xor_value (b : Byte) : ((b ^^^ 0x80#8).toInt = (b.toNat : Int) - 128) ∧ (b ^^^ 0#8) = b := by
  revert b; decide

theorem zp_value (hf : p.Fits start stop) :
    (BitVec.ofInt 8 p.zp ^^^ BitVec.ofNat 8 p.inputXor).toInt = p.zp - p.shift := by
  have h := hf.zp
  unfold inputXor shift
  cases hu : p.unsigned
  · rw [hu] at h
    simp only [Bool.false_eq_true, if_false] at h ⊢
    rw [show BitVec.ofNat 8 0 = 0#8 from rfl, (xor_value _).2, BitVec.toInt_ofInt]
    unfold Int.bmod
    norm_num
    omega
  · rw [hu] at h
    simp only [if_true] at h ⊢
    rw [show BitVec.ofNat 8 0x80 = 0x80#8 from rfl, (xor_value _).1, BitVec.toNat_ofInt]
    norm_num
    omega

/-- What the `asm` statement stores is what belongs there. -/
theorem job_entry (hf : p.Fits start stop) (hs : m .src = m0 .src)
    (hz : ∀ o, o < 16 → m .zeros o = BitVec.ofInt 8 p.zp) {i : Nat} (hi : i < 4) (k : Nat) :
    int8 ((p.job col m).entry i k) = p.wanted m0 k (col + i) := by
  unfold int8 PJob.entry wanted
  show ((if k < p.rows then (p.job col m).raw i k else BitVec.ofInt 8 p.zp) ^^^ BitVec.ofNat 8 p.inputXor).toInt = _
  by_cases hk : k < p.rows
  · rw [if_pos hk]
    unfold PJob.raw
    show (m (if p.fromZero col i then .zeros else .src) ((if p.fromZero col i then 0 else p.stride * col + p.stride * i) +
      (if p.fromZero col i then 0 else 16) * (k / 16) + k % 16) ^^^ _).toInt = _
    rw [fromZero_of hi]
    by_cases h : p.cols ≤ col + i
    · rw [if_neg (c := k < p.rows ∧ _) (by omega), ← zp_value hf]
      simp only [decide_eq_true h, if_true]
      rw [hz _ (by omega)]
    · rw [if_pos (c := k < p.rows ∧ _) ⟨hk, by omega⟩]
      simp only [decide_eq_false h, Bool.false_eq_true, if_false]
      rw [show p.stride * col + p.stride * i + 16 * (k / 16) + k % 16 = p.stride * (col + i) + k by rw [mul_add]; omega, hs]
      unfold element inputXor shift
      cases p.unsigned
      · simp only [Bool.false_eq_true, if_false]
        rw [show BitVec.ofNat 8 0 = 0#8 from rfl, (xor_value _).2, sub_zero]
      · simp only [if_true]
        exact (xor_value _).1
  · rw [if_neg hk, if_neg (by omega), zp_value hf]

theorem wrap8_toInt (b : Byte) : wrap8 b.toNat = b.toInt := by
  revert b; decide

theorem job_sum (hf : p.Fits start stop) (hs : m .src = m0 .src)
    (hz : ∀ o, o < 16 → m .zeros o = BitVec.ofInt 8 p.zp) {i : Nat} (hi : i < 4) :
    (p.job col m).colSum i = wrap32 (∑ k ∈ Finset.range p.packedRows, p.wanted m0 k (col + i)) := by
  unfold PJob.colSum
  congr 1
  refine Finset.sum_congr rfl (fun k _ => ?_)
  rw [wrap8_toInt]
  exact job_entry hf hs hz hi k

theorem place_of {k i : Nat} (hi : i < 4) (ha : col % 4 = 0) :
    p.place k (col + i) = p.packedStride * col + 64 * (k / 16) + 16 * i + k % 16 := by
  unfold place
  rw [show 4 * ((col + i) / 4) = col by omega, show (col + i) % 4 = i by omega]

theorem place_range {k i : Nat} (hi : i < 4) (ha : col % 4 = 0) (hk : k < p.packedRows) :
    p.packedStride * col ≤ p.place k (col + i) ∧ p.place k (col + i) < p.packedStride * col + 64 * ((p.rows + 15) / 16) := by
  rw [place_of hi ha]
  unfold packedRows at hk
  omega

/-- One more block. -/
theorem packed_step (hf : p.Fits start stop) (h : p.Packed start col m0 m) (hsc : start ≤ col)
    (ha : col % 4 = 0) (hz : ∀ o, o < 16 → m .zeros o = BitVec.ofInt 8 p.zp) {s' : St} (hr : PJob.Result (p.job col m) s') :
    p.Packed start (col + 4) m0 s'.m := by
  have hs : m .src = m0 .src := h.rest _ (by decide) (by decide) (by decide)
  have hst := hf.stride
  unfold packedRows at hst
  have below : ∀ c k, c < col → k < p.packedRows → p.place k c < p.packedStride * col := by
    intro c k hc' hk
    have h1 := place_range (p := p) (col := 4 * (c / 4)) (i := c % 4) (k := k) (by omega) (by omega) hk
    rw [show 4 * (c / 4) + c % 4 = c by omega] at h1
    have h2 : p.packedStride * (4 * (c / 4) + 4) ≤ p.packedStride * col := Nat.mul_le_mul_left _ (by omega)
    rw [mul_add] at h2
    omega
  refine ⟨fun c h1 h2 k hk => ?_, fun hhs c h1 h2 b hb => ?_, fun o ho => ?_, fun o ho => ?_, fun r h1 h2 h3 => ?_⟩
  · by_cases hcc : c < col
    · rw [hr.restPacked _ (Or.inl (below c k hcc hk))]
      exact h.entry c h1 hcc k hk
    · obtain ⟨i, rfl⟩ := Nat.exists_eq_add_of_le (by omega : col ≤ c)
      rw [place_of (by omega) ha, ← job_entry (col := col) hf hs hz (by omega) k]
      exact congrArg int8 (hr.entry i (by omega) k hk)
  · by_cases hcc : c < col
    · rw [hr.restSums _ (fun a e => ?_)]
      · exact h.sum hhs c h1 hcc b hb
      · have e' : (if p.hasSums then some (4 * col) else none) = some a := e
        rw [hhs] at e'
        obtain rfl : 4 * col = a := by simpa using e'
        omega
    · obtain ⟨i, rfl⟩ := Nat.exists_eq_add_of_le (by omega : col ≤ c)
      rw [← job_sum (col := col) hf hs hz (by omega)]
      have e : (p.job col m).sumsAt = some (4 * col) := by
        show (if p.hasSums then some (4 * col) else none) = _
        rw [hhs]; rfl
      rw [show 4 * (col + i) + b = 4 * col + 4 * i + b by omega]
      exact hr.sum _ e i (by omega) b hb
  · rw [hr.restPacked o ?_]
    · exact h.restPacked o (fun c h1 h2 => ho c h1 (by omega))
    · by_contra hcon
      have e : (p.job col m).packedBase = p.packedStride * col := rfl
      have e' : (p.job col m).chunks = (p.rows + 15) / 16 := rfl
      rw [e, e'] at hcon
      obtain ⟨d, hd⟩ := Nat.exists_eq_add_of_le (by omega : p.packedStride * col ≤ o)
      refine ho (col + d % 64 / 16) (by omega) (by omega) (16 * (d / 64) + d % 16) ?_ ?_
      · unfold packedRows; omega
      · rw [place_of (by omega) ha]
        omega
  · rw [hr.restSums o (fun a e => ?_)]
    · exact h.restSums o (fun hhs => by have := ho hhs; omega)
    · have e' : (if p.hasSums then some (4 * col) else none) = some a := e
      cases hhs : p.hasSums
      · rw [hhs] at e'; cases e'
      · rw [hhs] at e'
        obtain rfl : 4 * col = a := by simpa using e'
        have := ho hhs
        omega
  · rw [hr.rest r h1 h2]
    exact h.rest r h1 h2 h3

theorem loop_ok (hf : p.Fits start stop) (n : Nat) : ∀ col m, start ≤ col → col + 4 * n = stop →
    col % 4 = 0 → p.Packed start col m0 m → (∀ o, o < 16 → m .zeros o = BitVec.ofInt 8 p.zp) →
    (∃ r, Loop p stop col m r) ∧ ∀ r, Loop p stop col m r → ∃ m', r = .ok m' ∧ p.Packed start stop m0 m' := by
  induction n with
  | zero =>
    intro col m h1 h2 _ hp _
    obtain rfl : col = stop := by omega
    refine ⟨⟨_, .done le_rfl⟩, fun r hr => ?_⟩
    cases hr with
    | done h => exact ⟨m, rfl, hp⟩
    | overflow h => omega
    | fault h => omega
    | stuck h => omega
    | next h => omega
  | succ n ih =>
    intro col m h1 h2 h4 hp hz
    have hc : col < stop := by omega
    have hc4 : col + 4 ≤ stop := by omega
    obtain ⟨o1, o2⟩ := hf.offsets col hc
    have hb := block_ok (m := m) o1 o2
    have hjf := job_fits (m := m) hf hc4
    have whole : ∀ s, (p.job col m).Start s → ∃ s', Stops (p.job col m).env p.code s s' ∧ PJob.Result (p.job col m) s' := by
      intro s hs
      rw [← variant_code]
      exact p.variant.whole hjf hs
    have step : ∀ s', PJob.Result (p.job col m) s' → (∃ r, Loop p stop (col + 4) s'.m r) ∧ ∀ r, Loop p stop (col + 4) s'.m r →
        ∃ m', r = .ok m' ∧ p.Packed start stop m0 m' := by
      intro s' hr
      refine ih (col + 4) s'.m (by omega) (by omega) (by omega) (packed_step hf hp h1 h4 hz hr) (fun o ho => ?_)
      rw [hr.rest _ (by decide) (by decide)]
      exact hz o ho
    refine ⟨?_, fun r hr => ?_⟩
    · obtain ⟨s', w1, w2⟩ := whole _ (p.job col m).begin_ok
      obtain ⟨⟨r, hr⟩, _⟩ := step s' w2
      exact ⟨r, .next hc hb (p.job col m).begin_ok w1 w2.ok hr⟩
    · cases hr with
      | done h => omega
      | overflow h e => rw [hb] at e; cases e
      | fault h e hst hsp hbad =>
        rw [hb] at e; cases e
        obtain ⟨s2, w1, w2⟩ := whole _ hst
        rw [stops_unique hsp w1, w2.ok] at hbad
        cases hbad
      | stuck h e hst hno =>
        rw [hb] at e; cases e
        obtain ⟨s2, w1, _⟩ := whole _ hst
        exact absurd w1 (hno s2)
      | next h e hst hsp hok hl =>
        rw [hb] at e; cases e
        obtain ⟨s2, w1, w2⟩ := whole _ hst
        rw [stops_unique hsp w1] at hl
        exact (step s2 w2).2 _ hl

end
end PackCall
end Ruy.Neon

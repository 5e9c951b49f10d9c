import Verif.Arm8.PackTail
import Verif.Arm8.PackCall
import Verif.Neon.PackLoop
/-
The loops over blocks of columns: lemmas for property C84.
-/
namespace Ruy.Arm8.Pack
open Ruy.Neon (PJob PackCall St Val Region Byte byteOf)
open Ruy.Neon.PackCall (int8 xor_value wrap8_toInt)
open Simd (wrap8 wrap32)

/-- A state at the start of the statement; registers that are not operands hold 0. -/
def begin' (j : PJob) : St where
  x r := match r with
    | 48 => .ptr (j.reg 0) (j.off 0)
    | 49 => .ptr (j.reg 1) (j.off 1)
    | 50 => .ptr (j.reg 2) (j.off 2)
    | 51 => .ptr (j.reg 3) (j.off 3)
    | 52 => .ptr .packed j.packedBase
    | 54 => .int (j.inc 0)
    | 55 => .int (j.inc 1)
    | 56 => .int (j.inc 2)
    | 57 => .int (j.inc 3)
    | _ => .int 0
  v := fun _ _ => 0
  m := j.m
  lt := false
  z := false
  bad := false

theorem begin_ok (wide : Bool) (j : PJob) : Start wide j (begin' j) := by
  have hw : width wide ≤ 4 := by cases wide <;> decide
  refine ⟨fun c hc => ?_, rfl, fun c hc => ?_, rfl, rfl⟩ <;> (have : c < 4 := by omega) <;> interval_cases c <;> rfl

/-- The arguments for the block at `col`. -/
def job (wide : Bool) (p : PackCall) (col : Nat) (m : Region → Nat → Byte) : PJob :=
  { rows := p.rows, zp := p.zp, xor := p.inputXor
    reg := fun i => if fromZero wide p col i then .zeros else .src
    off := fun i => if fromZero wide p col i then 0 else p.stride * col + p.stride * i
    inc := fun i => if fromZero wide p col i then 0 else 16
    packedBase := p.packedStride * col
    sumsAt := if p.hasSums then some (4 * col) else none
    size := fun r => if r = .zeros then 16 else p.size r
    m := m }

theorem block_ok {wide : Bool} {p : PackCall} {col : Nat} {m : Region → Nat → Byte} (h1 : p.stride * col < 2 ^ 31)
    (h2 : p.packedStride * col < 2 ^ 31) : block wide p col m = .ok (job wide p col m) := by
  unfold block C.int
  rw [if_pos h1, if_pos h2]
  rfl

theorem fromZero_of {wide : Bool} {p : PackCall} {col i : Nat} (hi : i < width wide) :
    fromZero wide p col i = decide (p.cols ≤ col + i) := by
  rw [Bool.eq_iff_iff, decide_eq_true_eq]
  unfold fromZero
  rw [Bool.and_eq_true, decide_eq_true_eq, decide_eq_true_eq]
  cases wide
  · have : i < 2 := hi
    simp only [Bool.false_eq_true, if_false]; omega
  · have : i < 4 := hi
    simp only [if_true]; omega

section
variable {wide : Bool} {p : PackCall} {start stop col : Nat} {m m0 : Region → Nat → Byte}

theorem job_fits (hf : CallFits (width wide) p start stop) (hc : col + width wide ≤ stop) : Fits wide (job wide p col m) := by
  refine ⟨hf.rows, fun c hc => ?_, fun c _ => ?_, fun c hc k hk => ?_, ?_, fun o ho => ?_⟩
  · unfold job
    dsimp only
    split <;> decide
  · unfold job
    dsimp only
    split <;> decide
  · unfold job at *
    dsimp only at *
    rw [fromZero_of hc]
    by_cases h : p.cols ≤ col + c
    · simp only [decide_eq_true h, if_true]
      omega
    · simp only [decide_eq_false h, Bool.false_eq_true, if_false, reduceCtorEq]
      have := hf.src (col + c) (by omega) k hk
      rw [mul_add] at this
      omega
  · show p.packedStride * col + 16 * width wide * ((p.rows + 15) / 16) ≤ p.size .packed
    have h1 := hf.stride
    have h2 := hf.packed
    have h3 : p.packedStride * (col + width wide) ≤ p.packedStride * stop := Nat.mul_le_mul_left _ hc
    unfold PackCall.packedRows at h1
    rw [mul_add] at h3
    have h4 : 16 * ((p.rows + 15) / 16) * width wide ≤ p.packedStride * width wide := Nat.mul_le_mul_right _ h1
    have h5 : 16 * width wide * ((p.rows + 15) / 16) = 16 * ((p.rows + 15) / 16) * width wide := by ring
    omega
  · have e : (if p.hasSums then some (4 * col) else none) = some o := ho
    cases hs : p.hasSums
    · rw [hs] at e; cases e
    · rw [hs] at e
      obtain rfl : 4 * col = o := by simpa using e
      have := hf.sums hs
      show 4 * col + 4 * width wide ≤ p.size .sums
      omega

theorem zp_value {n : Nat} (hf : CallFits n p start stop) :
    (BitVec.ofInt 8 p.zp ^^^ BitVec.ofNat 8 p.inputXor).toInt = p.zp - p.shift := by
  have h := hf.zp
  unfold PackCall.inputXor PackCall.shift
  cases hu : p.unsigned
  · rw [hu] at h
    simp only [Bool.false_eq_true, if_false] at h ⊢
    rw [show BitVec.ofNat 8 0 = 0#8 from rfl, (xor_value _).2, BitVec.toInt_ofInt]
    unfold Int.bmod
    norm_num
    omega
  · rw [hu] at h
    simp only [if_true] at h ⊢
    rw [show BitVec.ofNat 8 0x80 = 0x80#8 from rfl, (xor_value _).1, BitVec.toNat_ofInt]
    norm_num
    omega

/-- What the `asm` statement stores is what belongs there. -/
theorem job_entry {n : Nat} (hf : CallFits n p start stop) (hs : m .src = m0 .src)
    (hz : ∀ o, o < 16 → m .zeros o = BitVec.ofInt 8 p.zp) {i : Nat} (hi : i < width wide) (k : Nat) :
    int8 ((job wide p col m).entry i k) = p.wanted m0 k (col + i) := by
  unfold int8 PJob.entry PackCall.wanted
  show ((if k < p.rows then (job wide p col m).raw i k else BitVec.ofInt 8 p.zp) ^^^ BitVec.ofNat 8 p.inputXor).toInt = _
  by_cases hk : k < p.rows
  · rw [if_pos hk]
    unfold PJob.raw
    show (m (if fromZero wide p col i then .zeros else .src) ((if fromZero wide p col i then 0 else p.stride * col + p.stride * i) +
      (if fromZero wide p col i then 0 else 16) * (k / 16) + k % 16) ^^^ _).toInt = _
    rw [fromZero_of hi]
    by_cases h : p.cols ≤ col + i
    · rw [if_neg (c := k < p.rows ∧ _) (by omega), ← zp_value hf]
      simp only [decide_eq_true h, if_true]
      rw [hz _ (by omega)]
    · rw [if_pos (c := k < p.rows ∧ _) ⟨hk, by omega⟩]
      simp only [decide_eq_false h, Bool.false_eq_true, if_false]
      rw [show p.stride * col + p.stride * i + 16 * (k / 16) + k % 16 = p.stride * (col + i) + k by rw [mul_add]; omega, hs]
      unfold PackCall.element PackCall.inputXor PackCall.shift
      cases p.unsigned
      · simp only [Bool.false_eq_true, if_false]
        rw [show BitVec.ofNat 8 0 = 0#8 from rfl, (xor_value _).2, sub_zero]
      · simp only [if_true]
        exact (xor_value _).1
  · rw [if_neg hk, if_neg (by omega), zp_value hf]

theorem job_sum {n : Nat} (hf : CallFits n p start stop) (hs : m .src = m0 .src)
    (hz : ∀ o, o < 16 → m .zeros o = BitVec.ofInt 8 p.zp) {i : Nat} (hi : i < width wide) :
    (job wide p col m).colSum i = wrap32 (∑ k ∈ Finset.range p.packedRows, p.wanted m0 k (col + i)) := by
  unfold PJob.colSum
  congr 1
  refine Finset.sum_congr rfl (fun k _ => ?_)
  rw [wrap8_toInt]
  exact job_entry hf hs hz hi k

theorem place_of {n k i : Nat} (hn : n = 4 ∨ n = 2) (hi : i < n) (ha : col % n = 0) :
    place n p k (col + i) = p.packedStride * col + 16 * n * (k / 16) + 16 * i + k % 16 := by
  unfold place
  rcases hn with rfl | rfl
  · rw [show 4 * ((col + i) / 4) = col by omega, show (col + i) % 4 = i by omega]
  · rw [show 2 * ((col + i) / 2) = col by omega, show (col + i) % 2 = i by omega]

theorem place_range {n k i : Nat} (hn : n = 4 ∨ n = 2) (hi : i < n) (ha : col % n = 0) (hk : k < p.packedRows) :
    p.packedStride * col ≤ place n p k (col + i) ∧
      place n p k (col + i) < p.packedStride * col + 16 * n * ((p.rows + 15) / 16) := by
  rw [place_of hn hi ha]
  unfold PackCall.packedRows at hk
  rcases hn with rfl | rfl <;> omega

theorem below {n c k : Nat} (hn : n = 4 ∨ n = 2) (ha : col % n = 0) (hst : p.packedRows ≤ p.packedStride) (hc : c < col)
    (hk : k < p.packedRows) : place n p k c < p.packedStride * col := by
  have h1 := place_range (p := p) (n := n) (col := n * (c / n)) (i := c % n) (k := k) hn
    (Nat.mod_lt _ (by omega)) (Nat.mul_mod_right _ _) hk
  rw [Nat.div_add_mod] at h1
  have h2 : p.packedStride * (n * (c / n) + n) ≤ p.packedStride * col :=
    Nat.mul_le_mul_left _ (by rcases hn with rfl | rfl <;> omega)
  rw [mul_add] at h2
  have h3 : 16 * ((p.rows + 15) / 16) * n ≤ p.packedStride * n := Nat.mul_le_mul_right _ hst
  have h4 : 16 * n * ((p.rows + 15) / 16) = 16 * ((p.rows + 15) / 16) * n := by ring
  omega

/-- Every byte of the block at `col` is some entry. -/
theorem covered {n d : Nat} (hn : n = 4 ∨ n = 2) (ha : col % n = 0) (hd : d < 16 * n * ((p.rows + 15) / 16)) :
    ∃ i k, i < n ∧ k < p.packedRows ∧ p.packedStride * col + d = place n p k (col + i) := by
  rcases hn with rfl | rfl
  · refine ⟨d % 64 / 16, 16 * (d / 64) + d % 16, by omega, ?_, ?_⟩
    · unfold PackCall.packedRows; omega
    · rw [place_of (Or.inl rfl) (by omega) ha]; omega
  · refine ⟨d % 32 / 16, 16 * (d / 32) + d % 16, by omega, ?_, ?_⟩
    · unfold PackCall.packedRows; omega
    · rw [place_of (Or.inr rfl) (by omega) ha]; omega

theorem width_or (wide : Bool) : width wide = 4 ∨ width wide = 2 := by cases wide <;> decide

/-- One more block. -/
theorem packed_step (hf : CallFits (width wide) p start stop) (h : Packed (width wide) p start col m0 m) (hsc : start ≤ col)
    (ha : col % width wide = 0) (hz : ∀ o, o < 16 → m .zeros o = BitVec.ofInt 8 p.zp) {s' : St}
    (hr : Result wide (job wide p col m) s') : Packed (width wide) p start (col + width wide) m0 s'.m := by
  have hs : m .src = m0 .src := h.rest _ (by decide) (by decide) (by decide)
  have hn := width_or wide
  refine ⟨fun c h1 h2 k hk => ?_, fun hhs c h1 h2 b hb => ?_, fun o ho => ?_, fun o ho => ?_, fun r h1 h2 h3 => ?_⟩
  · by_cases hcc : c < col
    · rw [hr.restPacked _ (Or.inl (below hn ha hf.stride hcc hk))]
      exact h.entry c h1 hcc k hk
    · obtain ⟨i, rfl⟩ := Nat.exists_eq_add_of_le (by omega : col ≤ c)
      rw [place_of hn (by omega) ha, ← job_entry (wide := wide) (col := col) hf hs hz (by omega) k]
      exact congrArg int8 (hr.entry i (by omega) k hk)
  · by_cases hcc : c < col
    · rw [hr.restSums _ (fun a e => ?_)]
      · exact h.sum hhs c h1 hcc b hb
      · have e' : (if p.hasSums then some (4 * col) else none) = some a := e
        rw [hhs] at e'
        obtain rfl : 4 * col = a := by simpa using e'
        omega
    · obtain ⟨i, rfl⟩ := Nat.exists_eq_add_of_le (by omega : col ≤ c)
      rw [← job_sum (wide := wide) (col := col) hf hs hz (by omega)]
      have e : (job wide p col m).sumsAt = some (4 * col) := by
        show (if p.hasSums then some (4 * col) else none) = _
        rw [hhs]; rfl
      rw [show 4 * (col + i) + b = 4 * col + 4 * i + b by omega]
      exact hr.sum _ e i (by omega) b hb
  · rw [hr.restPacked o ?_]
    · exact h.restPacked o (fun c h1 h2 => ho c h1 (by omega))
    · by_contra hcon
      have e : (job wide p col m).packedBase = p.packedStride * col := rfl
      have e' : (job wide p col m).chunks = (p.rows + 15) / 16 := rfl
      rw [e, e'] at hcon
      obtain ⟨d, rfl⟩ := Nat.exists_eq_add_of_le (by omega : p.packedStride * col ≤ o)
      obtain ⟨i, k, hi, hk, e⟩ := covered (p := p) (col := col) (d := d) hn ha (by omega)
      exact ho (col + i) (by omega) (by omega) k hk e
  · rw [hr.restSums o (fun a e => ?_)]
    · exact h.restSums o (fun hhs => by have := ho hhs; omega)
    · have e' : (if p.hasSums then some (4 * col) else none) = some a := e
      cases hhs : p.hasSums
      · rw [hhs] at e'; cases e'
      · rw [hhs] at e'
        obtain rfl : 4 * col = a := by simpa using e'
        have := ho hhs
        omega
  · rw [hr.rest r h1 h2]
    exact h.rest r h1 h2 h3

theorem loop_ok (hf : CallFits (width wide) p start stop) (n : Nat) : ∀ col m, start ≤ col → col + width wide * n = stop →
    col % width wide = 0 → Packed (width wide) p start col m0 m → (∀ o, o < 16 → m .zeros o = BitVec.ofInt 8 p.zp) →
    (∃ r, Loop wide p stop col m r) ∧ ∀ r, Loop wide p stop col m r → ∃ m', r = .ok m' ∧ Packed (width wide) p start stop m0 m' := by
  have hn := width_or wide
  induction n with
  | zero =>
    intro col m h1 h2 _ hp _
    obtain rfl : col = stop := by omega
    refine ⟨⟨_, .done le_rfl⟩, fun r hr => ?_⟩
    cases hr with
    | done h => exact ⟨m, rfl, hp⟩
    | overflow h => omega
    | fault h => omega
    | stuck h => omega
    | next h => omega
  | succ n ih =>
    intro col m h1 h2 h4 hp hz
    rw [Nat.mul_succ] at h2
    have hc : col < stop := by omega
    have hc4 : col + width wide ≤ stop := by omega
    obtain ⟨o1, o2⟩ := hf.offsets col hc h4
    have hb := block_ok (wide := wide) (m := m) o1 o2
    have hjf := job_fits (m := m) hf hc4
    have wh : ∀ s, Start wide (job wide p col m) s →
        ∃ s', Stops (env (job wide p col m)) (code wide) s s' ∧ Result wide (job wide p col m) s' := by
      intro s hs
      obtain ⟨s', a, b, _⟩ := whole hjf hs
      exact ⟨s', a, b⟩
    have step : ∀ s', Result wide (job wide p col m) s' → (∃ r, Loop wide p stop (col + width wide) s'.m r) ∧
        ∀ r, Loop wide p stop (col + width wide) s'.m r → ∃ m', r = .ok m' ∧ Packed (width wide) p start stop m0 m' := by
      intro s' hr
      refine ih (col + width wide) s'.m (by omega) (by omega) (by rw [Nat.add_mod_right]; exact h4)
        (packed_step hf hp h1 h4 hz hr) (fun o ho => ?_)
      rw [hr.rest _ (by decide) (by decide)]
      exact hz o ho
    refine ⟨?_, fun r hr => ?_⟩
    · obtain ⟨s', w1, w2⟩ := wh _ (begin_ok wide (job wide p col m))
      obtain ⟨⟨r, hr⟩, _⟩ := step s' w2
      exact ⟨r, .next hc hb (begin_ok wide (job wide p col m)) w1 w2.ok hr⟩
    · cases hr with
      | done h => omega
      | overflow h e => rw [hb] at e; cases e
      | fault h e hst hsp hbad =>
        rw [hb] at e; cases e
        obtain ⟨s2, w1, w2⟩ := wh _ hst
        rw [stops_unique hsp w1, w2.ok] at hbad
        cases hbad
      | stuck h e hst hno =>
        rw [hb] at e; cases e
        obtain ⟨s2, w1, _⟩ := wh _ hst
        exact absurd w1 (hno s2)
      | next h e hst hsp hok hl =>
        rw [hb] at e; cases e
        obtain ⟨s2, w1, w2⟩ := wh _ hst
        rw [stops_unique hsp w1] at hl
        exact (step s2 w2).2 _ hl

end
end Ruy.Arm8.Pack

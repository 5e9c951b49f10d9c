import Verif.Neon.DRowRun
import Verif.Neon.DRowCall
import Verif.Neon.PackLoop
/-
The loop over groups of four rows: lemmas for property C67.
-/
namespace Ruy.Neon

/-- A state at the start of the `asm` statement. -/
def RJob.begin (j : RJob) : St where
  x := fun r => if 48 ≤ r ∧ r < 52 then .ptr (j.reg (r - 48)) (j.off (r - 48)) else if r = packedPtr then .ptr .packed j.packedBase
    else if r = sumsPtr then .ptr .sums j.sumsBase else if 54 ≤ r ∧ r < 58 then .int (j.inc (r - 54))
    else if r = rRows then .int j.cols else if r = rZeroPoint then .int (Job.u32 j.zp) else if r = rInputXor then .int j.xor
    else .int j.stride
  v := fun _ _ => 0
  m := j.m
  z := false
  lt := false
  bad := false

theorem RJob.begin_ok (j : RJob) : j.Start j.begin := by
  refine ⟨fun c hc => ?_, rfl, rfl, fun c hc => ?_, rfl, rfl, rfl, rfl, rfl, rfl⟩ <;> interval_cases c <;> rfl

namespace DRowCall
open Simd (wrap8 wrap32)
open PackCall (xor_value wrap8_toInt int8)

theorem fromZero_of (p : DRowCall) {row i : Nat} (hi : i < 4) : p.fromZero row i = decide (p.rows ≤ row + i) := by
  unfold fromZero
  by_cases h : p.rows ≤ row + i
  · rw [decide_eq_true h, decide_eq_true (show p.rows ≤ row + 3 by omega)]; rfl
  · rw [decide_eq_false h, Bool.and_false]

/-- The arguments for the group at `row`. -/
def job (p : DRowCall) (start stop row : Nat) (m : Region → Nat → Byte) : RJob :=
  { cols := min stop p.cols - start, zp := p.zp, xor := p.inputXor
    reg := fun i => if p.fromZero row i then .zeros else .src
    off := fun i => if p.fromZero row i then 0 else p.stride * row + start + p.stride * i
    inc := fun i => if p.fromZero row i then 0 else 8
    packedBase := p.packedStride * start + 8 * row
    stride := p.packedStride
    sumsBase := 4 * start
    size := fun r => if r = .zeros then 8 else p.size r
    m := m }

section
variable {p : DRowCall} {start stop row : Nat} {m m0 : Region → Nat → Byte}

theorem u32_sub {a b : Nat} (h : b ≤ a) (h2 : a < 2147483648) : Job.u32 ((a : Int) - b) = a - b := by
  unfold Job.u32
  omega

theorem group_ok (hf : p.Fits start stop) (hr : row < p.packedRows) : p.group start stop row m = .ok (p.job start stop row m) := by
  have h1 := hf.offsets.1 row hr
  have h2 := hf.offsets.2
  have h3 := hf.depth
  have h4 := hf.cols
  have h5 := hf.order
  have h6 := hf.aligned
  unfold group C.int
  rw [if_pos h1, if_pos h2, if_pos (by omega), show min (stop : Int) p.cols = ((min stop p.cols : Nat) : Int) by omega,
    u32_sub (by omega) (by omega)]
  rfl

theorem blocks_eq (hf : p.Fits start stop) : (p.job start stop row m).blocks = (stop - start) / 8 := by
  have h5 := hf.order
  have h6 := hf.aligned
  unfold RJob.blocks
  show (min stop p.cols - start + 7) / 8 = _
  omega

theorem job_fits (hf : p.Fits start stop) (hr : row < p.packedRows) (ha : row % 4 = 0) : (p.job start stop row m).Fits := by
  have h5 := hf.order
  have h6 := hf.aligned
  have h4 := hf.cols
  have h7 := hf.depth
  have h8 := hf.stride
  refine ⟨?_, fun r hr => ?_, fun r hr c hc => ?_, fun r hr => ?_, ?_, fun n hn => ?_, ?_⟩
  · show 0 < min stop p.cols - start ∧ min stop p.cols - start < 2 ^ 31
    omega
  · unfold job
    dsimp only
    split <;> decide
  · unfold job at *
    dsimp only at *
    rw [fromZero_of p hr]
    by_cases h : p.rows ≤ row + r
    · simp only [decide_eq_true h, if_true]
      omega
    · simp only [decide_eq_false h, Bool.false_eq_true, if_false, reduceCtorEq]
      have := hf.src (row + r) (by omega) (start + c) (by omega)
      rw [mul_add] at this
      omega
  · unfold job
    dsimp only
    split <;> norm_num
  · show 4 ≤ p.packedStride
    omega
  · rw [blocks_eq hf] at hn
    show p.packedStride * start + 8 * row + 8 * p.packedStride * n + 32 ≤ p.size .packed
    have h1 := hf.packed
    have h2 : p.packedStride * (start + 8 * n + 8) ≤ p.packedStride * stop := Nat.mul_le_mul_left _ (by omega)
    have h3 : p.packedStride * (start + 8 * n + 8) = p.packedStride * start + 8 * p.packedStride * n + 8 * p.packedStride := by ring
    omega
  · rw [blocks_eq hf]
    show 4 * start + 32 * ((stop - start) / 8) ≤ p.size .sums
    have := hf.sums.2
    omega

theorem zp_value (hf : p.Fits start stop) :
    (BitVec.ofInt 8 p.zp ^^^ BitVec.ofNat 8 p.inputXor).toInt = p.zp - p.shift := by
  have h := hf.zp
  unfold inputXor shift
  cases hu : p.unsigned
  · rw [hu] at h
    simp only [Bool.false_eq_true, if_false] at h ⊢
    rw [show BitVec.ofNat 8 0 = 0#8 from rfl, (xor_value _).2, BitVec.toInt_ofInt]
    unfold Int.bmod
    norm_num
    omega
  · rw [hu] at h
    simp only [if_true] at h ⊢
    rw [show BitVec.ofNat 8 0x80 = 0x80#8 from rfl, (xor_value _).1, BitVec.toNat_ofInt]
    norm_num
    omega

/-- What the `asm` statement stores is what belongs there. -/
theorem job_entry (hf : p.Fits start stop) (hs : m .src = m0 .src)
    (hz : ∀ o, o < 8 → m .zeros o = BitVec.ofInt 8 p.zp) {i : Nat} (hi : i < 4) {c : Nat} (hc : start + c < stop) :
    int8 ((p.job start stop row m).entry i c) = p.wanted m0 (row + i) (start + c) := by
  unfold int8 RJob.entry wanted
  show ((if c < min stop p.cols - start then (p.job start stop row m).raw i c else BitVec.ofInt 8 p.zp) ^^^
    BitVec.ofNat 8 p.inputXor).toInt = _
  by_cases hk : c < min stop p.cols - start
  · rw [if_pos hk]
    unfold RJob.raw
    show (m (if p.fromZero row i then .zeros else .src) ((if p.fromZero row i then 0 else p.stride * row + start + p.stride * i) +
      (if p.fromZero row i then 0 else 8) * (c / 8) + c % 8) ^^^ _).toInt = _
    rw [fromZero_of p hi]
    by_cases h : p.rows ≤ row + i
    · rw [if_neg (c := row + i < p.rows ∧ _) (by omega), ← zp_value hf]
      simp only [decide_eq_true h, if_true]
      rw [hz _ (by omega)]
    · rw [if_pos (c := row + i < p.rows ∧ _) ⟨by omega, by omega⟩]
      simp only [decide_eq_false h, Bool.false_eq_true, if_false]
      rw [show p.stride * row + start + p.stride * i + 8 * (c / 8) + c % 8 = p.stride * (row + i) + (start + c) by rw [mul_add]; omega, hs]
      unfold element inputXor shift
      cases p.unsigned
      · simp only [Bool.false_eq_true, if_false]
        rw [show BitVec.ofNat 8 0 = 0#8 from rfl, (xor_value _).2, sub_zero]
      · simp only [if_true]
        exact (xor_value _).1
  · rw [if_neg hk, if_neg (by omega), zp_value hf]

theorem spot_of (ha : row % 4 = 0) (hs : start % 8 = 0) {r c : Nat} (hr : r < 4) :
    p.spot (row + r) (start + c) = (p.job start stop row m).place r c := by
  unfold spot RJob.place
  show _ = p.packedStride * start + 8 * row + 8 * p.packedStride * (c / 8) + 4 * (c % 8) + r
  rw [show (start + c) / 8 = start / 8 + c / 8 by omega, show (start + c) % 8 = c % 8 by omega,
    show (row + r) / 4 = row / 4 by omega, show (row + r) % 4 = r by omega]
  have e : p.packedStride * (8 * (start / 8 + c / 8)) = p.packedStride * (8 * (start / 8)) + 8 * p.packedStride * (c / 8) := by ring
  rw [e, show 8 * (start / 8) = start by omega]
  omega

/-- Entries of different columns or rows are apart. -/
theorem spot_inj (hst : p.packedRows ≤ p.packedStride) (hd : p.packedRows % 4 = 0) {c c' k k' : Nat} (hk : k < p.packedRows)
    (hk' : k' < p.packedRows) (h : p.spot k c = p.spot k' c') : k = k' ∧ c = c' := by
  unfold spot at h
  have q : c / 8 = c' / 8 := by
    rcases Nat.lt_trichotomy (c / 8) (c' / 8) with hlt | he | hgt
    · have := Nat.mul_le_mul_left p.packedStride (show 8 * (c / 8) + 8 ≤ 8 * (c' / 8) by omega)
      rw [Nat.mul_add] at this
      omega
    · exact he
    · have := Nat.mul_le_mul_left p.packedStride (show 8 * (c' / 8) + 8 ≤ 8 * (c / 8) by omega)
      rw [Nat.mul_add] at this
      omega
  rw [q] at h
  omega

theorem old_of {f : Nat → Byte} {x : Int} (h : ∀ b, b < 4 → f b = byteOf (wrap32 x) b) : getS f 0 = wrap32 x := by
  have e : getS f 0 = getS (ofS fun _ => x) 0 := by
    unfold getS le4 le2
    have hb : ∀ b, b < 4 → f b = ofS (fun _ => x) b := by
      intro b hb
      rw [h b hb]
      unfold ofS
      rw [Nat.mod_eq_of_lt hb]
      exact RJob.byteOf_congr (by unfold wrap32; dsimp only; omega) hb
    rw [hb _ (by omega), hb _ (by omega), hb _ (by omega), hb _ (by omega)]
  rw [e, getS_ofS]

/-- One more group. -/
theorem filled_step (hf : p.Fits start stop) (h : p.Filled start stop row m0 m) (hr : row < p.packedRows)
    (ha : row % 4 = 0) (hz : ∀ o, o < 8 → m .zeros o = BitVec.ofInt 8 p.zp) {s' : St} (hd : (p.job start stop row m).Result s') :
    p.Filled start stop (row + 4) m0 s'.m := by
  have hs : m .src = m0 .src := h.rest _ (by decide) (by decide) (by decide)
  have hd := hd.done
  have h5 := hf.order
  have h6 := hf.aligned
  have h7 := hf.depth
  have hb : 8 * (p.job start stop row m).blocks = stop - start := by rw [blocks_eq hf]; omega
  refine ⟨fun c h1 h2 k hk => ?_, fun c h1 h2 b hb' => ?_, fun o ho => ?_, fun o ho => ?_, fun r h1 h2 h3 => ?_⟩
  · obtain ⟨c, rfl⟩ := Nat.exists_eq_add_of_le h1
    by_cases hkk : k < row
    · rw [hd.restPacked _ (fun r hr4 c' hc' => ?_)]
      · exact h.entry _ h1 h2 k hkk
      · rw [← spot_of ha h6.1 hr4]
        intro e
        have := (spot_inj hf.stride h7.1 (by omega) (by omega) e).1
        omega
    · obtain ⟨i, rfl⟩ := Nat.exists_eq_add_of_le (by omega : row ≤ k)
      rw [spot_of (m := m) (stop := stop) ha h6.1 (by omega), ← job_entry (row := row) hf hs hz (by omega) h2]
      exact congrArg int8 (hd.entry i (by omega) c (by omega))
  · obtain ⟨c, rfl⟩ := Nat.exists_eq_add_of_le h1
    have e := hd.sum c (by omega) b hb'
    have e2 : (p.job start stop row m).sumsBase = 4 * start := rfl
    rw [e2] at e
    rw [show 4 * (start + c) + b = 4 * start + 4 * c + b by omega, e]
    refine RJob.byteOf_congr ?_ hb'
    have o : (p.job start stop row m).old c = wrap32 (∑ k ∈ Finset.range row, p.wanted m0 k (start + c)) := by
      unfold RJob.old
      refine old_of (fun b hb => ?_)
      rw [← h.sum (start + c) h1 h2 b hb]
      show m .sums (4 * start + 4 * c + b) = _
      rw [show 4 * (start + c) + b = 4 * start + 4 * c + b by omega]
    unfold RJob.colSum
    rw [o, Finset.sum_range_add]
    have e3 : ∑ r ∈ Finset.range 4, wrap8 ((p.job start stop row m).entry r c).toNat =
        ∑ r ∈ Finset.range 4, p.wanted m0 (row + r) (start + c) := by
      refine Finset.sum_congr rfl (fun r hr => ?_)
      rw [wrap8_toInt]
      exact job_entry hf hs hz (Finset.mem_range.1 hr) h2
    rw [e3]
    unfold wrap32
    omega
  · rw [hd.restPacked o (fun r hr4 c' hc' => ?_)]
    · exact h.restPacked o (fun c h1 h2 k hk => ho c h1 h2 k (by omega))
    · rw [← spot_of ha h6.1 hr4]
      exact ho _ (by omega) (by omega) _ (by omega)
  · have e2 : (p.job start stop row m).sumsBase = 4 * start := rfl
    rw [hd.restSums o (by rw [e2]; omega)]
    exact h.restSums o ho
  · rw [hd.rest r h1 h2]
    exact h.rest r h1 h2 h3

theorem loop_ok (hf : p.Fits start stop) (n : Nat) : ∀ row m, row + 4 * n = p.packedRows → row % 4 = 0 →
    p.Filled start stop row m0 m → (∀ o, o < 8 → m .zeros o = BitVec.ofInt 8 p.zp) →
    (∃ r, Loop p start stop row m r) ∧ ∀ r, Loop p start stop row m r → ∃ m', r = .ok m' ∧ p.Packed start stop m0 m' := by
  induction n with
  | zero =>
    intro row m h1 h2 hp _
    obtain rfl : row = p.packedRows := by omega
    refine ⟨⟨_, .done le_rfl⟩, fun r hr => ?_⟩
    cases hr with
    | done h => exact ⟨m, rfl, hp⟩
    | overflow h => omega
    | fault h => omega
    | stuck h => omega
    | next h => omega
  | succ n ih =>
    intro row m h1 h2 hp hz
    have hc : row < p.packedRows := by omega
    have hb := group_ok (m := m) hf hc
    have hjf := job_fits (m := m) hf hc h2
    have whole : ∀ s, (p.job start stop row m).Start s → ∃ s', Stops (p.job start stop row m).env drowCode s s' ∧
        (p.job start stop row m).Result s' := fun s hs => RJob.whole hjf hs
    have step : ∀ s', (p.job start stop row m).Result s' → (∃ r, Loop p start stop (row + 4) s'.m r) ∧
        ∀ r, Loop p start stop (row + 4) s'.m r → ∃ m', r = .ok m' ∧ p.Packed start stop m0 m' := by
      intro s' hr
      refine ih (row + 4) s'.m (by omega) (by omega) (filled_step hf hp hc h2 hz hr) (fun o ho => ?_)
      rw [hr.done.rest _ (by decide) (by decide)]
      exact hz o ho
    refine ⟨?_, fun r hr => ?_⟩
    · obtain ⟨s', w1, w2⟩ := whole _ (RJob.begin_ok _)
      obtain ⟨⟨r, hr⟩, _⟩ := step s' w2
      exact ⟨r, .next hc hb (RJob.begin_ok _) w1 w2.ok hr⟩
    · cases hr with
      | done h => omega
      | overflow h e => rw [hb] at e; cases e
      | fault h e hst hsp hbad =>
        rw [hb] at e; cases e
        obtain ⟨s2, w1, w2⟩ := whole _ hst
        rw [stops_unique hsp w1, w2.ok] at hbad
        cases hbad
      | stuck h e hst hno =>
        rw [hb] at e; cases e
        obtain ⟨s2, w1, _⟩ := whole _ hst
        exact absurd w1 (hno s2)
      | next h e hst hsp hok hl =>
        rw [hb] at e; cases e
        obtain ⟨s2, w1, w2⟩ := whole _ hst
        rw [stops_unique hsp w1] at hl
        exact (step s2 w2).2 _ hl

end
end DRowCall
end Ruy.Neon

import Verif.Neon.DotValue
import Verif.Neon.Props
/-
C63: `Kernel8bitNeonDotprod` (kernel_arm64.cc:2987-4410).

The model is the instruction sequence of the `asm` statement (`dotCode`), run on a
machine with registers and byte memory.  Specification: `Neon/DotSpec.lean`.
-/
namespace Ruy.Neon.Dot
open Simd (wrap8 wrap16 wrap32)
open Simd (clampTo)
open Multiplier (scaled isI32 multiplyByQuantizedMultiplier)

theorem run_of {P : List Block} (hP : Prog P) (hl : P.length = 65) {j : Job} (hf : Fits j) (ha : Args j) {s : St}
    (h : j.Start s) :
    ∃ s', Stops (env j) P s s' ∧ Result j (fun r c => outOf j (accOf j (dotOf j r c) r c) r c) s' := by
  obtain ⟨s', h1, h2, h3, h4, h5⟩ := finished hP hf h
  refine ⟨s', stops_of (by rw [hl]; exact h1), h2, h3, fun r c hi b hb => ?_, fun o ho => h5 o (fun r c hi _ => ho r c hi)⟩
  rw [h4 r c hi trivial b hb, entry_eq ha]

/-- C63: the kernel stops, does nothing undefined, stores in every entry of the call that is inside the
destination the accumulator put through the output stage, and changes nothing else.  The sum of products
is exact for all operands, also those for which `Kernel8bitNeon` is wrong (`c54_int16`). -/
theorem c63_dotprod {j : Job} (hf : Fits j) (ha : Args j) {s : St} (h : j.Start s) :
    ∃ s', Stops (env j) dotCode s s' ∧ Result j (fun r c => outOf j (accOf j (dotOf j r c) r c) r c) s' :=
  run_of dotProg rfl hf ha h

/-- The final state is determined by the initial one. -/
theorem c63_deterministic {j : Job} {P : List Block} {s a b : St} (ha : Stops (env j) P s a) (hb : Stops (env j) P s b) :
    a = b := stops_unique ha hb

/-- The sums and the product of zero points given to the kernel are those of the packed operands. -/
structure SumsOk (j : Job) : Prop where
  lhs : ∀ r c, Inside j r c → j.word .lhsSums (j.startRow + r) = wrap32 (∑ k ∈ Finset.range (depth j), lhsAt j r k)
  rhs : ∀ r c, Inside j r c → j.word .rhsSums (j.startCol + c) = wrap32 (∑ k ∈ Finset.range (depth j), rhsAt j c k)
  prod : j.prodZp = wrap32 (j.lhsZp * j.rhsZp * depth j)

/-- C63, the accumulator: bias plus sum of the products of the offset entries, modulo 2^32. -/
theorem c63_accumulator {j : Job} (hs : SumsOk j) {r c : Nat} (hi : Inside j r c) :
    accOf j (dotOf j r c) r c = wrap32 (biasOf j r c +
      ∑ k ∈ Finset.range (depth j), (lhsAt j r k - j.lhsZp) * (rhsAt j c k - j.rhsZp)) := by
  unfold accOf dotOf
  rw [offsets, hs.lhs r c hi, hs.rhs r c hi, hs.prod]
  obtain ⟨t1, e1⟩ := wrap32_ex (∑ k ∈ Finset.range (depth j), lhsAt j r k)
  obtain ⟨t2, e2⟩ := wrap32_ex (∑ k ∈ Finset.range (depth j), rhsAt j c k)
  obtain ⟨t3, e3⟩ := wrap32_ex (j.lhsZp * j.rhsZp * depth j)
  rw [e1, e2, e3]
  refine Eq.trans (congrArg wrap32 ?_) (wrap32_mul_add _ (t3 - j.lhsZp * t2 - j.rhsZp * t1))
  ring

/-- C63, 8-bit destinations, from the operands to the stored byte: if the accumulator is in the range of int32 and
the left shift by max(0, exponent + 1) loses no bits, the entry is the
exact sum of products with bias, scaled to ⌊x · m · 2^(e-31) + 1/2⌋, plus the zero point, clamped. -/
theorem c63_entry {j : Job} (hf : Fits j) (ha : Args j) (hs : SumsOk j) {s : St} (h : j.Start s)
    (hc : j.clampMin ≤ j.clampMax)
    (hd : (j.dt = .u8 ∧ (0 ≤ j.dstZp ∧ j.dstZp ≤ 255) ∧ 0 ≤ j.clampMin ∧ j.clampMax ≤ 255) ∨
      (j.dt = .i8 ∧ (-128 ≤ j.dstZp ∧ j.dstZp ≤ 127) ∧ -128 ≤ j.clampMin ∧ j.clampMax ≤ 127)) :
    ∃ s', Stops (env j) dotCode s s' ∧ s'.bad = false ∧ ∀ r c x, Inside j r c →
      x = biasOf j r c + ∑ k ∈ Finset.range (depth j), (lhsAt j r k - j.lhsZp) * (rhsAt j c k - j.rhsZp) →
      isI32 x → -31 ≤ expOf j r c ∧ expOf j r c ≤ 30 → isI32 (x * 2 ^ (expOf j r c + 1).toNat) →
      s'.m .dst (addr j r c) =
        byteOf (clampTo j.clampMin j.clampMax (scaled x (fixOf j r c) (expOf j r c) + j.dstZp)) 0 := by
  obtain ⟨s', h1, h2⟩ := c63_dotprod hf ha h
  refine ⟨s', h1, h2.ok, fun r c x hi hx h32 he hfit => ?_⟩
  have e := h2.entry r c hi 0 (by cases j.dt <;> decide)
  have hw : wrap32 x = x := by unfold isI32 at h32; unfold wrap32; omega
  rw [Nat.add_zero, c63_accumulator hs hi, ← hx, hw, (c54_quantized he hfit hc hd).2] at e
  exact e

/-! ### Examples -/

/-- 16x16 entries from (8, 16) of a 20x27 destination, of which 12x11 are inside; depth 40. -/
def exJob (dt : Dt) (m : Region → Nat → Byte) : Job where
  dt := dt
  startRow := 8
  startCol := 16
  rowSteps := 1
  colSteps := 1
  depthSteps := 9
  lhsBase := 320
  rhsBase := 640
  dstBase := 100
  lhsStride := 40
  rhsStride := 44
  dstStride := 64
  dstRows := 20
  dstCols := 27
  lhsZp := 3
  rhsZp := -5
  dstZp := 20
  prodZp := -600
  clampMin := 10
  clampMax := 100
  hasBias := true
  perChannel := true
  chanCol := true
  size := fun _ => 1400
  m := m

theorem exFits (dt : Dt) (m : Region → Nat → Byte) : Fits (exJob dt m) := by
  constructor
  case dst =>
    intro r c h1 h2 h3 h4
    simp only [exJob] at *
    cases dt <;> simp only [Dt.size] <;> omega
  case columns => cases dt <;> simp [exJob, Dt.size]
  all_goals simp [exJob, lastRow, lastCol, depth, channels]

theorem exArgs (dt : Dt) (m : Region → Nat → Byte) : Args (exJob dt m) :=
  ⟨fun h => absurd h (by simp [exJob]), fun h => absurd h (by simp [exJob]), fun h => absurd h (by simp [exJob])⟩

/-- The hypotheses are met for each type of destination. -/
example (dt : Dt) : ∃ s', Stops (env (exJob dt exMem)) dotCode (exStart (exJob dt exMem)) s' ∧ s'.bad = false :=
  have ⟨s', h1, h2⟩ := c63_dotprod (exFits dt exMem) (exArgs dt exMem) (exStart_ok _)
  ⟨s', h1, h2.ok⟩

/-- One block, depth 16, every entry of both operands -128. -/
def fullJob : Job :=
  { badJob with
    lhsStride := 16
    rhsStride := 16
    dstStride := 32
    depthSteps := 3
    dstRows := 8
    dstCols := 8
    size := fun _ => 256 }

theorem fullFits : Fits fullJob := by
  constructor <;> try decide
  intro r c h1 h2 h3 h4
  simp only [fullJob, badJob, Dt.size] at *
  omega

theorem fullArgs : Args fullJob :=
  ⟨fun _ i _ => by simp [Job.word, fullJob, badJob, le4, le2, wrap32], fun _ i _ => rfl, fun _ i _ => rfl⟩

/-- Where `Kernel8bitNeon` stores -262144 (`c54_int16`), this kernel stores 262144. -/
example : ∃ s s', fullJob.Start s ∧ Stops (env fullJob) dotCode s s' ∧ dotOf fullJob 0 0 = 262144 ∧
    ∀ b, b < 4 → s'.m .dst (addr fullJob 0 0 + b) = byteOf 262144 b := by
  obtain ⟨s', h1, h2⟩ := c63_dotprod fullFits fullArgs (exStart_ok fullJob)
  refine ⟨_, s', exStart_ok fullJob, h1, by decide +kernel, fun b hb => ?_⟩
  rw [h2.entry 0 0 (by unfold Inside; decide) b hb]
  exact congrArg (byteOf · b) (by decide +kernel)

/-- `SumsOk` and the hypotheses of `c63_entry`: entries 1 and 2, zero points 3 and 5. -/
def sumJob : Job :=
  { fullJob with
    dt := .i8
    lhsZp := 3
    rhsZp := 5
    dstZp := -7
    clampMin := -100
    clampMax := 90
    prodZp := 240
    m := Neon.sumJob.m }

theorem sumJob_ok : SumsOk sumJob := by
  refine ⟨fun r c hi => ?_, fun r c hi => ?_, by decide⟩
  · have : r < 8 := hi.1
    interval_cases r <;> decide +kernel
  · have : c < 8 := hi.2.1
    interval_cases c <;> decide +kernel

theorem sumFits : Fits sumJob := by
  constructor <;> try decide
  intro r c h1 h2 h3 h4
  simp only [sumJob, fullJob, badJob, Dt.size] at *
  omega

theorem sumArgs : Args sumJob := by
  refine ⟨fun _ i hi => ?_, fun _ i hi => ?_, fun _ i hi => ?_⟩ <;> interval_cases i <;> decide +kernel

example : ∃ s', Stops (env sumJob) dotCode (exStart sumJob) s' ∧ s'.m .dst (addr sumJob 6 5) = 29 := by
  obtain ⟨s', h1, _, h3⟩ := c63_entry sumFits sumArgs sumJob_ok (exStart_ok sumJob) (by decide)
    (.inr (by decide))
  refine ⟨s', h1, ?_⟩
  rw [h3 6 5 96 (by unfold Inside; decide) (by decide +kernel) (by decide) (by decide +kernel) (by decide +kernel)]
  decide +kernel

end Ruy.Neon.Dot

import Verif.Neon.Value
import Verif.Simd.MultProps
/-
C54: `Kernel8bitNeon` (kernel_arm64.cc:94-1154).

The model is the instruction sequence of the `asm` statement (`gemmCode`), run on a
machine with registers and byte memory.  Specification: `Neon/Spec.lean`.
-/
namespace Ruy.Neon
open Simd (wrap8 wrap16 wrap32)
open Simd (clampTo)
open Multiplier (scaled isI32 multiplyByQuantizedMultiplier)

/-- C54 (what the code does in all cases): the kernel stops, does nothing undefined, stores in every entry of
the call that is inside the destination the accumulator put through the output stage, and
changes nothing else.  The accumulator is the one of the specification, except that the sums of the
products at depths `k` and `k + 8` are reduced to int16. -/
theorem c54_pairs {j : Job} (hf : j.Fits) (ha : Args j) {s : St} (h : j.Start s) :
    ∃ s', Stops j.env gemmCode s s' ∧
      Result j (fun r c => outOf j (accOf j (dot16Of j r c) r c) r c) s' := by
  obtain ⟨s', h1, h2, h3, h4, h5⟩ := finished hf h
  refine ⟨s', stops_of h1, h2, h3, fun r c hi b hb => ?_, fun o ho => h5 o (fun r c hi _ => ho r c hi)⟩
  rw [h4 r c hi trivial b hb, entry_eq ha]

/-- C54 (partial): the exact sum of products.  Missing from the full statement: operands that have
-128 in both a row and a column at depths `k` and `k + 8` of a group of 16 (`c54_int16`). -/
theorem c54_partial {j : Job} (hf : j.Fits) (ha : Args j)
    (hn : ∀ r c, Inside j r c → NoPair j r c) {s : St} (h : j.Start s) :
    ∃ s', Stops j.env gemmCode s s' ∧
      Result j (fun r c => outOf j (accOf j (dotOf j r c) r c) r c) s' := by
  obtain ⟨s', h1, h2⟩ := c54_pairs hf ha h
  refine ⟨s', h1, h2.ok, h2.inputs, fun r c hi b hb => ?_, h2.rest⟩
  rw [h2.entry r c hi b hb, dot16_exact (hn r c hi)]

/-- It suffices that one operand never holds -128. -/
theorem c54_symmetric {j : Job} (hf : j.Fits) (ha : Args j)
    (hn : ∀ r k, j.lhsAt r k ≠ -128) {s : St} (h : j.Start s) :
    ∃ s', Stops j.env gemmCode s s' ∧
      Result j (fun r c => outOf j (accOf j (dotOf j r c) r c) r c) s' :=
  c54_partial hf ha (fun r _ _ t _ i _ hh => hn r (16 * t + i) hh.1) h

/-- The final state is determined by the initial one. -/
theorem c54_deterministic {j : Job} {s a b : St} (ha : Stops j.env gemmCode s a) (hb : Stops j.env gemmCode s b) :
    a = b := stops_unique ha hb

/-- The sums and the product of zero points given to the kernel are those of the packed operands. -/
structure SumsOk (j : Job) : Prop where
  lhs : ∀ r c, Inside j r c → j.word .lhsSums (j.startRow + r) = wrap32 (∑ k ∈ Finset.range j.depth, j.lhsAt r k)
  rhs : ∀ r c, Inside j r c → j.word .rhsSums (j.startCol + c) = wrap32 (∑ k ∈ Finset.range j.depth, j.rhsAt c k)
  prod : j.prodZp = wrap32 (j.lhsZp * j.rhsZp * j.depth)

/-- C54, the accumulator: bias plus sum of the products of the offset entries, modulo 2^32. -/
theorem c54_accumulator {j : Job} (hs : SumsOk j) {r c : Nat} (hi : Inside j r c) :
    accOf j (dotOf j r c) r c = wrap32 (biasOf j r c +
      ∑ k ∈ Finset.range j.depth, (j.lhsAt r k - j.lhsZp) * (j.rhsAt c k - j.rhsZp)) := by
  unfold accOf dotOf
  rw [offsets, hs.lhs r c hi, hs.rhs r c hi, hs.prod]
  obtain ⟨t1, e1⟩ := wrap32_ex (∑ k ∈ Finset.range j.depth, j.lhsAt r k)
  obtain ⟨t2, e2⟩ := wrap32_ex (∑ k ∈ Finset.range j.depth, j.rhsAt c k)
  obtain ⟨t3, e3⟩ := wrap32_ex (j.lhsZp * j.rhsZp * j.depth)
  rw [e1, e2, e3]
  refine Eq.trans (congrArg wrap32 ?_) (wrap32_mul_add _ (t3 - j.lhsZp * t2 - j.rhsZp * t1))
  ring

/-- C54, 8-bit destinations: with clamping bounds and zero point in the range of the type, and if the left
shift by max(0, exponent + 1) loses no bits, the entry is the scaled accumulator
⌊x · m · 2^(e-31) + 1/2⌋ plus the zero point, clamped. -/
theorem c54_quantized {j : Job} {x : Int} {r c : Nat} (he : -31 ≤ expOf j r c ∧ expOf j r c ≤ 30)
    (hfit : isI32 (x * 2 ^ (expOf j r c + 1).toNat)) (hc : j.clampMin ≤ j.clampMax)
    (h : (j.dt = .u8 ∧ (0 ≤ j.dstZp ∧ j.dstZp ≤ 255) ∧ 0 ≤ j.clampMin ∧ j.clampMax ≤ 255) ∨
      (j.dt = .i8 ∧ (-128 ≤ j.dstZp ∧ j.dstZp ≤ 127) ∧ -128 ≤ j.clampMin ∧ j.clampMax ≤ 127)) :
    multiplyByQuantizedMultiplier x (fixOf j r c) (expOf j r c) = .ok (scaled x (fixOf j r c) (expOf j r c)) ∧
    outOf j x r c = clampTo j.clampMin j.clampMax (scaled x (fixOf j r c) (expOf j r c) + j.dstZp) := by
  have hm : isI32 (fixOf j r c) := by
    have := Simd.wrap32_range (le4 (j.m .mulFix) (4 * if j.perChannel then chanOf j r c else 0))
    exact this
  obtain ⟨h1, h2⟩ := Simd.c25_neon_partial x (fixOf j r c) (expOf j r c) hm he.1 he.2 hfit
  refine ⟨h1 ▸ h2, ?_⟩
  rcases h with ⟨hd, hz, hlo, hhi⟩ | ⟨hd, hz, hlo, hhi⟩
  · unfold outOf
    rw [hd, h1]
    exact Simd.c48_u8 _ _ _ _ hz hlo hc hhi
  · unfold outOf
    rw [hd, h1]
    exact Simd.c48_s8 _ _ _ _ hz hlo hc hhi

/-! ### Examples -/

/-- 8x8 entries from (4, 8) of an 11x13 destination, of which 7x5 are inside; depth 32. -/
def exJob (dt : Dt) (m : Region → Nat → Byte) : Job where
  dt := dt
  startRow := 4
  startCol := 8
  rowSteps := 1
  colSteps := 1
  depthSteps := 1
  lhsBase := 160
  rhsBase := 288
  dstBase := 100
  lhsStride := 40
  rhsStride := 36
  dstStride := 64
  dstRows := 11
  dstCols := 13
  lhsZp := 3
  rhsZp := -5
  dstZp := 20
  prodZp := -480
  clampMin := 10
  clampMax := 100
  hasBias := true
  perChannel := true
  chanCol := false
  size := fun _ => 1000
  m := m

theorem exFits (dt : Dt) (m : Region → Nat → Byte) : (exJob dt m).Fits := by
  constructor
  case dst =>
    intro r c h1 h2 h3 h4
    simp only [exJob] at *
    cases dt <;> simp only [Dt.size] <;> omega
  case columns => cases dt <;> simp [exJob, Dt.size]
  all_goals simp [exJob, Job.lastRow, Job.lastCol, Job.depth, Job.channels]

theorem exArgs (dt : Dt) (m : Region → Nat → Byte) : Args (exJob dt m) :=
  ⟨fun h => absurd h (by simp [exJob]), fun h => absurd h (by simp [exJob]), fun h => absurd h (by simp [exJob])⟩

/-- A state at the start of the statement; registers that are not operands hold junk. -/
def exStart (j : Job) : St where
  x r := match r with
    | 32 => .ptr .lhs j.lhsBase
    | 33 => .ptr .rhs j.rhsBase
    | 34 => .ptr .lhs j.lhsBase
    | 35 => .ptr .rhs j.rhsBase
    | 36 => .ptr .dst j.dstBase
    | 37 => .ptr .dst j.dstBase
    | 38 => .int j.startRow
    | 39 => .int j.startCol
    | 40 => .int j.dstRows
    | 41 => .int j.dstCols
    | 42 => .ptr .tmp 0
    | 43 => .int j.dt.id
    | _ => .int 77
  v _ _ := 99
  m := j.m
  z := true
  lt := true
  bad := false

theorem exStart_ok (j : Job) : j.Start (exStart j) := by
  constructor <;> first | rfl | (intros; rfl)

def exMem : Region → Nat → Byte
  | .lhs, o => BitVec.ofNat 8 (o * 7 + 3)
  | .rhs, o => BitVec.ofNat 8 (o * o + 5)
  | .mulFix, o => if o % 4 = 3 then 0x50 else 0
  | .mulExp, o => if o % 4 = 0 then 0xf8 else 0xff
  | .bias, o => if o % 4 = 0 then BitVec.ofNat 8 o else 0
  | _, _ => 7

/-- The hypotheses of the theorems are met for each type of destination. -/
example (dt : Dt) : ∃ s', Stops (exJob dt exMem).env gemmCode (exStart (exJob dt exMem)) s' ∧ s'.bad = false :=
  have ⟨s', h1, h2⟩ := c54_pairs (exFits dt exMem) (exArgs dt exMem) (exStart_ok _)
  ⟨s', h1, h2.ok⟩

/-- No -128 in the LHS, so `c54_symmetric` applies. -/
def exMem' : Region → Nat → Byte
  | .lhs, o => BitVec.ofNat 8 (o % 100)
  | r, o => exMem r o

example (dt : Dt) : ∀ r k, (exJob dt exMem').lhsAt r k ≠ -128 := by
  intro r k
  simp only [Job.lhsAt, exJob, exMem', wrap8, BitVec.toNat_ofNat]
  omega

/-! ### Two products of -128 by -128 -/

/-- One block, depth 16, no zero points: every entry of both operands is -128. -/
def badJob : Job where
  dt := .i32
  startRow := 0
  startCol := 0
  rowSteps := 0
  colSteps := 0
  depthSteps := 0
  lhsBase := 0
  rhsBase := 0
  dstBase := 0
  lhsStride := 16
  rhsStride := 16
  dstStride := 16
  dstRows := 4
  dstCols := 4
  lhsZp := 0
  rhsZp := 0
  dstZp := 0
  prodZp := 0
  clampMin := -2 ^ 31
  clampMax := 2 ^ 31 - 1
  hasBias := false
  perChannel := false
  chanCol := false
  size := fun _ => 64
  m := fun r _ => match r with
    | .lhs => 0x80
    | .rhs => 0x80
    | _ => 0

theorem badFits : badJob.Fits := by
  constructor <;> try decide
  intro r c h1 h2 h3 h4
  simp only [badJob, Dt.size] at *
  omega

theorem badArgs : Args badJob :=
  ⟨fun _ i _ => by simp [Job.word, badJob, le4, le2, wrap32], fun _ i _ => rfl, fun _ i _ => rfl⟩

/-- C54 fails as stated: with -128 everywhere in both operands and depth 16 the product is 262144, which is what
the generic kernel computes, the NEON kernel stores -262144: SMLAL2 overflows int16. -/
theorem c54_int16 : ∃ s s', badJob.Fits ∧ Args badJob ∧ badJob.Start s ∧ Stops badJob.env gemmCode s s' ∧
    dotOf badJob 0 0 = 262144 ∧ accOf badJob (dotOf badJob 0 0) 0 0 = 262144 ∧
    ∀ b, b < 4 → s'.m .dst (addr badJob 0 0 + b) = byteOf (-262144) b := by
  obtain ⟨s', h1, h2⟩ := c54_pairs badFits badArgs (exStart_ok badJob)
  refine ⟨_, s', badFits, badArgs, exStart_ok badJob, h1, by decide +kernel, by decide +kernel, fun b hb => ?_⟩
  rw [h2.entry 0 0 (by unfold Inside; decide) b hb]
  exact congrArg (byteOf · b) (by decide +kernel)

/-- `SumsOk` and the hypotheses of `c54_quantized`: entries 1 and 2, zero points 3 and 5. -/
def sumJob : Job :=
  { badJob with
    dt := .i8
    lhsZp := 3
    rhsZp := 5
    dstZp := -7
    clampMin := -100
    clampMax := 90
    prodZp := 240
    m := fun r o => match r with
      | .lhs => 1
      | .rhs => 2
      | .lhsSums => if o % 4 = 0 then 16 else 0
      | .rhsSums => if o % 4 = 0 then 32 else 0
      | .mulFix => if o % 4 = 3 then 0x60 else 0
      | .mulExp => if o % 4 = 0 then 0xff else 0xff
      | _ => 0 }

theorem sumJob_ok : SumsOk sumJob := by
  refine ⟨fun r c hi => ?_, fun r c hi => ?_, by decide⟩
  · have : r < 4 := hi.1
    interval_cases r <;> decide +kernel
  · have : c < 4 := hi.2.1
    interval_cases c <;> decide +kernel

example : accOf sumJob (dotOf sumJob 2 3) 2 3 = 96 := by
  rw [c54_accumulator sumJob_ok (by unfold Inside; decide)]
  decide +kernel

example : expOf sumJob 2 3 = -1 ∧ fixOf sumJob 2 3 = 1610612736 ∧ outOf sumJob 96 2 3 = 29 ∧
    isI32 (96 * 2 ^ (expOf sumJob 2 3 + 1).toNat) := by decide +kernel

end Ruy.Neon

import Verif.Arm8.Whole
import Verif.Arm8.Clobber
import Verif.Simd.MultProps
/-
C83: `Kernel8bitNeon` for 32-bit ARM (kernel_arm32.cc:631-1633).

The model is the instruction sequence of the `asm` statement (`kernel`), run on a machine with registers, a stack
frame and byte memory.  Specification: `Arm8/Job.lean`.

  c83_pairs          stops, nothing undefined, result up to the reduction of pairs of products to int16
  c83_partial        the exact result
  c83_symmetric      it suffices that one operand has no -128
  c83_accumulator    the accumulator in terms of the offset entries
  c83_quantized      8-bit destinations: the scaled accumulator, clamped
  c83_int16          a case where the int16 reduction shows
  c83_raw            int32 destinations without sums of the LHS: written as if they were uint8
  c83_raw_false      a case of it
  c83_registers      registers changed, with q11 beyond the clobber list
  c83_clobber_false  every call changes q11
  c83_depth0         depth 0: reads beyond an empty packed matrix
-/
namespace Ruy.Arm8
open Ruy.Neon (St Val Region Vec Byte Dt le4 byteOf)
open Simd (wrap8 wrap16 wrap32 clampTo)
open Multiplier (scaled isI32 multiplyByQuantizedMultiplier)

/-- C83 (what the code does unless the destination is int32 and the LHS has no sums): the kernel stops, does nothing
undefined, gives the stack pointer back, stores in every entry of the call that is inside the destination the
accumulator put through the output stage, and changes nothing else in memory.  The accumulator is the one of the
specification, except that the sums of the products at depths `k` and `k + 8` are reduced to int16. -/
theorem c83_pairs {j : Job} (hf : j.Fits) (ha : j.Args) (ht : j.dt = .i32 → j.hasLhsSums = true) {s : St}
    (h : j.Start s) : ∃ s', Stops j.env kernel s s' ∧
      j.Result j.dt (fun r c => j.outOf j.dt (j.accOf (j.dot16Of r c) r c) r c) s' := by
  obtain ⟨s', h1, h2, -⟩ := finished hf h
  have e : j.ty = j.dt := by
    unfold Job.ty
    refine if_neg (fun hh => ?_)
    rw [ht hh.1] at hh
    exact absurd hh.2 (by decide)
  have e2 : entryAt j = fun r c => j.outOf j.dt (j.accOf (j.dot16Of r c) r c) r c :=
    funext fun r => funext fun c => by rw [entry_eq ha, e]
  rw [e, e2] at h2
  exact ⟨s', h1, h2⟩

/-- C83 (partial): the exact sum of products.  Missing from the full statement: operands that have -128 in both a row
and a column at depths `k` and `k + 8` of a group of 16 (`c83_int16`), and int32 destinations for an LHS without sums
(`c83_raw_false`). -/
theorem c83_partial {j : Job} (hf : j.Fits) (ha : j.Args) (ht : j.dt = .i32 → j.hasLhsSums = true)
    (hn : ∀ r c, j.Inside r c → j.NoPair r c) {s : St} (h : j.Start s) :
    ∃ s', Stops j.env kernel s s' ∧
      j.Result j.dt (fun r c => j.outOf j.dt (j.accOf (j.dotOf r c) r c) r c) s' := by
  obtain ⟨s', h1, h2⟩ := c83_pairs hf ha ht h
  refine ⟨s', h1, h2.ok, h2.sp, h2.inputs, fun r c hi b hb => ?_, h2.rest⟩
  rw [h2.entry r c hi b hb, dot16_exact (hn r c hi)]

/-- It suffices that one operand never holds -128. -/
theorem c83_symmetric {j : Job} (hf : j.Fits) (ha : j.Args) (ht : j.dt = .i32 → j.hasLhsSums = true)
    (hn : ∀ r k, j.lhsAt r k ≠ -128) {s : St} (h : j.Start s) :
    ∃ s', Stops j.env kernel s s' ∧
      j.Result j.dt (fun r c => j.outOf j.dt (j.accOf (j.dotOf r c) r c) r c) s' :=
  c83_partial hf ha ht (fun r _ _ t _ i _ hh => hn r (16 * t + i) hh.1) h

/-- The final state is determined by the initial one. -/
theorem c83_deterministic {e : Env} {P : List Block} {s a b : St} (ha : Stops e P s a) (hb : Stops e P s b) :
    a = b := stops_unique ha hb

/-- The sums and the product of zero points given to the kernel are those of the packed operands.  Sums may be left out
if the zero point that they would be multiplied by is 0. -/
structure Job.SumsOk (j : Job) : Prop where
  lhs : if j.hasLhsSums then ∀ r c, j.Inside r c →
      j.word .lhsSums (j.startRow + r) = wrap32 (∑ k ∈ Finset.range j.depth, j.lhsAt r k) else j.rhsZp = 0
  rhs : if j.hasRhsSums then ∀ r c, j.Inside r c →
      j.word .rhsSums (j.startCol + c) = wrap32 (∑ k ∈ Finset.range j.depth, j.rhsAt c k) else j.lhsZp = 0
  prod : j.prodZp = wrap32 (j.lhsZp * j.rhsZp * j.depth)

/-- C83, the accumulator: bias plus sum of the products of the offset entries, modulo 2^32. -/
theorem c83_accumulator {j : Job} (hs : j.SumsOk) {r c : Nat} (hi : j.Inside r c) :
    j.accOf (j.dotOf r c) r c = wrap32 (j.biasOf r c +
      ∑ k ∈ Finset.range j.depth, (j.lhsAt r k - j.lhsZp) * (j.rhsAt c k - j.rhsZp)) := by
  have el : ∃ t, j.rhsZp * j.lsumOf r = j.rhsZp * ((∑ k ∈ Finset.range j.depth, j.lhsAt r k) + 2 ^ 32 * t) := by
    have := hs.lhs
    unfold Job.lsumOf
    cases hl : j.hasLhsSums
    · rw [hl] at this
      exact ⟨0, by rw [show j.rhsZp = 0 from this]; simp⟩
    · rw [hl] at this
      obtain ⟨t, e⟩ := Neon.wrap32_ex (∑ k ∈ Finset.range j.depth, j.lhsAt r k)
      exact ⟨t, by rw [if_pos rfl, this r c hi, e]; norm_num⟩
  have er : ∃ t, j.lhsZp * j.rsumOf c = j.lhsZp * ((∑ k ∈ Finset.range j.depth, j.rhsAt c k) + 2 ^ 32 * t) := by
    have := hs.rhs
    unfold Job.rsumOf
    cases hl : j.hasRhsSums
    · rw [hl] at this
      exact ⟨0, by rw [show j.lhsZp = 0 from this]; simp⟩
    · rw [hl] at this
      obtain ⟨t, e⟩ := Neon.wrap32_ex (∑ k ∈ Finset.range j.depth, j.rhsAt c k)
      exact ⟨t, by rw [if_pos rfl, this r c hi, e]; norm_num⟩
  obtain ⟨t1, e1⟩ := el
  obtain ⟨t2, e2⟩ := er
  obtain ⟨t3, e3⟩ := Neon.wrap32_ex (j.lhsZp * j.rhsZp * j.depth)
  unfold Job.accOf Job.dotOf
  rw [Neon.offsets, e1, e2, hs.prod, e3]
  refine Eq.trans (congrArg wrap32 ?_) (Neon.wrap32_mul_add _ (t3 - j.lhsZp * t2 - j.rhsZp * t1))
  ring

/-- C83, 8-bit destinations: with clamping bounds and zero point in the range of the type, and if the left shift by
max(0, exponent + 1) loses no bits, the entry is the scaled accumulator ⌊x · m · 2^(e-31) + 1/2⌋ plus the zero point,
clamped. -/
theorem c83_quantized {j : Job} {x : Int} {r c : Nat} (he : -31 ≤ j.expOf r c ∧ j.expOf r c ≤ 30)
    (hfit : isI32 (x * 2 ^ (j.expOf r c + 1).toNat)) (hc : j.clampMin ≤ j.clampMax)
    (h : (j.dt = .u8 ∧ (0 ≤ j.dstZp ∧ j.dstZp ≤ 255) ∧ 0 ≤ j.clampMin ∧ j.clampMax ≤ 255) ∨
      (j.dt = .i8 ∧ (-128 ≤ j.dstZp ∧ j.dstZp ≤ 127) ∧ -128 ≤ j.clampMin ∧ j.clampMax ≤ 127)) :
    multiplyByQuantizedMultiplier x (j.fixOf r c) (j.expOf r c) = .ok (scaled x (j.fixOf r c) (j.expOf r c)) ∧
    j.outOf j.dt x r c = clampTo j.clampMin j.clampMax (scaled x (j.fixOf r c) (j.expOf r c) + j.dstZp) := by
  have hm : isI32 (j.fixOf r c) :=
    Simd.wrap32_range (le4 (j.m .mulFix) (4 * if j.perChannel then j.chanOf r c else 0))
  obtain ⟨h1, h2⟩ := Simd.c25_neon_partial x (j.fixOf r c) (j.expOf r c) hm he.1 he.2 hfit
  refine ⟨h1 ▸ h2, ?_⟩
  rcases h with ⟨hd, hz, hlo, hhi⟩ | ⟨hd, hz, hlo, hhi⟩
  · unfold Job.outOf
    rw [hd, h1]
    exact Simd.c48_u8 _ _ _ _ hz hlo hc hhi
  · unfold Job.outOf
    rw [hd, h1]
    exact Simd.c48_s8 _ _ _ _ hz hlo hc hhi

/-- C83: an int32 destination for an LHS without sums.  The jump to the code that stores raw accumulators
(kernel_arm32.cc:1002-1006) is skipped together with the sums, so that the accumulators are down-quantized and stored in
single bytes, each where the entry would be in a destination of type uint8. -/
theorem c83_raw {j : Job} (hf : j.Fits) (ha : j.Args) (ht : j.dt = .i32) (hl : j.hasLhsSums = false) {s : St}
    (h : j.Start s) : ∃ s', Stops j.env kernel s s' ∧
      j.Result .u8 (fun r c => j.outOf .u8 (j.accOf (j.dot16Of r c) r c) r c) s' := by
  obtain ⟨s', h1, h2, -⟩ := finished hf h
  have e : j.ty = .u8 := if_pos ⟨ht, hl⟩
  have e2 : entryAt j = fun r c => j.outOf .u8 (j.accOf (j.dot16Of r c) r c) r c :=
    funext fun r => funext fun c => by rw [entry_eq ha, e]
  rw [e, e2] at h2
  exact ⟨s', h1, h2⟩

/-- C83: depth 0.  The first instruction reads beyond a packed matrix of depth 0. -/
theorem c83_depth0 {j : Job} {s : St} (h : j.Start s) (h0 : j.size .lhs = 0) :
    (run j.env kernel 1 (0, s)).2.bad = true := by
  show (exec j.env k0.body s).bad = true
  have ho : Neon.out j.env.base (s.x 34) 0 16 = true := by
    rw [show s.x 34 = _ from h.lhsP]
    have : j.env.base.size .lhs = 0 := h0
    simp [Neon.out, Val.isPtr, Val.region, Val.off, this]
  rw [(k0x j.env s).2.1, ho]
  simp

/-! ### Registers -/

/-- Output operands and clobber list: kernel_arm32.cc:1624-1632. -/
def declaredX : List Nat := [lp, rp, 0, 1, 2, 3, 4, 5, 6, 8, 10]
def declaredQ : List Nat := [0, 1, 2, 3, 4, 5, 6, 7, 8, 9, 10, 12, 13, 14, 15]
/-- `sp`, and the slots of the frame below it. -/
def frame : List Nat := [13, 64, 80, 96, 112, 128, 144]

/-- C83: at no time are registers changed other than those declared, the frame, and `q11` — whatever the state at the
start, the parameters and the sizes of the buffers are. -/
theorem c83_registers (e : Env) (s : St) (n r : Nat) :
    (r ∉ declaredX → r ∉ frame → (run e kernel n (0, s)).2.x r = s.x r) ∧
      (r ∉ declaredQ → r ≠ 11 → (run e kernel n (0, s)).2.v r = s.v r) := by
  have h := run_covers (P := kernel) (X := declaredX ++ frame) (V := 11 :: declaredQ) (by decide +kernel) e n s r
  refine ⟨fun h1 h2 => h.1 (by simp [h1, h2]), fun h1 h2 => h.2 (by simp [h1, h2])⟩

/-- C83: every call leaves zeros in `q11`, so a value that the compiler keeps there is lost, though the `asm` statement
does not declare it. -/
theorem c83_clobber_false {j : Job} (hf : j.Fits) {s : St} (h : j.Start s) :
    11 ∉ declaredQ ∧ ∃ s', Stops j.env kernel s s' ∧ (s'.v 11 = fun _ => 0) ∧ (s.v 11 ≠ (fun _ => 0) → s'.v 11 ≠ s.v 11) := by
  obtain ⟨s', h1, -, h3⟩ := finished hf h
  exact ⟨by decide, s', h1, h3, fun hv he => hv (he.symm.trans h3)⟩

/-! ### Examples -/

/-- 8x4 entries from (4, 8) of an 11x11 destination, of which 7x3 are inside; depth 32. -/
def exJob (dt : Dt) (cc : Bool) (m : Region → Nat → Byte) : Job where
  dt := dt
  startRow := 4
  startCol := 8
  rowSteps := 1
  colSteps := 1
  depthSteps := 1
  lhsBase := 160
  rhsBase := 288
  dstBase := 100
  lhsStride := 40
  rhsStride := 36
  dstStride := 64
  dstRows := 11
  dstCols := 11
  lhsZp := 3
  rhsZp := -5
  dstZp := 20
  prodZp := -480
  clampMin := 10
  clampMax := 100
  hasBias := true
  hasLhsSums := true
  hasRhsSums := true
  perChannel := true
  chanCol := cc
  size := fun _ => 1000
  m := m

theorem exFits (dt : Dt) (cc : Bool) (m : Region → Nat → Byte) : (exJob dt cc m).Fits := by
  constructor
  case dst =>
    intro r c h1 h2 h3 h4
    simp only [exJob] at *
    cases dt <;> simp only [Dt.size] <;> omega
  case columns => cases dt <;> simp [exJob, Dt.size]
  case bias => cases cc <;> simp [exJob, Job.lastRow, Job.lastCol, Job.channels]
  case mfix => cases cc <;> simp [exJob, Job.lastRow, Job.lastCol, Job.channels]
  case mexp => cases cc <;> simp [exJob, Job.lastRow, Job.lastCol, Job.channels]
  all_goals simp [exJob, Job.lastRow, Job.lastCol, Job.depth]

theorem exArgs (dt : Dt) (cc : Bool) (m : Region → Nat → Byte) : (exJob dt cc m).Args :=
  ⟨fun h => absurd h (by simp [exJob]), fun h => absurd h (by simp [exJob]), fun h => absurd h (by simp [exJob])⟩

/-- A state at the start of the statement; registers that are not operands hold junk. -/
def exStart (j : Job) : St where
  x r := match r with
    | 13 => .int 0
    | 34 => .ptr .lhs j.lhsBase
    | 35 => .ptr .rhs j.rhsBase
    | 42 => .ptr .tmp 0
    | r => .int (1000 + r)
  v _ _ := 99
  m := j.m
  z := true
  lt := true
  bad := false

theorem exStart_ok (j : Job) : j.Start (exStart j) := by
  constructor <;> first | rfl | (intros; rfl)

def exMem : Region → Nat → Byte
  | .lhs, o => BitVec.ofNat 8 (o * 7 + 3)
  | .rhs, o => BitVec.ofNat 8 (o * o + 5)
  | .mulFix, o => if o % 4 = 3 then 0x50 else 0
  | .mulExp, o => if o % 4 = 0 then 0xf8 else 0xff
  | .bias, o => if o % 4 = 0 then BitVec.ofNat 8 o else 0
  | _, _ => 7

/-- The hypotheses of the theorems are met for each type of destination, for channels in rows and in columns. -/
example (dt : Dt) (cc : Bool) :
    ∃ s', Stops (exJob dt cc exMem).env kernel (exStart (exJob dt cc exMem)) s' ∧ s'.bad = false :=
  have ⟨s', h1, h2⟩ := c83_pairs (exFits dt cc exMem) (exArgs dt cc exMem) (fun _ => rfl) (exStart_ok _)
  ⟨s', h1, h2.ok⟩

/-- No -128 in the LHS, so `c83_symmetric` applies. -/
def exMem' : Region → Nat → Byte
  | .lhs, o => BitVec.ofNat 8 (o % 100)
  | r, o => exMem r o

example (dt : Dt) (cc : Bool) : ∀ r k, (exJob dt cc exMem').lhsAt r k ≠ -128 := by
  intro r k
  simp only [Job.lhsAt, exJob, exMem', wrap8, BitVec.toNat_ofNat]
  omega

/-- A state whose `q11` is lost. -/
example : (exStart (exJob .u8 true exMem)).v 11 ≠ fun _ => 0 := fun h => absurd (congrFun h 0) (by decide)

/-- A call with depth 0 and nothing packed. -/
example : ∃ (j : Job) (s : St), j.Start s ∧ j.size .lhs = 0 :=
  ⟨{ exJob .u8 true exMem with size := fun r => if r = .lhs then 0 else 1000 }, _, exStart_ok _, rfl⟩

/-! ### Two products of -128 by -128 -/

/-- One block, depth 16, no zero points: every entry of both operands is -128. -/
def badJob : Job where
  dt := .i32
  startRow := 0
  startCol := 0
  rowSteps := 0
  colSteps := 0
  depthSteps := 0
  lhsBase := 0
  rhsBase := 0
  dstBase := 0
  lhsStride := 16
  rhsStride := 16
  dstStride := 16
  dstRows := 4
  dstCols := 2
  lhsZp := 0
  rhsZp := 0
  dstZp := 0
  prodZp := 0
  clampMin := -2 ^ 31
  clampMax := 2 ^ 31 - 1
  hasBias := false
  hasLhsSums := true
  hasRhsSums := true
  perChannel := false
  chanCol := false
  size := fun _ => 64
  m := fun r _ => match r with
    | .lhs => 0x80
    | .rhs => 0x80
    | _ => 0

theorem badFits : badJob.Fits := by
  constructor
  case memory => intro r; exact (by decide : 64 ≤ 2 ^ 32)
  case dst =>
   intro r c h1 h2 h3 h4
   simp only [badJob, Dt.size] at *
   omega
  all_goals decide

theorem badArgs : badJob.Args :=
  ⟨fun _ i _ => by simp [Job.word, badJob, le4, Neon.le2, wrap32], fun _ i _ => rfl, fun _ i _ => rfl⟩

/-- C83 fails as stated: with -128 everywhere in both operands and depth 16 the product is 262144, which is what the
generic kernel computes, the NEON kernel stores -262144: VMLAL overflows int16. -/
theorem c83_int16 : ∃ s s', badJob.Fits ∧ badJob.Args ∧ badJob.Start s ∧ Stops badJob.env kernel s s' ∧
    badJob.dotOf 0 0 = 262144 ∧ badJob.accOf (badJob.dotOf 0 0) 0 0 = 262144 ∧
    ∀ b, b < 4 → s'.m .dst (badJob.addr .i32 0 0 + b) = byteOf (-262144) b := by
  obtain ⟨s', h1, h2⟩ := c83_pairs badFits badArgs (fun _ => rfl) (exStart_ok badJob)
  refine ⟨_, s', badFits, badArgs, exStart_ok badJob, h1, by decide +kernel, by decide +kernel, fun b hb => ?_⟩
  refine Eq.trans (h2.entry 0 0 (by unfold Job.Inside; decide) b hb) ?_
  exact congrArg (byteOf · b) (by decide +kernel)

/-! ### An int32 destination for an LHS without sums -/

/-- One block, depth 16, all entries 1, no zero points, no sums; multipliers and the destination are 0 at the start. -/
def rawJob : Job :=
  { badJob with
    hasLhsSums := false
    hasRhsSums := false
    m := fun r _ => match r with
      | .lhs => 1
      | .rhs => 1
      | _ => 0 }

theorem rawFits : rawJob.Fits := by
  constructor
  case memory => intro r; exact (by decide : 64 ≤ 2 ^ 32)
  case dst =>
   intro r c h1 h2 h3 h4
   simp only [rawJob, badJob, Dt.size] at *
   omega
  all_goals decide

theorem rawArgs : rawJob.Args :=
  ⟨fun _ i _ => by simp [Job.word, rawJob, le4, Neon.le2, wrap32], fun _ i _ => rfl, fun _ i _ => rfl⟩

/-- C83 fails as stated: every entry of the product is 16, the kernel stores 0 in entry (0, 0). -/
theorem c83_raw_false : ∃ s s', rawJob.Fits ∧ rawJob.Args ∧ rawJob.SumsOk ∧ rawJob.Start s ∧
    Stops rawJob.env kernel s s' ∧ rawJob.accOf (rawJob.dotOf 0 0) 0 0 = 16 ∧
    s'.m .dst (rawJob.addr .i32 0 0) = 0 ∧
    ¬rawJob.Result .i32 (fun r c => rawJob.outOf .i32 (rawJob.accOf (rawJob.dotOf r c) r c) r c) s' := by
  obtain ⟨s', h1, h2⟩ := c83_raw rawFits rawArgs rfl rfl (exStart_ok rawJob)
  have hi : rawJob.Inside 0 0 := by unfold Job.Inside; decide
  have e := h2.entry 0 0 hi 0 (by decide)
  have e0 : s'.m .dst (rawJob.addr .i32 0 0) = 0 := by
    refine Eq.trans e ?_
    decide +kernel
  refine ⟨_, s', rawFits, rawArgs, ⟨rfl, rfl, by decide⟩, exStart_ok rawJob, h1, by decide +kernel, e0, fun hr => ?_⟩
  have := hr.entry 0 0 hi 0 (by decide)
  rw [Nat.add_zero, e0] at this
  exact absurd this (by decide +kernel)

/-! ### Sums and quantization -/

/-- `SumsOk` and the hypotheses of `c83_quantized`: entries 1 and 2, zero points 3 and 5. -/
def sumJob : Job :=
  { badJob with
    dt := .i8
    lhsZp := 3
    rhsZp := 5
    dstZp := -7
    clampMin := -100
    clampMax := 90
    prodZp := 240
    m := fun r o => match r with
      | .lhs => 1
      | .rhs => 2
      | .lhsSums => if o % 4 = 0 then 16 else 0
      | .rhsSums => if o % 4 = 0 then 32 else 0
      | .mulFix => if o % 4 = 3 then 0x60 else 0
      | .mulExp => if o % 4 = 0 then 0xff else 0xff
      | _ => 0 }

theorem sumJob_ok : sumJob.SumsOk := by
  refine ⟨?_, ?_, by decide⟩
  · show ∀ r c, _
    intro r c hi
    have : r < 4 := hi.1
    interval_cases r <;> decide +kernel
  · show ∀ r c, _
    intro r c hi
    have : c < 2 := hi.2.1
    interval_cases c <;> decide +kernel

example : sumJob.accOf (sumJob.dotOf 2 1) 2 1 = 96 := by
  rw [c83_accumulator sumJob_ok (by unfold Job.Inside; decide)]
  decide +kernel

example : sumJob.expOf 2 1 = -1 ∧ sumJob.fixOf 2 1 = 1610612736 ∧ sumJob.outOf .i8 96 2 1 = 29 ∧
    isI32 (96 * 2 ^ (sumJob.expOf 2 1 + 1).toNat) := by decide +kernel

end Ruy.Arm8

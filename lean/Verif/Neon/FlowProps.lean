import Verif.Neon.FlowRun
/-
Property C59: 8-bit multiplication on the AArch64 path kNeon, packing and kernels together, on bytes.

  c59_any_order       pack calls and kernel calls in any order that packs before it multiplies, any blocks, each
                      call with either tuning: they stop without a fault; every entry of a kernel block holds the
                      value `stored`, and the rest of the destination and the inputs have not changed
  c59_same            two such orders that write the same entries leave the same destination, whatever was in the
                      packed buffers before
  c59_exact_partial   without two products of smallest values in one sum, `stored` is the output stage applied to the
                      exact entry modulo 2^32
  c59_symmetric       in particular if one operand has no smallest values
  c59_int32           int32 destinations: the exact entry, if it fits
  c59_quantized       other destinations: the exactly rounded entry plus zero point, clamped
  c59_simple_loop     the simple loop of TrMul writes every entry
  c59_lost            the condition of `c59_exact_partial` is needed: a multiplication that validation accepts, and whose
                      result is wrong
  c59_padding_all     without its condition on padding, entries are wrong by a multiple of 2^16
  c59_padding         a multiplication of this kind that validation accepts: uint8, zero points 0
-/
namespace Ruy.Neon.Flow
open Ruy.Mat Ruy.Mul
open Ruy.Simd.Flow (Op Covered Written)
open Simd (wrap16 wrap32 clampTo)
open Multiplier (scaled isI32)

/-- Memory after the calls `ops`. -/
structure Done (t : Task) (ops : List Op) (m m' : Mach) : Prop where
  src : m'.src = m.src
  bias : m'.bias = m.bias
  fixed : m'.fixed = m.fixed
  exponent : m'.exponent = m.exponent
  entry : ∀ i j, i < t.dst.layout.rows → j < t.dst.layout.cols → Written ops i j →
    ∀ b, b < t.dst.dt.size → m'.dst (place t i j + b) = byteOf (stored t m i j) b
  rest : ∀ o, (∀ i j, i < t.dst.layout.rows → j < t.dst.layout.cols → Written ops i j →
    ∀ b, b < t.dst.dt.size → o ≠ place t i j + b) → m'.dst o = m.dst o

/-- C59: any order of the calls, any tunings. -/
theorem c59_any_order {t : Task} {m : Mach} {ops : List (Bool × Op)} (h : TaskOk t) (ho : Ordered t (ops.map (·.2))) :
    (∃ r, Runs t ops m r) ∧ ∀ r, Runs t ops m r → ∃ m', r = .ok m' ∧ Done t (ops.map (·.2)) m m' := by
  obtain ⟨h1, h2⟩ := runs_inv (m0 := m) h ho
  refine ⟨h1, fun r hr => ?_⟩
  obtain ⟨m', e, hI⟩ := h2 r hr
  exact ⟨m', e, hI.kept.src, hI.kept.bias, hI.kept.fixed, hI.kept.exponent, hI.entry, hI.rest⟩

/-- The same inputs and the same destination; packed buffers may differ. -/
structure SameInputs (m m' : Mach) : Prop where
  src : m'.src = m.src
  bias : m'.bias = m.bias
  fixed : m'.fixed = m.fixed
  exponent : m'.exponent = m.exponent
  dst : m'.dst = m.dst

theorem stored_same {t : Task} {m m' : Mach} (h : SameInputs m m') (i j : Nat) : stored t m' i j = stored t m i j := by
  unfold stored output exact lost twoProducts small elem biasAt fixedAt exponentAt
  rw [h.src, h.bias, h.fixed, h.exponent]

/-- C59: order of the calls, choice of blocks, tunings and previous contents of the packed buffers do not matter. -/
theorem c59_same {t : Task} {m m' : Mach} {ops ops' : List (Bool × Op)} (h : TaskOk t) (hm : SameInputs m m')
    (ho : Ordered t (ops.map (·.2))) (ho' : Ordered t (ops'.map (·.2)))
    (hw : ∀ i j, i < t.dst.layout.rows → j < t.dst.layout.cols → (Written (ops.map (·.2)) i j ↔ Written (ops'.map (·.2)) i j))
    {r r' : C Mach} (hr : Runs t ops m r) (hr' : Runs t ops' m' r') :
    ∃ a b, r = .ok a ∧ r' = .ok b ∧ b.dst = a.dst := by
  obtain ⟨a, e, ha⟩ := (c59_any_order h ho).2 r hr
  obtain ⟨b, e', hb⟩ := (c59_any_order h ho').2 r' hr'
  refine ⟨a, b, e, e', ?_⟩
  funext o
  by_cases hx : ∃ i j, i < t.dst.layout.rows ∧ j < t.dst.layout.cols ∧ Written (ops.map (·.2)) i j ∧
      ∃ k, k < t.dst.dt.size ∧ o = place t i j + k
  · obtain ⟨i, j, h1, h2, h3, k, hk, rfl⟩ := hx
    rw [ha.entry i j h1 h2 h3 k hk, hb.entry i j h1 h2 ((hw i j h1 h2).1 h3) k hk, stored_same hm]
  · rw [ha.rest o (fun i j h1 h2 h3 k hk e => hx ⟨i, j, h1, h2, h3, k, hk, e⟩),
      hb.rest o (fun i j h1 h2 h3 k hk e => hx ⟨i, j, h1, h2, (hw i j h1 h2).2 h3, k, hk, e⟩), hm.dst]

/-- The smallest value of a type. -/
def lowest (unsigned : Bool) : Int := if unsigned then 0 else -128

/-- Both zero points are the smallest value of their type. -/
def BothLowest (t : Task) : Prop := t.src.lhs.zp = lowest t.src.lhs.unsigned ∧ t.src.rhs.zp = lowest t.src.rhs.unsigned

/-- validate.h:40-75 (`ValidateZeroPoints`): not both zero points are lowest; this is not checked if both operands are uint8. -/
def Validated (t : Task) : Prop := ¬(t.src.lhs.unsigned = true ∧ t.src.rhs.unsigned = true) → ¬BothLowest t

/-- Padding does not produce two products of smallest values in one sum. -/
def PadOk (t : Task) : Prop := depth t % 16 = 0 ∨ 8 ≤ depth t % 16 ∨ ¬BothLowest t

theorem of_lowest (u : Bool) (x : Int) (h : (x - if u = true then 128 else 0) = -128) : x = lowest u := by
  unfold lowest
  cases u <;> simp at h ⊢ <;> omega

/-- Nothing is lost without two products of smallest values in one sum. -/
theorem lost_zero {t : Task} {m : Mach} {i j : Nat} (h : TaskOk t) (hz : PadOk t) (hn : NoPair t m i j) : lost t m i j = 0 := by
  unfold lost
  refine Finset.sum_eq_zero (fun g hg => Finset.sum_eq_zero (fun k hk => ?_))
  have hk := Finset.mem_range.1 hk
  have hg := Finset.mem_range.1 hg
  unfold groups at hg
  have e : wrap16 (twoProducts t m i j (16 * g + k)) = twoProducts t m i j (16 * g + k) := by
    unfold twoProducts
    refine wrap16_pair (small_range h _ _ _) (small_range h _ _ _) (small_range h _ _ _) (small_range h _ _ _) ?_
    by_cases hd : 16 * g + k < depth t
    · exact hn _ (by omega) hd
    · rintro ⟨h1, h2, -, -⟩
      refine (hz.resolve_left (by omega)).resolve_left (by omega) ?_
      unfold small at h1 h2
      rw [if_neg hd] at h1 h2
      exact ⟨of_lowest _ _ h1, of_lowest _ _ h2⟩
  rw [e]
  omega

/-- Validation is enough unless both operands are uint8. -/
theorem Validated.pad {t : Task} (h : Validated t) (hu : ¬(t.src.lhs.unsigned = true ∧ t.src.rhs.unsigned = true)) : PadOk t :=
  .inr (.inr (h hu))

/-- C59 (partial): the exact entry modulo 2^32, put through the output stage.  Missing from the full statement: operands that
both have their smallest values at depths `k` and `k + 8` of a group of 16 (`c59_lost`), and uint8 operands with zero points 0
(`c59_padding`). -/
theorem c59_exact_partial {t : Task} {m : Mach} {i j : Nat} (h : TaskOk t) (hz : PadOk t) (hn : NoPair t m i j) :
    stored t m i j = output t m i j (wrap32 (exact t m i j)) := by
  unfold stored
  rw [lost_zero h hz hn]
  congr 2
  omega

/-- One operand without smallest values is enough. -/
theorem c59_symmetric {t : Task} {m : Mach} {i j : Nat} (h : TaskOk t) (hz : PadOk t) (s : Side)
    (hn : ∀ k, k < depth t → elem t m s k (match s with | .lhs => i | .rhs => j) ≠ lowest (t.src.get s).unsigned) :
    stored t m i j = output t m i j (wrap32 (exact t m i j)) := by
  refine c59_exact_partial h hz (fun k _ hk hh => ?_)
  have hn := hn k hk
  obtain ⟨h1, h2, -, -⟩ := hh
  unfold small at h1 h2
  rw [if_pos hk] at h1 h2
  unfold lowest at hn
  cases s
  · dsimp only at hn
    cases hu : (t.src.get .lhs).unsigned <;> rw [hu] at hn h1 <;> simp_all
  · dsimp only at hn
    cases hu : (t.src.get .rhs).unsigned <;> rw [hu] at hn h2 <;> simp_all

/-- C59 for int32 destinations. -/
theorem c59_int32 {t : Task} {m : Mach} {i j : Nat} (h : TaskOk t) (hz : PadOk t) (hn : NoPair t m i j) (hd : t.dst.dt = .i32)
    (hx : isI32 (exact t m i j)) : stored t m i j = exact t m i j := by
  rw [c59_exact_partial h hz hn]
  unfold output
  rw [hd]
  exact wrap32_id hx

/-- Specification of the quantized entry: exact rounding, zero point, clamping. -/
def quantized (t : Task) (m : Mach) (i j : Nat) : Int :=
  let ch := channelOf t.mp.chan i j
  max t.mp.clampMin (min t.mp.clampMax (t.dst.zp + scaled (exact t m i j) (fixedAt t m ch) (exponentAt t m ch)))

/-- Range of the type of the destination. -/
def Dt.lo : Dt → Int | .u8 => 0 | .i8 => -128 | .i16 => -32768 | .i32 => -2 ^ 31
def Dt.hi : Dt → Int | .u8 => 255 | .i8 => 127 | .i16 => 32767 | .i32 => 2 ^ 31 - 1

theorem fixedAt_i32 {t : Task} (h : TaskOk t) (m : Mach) (ch : Nat) : isI32 (fixedAt t m ch) := by
  unfold fixedAt
  split
  · exact Simd.wrap32_range _
  · exact h.fixed

/-- C59 for the other destinations: the exactly rounded entry, if the exact entry is an int32, the exponent is in [-31, 30],
the left shift loses no bits, and (for int16) adding the zero point does not overflow. -/
theorem c59_quantized {t : Task} {m : Mach} {i j : Nat} (h : TaskOk t) (hz : PadOk t) (hn : NoPair t m i j) (hd : t.dst.dt ≠ .i32)
    (hx : isI32 (exact t m i j))
    (he : -31 ≤ exponentAt t m (channelOf t.mp.chan i j) ∧ exponentAt t m (channelOf t.mp.chan i j) ≤ 30)
    (hfit : isI32 (exact t m i j * 2 ^ (exponentAt t m (channelOf t.mp.chan i j) + 1).toNat))
    (hzp : Dt.lo t.dst.dt ≤ t.dst.zp ∧ t.dst.zp ≤ Dt.hi t.dst.dt)
    (hc : Dt.lo t.dst.dt ≤ t.mp.clampMin ∧ t.mp.clampMin ≤ t.mp.clampMax ∧ t.mp.clampMax ≤ Dt.hi t.dst.dt)
    (hs : t.dst.dt = .i16 → isI32 (scaled (exact t m i j) (fixedAt t m (channelOf t.mp.chan i j))
      (exponentAt t m (channelOf t.mp.chan i j)) + t.dst.zp)) :
    stored t m i j = quantized t m i j := by
  rw [c59_exact_partial h hz hn]
  rw [wrap32_id hx]
  obtain ⟨h1, h2⟩ := Simd.c25_neon_partial (exact t m i j) (fixedAt t m (channelOf t.mp.chan i j))
    (exponentAt t m (channelOf t.mp.chan i j)) (fixedAt_i32 h m _) he.1 he.2 hfit
  unfold output quantized
  dsimp only
  rw [h1]
  have key : ∀ x : Int, clampTo t.mp.clampMin t.mp.clampMax (x + t.dst.zp) =
      max t.mp.clampMin (min t.mp.clampMax (t.dst.zp + x)) := by
    intro x
    have := hc.2.1
    unfold clampTo
    rw [Int.add_comm]
    omega
  cases hdt : t.dst.dt with
  | u8 =>
    rw [hdt] at hzp hc
    dsimp only [Dt.lo, Dt.hi] at hzp hc
    rw [Simd.c48_u8 _ _ _ _ hzp hc.1 hc.2.1 hc.2.2, key]
  | i8 =>
    rw [hdt] at hzp hc
    dsimp only [Dt.lo, Dt.hi] at hzp hc
    rw [Simd.c48_s8 _ _ _ _ hzp hc.1 hc.2.1 hc.2.2, key]
  | i16 =>
    rw [hdt] at hzp hc
    dsimp only [Dt.lo, Dt.hi] at hzp hc
    rw [Simd.c48_s16_partial _ _ _ _ hzp hc.1 hc.2.1 hc.2.2 (hs hdt), key]
  | i32 => exact absurd hdt hd

theorem simple_ordered {t : Task} (h : TaskOk t) (a55 : Bool) (h0 : 0 < t.dst.layout.rows) (h1 : 0 < t.dst.layout.cols) :
    Ordered t ((simpleOps t a55).map (·.2)) := by
  have whole : ∀ s, 0 < (t.src.get s).layout.cols →
      Simd.Flow.Block 4 (t.packed.get s).layout.cols 0 (t.packed.get s).layout.cols := fun s hs => by
    obtain ⟨-, -, l3, -, l5, -⟩ := (h.side s).facts
    exact ⟨Nat.zero_mod _, l5, by omega, Nat.le_refl _⟩
  have bl := whole .lhs (by show 0 < t.src.lhs.layout.cols; rw [← h.drows]; exact h0)
  have br := whole .rhs (by show 0 < t.src.rhs.layout.cols; rw [← h.dcols]; exact h1)
  refine ⟨fun s lo hi hm => ?_, fun start stop hm s => ?_, fun pre start stop post he s c hlo hhi _ => ?_⟩
  · simp only [simpleOps, List.map_cons, List.map_nil, List.mem_cons, List.not_mem_nil, or_false, reduceCtorEq, Op.pack.injEq] at hm
    rcases hm with ⟨rfl, rfl, rfl⟩ | ⟨rfl, rfl, rfl⟩
    · exact bl
    · exact br
  · simp only [simpleOps, List.map_cons, List.map_nil, List.mem_cons, List.not_mem_nil, or_false, reduceCtorEq, false_or,
      Op.kernel.injEq] at hm
    obtain ⟨rfl, rfl⟩ := hm
    cases s
    · exact bl
    · exact br
  · simp only [simpleOps, List.map_cons, List.map_nil] at he
    rcases pre with _ | ⟨a, _ | ⟨b, _ | ⟨c', rest⟩⟩⟩
    · cases he
    · cases he
    · cases he
      cases s
      · exact ⟨0, _, by simp, Nat.zero_le _, hhi⟩
      · exact ⟨0, _, by simp, Nat.zero_le _, hhi⟩
    · injection he with _ he
      injection he with _ he
      injection he with _ he
      exact absurd (congrArg List.length he) (by simp)

/-- C59: the simple loop of TrMul writes every entry of a non-empty destination, and nothing else. -/
theorem c59_simple_loop {t : Task} {m : Mach} (a55 : Bool) (h : TaskOk t) (h0 : 0 < t.dst.layout.rows) (h1 : 0 < t.dst.layout.cols) :
    (∃ r, Runs t (simpleOps t a55) m r) ∧ ∀ r, Runs t (simpleOps t a55) m r → ∃ m', r = .ok m' ∧
      (∀ i j, i < t.dst.layout.rows → j < t.dst.layout.cols → ∀ b, b < t.dst.dt.size →
        m'.dst (place t i j + b) = byteOf (stored t m i j) b) ∧
      ∀ o, (∀ i j, i < t.dst.layout.rows → j < t.dst.layout.cols → ∀ b, b < t.dst.dt.size → o ≠ place t i j + b) →
        m'.dst o = m.dst o := by
  obtain ⟨e, hv⟩ := c59_any_order (m := m) h (simple_ordered h a55 h0 h1)
  refine ⟨e, fun r hr => ?_⟩
  obtain ⟨m', rfl, hd⟩ := hv r hr
  refine ⟨m', rfl, fun i j hi hj => hd.entry i j hi hj ?_, fun o ho => hd.rest o (fun i j hi hj _ => ho i j hi hj)⟩
  obtain ⟨-, -, ll, -⟩ := (h.side .lhs).facts
  obtain ⟨-, -, lr, -⟩ := (h.side .rhs).facts
  simp only [SidePair.get_lhs, SidePair.get_rhs] at ll lr
  have := h.drows
  have := h.dcols
  refine ⟨⟨0, 0⟩, ⟨t.packed.lhs.layout.cols, t.packed.rhs.layout.cols⟩, by simp [simpleOps], Nat.zero_le _, ?_,
    Nat.zero_le _, ?_⟩ <;> dsimp only <;> omega

/-! ### Examples -/

/-- 21x5 uint8, column-major with a gap, and 21x7 int8, row-major. -/
def exL : Source := ⟨true, ⟨21, 5, 23, .colMajor⟩, 200, 115⟩
def exR : Source := ⟨false, ⟨21, 7, 9, .rowMajor⟩, -7, 189⟩
def exP (zp : Int) : Target := ⟨⟨32, 8, 32, .colMajor, ⟨.colMajor, 16, 4⟩⟩, zp, 256, 32⟩

/-- Per-channel multipliers and a bias. -/
def exTask (dt : Dt) : Task where
  src := ⟨exL, exR⟩
  packed := ⟨exP 72, exP (-7)⟩
  dst := ⟨dt, ⟨5, 7, 6, .colMajor⟩, 10, 6 * 7 * dt.size⟩
  mp := ⟨some 32, 0, 0, some 32, some 32, .row, 3, 100⟩

theorem exL_ok : SideOk exL (exP 72) where
  rows := by decide
  layout := by decide +kernel
  range := by decide
  zp := by decide
  depth := by decide
  size := by decide
  sums := by decide
  int := by decide
  source k c hk hc := by
    have hk : k < 21 := hk
    have hc : c < 5 := hc
    show 23 * c + k < 115
    omega
  columns _ c hc := by
    have hc : c < 8 := hc
    show 23 * c < _
    omega
  lines h := by cases h

theorem exR_ok : SideOk exR (exP (-7)) where
  rows := by decide
  layout := by decide +kernel
  range := by decide
  zp := by decide
  depth := by decide
  size := by decide
  sums := by decide
  int := by decide
  source k c hk hc := by
    have hk : k < 21 := hk
    have hc : c < 7 := hc
    show 9 * k + c < 189
    omega
  columns h := by cases h
  lines _ c hc := by
    have hc : c < 32 := hc
    show 9 * c < _
    omega

theorem exTask_ok (dt : Dt) : TaskOk (exTask dt) where
  side s := by
    cases s
    · exact exL_ok
    · exact exR_ok
  depth := rfl
  drows := rfl
  dcols := rfl
  dstride := by show 5 ≤ 6; decide
  dsize i j hi hj := by
    have hi : i < 5 := hi
    have hj : j < 7 := hj
    show (j * 6 + i) * dt.size + dt.size ≤ 6 * 7 * dt.size
    rw [← Nat.succ_mul]
    exact Nat.mul_le_mul_right _ (by omega)
  dint := by
    refine ⟨by show dt.size * 6 < _; cases dt <;> decide, fun j hj => ?_⟩
    have hj : j < 7 := hj
    show j * 6 < _
    omega
  prod := by show -2 ^ 31 ≤ (72 * -7 * 32 : Int) ∧ (72 * -7 * 32 : Int) < 2 ^ 31; decide
  bias n hn := by cases hn; show 4 * 8 ≤ 32; decide
  fixedBuf n hn := by cases hn; exact ⟨by show 4 * 8 ≤ 32; decide, 32, rfl, by show 4 * 8 ≤ 32; decide⟩
  fixed := by show -2 ^ 31 ≤ (0 : Int) ∧ (0 : Int) < 2 ^ 31; decide
  exponent := by show -2 ^ 31 ≤ (0 : Int) ∧ (0 : Int) < 2 ^ 31; decide

theorem exTask_zp (dt : Dt) : PadOk (exTask dt) :=
  Validated.pad (fun _ => by simp [BothLowest, exTask, exL, exR, lowest]) (by simp [exTask, exL, exR])

/-- Second block of columns packed while the first has been multiplied; one block packed twice; mixed tunings. -/
def exOps : List (Bool × Op) :=
  [(true, .pack .rhs 4 8), (false, .pack .lhs 0 8), (true, .kernel ⟨0, 4⟩ ⟨8, 8⟩), (false, .pack .rhs 0 4), (false, .pack .rhs 4 8),
    (false, .kernel ⟨4, 0⟩ ⟨8, 4⟩), (true, .kernel ⟨0, 0⟩ ⟨4, 8⟩)]

theorem exOps_ordered (dt : Dt) : Ordered (exTask dt) (exOps.map (·.2)) where
  packs s lo hi hm := by
    simp only [exOps, List.map_cons, List.map_nil, List.mem_cons, List.not_mem_nil, or_false, reduceCtorEq, false_or, Op.pack.injEq] at hm
    rcases hm with ⟨rfl, rfl, rfl⟩ | ⟨rfl, rfl, rfl⟩ | ⟨rfl, rfl, rfl⟩ | ⟨rfl, rfl, rfl⟩ <;>
      (unfold Simd.Flow.Block; show _ ∧ _ ∧ _ ∧ _ ≤ 8; decide)
  kernels start stop hm s := by
    simp only [exOps, List.map_cons, List.map_nil, List.mem_cons, List.not_mem_nil, or_false, reduceCtorEq, false_or, Op.kernel.injEq] at hm
    rcases hm with ⟨rfl, rfl⟩ | ⟨rfl, rfl⟩ | ⟨rfl, rfl⟩ <;> cases s <;>
      (unfold Simd.Flow.Block; show _ ∧ _ ∧ _ ∧ _ ≤ 8; decide)
  first pre start stop post he s c hlo hhi _ := by
    simp only [exOps, List.map_cons, List.map_nil] at he
    rcases pre with _ | ⟨a, _ | ⟨b, _ | ⟨c1, _ | ⟨d, _ | ⟨e, _ | ⟨f, _ | ⟨g, rest⟩⟩⟩⟩⟩⟩⟩
    · cases he
    · cases he
    · cases he
      cases s
      · exact ⟨0, 8, by simp, Nat.zero_le _, hhi⟩
      · exact ⟨4, 8, by simp, hlo, hhi⟩
    · cases he
    · cases he
    · cases he
      cases s
      · exact ⟨0, 8, by simp, Nat.zero_le _, hhi⟩
      · exact ⟨0, 4, by simp, Nat.zero_le _, hhi⟩
    · cases he
      cases s
      · exact ⟨0, 8, by simp, Nat.zero_le _, by have : c < 4 := hhi; omega⟩
      · by_cases h4 : c < 4
        · exact ⟨0, 4, by simp, Nat.zero_le _, h4⟩
        · exact ⟨4, 8, by simp, by omega, hhi⟩
    · injection he with _ he
      injection he with _ he
      injection he with _ he
      injection he with _ he
      injection he with _ he
      injection he with _ he
      injection he with _ he
      exact absurd (congrArg List.length he) (by simp)

/-- The hypotheses of `c59_any_order` and `c59_simple_loop` for every type of destination: the last entry. -/
example (dt : Dt) (m : Mach) : ∃ m', Runs (exTask dt) exOps m (.ok m') ∧
    ∀ b, b < dt.size → m'.dst ((6 * 6 + 4) * dt.size + b) = byteOf (stored (exTask dt) m 4 6) b := by
  obtain ⟨⟨r, hr⟩, hv⟩ := c59_any_order (m := m) (exTask_ok dt) (exOps_ordered dt)
  obtain ⟨m', rfl, hd⟩ := hv r hr
  exact ⟨m', hr, hd.entry 4 6 (by show 4 < 5; decide) (by show 6 < 7; decide)
    ⟨⟨0, 4⟩, ⟨8, 8⟩, by simp [exOps], by decide, by decide, by decide, by decide⟩⟩
example (dt : Dt) (m : Mach) (a55 : Bool) : ∃ m', Runs (exTask dt) (simpleOps (exTask dt) a55) m (.ok m') ∧
    ∀ b, b < dt.size → m'.dst ((6 * 6 + 4) * dt.size + b) = byteOf (stored (exTask dt) m 4 6) b := by
  obtain ⟨⟨r, hr⟩, hv⟩ := c59_simple_loop (m := m) a55 (exTask_ok dt) (by show 0 < 5; decide) (by show 0 < 7; decide)
  obtain ⟨m', rfl, hd, _⟩ := hv r hr
  exact ⟨m', hr, hd 4 6 (by show 4 < 5; decide) (by show 6 < 7; decide)⟩

/-- Some memory: multipliers of 2^30 with exponent 0 or -1, biases, no smallest values in the LHS. -/
def exMach (x : Byte) : Mach where
  src := ⟨fun o => BitVec.ofNat 8 (1 + o * 37 % 255), fun o => BitVec.ofNat 8 (o * 29)⟩
  packed := ⟨fun _ => x, fun _ => x⟩
  sums := ⟨fun _ => x, fun _ => x⟩
  bias := fun o => if o % 4 = 1 then BitVec.ofNat 8 o else 0
  fixed := fun o => if o % 4 = 3 then 0x40 else 0
  exponent := fun o => if o / 4 % 2 = 0 then 0 else 0xff
  dst := fun _ => 0xaa

theorem exMach_ne (dt : Dt) (x : Byte) (k i : Nat) : elem (exTask dt) (exMach x) .lhs k i ≠ 0 := by
  show (((BitVec.ofNat 8 (1 + (23 * i + k) * 37 % 255)).toNat : Nat) : Int) ≠ 0
  rw [BitVec.toNat_ofNat]
  omega

theorem exMach_noPair (dt : Dt) (x : Byte) (i j : Nat) : NoPair (exTask dt) (exMach x) i j := fun k _ hk hh => by
  have h1 := hh.1
  unfold small at h1
  rw [if_pos hk] at h1
  have := exMach_ne dt x k i
  change elem (exTask dt) (exMach x) .lhs k i - 128 = -128 at h1
  omega

/-- The hypotheses of `c59_symmetric`, `c59_int32` and `c59_quantized`. -/
example (dt : Dt) (x : Byte) : stored (exTask dt) (exMach x) 4 6 =
    output (exTask dt) (exMach x) 4 6 (wrap32 (exact (exTask dt) (exMach x) 4 6)) :=
  c59_symmetric (exTask_ok dt) (exTask_zp dt) .lhs (fun k _ => exMach_ne dt x k 4)
example (x : Byte) : stored (exTask .i32) (exMach x) 3 6 = exact (exTask .i32) (exMach x) 3 6 :=
  c59_int32 (exTask_ok _) (exTask_zp _) (exMach_noPair _ _ _ _) rfl (by decide +kernel +revert)
example (dt : Dt) (hd : dt ≠ .i32) : stored (exTask dt) (exMach 0) 3 6 = quantized (exTask dt) (exMach 0) 3 6 :=
  c59_quantized (exTask_ok _) (exTask_zp _) (exMach_noPair _ _ _ _) hd (by revert hd; cases dt <;> decide +kernel)
    (by revert hd; cases dt <;> decide +kernel) (by revert hd; cases dt <;> decide +kernel)
    (by revert hd; cases dt <;> decide +kernel) (by revert hd; cases dt <;> decide +kernel)
    (by revert hd; cases dt <;> decide +kernel)

/-- The hypotheses of `c59_same`: different garbage in the packed buffers, different order. -/
example (x y : Byte) {r r' : C Mach} (hr : Runs (exTask .i8) (simpleOps (exTask .i8) true) (exMach x) r)
    (hr' : Runs (exTask .i8) (simpleOps (exTask .i8) false) (exMach y) r') :
    ∃ a b, r = .ok a ∧ r' = .ok b ∧ b.dst = a.dst :=
  c59_same (m := exMach x) (m' := exMach y) (exTask_ok _) ⟨rfl, rfl, rfl, rfl, rfl⟩ (simple_ordered (exTask_ok _) true (by decide) (by decide))
    (simple_ordered (exTask_ok _) false (by decide) (by decide)) (fun _ _ _ _ => Iff.rfl) hr hr'

/-! ### Where the full statement fails -/

def lowS : Source := ⟨false, ⟨16, 1, 16, .colMajor⟩, 0, 16⟩
def lowP : Target := ⟨⟨16, 4, 16, .colMajor, ⟨.colMajor, 16, 4⟩⟩, 0, 64, 16⟩

/-- 16x1 int8 for both sides, zero points 0, int32 destination, no bias. -/
def lowTask : Task where
  src := ⟨lowS, lowS⟩
  packed := ⟨lowP, lowP⟩
  dst := ⟨.i32, ⟨1, 1, 1, .colMajor⟩, 0, 4⟩
  mp := ⟨none, 0, 0, none, none, .row, -2 ^ 31, 2 ^ 31 - 1⟩

theorem lowS_ok : SideOk lowS lowP where
  rows := by decide
  layout := by decide +kernel
  range := by decide
  zp := by decide
  depth := by decide
  size := by decide
  sums := by decide
  int := by decide
  source k c hk hc := by
    have hk : k < 16 := hk
    have hc : c < 1 := hc
    show 16 * c + k < 16
    omega
  columns _ c hc := by
    have hc : c < 4 := hc
    show 16 * c < _
    omega
  lines h := by cases h

theorem lowTask_ok : TaskOk lowTask where
  side s := by cases s <;> exact lowS_ok
  depth := rfl
  drows := rfl
  dcols := rfl
  dstride := Nat.le_refl 1
  dsize i j hi hj := by
    have hi : i < 1 := hi
    have hj : j < 1 := hj
    show (j * 1 + i) * 4 + 4 ≤ 4
    omega
  dint := by
    refine ⟨by decide, fun j hj => ?_⟩
    have hj : j < 1 := hj
    show j * 1 < _
    omega
  prod := by show -2 ^ 31 ≤ (0 * 0 * 16 : Int) ∧ (0 * 0 * 16 : Int) < 2 ^ 31; decide
  bias n hn := by cases hn
  fixedBuf n hn := by cases hn
  fixed := by show -2 ^ 31 ≤ (0 : Int) ∧ _; decide
  exponent := by show -2 ^ 31 ≤ (0 : Int) ∧ _; decide

def lowMach : Mach where
  src := ⟨fun _ => 0x80, fun _ => 0x80⟩
  packed := ⟨fun _ => 0, fun _ => 0⟩
  sums := ⟨fun _ => 0, fun _ => 0⟩
  bias := fun _ => 0
  fixed := fun _ => 0
  exponent := fun _ => 0
  dst := fun _ => 0

/-- All sources -128: the exact entry is 16·128² = 262144, an int32.  Whatever the tuning, the code stores -262144. -/
theorem c59_lost (a55 : Bool) : TaskOk lowTask ∧ Validated lowTask ∧ PadOk lowTask ∧ exact lowTask lowMach 0 0 = 262144 ∧
    (∃ r, Runs lowTask (simpleOps lowTask a55) lowMach r) ∧
    ∀ r, Runs lowTask (simpleOps lowTask a55) lowMach r → ∃ m', r = .ok m' ∧ wordAt m'.dst 0 = -262144 := by
  refine ⟨lowTask_ok, fun _ => by simp [BothLowest, lowTask, lowS, lowest], .inl rfl, by decide +kernel, ?_⟩
  obtain ⟨e, hv⟩ := c59_simple_loop (m := lowMach) a55 lowTask_ok (by decide) (by decide)
  refine ⟨e, fun r hr => ?_⟩
  obtain ⟨m', rfl, h1, -⟩ := hv r hr
  refine ⟨m', rfl, ?_⟩
  have hs : stored lowTask lowMach 0 0 = -262144 := by decide +kernel
  have := h1 0 0 (by decide) (by decide)
  rw [hs] at this
  show wrap32 (le4 m'.dst (4 * 0)) = _
  rw [word_of (x := -262144) (i := 0) this]
  decide

/-- Whenever padding is not harmless, every entry is wrong by 2^16 for each of the sums of padding products (before the
output stage). -/
theorem c59_padding_all {t : Task} {m : Mach} {i j : Nat} (h : TaskOk t) (hz : ¬PadOk t) (hn : NoPair t m i j) :
    stored t m i j = output t m i j (wrap32 (exact t m i j - 65536 * (8 - depth t % 16))) := by
  unfold PadOk at hz
  push Not at hz
  obtain ⟨z1, z2, z3, z4⟩ := hz
  have low : ∀ s k c, depth t ≤ k → small t m s k c = -128 := by
    intro s k c hk
    unfold small
    rw [if_neg (by omega)]
    have e : (t.src.get s).zp = lowest (t.src.get s).unsigned := by cases s <;> assumption
    rw [e]
    unfold lowest
    cases (t.src.get s).unsigned <;> rfl
  have hl : lost t m i j = 65536 * (8 - depth t % 16) := by
    have e1 : ∀ g k, k < 8 → twoProducts t m i j (16 * g + k) - wrap16 (twoProducts t m i j (16 * g + k)) =
        if depth t ≤ 16 * g + k then 65536 else 0 := by
      intro g k hk
      unfold twoProducts
      split
      · rename_i hd
        rw [low _ _ _ hd, low _ _ _ hd, low _ _ _ (by omega), low _ _ _ (by omega)]
        decide
      · rename_i hd
        rw [wrap16_pair (small_range h _ _ _) (small_range h _ _ _) (small_range h _ _ _) (small_range h _ _ _)
          (hn _ (by omega) (by omega))]
        omega
    unfold lost
    rw [Finset.sum_congr rfl (fun g _ => Finset.sum_congr rfl (fun k hk => e1 g k (Finset.mem_range.1 hk)))]
    have e2 : groups t = depth t / 16 + 1 := by unfold groups; omega
    rw [e2, Finset.sum_range_succ, Finset.sum_eq_zero (s := Finset.range (depth t / 16)) (fun g hg => Finset.sum_eq_zero (fun k hk =>
      if_neg (by have := Finset.mem_range.1 hg; have := Finset.mem_range.1 hk; omega))), Int.zero_add]
    have e3 : ∀ k, (depth t ≤ 16 * (depth t / 16) + k) = (depth t % 16 ≤ k) := fun k => propext (by omega)
    simp only [e3]
    rw [show ((depth t : Int) % 16) = ((depth t % 16 : Nat) : Int) by omega]
    generalize depth t % 16 = d at *
    have : d < 8 := by omega
    interval_cases d <;> first | (exact absurd rfl z1) | decide
  unfold stored
  rw [hl]

def byteS : Source := ⟨true, ⟨1, 1, 1, .colMajor⟩, 0, 1⟩
def byteP : Target := ⟨⟨16, 4, 16, .colMajor, ⟨.colMajor, 16, 4⟩⟩, -128, 64, 16⟩

/-- 1x1 uint8 for both sides, zero points 0, int32 destination, no bias. -/
def byteTask : Task := { lowTask with src := ⟨byteS, byteS⟩, packed := ⟨byteP, byteP⟩ }

theorem byteS_ok : SideOk byteS byteP where
  rows := by decide
  layout := by decide +kernel
  range := by decide
  zp := by decide
  depth := by decide
  size := by decide
  sums := by decide
  int := by decide
  source k c hk hc := by
    have hk : k < 1 := hk
    have hc : c < 1 := hc
    show 1 * c + k < 1
    omega
  columns _ c hc := by
    have hc : c < 4 := hc
    show 1 * c < _
    omega
  lines h := by cases h

theorem byteTask_ok : TaskOk byteTask where
  side s := by cases s <;> exact byteS_ok
  depth := rfl
  drows := rfl
  dcols := rfl
  dstride := Nat.le_refl 1
  dsize := lowTask_ok.dsize
  dint := lowTask_ok.dint
  prod := by show -2 ^ 31 ≤ (-128 * -128 * 16 : Int) ∧ (-128 * -128 * 16 : Int) < 2 ^ 31; decide
  bias n hn := by cases hn
  fixedBuf n hn := by cases hn
  fixed := lowTask_ok.fixed
  exponent := lowTask_ok.exponent

def byteMach : Mach := { lowMach with src := ⟨fun _ => 1, fun _ => 1⟩ }

/-- The hypotheses of `c59_padding_all`. -/
theorem byteTask_pad : ¬PadOk byteTask := by
  unfold PadOk
  push Not
  exact ⟨by decide, by decide, rfl, rfl⟩

theorem byteMach_noPair : NoPair byteTask byteMach 0 0 := fun k _ hk hh => by
  have hk : k < 1 := hk
  obtain rfl : k = 0 := by omega
  have : small byteTask byteMach .lhs 0 0 = -127 := by decide +kernel
  rw [this] at hh
  exact absurd hh.1 (by decide)

/-- The product of two uint8 1x1 matrices with zero points 0, both holding 1.  The rows that packing adds
hold -128 in both packed matrices; seven of their sums overflow int16, and the code stores 1 - 7·2^16. -/
theorem c59_padding (a55 : Bool) : TaskOk byteTask ∧ Validated byteTask ∧ NoPair byteTask byteMach 0 0 ∧
    exact byteTask byteMach 0 0 = 1 ∧ (∃ r, Runs byteTask (simpleOps byteTask a55) byteMach r) ∧
    ∀ r, Runs byteTask (simpleOps byteTask a55) byteMach r → ∃ m', r = .ok m' ∧ wordAt m'.dst 0 = 1 - 7 * 2 ^ 16 := by
  refine ⟨byteTask_ok, fun h => absurd ⟨rfl, rfl⟩ h, byteMach_noPair, by decide +kernel, ?_⟩
  obtain ⟨e, hv⟩ := c59_simple_loop (m := byteMach) a55 byteTask_ok (by decide) (by decide)
  refine ⟨e, fun r hr => ?_⟩
  obtain ⟨m', rfl, h1, -⟩ := hv r hr
  refine ⟨m', rfl, ?_⟩
  have hs : stored byteTask byteMach 0 0 = 1 - 7 * 2 ^ 16 := by
    rw [c59_padding_all byteTask_ok byteTask_pad byteMach_noPair]
    decide +kernel
  have := h1 0 0 (by decide) (by decide)
  rw [hs] at this
  show wrap32 (le4 m'.dst (4 * 0)) = _
  rw [word_of (x := 1 - 7 * 2 ^ 16) (i := 0) this]
  decide

end Ruy.Neon.Flow

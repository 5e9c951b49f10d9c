import Verif.Neon.DFlowRun
import Verif.Neon.FlowProps
/-
Property C68: 8-bit multiplication on the AArch64 path kNeonDotprod, packing and kernels together, on bytes.

  c68_any_order       pack calls and kernel calls in any order that packs before it multiplies, any blocks, each
                      call with any tuning: they stop without a fault; every entry of a kernel block holds the
                      exact entry, modulo 2^32, put through the output stage, and the rest of the destination and
                      the inputs have not changed
  c68_same            two such orders that write the same entries leave the same destination, whatever was in the
                      packed buffers before
  c68_int32           int32 destinations: the exact entry, if it fits
  c68_quantized       other destinations: the exactly rounded entry plus zero point, clamped
  c68_simple_loop     the simple loop of TrMul writes every entry
  c68_paths           where kNeon loses nothing, kNeon and kNeonDotprod leave the same destination
  c68_paths_differ    elsewhere they do not: a multiplication on which kNeonDotprod is right and kNeon is wrong
-/
namespace Ruy.Neon.DFlow
open Ruy.Mat Ruy.Mul
open Ruy.Simd.Flow (Op Covered Written)
open Ruy.Neon.Flow (Source Target Dest Params Task Mach sideMem putSide putKernel at' elem wordAt biasAt fixedAt exponentAt
  depth exact output place channels word_of wrap32_id Kept size_pos SameInputs quantized Dt.lo Dt.hi PadOk)
open Ruy.Tune (Tuning)
open Simd (wrap16 wrap32 clampTo)
open Multiplier (scaled isI32)

/-- Memory after the calls `ops`. -/
structure Done (t : Task) (ops : List Op) (m m' : Mach) : Prop where
  src : m'.src = m.src
  bias : m'.bias = m.bias
  fixed : m'.fixed = m.fixed
  exponent : m'.exponent = m.exponent
  entry : ∀ i j, i < t.dst.layout.rows → j < t.dst.layout.cols → Written ops i j →
    ∀ b, b < t.dst.dt.size → m'.dst (place t i j + b) = byteOf (stored t m i j) b
  rest : ∀ o, (∀ i j, i < t.dst.layout.rows → j < t.dst.layout.cols → Written ops i j →
    ∀ b, b < t.dst.dt.size → o ≠ place t i j + b) → m'.dst o = m.dst o

/-- C68: any order of the calls, any tunings. -/
theorem c68_any_order {t : Task} {m : Mach} {ops : List (Tuning × Op)} (h : TaskOk t) (ho : Ordered t (ops.map (·.2))) :
    (∃ r, Runs t ops m r) ∧ ∀ r, Runs t ops m r → ∃ m', r = .ok m' ∧ Done t (ops.map (·.2)) m m' := by
  obtain ⟨h1, h2⟩ := runs_inv (m0 := m) h ho
  refine ⟨h1, fun r hr => ?_⟩
  obtain ⟨m', e, hI⟩ := h2 r hr
  exact ⟨m', e, hI.kept.src, hI.kept.bias, hI.kept.fixed, hI.kept.exponent, hI.entry, hI.rest⟩

theorem stored_same {t : Task} {m m' : Mach} (h : SameInputs m m') (i j : Nat) : stored t m' i j = stored t m i j := by
  unfold stored output exact elem biasAt fixedAt exponentAt
  rw [h.src, h.bias, h.fixed, h.exponent]

/-- C68: order of the calls, choice of blocks, tunings and previous contents of the packed buffers do not matter. -/
theorem c68_same {t : Task} {m m' : Mach} {ops ops' : List (Tuning × Op)} (h : TaskOk t) (hm : SameInputs m m')
    (ho : Ordered t (ops.map (·.2))) (ho' : Ordered t (ops'.map (·.2)))
    (hw : ∀ i j, i < t.dst.layout.rows → j < t.dst.layout.cols → (Written (ops.map (·.2)) i j ↔ Written (ops'.map (·.2)) i j))
    {r r' : C Mach} (hr : Runs t ops m r) (hr' : Runs t ops' m' r') :
    ∃ a b, r = .ok a ∧ r' = .ok b ∧ b.dst = a.dst := by
  obtain ⟨a, e, ha⟩ := (c68_any_order h ho).2 r hr
  obtain ⟨b, e', hb⟩ := (c68_any_order h ho').2 r' hr'
  refine ⟨a, b, e, e', ?_⟩
  funext o
  by_cases hx : ∃ i j, i < t.dst.layout.rows ∧ j < t.dst.layout.cols ∧ Written (ops.map (·.2)) i j ∧
      ∃ k, k < t.dst.dt.size ∧ o = place t i j + k
  · obtain ⟨i, j, h1, h2, h3, k, hk, rfl⟩ := hx
    rw [ha.entry i j h1 h2 h3 k hk, hb.entry i j h1 h2 ((hw i j h1 h2).1 h3) k hk, stored_same hm]
  · rw [ha.rest o (fun i j h1 h2 h3 k hk e => hx ⟨i, j, h1, h2, h3, k, hk, e⟩),
      hb.rest o (fun i j h1 h2 h3 k hk e => hx ⟨i, j, h1, h2, (hw i j h1 h2).2 h3, k, hk, e⟩), hm.dst]

/-- C68 for int32 destinations. -/
theorem c68_int32 {t : Task} {m : Mach} {i j : Nat} (hd : t.dst.dt = .i32)
    (hx : isI32 (exact t m i j)) : stored t m i j = exact t m i j := by
  unfold stored
  unfold output
  rw [hd]
  exact wrap32_id hx

theorem fixedAt_i32 {t : Task} (h : TaskOk t) (m : Mach) (ch : Nat) : isI32 (fixedAt t m ch) := by
  unfold fixedAt
  split
  · exact Simd.wrap32_range _
  · exact h.fixed

/-- C68 for the other destinations: the exactly rounded entry, if the exact entry is an int32, the exponent is in [-31, 30],
the left shift loses no bits, and (for int16) adding the zero point does not overflow. -/
theorem c68_quantized {t : Task} {m : Mach} {i j : Nat} (h : TaskOk t) (hd : t.dst.dt ≠ .i32)
    (hx : isI32 (exact t m i j))
    (he : -31 ≤ exponentAt t m (channelOf t.mp.chan i j) ∧ exponentAt t m (channelOf t.mp.chan i j) ≤ 30)
    (hfit : isI32 (exact t m i j * 2 ^ (exponentAt t m (channelOf t.mp.chan i j) + 1).toNat))
    (hzp : Dt.lo t.dst.dt ≤ t.dst.zp ∧ t.dst.zp ≤ Dt.hi t.dst.dt)
    (hc : Dt.lo t.dst.dt ≤ t.mp.clampMin ∧ t.mp.clampMin ≤ t.mp.clampMax ∧ t.mp.clampMax ≤ Dt.hi t.dst.dt)
    (hs : t.dst.dt = .i16 → isI32 (scaled (exact t m i j) (fixedAt t m (channelOf t.mp.chan i j))
      (exponentAt t m (channelOf t.mp.chan i j)) + t.dst.zp)) :
    stored t m i j = quantized t m i j := by
  unfold stored
  rw [wrap32_id hx]
  obtain ⟨h1, h2⟩ := Simd.c25_neon_partial (exact t m i j) (fixedAt t m (channelOf t.mp.chan i j))
    (exponentAt t m (channelOf t.mp.chan i j)) (fixedAt_i32 h m _) he.1 he.2 hfit
  unfold output quantized
  dsimp only
  rw [h1]
  have key : ∀ x : Int, clampTo t.mp.clampMin t.mp.clampMax (x + t.dst.zp) =
      max t.mp.clampMin (min t.mp.clampMax (t.dst.zp + x)) := by
    intro x
    have := hc.2.1
    unfold clampTo
    rw [Int.add_comm]
    omega
  cases hdt : t.dst.dt with
  | u8 =>
    rw [hdt] at hzp hc
    dsimp only [Dt.lo, Dt.hi] at hzp hc
    rw [Simd.c48_u8 _ _ _ _ hzp hc.1 hc.2.1 hc.2.2, key]
  | i8 =>
    rw [hdt] at hzp hc
    dsimp only [Dt.lo, Dt.hi] at hzp hc
    rw [Simd.c48_s8 _ _ _ _ hzp hc.1 hc.2.1 hc.2.2, key]
  | i16 =>
    rw [hdt] at hzp hc
    dsimp only [Dt.lo, Dt.hi] at hzp hc
    rw [Simd.c48_s16_partial _ _ _ _ hzp hc.1 hc.2.1 hc.2.2 (hs hdt), key]
  | i32 => exact absurd hdt hd

theorem simple_ordered {t : Task} (h : TaskOk t) (u : Tuning) (h0 : 0 < t.dst.layout.rows) (h1 : 0 < t.dst.layout.cols) :
    Ordered t ((simpleOps t u).map (·.2)) := by
  have whole : ∀ s, 0 < (t.src.get s).layout.cols →
      Simd.Flow.Block 8 (t.packed.get s).layout.cols 0 (t.packed.get s).layout.cols := fun s hs => by
    obtain ⟨-, -, l3, -, l5, -⟩ := (h.side s).facts
    exact ⟨Nat.zero_mod _, l5, by omega, Nat.le_refl _⟩
  have bl := whole .lhs (by show 0 < t.src.lhs.layout.cols; rw [← h.drows]; exact h0)
  have br := whole .rhs (by show 0 < t.src.rhs.layout.cols; rw [← h.dcols]; exact h1)
  refine ⟨fun s lo hi hm => ?_, fun start stop hm s => ?_, fun pre start stop post he s c hlo hhi _ => ?_⟩
  · simp only [simpleOps, List.map_cons, List.map_nil, List.mem_cons, List.not_mem_nil, or_false, reduceCtorEq, Op.pack.injEq] at hm
    rcases hm with ⟨rfl, rfl, rfl⟩ | ⟨rfl, rfl, rfl⟩
    · exact bl
    · exact br
  · simp only [simpleOps, List.map_cons, List.map_nil, List.mem_cons, List.not_mem_nil, or_false, reduceCtorEq, false_or,
      Op.kernel.injEq] at hm
    obtain ⟨rfl, rfl⟩ := hm
    cases s
    · exact bl
    · exact br
  · simp only [simpleOps, List.map_cons, List.map_nil] at he
    rcases pre with _ | ⟨a, _ | ⟨b, _ | ⟨c', rest⟩⟩⟩
    · cases he
    · cases he
    · cases he
      cases s
      · exact ⟨0, _, by simp, Nat.zero_le _, hhi⟩
      · exact ⟨0, _, by simp, Nat.zero_le _, hhi⟩
    · injection he with _ he
      injection he with _ he
      injection he with _ he
      exact absurd (congrArg List.length he) (by simp)

/-- C68: the simple loop of TrMul writes every entry of a non-empty destination, and nothing else. -/
theorem c68_simple_loop {t : Task} {m : Mach} (u : Tuning) (h : TaskOk t) (h0 : 0 < t.dst.layout.rows) (h1 : 0 < t.dst.layout.cols) :
    (∃ r, Runs t (simpleOps t u) m r) ∧ ∀ r, Runs t (simpleOps t u) m r → ∃ m', r = .ok m' ∧
      (∀ i j, i < t.dst.layout.rows → j < t.dst.layout.cols → ∀ b, b < t.dst.dt.size →
        m'.dst (place t i j + b) = byteOf (stored t m i j) b) ∧
      ∀ o, (∀ i j, i < t.dst.layout.rows → j < t.dst.layout.cols → ∀ b, b < t.dst.dt.size → o ≠ place t i j + b) →
        m'.dst o = m.dst o := by
  obtain ⟨e, hv⟩ := c68_any_order (m := m) h (simple_ordered h u h0 h1)
  refine ⟨e, fun r hr => ?_⟩
  obtain ⟨m', rfl, hd⟩ := hv r hr
  refine ⟨m', rfl, fun i j hi hj => hd.entry i j hi hj ?_, fun o ho => hd.rest o (fun i j hi hj _ => ho i j hi hj)⟩
  obtain ⟨-, -, ll, -⟩ := (h.side .lhs).facts
  obtain ⟨-, -, lr, -⟩ := (h.side .rhs).facts
  simp only [SidePair.get_lhs, SidePair.get_rhs] at ll lr
  have := h.drows
  have := h.dcols
  refine ⟨⟨0, 0⟩, ⟨t.packed.lhs.layout.cols, t.packed.rhs.layout.cols⟩, by simp [simpleOps], Nat.zero_le _, ?_,
    Nat.zero_le _, ?_⟩ <;> dsimp only <;> omega

/-- The same multiplication set up for both paths. -/
structure Twin (t d : Task) : Prop where
  src : d.src = t.src
  dst : d.dst = t.dst
  mp : d.mp = t.mp

theorem Twin.eq {t d : Task} (h : Twin t d) : d = { t with packed := d.packed } := by
  obtain ⟨h1, h2, h3⟩ := h
  cases d; cases t
  dsimp only at *
  subst h1 h2 h3
  rfl

/-- C68: simple loops on kNeon (task `t`) and kNeonDotprod (task `d`) leave the same destination,
for inputs for which kNeon loses no bits (for others see `c68_paths_differ`). -/
theorem c68_paths {t d : Task} (ht : Flow.TaskOk t) (hd : TaskOk d) (he : Twin t d) (h0 : 0 < t.dst.layout.rows)
    (h1 : 0 < t.dst.layout.cols) {m m' : Mach} (hm : SameInputs m m') (hz : PadOk t)
    (hn : ∀ i j, i < t.dst.layout.rows → j < t.dst.layout.cols → Flow.NoPair t m i j) (a55 : Bool) (u : Tuning) {r r' : C Mach}
    (hr : Flow.Runs t (Flow.simpleOps t a55) m r) (hr' : Runs d (simpleOps d u) m' r') :
    ∃ a b, r = .ok a ∧ r' = .ok b ∧ b.dst = a.dst := by
  obtain ⟨a, ea, va, ra⟩ := (Flow.c59_simple_loop a55 ht h0 h1).2 r hr
  obtain ⟨b, eb, vb, rb⟩ := (c68_simple_loop u hd (by rw [he.dst]; exact h0) (by rw [he.dst]; exact h1)).2 r' hr'
  refine ⟨a, b, ea, eb, ?_⟩
  have pl : ∀ i j, place d i j = place t i j := fun i j => by unfold place; rw [he.dst]
  have st : ∀ i j, stored d m' i j = output t m i j (wrap32 (exact t m i j)) := fun i j => by
    rw [stored_same hm]
    unfold stored
    rw [he.eq]
    rfl
  rw [he.dst] at vb rb
  funext o
  by_cases hx : ∃ i j, i < t.dst.layout.rows ∧ j < t.dst.layout.cols ∧ ∃ k, k < t.dst.dt.size ∧ o = place t i j + k
  · obtain ⟨i, j, i1, j1, k, hk, rfl⟩ := hx
    have e := vb i j i1 j1 k hk
    rw [pl] at e
    rw [e, va i j i1 j1 k hk, st, Flow.c59_exact_partial ht hz (hn i j i1 j1)]
  · rw [ra o (fun i j i1 j1 k hk e => hx ⟨i, j, i1, j1, k, hk, e⟩),
      rb o (fun i j i1 j1 k hk e => hx ⟨i, j, i1, j1, k, hk, by rw [e, pl]⟩), hm.dst]

/-! ### Examples -/

/-- 21x13 uint8, column-major with a gap, and 21x15 int8, row-major. -/
def exL : Source := ⟨true, ⟨21, 13, 23, .colMajor⟩, 200, 299⟩
def exR : Source := ⟨false, ⟨21, 15, 17, .rowMajor⟩, -7, 357⟩
def exP (zp : Int) : Target := ⟨⟨24, 16, 24, .colMajor, ⟨.colMajor, 4, 8⟩⟩, zp, 384, 64⟩

/-- Per-channel multipliers and a bias. -/
def exTask (dt : Dt) : Task where
  src := ⟨exL, exR⟩
  packed := ⟨exP 72, exP (-7)⟩
  dst := ⟨dt, ⟨13, 15, 14, .colMajor⟩, 10, 14 * 15 * dt.size⟩
  mp := ⟨some 64, 0, 0, some 64, some 64, .row, 3, 100⟩

theorem exL_ok : SideOk exL (exP 72) where
  rows := by decide
  layout := by decide +kernel
  range := by decide
  zp := by decide
  size := by decide
  sums := by decide
  int := by decide
  source k c hk hc := by
    have hk : k < 21 := hk
    have hc : c < 13 := hc
    show 23 * c + k < 299
    omega
  columns _ c hc := by
    have hc : c < 16 := hc
    show 23 * c < _
    omega
  lines h := by cases h

theorem exR_ok : SideOk exR (exP (-7)) where
  rows := by decide
  layout := by decide +kernel
  range := by decide
  zp := by decide
  size := by decide
  sums := by decide
  int := by decide
  source k c hk hc := by
    have hk : k < 21 := hk
    have hc : c < 15 := hc
    show 17 * k + c < 357
    omega
  columns h := by cases h
  lines _ c hc := by
    have hc : c < 24 := hc
    show 17 * c < _
    omega

theorem exTask_ok (dt : Dt) : TaskOk (exTask dt) where
  side s := by
    cases s
    · exact exL_ok
    · exact exR_ok
  depth := rfl
  drows := rfl
  dcols := rfl
  dstride := by show 13 ≤ 14; decide
  dsize i j hi hj := by
    have hi : i < 13 := hi
    have hj : j < 15 := hj
    show (j * 14 + i) * dt.size + dt.size ≤ 14 * 15 * dt.size
    rw [← Nat.succ_mul]
    exact Nat.mul_le_mul_right _ (by omega)
  dint := by
    refine ⟨by show dt.size * 14 < _; cases dt <;> decide, fun j hj => ?_⟩
    have hj : j < 15 := hj
    show j * 14 < _
    omega
  prod := by show -2 ^ 31 ≤ (72 * -7 * 24 : Int) ∧ (72 * -7 * 24 : Int) < 2 ^ 31; decide
  bias n hn := by cases hn; show 4 * 16 ≤ 64; decide
  fixedBuf n hn := by cases hn; exact ⟨by show 4 * 16 ≤ 64; decide, 64, rfl, by show 4 * 16 ≤ 64; decide⟩
  fixed := by show -2 ^ 31 ≤ (0 : Int) ∧ (0 : Int) < 2 ^ 31; decide
  exponent := by show -2 ^ 31 ≤ (0 : Int) ∧ (0 : Int) < 2 ^ 31; decide

/-- Second block of columns packed while the first has been multiplied; one block packed twice; mixed tunings. -/
def exOps : List (Tuning × Op) :=
  [(.a55ish, .pack .rhs 8 16), (.generic, .pack .lhs 0 16), (.a55ish, .kernel ⟨0, 8⟩ ⟨16, 16⟩), (.generic, .pack .rhs 0 8), (.generic, .pack .rhs 8 16),
    (.x1, .kernel ⟨8, 0⟩ ⟨16, 8⟩), (.a55ish, .kernel ⟨0, 0⟩ ⟨8, 16⟩)]

theorem exOps_ordered (dt : Dt) : Ordered (exTask dt) (exOps.map (·.2)) where
  packs s lo hi hm := by
    simp only [exOps, List.map_cons, List.map_nil, List.mem_cons, List.not_mem_nil, or_false, reduceCtorEq, false_or, Op.pack.injEq] at hm
    rcases hm with ⟨rfl, rfl, rfl⟩ | ⟨rfl, rfl, rfl⟩ | ⟨rfl, rfl, rfl⟩ | ⟨rfl, rfl, rfl⟩ <;>
      (unfold Simd.Flow.Block; show _ ∧ _ ∧ _ ∧ _ ≤ 16; decide)
  kernels start stop hm s := by
    simp only [exOps, List.map_cons, List.map_nil, List.mem_cons, List.not_mem_nil, or_false, reduceCtorEq, false_or, Op.kernel.injEq] at hm
    rcases hm with ⟨rfl, rfl⟩ | ⟨rfl, rfl⟩ | ⟨rfl, rfl⟩ <;> cases s <;>
      (unfold Simd.Flow.Block; show _ ∧ _ ∧ _ ∧ _ ≤ 16; decide)
  first pre start stop post he s c hlo hhi _ := by
    simp only [exOps, List.map_cons, List.map_nil] at he
    rcases pre with _ | ⟨a, _ | ⟨b, _ | ⟨c1, _ | ⟨d, _ | ⟨e, _ | ⟨f, _ | ⟨g, rest⟩⟩⟩⟩⟩⟩⟩
    · cases he
    · cases he
    · cases he
      cases s
      · exact ⟨0, 16, by simp, Nat.zero_le _, hhi⟩
      · exact ⟨8, 16, by simp, hlo, hhi⟩
    · cases he
    · cases he
    · cases he
      cases s
      · exact ⟨0, 16, by simp, Nat.zero_le _, hhi⟩
      · exact ⟨0, 8, by simp, Nat.zero_le _, hhi⟩
    · cases he
      cases s
      · exact ⟨0, 16, by simp, Nat.zero_le _, by have : c < 8 := hhi; omega⟩
      · by_cases h4 : c < 8
        · exact ⟨0, 8, by simp, Nat.zero_le _, h4⟩
        · exact ⟨8, 16, by simp, by omega, hhi⟩
    · injection he with _ he
      injection he with _ he
      injection he with _ he
      injection he with _ he
      injection he with _ he
      injection he with _ he
      injection he with _ he
      exact absurd (congrArg List.length he) (by simp)

/-- The hypotheses of `c68_any_order` and `c68_simple_loop` for every type of destination: the last entry. -/
example (dt : Dt) (m : Mach) : ∃ m', Runs (exTask dt) exOps m (.ok m') ∧
    ∀ b, b < dt.size → m'.dst ((14 * 14 + 12) * dt.size + b) = byteOf (stored (exTask dt) m 12 14) b := by
  obtain ⟨⟨r, hr⟩, hv⟩ := c68_any_order (m := m) (exTask_ok dt) (exOps_ordered dt)
  obtain ⟨m', rfl, hd⟩ := hv r hr
  exact ⟨m', hr, hd.entry 12 14 (by show 12 < 13; decide) (by show 14 < 15; decide)
    ⟨⟨0, 8⟩, ⟨16, 16⟩, by simp [exOps], by decide, by decide, by decide, by decide⟩⟩
example (dt : Dt) (m : Mach) (u : Tuning) : ∃ m', Runs (exTask dt) (simpleOps (exTask dt) u) m (.ok m') ∧
    ∀ b, b < dt.size → m'.dst ((14 * 14 + 12) * dt.size + b) = byteOf (stored (exTask dt) m 12 14) b := by
  obtain ⟨⟨r, hr⟩, hv⟩ := c68_simple_loop (m := m) u (exTask_ok dt) (by show 0 < 13; decide) (by show 0 < 15; decide)
  obtain ⟨m', rfl, hd, _⟩ := hv r hr
  exact ⟨m', hr, hd 12 14 (by show 12 < 13; decide) (by show 14 < 15; decide)⟩

/-- Multipliers of 2^30 with exponent 0 or -1, biases, many smallest values in both operands. -/
def exMach (x : Byte) : Mach :=
  { Flow.exMach x with src := ⟨fun o => if o % 3 = 0 then BitVec.ofNat 8 (o * 37) else 0,
      fun o => if o % 5 = 0 then BitVec.ofNat 8 (o * 29) else 0x80⟩ }

/-- The hypotheses of `c68_int32` and `c68_quantized`. -/
example (x : Byte) : stored (exTask .i32) (exMach x) 3 6 = exact (exTask .i32) (exMach x) 3 6 :=
  c68_int32 rfl (by
    have : isI32 (exact (exTask .i32) (exMach 0) 3 6) := by unfold isI32; decide +kernel
    exact this)
example (dt : Dt) (hd : dt ≠ .i32) : stored (exTask dt) (exMach 0) 3 6 = quantized (exTask dt) (exMach 0) 3 6 :=
  c68_quantized (exTask_ok _) hd (by revert hd; cases dt <;> decide +kernel)
    (by revert hd; cases dt <;> decide +kernel) (by revert hd; cases dt <;> decide +kernel)
    (by revert hd; cases dt <;> decide +kernel) (by revert hd; cases dt <;> decide +kernel)
    (by revert hd; cases dt <;> decide +kernel)

/-- The hypotheses of `c68_same`: different garbage in the packed buffers, different tunings. -/
example (x y : Byte) {r r' : C Mach} (hr : Runs (exTask .i8) (simpleOps (exTask .i8) .x1) (exMach x) r)
    (hr' : Runs (exTask .i8) (simpleOps (exTask .i8) .generic) (exMach y) r') :
    ∃ a b, r = .ok a ∧ r' = .ok b ∧ b.dst = a.dst :=
  c68_same (m := exMach x) (m' := exMach y) (exTask_ok _) ⟨rfl, rfl, rfl, rfl, rfl⟩ (simple_ordered (exTask_ok _) .x1 (by decide) (by decide))
    (simple_ordered (exTask_ok _) .generic (by decide) (by decide)) (fun _ _ _ _ => Iff.rfl) hr hr'

/-- One of the two tasks of `c68_paths`: the example of C59 set up for kNeonDotprod. -/
def exP8 (zp : Int) : Target := ⟨⟨24, 8, 24, .colMajor, ⟨.colMajor, 4, 8⟩⟩, zp, 192, 32⟩

def exTwin (dt : Dt) : Task := { Flow.exTask dt with packed := ⟨exP8 72, exP8 (-7)⟩ }

theorem exTwin_ok (dt : Dt) : TaskOk (exTwin dt) where
  side s := by
    cases s
    · have h := Flow.exL_ok
      show SideOk Flow.exL (exP8 72)
      exact ⟨h.rows, by decide +kernel, h.range, h.zp, by decide, by decide, by decide, h.source,
        fun _ c hc => h.columns rfl c hc, fun e => by cases e⟩
    · have h := Flow.exR_ok
      show SideOk Flow.exR (exP8 (-7))
      exact ⟨h.rows, by decide +kernel, h.range, h.zp, by decide, by decide, by decide, h.source,
        fun e => (by cases e), fun _ c hc => h.lines rfl c (by have hc : c < 24 := hc; show c < 32; omega)⟩
  depth := rfl
  drows := rfl
  dcols := rfl
  dstride := (Flow.exTask_ok dt).dstride
  dsize := (Flow.exTask_ok dt).dsize
  dint := (Flow.exTask_ok dt).dint
  prod := by show -2 ^ 31 ≤ (72 * -7 * 24 : Int) ∧ (72 * -7 * 24 : Int) < 2 ^ 31; decide
  bias := (Flow.exTask_ok dt).bias
  fixedBuf := (Flow.exTask_ok dt).fixedBuf
  fixed := (Flow.exTask_ok dt).fixed
  exponent := (Flow.exTask_ok dt).exponent

/-- The hypotheses of `c68_paths`. -/
example (dt : Dt) (x y : Byte) (a55 : Bool) (u : Tuning) {r r' : C Mach}
    (hr : Flow.Runs (Flow.exTask dt) (Flow.simpleOps (Flow.exTask dt) a55) (Flow.exMach x) r)
    (hr' : Runs (exTwin dt) (simpleOps (exTwin dt) u) (Flow.exMach y) r') : ∃ a b, r = .ok a ∧ r' = .ok b ∧ b.dst = a.dst :=
  c68_paths (Flow.exTask_ok dt) (exTwin_ok dt) ⟨rfl, rfl, rfl⟩ (by show 0 < 5; decide) (by show 0 < 7; decide)
    (⟨rfl, rfl, rfl, rfl, rfl⟩ : SameInputs (Flow.exMach x) (Flow.exMach y)) (Flow.exTask_zp dt)
    (fun i j _ _ => Flow.exMach_noPair dt x i j) a55 u hr hr'

/-! ### Where the paths differ -/

def lowP : Target := ⟨⟨16, 8, 16, .colMajor, ⟨.colMajor, 4, 8⟩⟩, 0, 128, 32⟩

def lowTask : Task := { Flow.lowTask with packed := ⟨lowP, lowP⟩ }

theorem lowTask_ok : TaskOk lowTask where
  side s := by
    have h := Flow.lowS_ok
    have : SideOk Flow.lowS lowP := ⟨h.rows, by decide +kernel, h.range, h.zp, by decide, by decide, by decide, h.source,
        fun _ c hc => by
          have hc : c < 8 := hc
          show 16 * c < _
          omega, fun e => by cases e⟩
    cases s <;> exact this
  depth := rfl
  drows := rfl
  dcols := rfl
  dstride := Flow.lowTask_ok.dstride
  dsize := Flow.lowTask_ok.dsize
  dint := Flow.lowTask_ok.dint
  prod := Flow.lowTask_ok.prod
  bias n hn := by cases hn
  fixedBuf n hn := by cases hn
  fixed := Flow.lowTask_ok.fixed
  exponent := Flow.lowTask_ok.exponent

/-- All sources -128: kNeonDotprod stores the exact entry 16·128² = 262144, kNeon stores -262144, whatever the tunings. -/
theorem c68_paths_differ (a55 : Bool) (u : Tuning) : Flow.TaskOk Flow.lowTask ∧ TaskOk lowTask ∧ Twin Flow.lowTask lowTask ∧
    exact lowTask Flow.lowMach 0 0 = 262144 ∧
    (∃ a, Flow.Runs Flow.lowTask (Flow.simpleOps Flow.lowTask a55) Flow.lowMach (.ok a) ∧ wordAt a.dst 0 = -262144) ∧
    (∃ r, Runs lowTask (simpleOps lowTask u) Flow.lowMach r) ∧
    ∀ r, Runs lowTask (simpleOps lowTask u) Flow.lowMach r → ∃ b, r = .ok b ∧ wordAt b.dst 0 = 262144 := by
  refine ⟨Flow.lowTask_ok, lowTask_ok, ⟨rfl, rfl, rfl⟩, by decide +kernel, ?_, ?_⟩
  · obtain ⟨-, -, -, -, ⟨r, hr⟩, hv⟩ := Flow.c59_lost a55
    obtain ⟨a, rfl, h⟩ := hv r hr
    exact ⟨a, hr, h⟩
  · obtain ⟨e, hv⟩ := c68_simple_loop (m := Flow.lowMach) u lowTask_ok (by decide) (by decide)
    refine ⟨e, fun r hr => ?_⟩
    obtain ⟨m', rfl, h1, -⟩ := hv r hr
    refine ⟨m', rfl, ?_⟩
    have hs : stored lowTask Flow.lowMach 0 0 = 262144 := by decide +kernel
    have := h1 0 0 (by decide) (by decide)
    rw [hs] at this
    show wrap32 (le4 m'.dst (4 * 0)) = _
    rw [word_of (x := 262144) (i := 0) this]
    decide

end Ruy.Neon.DFlow

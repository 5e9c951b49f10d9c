import Verif.Neon.DThreadsInv
import Verif.Neon.DFlowProps
import Verif.Neon.ThreadsProps
/-
Property C69: 8-bit multiplication on the AArch64 path kNeonDotprod by one thread or by several threads, on bytes.

  c69_block_loop       the single-threaded block loop writes every entry
  c69_threads          any number of threads, any schedule, any block map, any tuning of each call: no step fails, and when
                       all tasks have returned every entry is written
  c69_threads_finish   under a fair schedule all tasks return
  c69_one_result       simple loop, block loop and all executions leave the same destination
  c69_int32            int32 destinations: the exact entry
  c69_quantized        other destinations: the exactly rounded entry plus zero point, clamped
-/
namespace Ruy.Neon.DFlow
open Ruy.Mat Ruy.Mul Ruy.BlockMap
open Ruy.Neon.Flow (Source Target Dest Params Task Mach elem biasAt fixedAt exponentAt depth exact output place size_pos
  shapeOf shape SameInputs quantized Dt.lo Dt.hi DstInts shape_get cols_get fair2)
open Ruy.Tune (Tuning)
open Ruy.TrMul (Mem Cfg State MapFor)
open Ruy.Simd.Flow (Op Covered Written control prepackCalls blockCalls colsOf InOrder GridOk CallsOk blockCalls_of ctl_finish
  run_prefix)
open Multiplier (scaled isI32)

/-- What a complete multiplication leaves: every entry, and nothing else in the destination or the inputs changed. -/
structure Multiplied (t : Task) (m m' : Mach) : Prop where
  src : m'.src = m.src
  bias : m'.bias = m.bias
  fixed : m'.fixed = m.fixed
  exponent : m'.exponent = m.exponent
  entry : ∀ i j, i < t.dst.layout.rows → j < t.dst.layout.cols → ∀ b, b < t.dst.dt.size →
    m'.dst (place t i j + b) = byteOf (stored t m i j) b
  rest : ∀ o, (∀ i j, i < t.dst.layout.rows → j < t.dst.layout.cols → ∀ b, b < t.dst.dt.size → o ≠ place t i j + b) →
    m'.dst o = m.dst o

theorem multiplied_of {t : Task} {m m' : Mach} {ops : List Op} (hI : Inv t m ops m')
    (hw : ∀ i j, i < t.dst.layout.rows → j < t.dst.layout.cols → Written ops i j) : Multiplied t m m' where
  src := hI.kept.src
  bias := hI.kept.bias
  fixed := hI.kept.fixed
  exponent := hI.kept.exponent
  entry i j hi hj := hI.entry i j hi hj (hw i j hi hj)
  rest o ho := hI.rest o (fun i j hi hj _ => ho i j hi hj)

/-- The destination after a complete multiplication is determined by the inputs. -/
theorem Multiplied.unique {t : Task} {m m' a b : Mach} (hm : SameInputs m m') (ha : Multiplied t m a)
    (hb : Multiplied t m' b) : b.dst = a.dst := by
  funext o
  by_cases hx : ∃ i j, i < t.dst.layout.rows ∧ j < t.dst.layout.cols ∧ ∃ k, k < t.dst.dt.size ∧ o = place t i j + k
  · obtain ⟨i, j, h1, h2, k, hk, rfl⟩ := hx
    rw [ha.entry i j h1 h2 k hk, hb.entry i j h1 h2 k hk, stored_same hm]
  · rw [ha.rest o (fun i j h1 h2 k hk e => hx ⟨i, j, h1, h2, k, hk, e⟩),
      hb.rest o (fun i j h1 h2 k hk e => hx ⟨i, j, h1, h2, k, hk, e⟩), hm.dst]

theorem dst_cols {t : Task} (h : TaskOk t) {i j : Nat} (hi : i < t.dst.layout.rows) (hj : j < t.dst.layout.cols) :
    i < (colsOf (shape t)).lhs ∧ j < (colsOf (shape t)).rhs := by
  obtain ⟨_, _, ll, _⟩ := (h.side .lhs).facts
  obtain ⟨_, _, lr, _⟩ := (h.side .rhs).facts
  simp only [SidePair.get_lhs, SidePair.get_rhs] at ll lr
  have := h.drows
  have := h.dcols
  show i < t.packed.lhs.layout.cols ∧ j < t.packed.rhs.layout.cols
  omega

section
variable {t : Task} {bm : BlockMap}

/-- C69: the block loop of one thread, with or without prepacked sides. -/
theorem c69_block_loop (h : TaskOk t) (hm : MapFor (shape t) bm) (pre : SidePair Bool) (m : Mach) :
    (∃ r, BlockLoop t pre bm m r) ∧ ∀ r, BlockLoop t pre bm m r → ∃ m', r = .ok m' ∧ Multiplied t m m' := by
  obtain ⟨n, kd, g, _⟩ := gridOk_of h hm
  obtain ⟨calls, e, hc, hw⟩ := blockCalls_of g (prepack_ok (pre := pre) h g)
  have ord : ∀ ops : List (Tuning × Op), Tuned ops (prepackCalls pre (colsOf (shape t)) ++ calls) → Ordered t (ops.map (·.2)) :=
    fun ops ht => by
      unfold Tuned at ht
      rw [ht]
      exact InOrder.ordered hc.order
  unfold BlockLoop
  rw [e]
  dsimp only
  refine ⟨?_, fun r hr => ?_⟩
  · obtain ⟨ops, ht⟩ := tuned_exists (prepackCalls pre (colsOf (shape t)) ++ calls)
    obtain ⟨⟨r, hr⟩, _⟩ := runs_inv (m0 := m) h (ord ops ht)
    exact ⟨r, ops, ht, hr⟩
  · obtain ⟨ops, ht, hr⟩ := hr
    obtain ⟨m', e, hI⟩ := (runs_inv (m0 := m) h (ord ops ht)).2 r hr
    unfold Tuned at ht
    rw [ht] at hI
    exact ⟨m', e, multiplied_of hI (fun i j hi hj => hw i j (dst_cols h hi hj).1 (dst_cols h hi hj).2)⟩

/-- C69: several threads. -/
theorem c69_threads (h : TaskOk t) (hd : DstInts t) (hm : MapFor (shape t) bm) (pre : SidePair Bool) {threads : Nat}
    (ht : 0 < threads) (sched : List Nat) (m : Mach) :
    (∃ r, Exec t pre bm threads sched m r) ∧ ∀ r, Exec t pre bm threads sched m r → ∃ x, r = .ok x ∧
      (TrMul.Finished (control pre bm threads) x.ctl → Multiplied t m x.mem) := by
  obtain ⟨n, kd, g, hk⟩ := gridOk_of h hm
  obtain ⟨h1, h2⟩ := exec_ok h hd g hk pre threads sched m
  refine ⟨h1, fun r hr => ?_⟩
  obtain ⟨x, ops, e, ok, _⟩ := h2 r hr
  exact ⟨x, e, fun hf => multiplied_of ok.mem
    (fun i j hi hj => ctl_finish g ht ok.ctl hf (dst_cols h hi hj).1 (dst_cols h hi hj).2)⟩

/-- C69: under a fair schedule all tasks return, and every entry is written. -/
theorem c69_threads_finish (h : TaskOk t) (hd : DstInts t) (hm : MapFor (shape t) bm) (pre : SidePair Bool) {threads : Nat}
    (ht : 0 < threads) {σ : Nat → Nat} (fair : TrMul.Fair threads σ) (m : Mach) :
    ∃ k, (∃ r, Exec t pre bm threads ((List.range k).map σ) m r) ∧
      ∀ r, Exec t pre bm threads ((List.range k).map σ) m r → ∃ x, r = .ok x ∧
        TrMul.Finished (control pre bm threads) x.ctl ∧ Multiplied t m x.mem := by
  have sh := shapeOk h hd
  have hr := sh.ready (pre := pre) (bm := bm) (threads := threads)
  have hs := sh.safe (pre := pre) (bm := bm) (threads := threads)
  obtain ⟨ex, hex⟩ := TrMul.c07_executions_exist (control pre bm threads).tp (shape t) bm threads σ hr hs hm
  obtain ⟨k, hk⟩ := TrMul.c07_fair_executions_finish (control pre bm threads).tp (shape t) bm threads σ ex hr hm hex fair
  obtain ⟨n, kd, g, hkd⟩ := gridOk_of h hm
  obtain ⟨h1, h2⟩ := exec_ok h hd g hkd pre threads ((List.range k).map σ) m
  refine ⟨k, h1, fun r hr => ?_⟩
  obtain ⟨x, ops, e, ok, hctl⟩ := h2 r hr
  have hex' : TrMul.Execution (control pre bm threads) (shape t) σ ex := hex
  have hx : ex k = x.ctl := by
    have := run_prefix hex' k
    rw [hctl] at this
    exact (Except.ok.inj this).symm
  have hf : TrMul.Finished (control pre bm threads) x.ctl := by rw [← hx]; exact hk
  exact ⟨x, e, hf, multiplied_of ok.mem
    (fun i j hi hj => ctl_finish g ht ok.ctl hf (dst_cols h hi hj).1 (dst_cols h hi hj).2)⟩

/-- C69: the destination does not depend on the block map, on which sides are prepacked, on the number of threads, on the
schedule, on the tunings or on what was in the packed buffers, and is the one the simple loop leaves. -/
theorem c69_one_result (h : TaskOk t) (hd : DstInts t) {bm' : BlockMap} (hm : MapFor (shape t) bm)
    (hm' : MapFor (shape t) bm') (pre pre' : SidePair Bool) {threads : Nat} (ht : 0 < threads) (sched : List Nat) (u : Tuning)
    {m m' m'' : Mach} (s' : SameInputs m m') (s'' : SameInputs m m'') {x : XState}
    (hx : Exec t pre bm threads sched m (.ok x)) (hf : TrMul.Finished (control pre bm threads) x.ctl) {r1 r2 : C Mach}
    (h1 : Runs t (simpleOps t u) m' r1) (h2 : BlockLoop t pre' bm' m'' r2) :
    ∃ m1 m2, r1 = .ok m1 ∧ r2 = .ok m2 ∧ m1.dst = x.mem.dst ∧ m2.dst = x.mem.dst := by
  obtain ⟨n, kd, g, _⟩ := gridOk_of h hm
  obtain ⟨x', ex, Mx⟩ := (c69_threads h hd hm pre ht sched m).2 _ hx
  cases ex
  obtain ⟨m2, rfl, M2⟩ := (c69_block_loop h hm' pre' m'').2 r2 h2
  have pos : 0 < t.dst.layout.rows ∧ 0 < t.dst.layout.cols := by
    have p1 := g.pos .lhs
    have p2 := g.pos .rhs
    rw [cols_get] at p1 p2
    simp only [SidePair.get_lhs, SidePair.get_rhs] at p1 p2
    obtain ⟨-, -, -, kl, al, -⟩ := (h.side .lhs).facts
    obtain ⟨-, -, -, kr, ar, -⟩ := (h.side .rhs).facts
    simp only [SidePair.get_lhs, SidePair.get_rhs] at kl kr al ar
    have := h.drows
    have := h.dcols
    omega
  obtain ⟨m1, rfl, hd1⟩ := (c68_any_order h (simple_ordered h u pos.1 pos.2)).2 r1 h1
  obtain ⟨m1', e1, v1, w1⟩ := (c68_simple_loop (m := m') u h pos.1 pos.2).2 _ h1
  cases e1
  exact ⟨m1, m2, rfl, rfl, Multiplied.unique s' (Mx hf) ⟨hd1.src, hd1.bias, hd1.fixed, hd1.exponent, v1, w1⟩,
    Multiplied.unique s'' (Mx hf) M2⟩

/-- C69 for int32 destinations: the exact entry, if it is an int32 value. -/
theorem c69_int32 (hdt : t.dst.dt = .i32) {m m' : Mach} (hM : Multiplied t m m')
    {i j : Nat} (hi : i < t.dst.layout.rows) (hj : j < t.dst.layout.cols) (hx : isI32 (exact t m i j)) :
    ∀ b, b < 4 → m'.dst (place t i j + b) = byteOf (exact t m i j) b := fun b hb => by
  rw [hM.entry i j hi hj b (by rw [hdt]; exact hb), c68_int32 hdt hx]

/-- C69 for the other destinations. -/
theorem c69_quantized (h : TaskOk t) (hdt : t.dst.dt ≠ .i32) {m m' : Mach} (hM : Multiplied t m m')
    {i j : Nat} (hi : i < t.dst.layout.rows) (hj : j < t.dst.layout.cols) (hx : isI32 (exact t m i j))
    (he : -31 ≤ exponentAt t m (channelOf t.mp.chan i j) ∧ exponentAt t m (channelOf t.mp.chan i j) ≤ 30)
    (hfit : isI32 (exact t m i j * 2 ^ (exponentAt t m (channelOf t.mp.chan i j) + 1).toNat))
    (hzp : Dt.lo t.dst.dt ≤ t.dst.zp ∧ t.dst.zp ≤ Dt.hi t.dst.dt)
    (hc : Dt.lo t.dst.dt ≤ t.mp.clampMin ∧ t.mp.clampMin ≤ t.mp.clampMax ∧ t.mp.clampMax ≤ Dt.hi t.dst.dt)
    (hs : t.dst.dt = .i16 → isI32 (scaled (exact t m i j) (fixedAt t m (channelOf t.mp.chan i j))
      (exponentAt t m (channelOf t.mp.chan i j)) + t.dst.zp)) :
    ∀ b, b < t.dst.dt.size → m'.dst (place t i j + b) = byteOf (quantized t m i j) b := fun b hb => by
  rw [hM.entry i j hi hj b hb, c68_quantized h hdt hx he hfit hzp hc hs]

end

/-! ### Examples -/

/-- RHS: int8, 21x125, row-major. -/
def exTask2 (dt : Dt) : Task where
  src := ⟨exL, Flow.exWide⟩
  packed := ⟨exP 72, ⟨⟨24, 128, 24, .colMajor, ⟨.colMajor, 4, 8⟩⟩, -7, 3072, 512⟩⟩
  dst := ⟨dt, ⟨13, 125, 14, .colMajor⟩, 10, 14 * 125 * dt.size⟩
  mp := ⟨some 64, 0, 0, some 64, some 64, .row, 3, 100⟩

theorem exWide_ok : SideOk Flow.exWide ⟨⟨24, 128, 24, .colMajor, ⟨.colMajor, 4, 8⟩⟩, -7, 3072, 512⟩ where
  rows := by decide
  layout := by decide +kernel
  range := by decide
  zp := by decide
  size := by decide
  sums := by decide
  int := by decide
  source := Flow.exWide_ok.source
  columns h := by cases h
  lines _ c hc := by
    have hc : c < 24 := hc
    show 130 * c < _
    omega

theorem exTask2_ok (dt : Dt) : TaskOk (exTask2 dt) where
  side s := by
    cases s
    · exact exL_ok
    · exact exWide_ok
  depth := rfl
  drows := rfl
  dcols := rfl
  dstride := by show 13 ≤ 14; decide
  dsize i j hi hj := by
    have hi : i < 13 := hi
    have hj : j < 125 := hj
    show (j * 14 + i) * dt.size + dt.size ≤ 14 * 125 * dt.size
    rw [← Nat.succ_mul]
    exact Nat.mul_le_mul_right _ (by omega)
  dint := by
    refine ⟨by show dt.size * 14 < _; cases dt <;> decide, fun j hj => ?_⟩
    have hj : j < 125 := hj
    show j * 14 < _
    omega
  prod := by show -2 ^ 31 ≤ (72 * -7 * 24 : Int) ∧ (72 * -7 * 24 : Int) < 2 ^ 31; decide
  bias n hn := by cases hn; show 4 * 16 ≤ 64; decide
  fixedBuf n hn := by cases hn; exact ⟨by show 4 * 16 ≤ 64; decide, 64, rfl, by show 4 * 16 ≤ 64; decide⟩
  fixed := by show -2 ^ 31 ≤ (0 : Int) ∧ (0 : Int) < 2 ^ 31; decide
  exponent := by show -2 ^ 31 ≤ (0 : Int) ∧ (0 : Int) < 2 ^ 31; decide

theorem exTask2_ints (dt : Dt) : DstInts (exTask2 dt) := fun i j hi hj => by
  have hi : i < 13 := hi
  have hj : j < 125 := hj
  show j * 14 + i < _
  omega

/-- A block map for two threads: 1x4 blocks of 16x32 entries. -/
def exMap : BlockMap := ⟨2, .linear, ⟨16, 128⟩, 0, ⟨0, 2⟩, ⟨8, 8⟩, ⟨16, 32⟩, ⟨0, 0⟩⟩

theorem exMapFor (dt : Dt) : MapFor (shape (exTask2 dt)) exMap :=
  ⟨⟨16, 128, 21, 8, 8, 1, 1, 2, ⟨32768, 524288⟩⟩, by decide +kernel, rfl, rfl, rfl, rfl, by decide, by decide⟩

/-- Two threads, RHS prepacked, alternating: the hypotheses of `c69_threads`, `c69_threads_finish` and `c69_int32`. -/
example (x : Byte) : ∃ k s, Exec (exTask2 .i32) ⟨false, true⟩ exMap 2 ((List.range k).map (· % 2)) (exMach x) (.ok s) ∧
    ∀ b, b < 4 → s.mem.dst ((124 * 14 + 12) * 4 + b) = byteOf (exact (exTask2 .i32) (exMach x) 12 124) b := by
  obtain ⟨k, ⟨r, hr⟩, hv⟩ := c69_threads_finish (exTask2_ok .i32) (exTask2_ints .i32) (exMapFor .i32) ⟨false, true⟩
    (threads := 2) (by decide) fair2 (exMach x)
  obtain ⟨s, rfl, hf, hM⟩ := hv r hr
  exact ⟨k, s, hr, c69_int32 rfl hM (i := 12) (j := 124) (by show 12 < 13; decide)
    (by show 124 < 125; decide) (by
      have : isI32 (exact (exTask2 .i32) (exMach 0) 12 124) := by unfold isI32; decide +kernel
      exact this)⟩

/-- The hypotheses of `c69_one_result` and `c69_block_loop`. -/
example (dt : Dt) (x y : Byte) {m1 m2 : Mach} (h1 : Runs (exTask2 dt) (simpleOps (exTask2 dt) .x1) (exMach x) (.ok m1))
    (h2 : BlockLoop (exTask2 dt) ⟨true, false⟩ exMap (exMach y) (.ok m2)) : m1.dst = m2.dst := by
  obtain ⟨k, ⟨r, hr⟩, hv⟩ := c69_threads_finish (exTask2_ok dt) (exTask2_ints dt) (exMapFor dt) ⟨false, true⟩
    (threads := 2) (by decide) fair2 (exMach x)
  obtain ⟨s, rfl, hf, _⟩ := hv r hr
  obtain ⟨a, b, e1, e2, h3, h4⟩ := c69_one_result (exTask2_ok dt) (exTask2_ints dt) (exMapFor dt) (exMapFor dt) ⟨false, true⟩
    ⟨true, false⟩ (by decide) _ .x1 (⟨rfl, rfl, rfl, rfl, rfl⟩ : SameInputs (exMach x) (exMach x))
    (⟨rfl, rfl, rfl, rfl, rfl⟩ : SameInputs (exMach x) (exMach y)) hr hf h1 h2
  cases e1
  cases e2
  rw [h3, h4]

example (dt : Dt) (m : Mach) : ∃ m', BlockLoop (exTask2 dt) ⟨true, false⟩ exMap m (.ok m') ∧
    ∀ b, b < dt.size → m'.dst ((124 * 14 + 12) * dt.size + b) = byteOf (stored (exTask2 dt) m 12 124) b := by
  obtain ⟨⟨r, hr⟩, hv⟩ := c69_block_loop (exTask2_ok dt) (exMapFor dt) ⟨true, false⟩ m
  obtain ⟨m', rfl, hM⟩ := hv r hr
  exact ⟨m', hr, hM.entry 12 124 (by show 12 < 13; decide) (by show 124 < 125; decide)⟩

/-- The hypotheses of `c69_quantized`. -/
example (x : Byte) {m' : Mach} (hM : Multiplied (exTask2 .u8) (exMach x) m') :
    m'.dst (124 * 14 + 12) = byteOf (quantized (exTask2 .u8) (exMach x) 12 124) 0 := by
  have e : isI32 (exact (exTask2 .u8) (exMach 0) 12 124) := by unfold isI32; decide +kernel
  have f : isI32 (exact (exTask2 .u8) (exMach 0) 12 124 *
      2 ^ (exponentAt (exTask2 .u8) (exMach 0) (channelOf (exTask2 .u8).mp.chan 12 124) + 1).toNat) := by
    unfold isI32; decide +kernel
  have g : -31 ≤ exponentAt (exTask2 .u8) (exMach 0) (channelOf (exTask2 .u8).mp.chan 12 124) ∧
      exponentAt (exTask2 .u8) (exMach 0) (channelOf (exTask2 .u8).mp.chan 12 124) ≤ 30 := by decide +kernel
  exact c69_quantized (exTask2_ok .u8) (by simp [exTask2]) hM (i := 12) (j := 124)
    (by show 12 < 13; decide) (by show 124 < 125; decide) e g f (by decide) (by decide)
    (by intro h; simp [exTask2] at h) 0 (by decide)

/-- Nothing is finished before the first step. -/
example : ¬ TrMul.Finished (control ⟨false, false⟩ exMap 2)
    (TrMul.initState (control ⟨false, false⟩ exMap 2) (shape (exTask2 .u8))) := by
  intro h
  exact absurd (h 0 (by decide)) (by decide)

end Ruy.Neon.DFlow

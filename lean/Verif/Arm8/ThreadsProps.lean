import Verif.Arm8.ThreadsInv
import Verif.Arm8.FlowProps
import Verif.Neon.ThreadsProps
/-
Property C88: 8-bit multiplication on 32-bit ARM (path kNeon) by one thread or by several threads, on bytes.

  c88_block_loop         the single-threaded block loop writes every entry
  c88_threads            any number of threads, any schedule, any block map: no step fails, and when all tasks have returned
                         every entry is written
  c88_threads_finish     under a fair schedule all tasks return
  c88_one_result         simple loop, block loop and all executions leave the same destination
  c88_aarch64            which is the one that executions on AArch64 leave (C60), whatever their block map and threads
  c88_int32_partial      int32 destinations: the exact entry
  c88_quantized_partial  other destinations: the exactly rounded entry plus zero point, clamped
-/
namespace Ruy.Arm8.Flow
open Ruy.Mat Ruy.Mul Ruy.BlockMap
open Ruy.TrMul (MapFor)
open Ruy.Simd.Flow (Op Written control prepackCalls blockCalls colsOf blockCalls_of ctl_finish run_prefix)
open Ruy.Neon (Dt Byte byteOf)
open Ruy.Neon.Flow (Source Target Task Mach place exact output lost twoProducts small elem groups depth fixedAt exponentAt
  NoPair PadOk Validated SameInputs stored_same quantized shape XState cols_get DstInts Multiplied exL exWide exMach fair2
  lowest BothLowest)
open Multiplier (scaled isI32)

theorem multiplied_of {t : Task} {m m' : Mach} {ops : List Op} (hI : Inv t m ops m')
    (hw : ∀ i j, i < t.dst.layout.rows → j < t.dst.layout.cols → Written ops i j) : Multiplied t m m' where
  src := hI.kept.src
  bias := hI.kept.bias
  fixed := hI.kept.fixed
  exponent := hI.kept.exponent
  entry i j hi hj := hI.entry i j hi hj (hw i j hi hj)
  rest o ho := hI.rest o (fun i j hi hj _ => ho i j hi hj)

theorem dst_cols {t : Task} (h : TaskOk t) {i j : Nat} (hi : i < t.dst.layout.rows) (hj : j < t.dst.layout.cols) :
    i < (colsOf (shape t)).lhs ∧ j < (colsOf (shape t)).rhs := by
  obtain ⟨_, _, ll, _⟩ := (h.side .lhs).facts
  obtain ⟨_, _, lr, _⟩ := (h.side .rhs).facts
  simp only [SidePair.get_lhs, SidePair.get_rhs] at ll lr
  have := h.drows
  have := h.dcols
  show i < t.packed.lhs.layout.cols ∧ j < t.packed.rhs.layout.cols
  omega

section
variable {t : Task} {bm : BlockMap}

/-- C88: the block loop of one thread, with or without prepacked sides. -/
theorem c88_block_loop (h : TaskOk t) (hm : MapFor (shape t) bm) (pre : SidePair Bool) (m : Mach) :
    (∃ r, BlockLoop t pre bm m r) ∧ ∀ r, BlockLoop t pre bm m r → ∃ m', r = .ok m' ∧ Multiplied t m m' := by
  obtain ⟨n, kd, g, _⟩ := gridOk_of h hm
  obtain ⟨calls, e, hc, hw⟩ := blockCalls_of g (prepack_ok (pre := pre) h g)
  unfold BlockLoop
  rw [e]
  dsimp only
  obtain ⟨h1, h2⟩ := runs_inv (m0 := m) h (InOrder.ordered hc.order)
  refine ⟨h1, fun r hr => ?_⟩
  obtain ⟨m', e, hI⟩ := h2 r hr
  exact ⟨m', e, multiplied_of hI (fun i j hi hj => hw i j (dst_cols h hi hj).1 (dst_cols h hi hj).2)⟩

/-- C88: several threads. -/
theorem c88_threads (h : TaskOk t) (hd : DstInts t) (hm : MapFor (shape t) bm) (pre : SidePair Bool) {threads : Nat}
    (ht : 0 < threads) (sched : List Nat) (m : Mach) :
    (∃ r, Exec t pre bm threads sched m r) ∧ ∀ r, Exec t pre bm threads sched m r → ∃ x, r = .ok x ∧
      (TrMul.Finished (control pre bm threads) x.ctl → Multiplied t m x.mem) := by
  obtain ⟨n, kd, g, hk⟩ := gridOk_of h hm
  obtain ⟨h1, h2⟩ := exec_ok h hd g hk pre threads sched m
  refine ⟨h1, fun r hr => ?_⟩
  obtain ⟨x, ops, e, ok, _⟩ := h2 r hr
  exact ⟨x, e, fun hf => multiplied_of ok.mem
    (fun i j hi hj => ctl_finish g ht ok.ctl hf (dst_cols h hi hj).1 (dst_cols h hi hj).2)⟩

/-- C88: under a fair schedule all tasks return, and every entry is written. -/
theorem c88_threads_finish (h : TaskOk t) (hd : DstInts t) (hm : MapFor (shape t) bm) (pre : SidePair Bool) {threads : Nat}
    (ht : 0 < threads) {σ : Nat → Nat} (fair : TrMul.Fair threads σ) (m : Mach) :
    ∃ k, (∃ r, Exec t pre bm threads ((List.range k).map σ) m r) ∧
      ∀ r, Exec t pre bm threads ((List.range k).map σ) m r → ∃ x, r = .ok x ∧
        TrMul.Finished (control pre bm threads) x.ctl ∧ Multiplied t m x.mem := by
  have sh := shapeOk h hd
  have hr := sh.ready (pre := pre) (bm := bm) (threads := threads)
  have hs := sh.safe (pre := pre) (bm := bm) (threads := threads)
  obtain ⟨ex, hex⟩ := TrMul.c07_executions_exist (control pre bm threads).tp (shape t) bm threads σ hr hs hm
  obtain ⟨k, hk⟩ := TrMul.c07_fair_executions_finish (control pre bm threads).tp (shape t) bm threads σ ex hr hm hex fair
  obtain ⟨n, kd, g, hkd⟩ := gridOk_of h hm
  obtain ⟨h1, h2⟩ := exec_ok h hd g hkd pre threads ((List.range k).map σ) m
  refine ⟨k, h1, fun r hr => ?_⟩
  obtain ⟨x, ops, e, ok, hctl⟩ := h2 r hr
  have hex' : TrMul.Execution (control pre bm threads) (shape t) σ ex := hex
  have hx : ex k = x.ctl := by
    have := run_prefix hex' k
    rw [hctl] at this
    exact (Except.ok.inj this).symm
  have hf : TrMul.Finished (control pre bm threads) x.ctl := by rw [← hx]; exact hk
  exact ⟨x, e, hf, multiplied_of ok.mem
    (fun i j hi hj => ctl_finish g ht ok.ctl hf (dst_cols h hi hj).1 (dst_cols h hi hj).2)⟩

/-- C88: the destination does not depend on the block map, on which sides are prepacked, on the number of threads, on the
schedule or on what was in the packed buffers, and is the one the simple loop leaves. -/
theorem c88_one_result (h : TaskOk t) (hd : DstInts t) {bm' : BlockMap} (hm : MapFor (shape t) bm)
    (hm' : MapFor (shape t) bm') (pre pre' : SidePair Bool) {threads : Nat} (ht : 0 < threads) (sched : List Nat)
    {m m' m'' : Mach} (s' : SameInputs m m') (s'' : SameInputs m m'') {x : XState}
    (hx : Exec t pre bm threads sched m (.ok x)) (hf : TrMul.Finished (control pre bm threads) x.ctl) {r1 r2 : C Mach}
    (h1 : Runs t (simpleOps t) m' r1) (h2 : BlockLoop t pre' bm' m'' r2) :
    ∃ m1 m2, r1 = .ok m1 ∧ r2 = .ok m2 ∧ m1.dst = x.mem.dst ∧ m2.dst = x.mem.dst := by
  obtain ⟨n, kd, g, _⟩ := gridOk_of h hm
  obtain ⟨x', ex, Mx⟩ := (c88_threads h hd hm pre ht sched m).2 _ hx
  cases ex
  obtain ⟨m2, rfl, M2⟩ := (c88_block_loop h hm' pre' m'').2 r2 h2
  have pos : 0 < t.dst.layout.rows ∧ 0 < t.dst.layout.cols := by
    have p1 := g.pos .lhs
    have p2 := g.pos .rhs
    rw [cols_get] at p1 p2
    simp only [SidePair.get_lhs, SidePair.get_rhs] at p1 p2
    obtain ⟨-, -, -, kl, al, -⟩ := (h.side .lhs).facts
    obtain ⟨-, -, -, kr, ar, -⟩ := (h.side .rhs).facts
    simp only [SidePair.get_lhs, SidePair.get_rhs] at kl kr al ar
    have := h.drows
    have := h.dcols
    change _ % 4 = 0 at al
    change _ % 2 = 0 at ar
    change _ < _ + 4 at kl
    change _ < _ + 2 at kr
    omega
  obtain ⟨m1, rfl, hd1⟩ := (c87_any_order h (simple_ordered h pos.1 pos.2)).2 r1 h1
  obtain ⟨m1', e1, v1, w1⟩ := (c87_simple_loop (m := m') h pos.1 pos.2).2 _ h1
  cases e1
  exact ⟨m1, m2, rfl, rfl, Multiplied.unique s' (Mx hf) ⟨hd1.src, hd1.bias, hd1.fixed, hd1.exponent, v1, w1⟩,
    Multiplied.unique s'' (Mx hf) M2⟩

/-- C88: executions on 32-bit ARM and on AArch64 (C60) leave the same destination, for the same sources and parameters:
block maps, prepacked sides, numbers of threads, schedules and tunings do not matter. -/
theorem c88_aarch64 {t' : Task} (h : TaskOk t) (h' : Neon.Flow.TaskOk t') (hd : DstInts t) (hd' : DstInts t') {bm' : BlockMap}
    (hm : MapFor (shape t) bm) (hm' : MapFor (shape t') bm') (es : t'.src = t.src) (ed : t'.dst = t.dst) (ep : t'.mp = t.mp)
    (pre pre' : SidePair Bool) {threads threads' : Nat} (ht : 0 < threads) (ht' : 0 < threads') (sched sched' : List Nat)
    {m m' : Mach} (si : SameInputs m m') {x x' : XState} (hx : Exec t pre bm threads sched m (.ok x))
    (hf : TrMul.Finished (control pre bm threads) x.ctl) (hx' : Neon.Flow.Exec t' pre' bm' threads' sched' m' (.ok x'))
    (hf' : TrMul.Finished (control pre' bm' threads') x'.ctl) : x'.mem.dst = x.mem.dst := by
  obtain ⟨y, e, M⟩ := (c88_threads h hd hm pre ht sched m).2 _ hx
  cases e
  obtain ⟨y', e, M'⟩ := (Neon.Flow.c60_threads h' hd' hm' pre' ht' sched' m').2 _ hx'
  cases e
  have M := M hf
  have M' := M' hf'
  have ev : ∀ i j, Neon.Flow.stored t' m' i j = Neon.Flow.stored t m' i j := fun i j => by
    unfold Neon.Flow.stored output exact lost twoProducts groups depth small elem Neon.Flow.biasAt fixedAt exponentAt
    unfold depth
    rw [es, ed, ep]
  have el : ∀ i j, place t' i j = place t i j := fun i j => by unfold place; rw [ed]
  have h1 := M'.entry
  have h2 := M'.rest
  simp only [ed, el, ev] at h1 h2
  exact Multiplied.unique si M ⟨M'.src, M'.bias, M'.fixed, M'.exponent, h1, h2⟩

/-- C88 (partial) for int32 destinations: the exact entry, if it is an int32 value.  Missing, as in `c87_exact_partial`:
operands that both have their smallest values at depths `k` and `k + 8` of a group of 16, and the padding of uint8 operands
with zero points 0. -/
theorem c88_int32_partial (h : TaskOk t) (hz : PadOk t) (hdt : t.dst.dt = .i32) {m m' : Mach} (hM : Multiplied t m m')
    {i j : Nat} (hi : i < t.dst.layout.rows) (hj : j < t.dst.layout.cols) (hn : NoPair t m i j) (hx : isI32 (exact t m i j)) :
    ∀ b, b < 4 → m'.dst (place t i j + b) = byteOf (exact t m i j) b := fun b hb => by
  rw [hM.entry i j hi hj b (by rw [hdt]; exact hb), c87_int32 h hz hn hdt hx]

/-- C88 (partial) for the other destinations; the same cases are missing. -/
theorem c88_quantized_partial (h : TaskOk t) (hz : PadOk t) (hdt : t.dst.dt ≠ .i32) {m m' : Mach} (hM : Multiplied t m m')
    {i j : Nat} (hi : i < t.dst.layout.rows) (hj : j < t.dst.layout.cols) (hn : NoPair t m i j) (hx : isI32 (exact t m i j))
    (he : -31 ≤ exponentAt t m (channelOf t.mp.chan i j) ∧ exponentAt t m (channelOf t.mp.chan i j) ≤ 30)
    (hfit : isI32 (exact t m i j * 2 ^ (exponentAt t m (channelOf t.mp.chan i j) + 1).toNat))
    (hzp : Neon.Flow.Dt.lo t.dst.dt ≤ t.dst.zp ∧ t.dst.zp ≤ Neon.Flow.Dt.hi t.dst.dt)
    (hc : Neon.Flow.Dt.lo t.dst.dt ≤ t.mp.clampMin ∧ t.mp.clampMin ≤ t.mp.clampMax ∧ t.mp.clampMax ≤ Neon.Flow.Dt.hi t.dst.dt)
    (hs : t.dst.dt = .i16 → isI32 (scaled (exact t m i j) (fixedAt t m (channelOf t.mp.chan i j))
      (exponentAt t m (channelOf t.mp.chan i j)) + t.dst.zp)) :
    ∀ b, b < t.dst.dt.size → m'.dst (place t i j + b) = byteOf (quantized t m i j) b := fun b hb => by
  rw [hM.entry i j hi hj b hb, c87_quantized h hz hn hdt hx he hfit hzp hc hs]

end

/-! ### Examples -/

def exTask2 (dt : Dt) : Task where
  src := ⟨exL, exWide⟩
  packed := ⟨exP 4 72, ⟨⟨32, 126, 32, .colMajor, ⟨.colMajor, 16, 2⟩⟩, -7, 4032, 504⟩⟩
  dst := ⟨dt, ⟨5, 125, 6, .colMajor⟩, 10, 6 * 125 * dt.size⟩
  mp := ⟨some 32, 0, 0, some 32, some 32, .row, 3, 100⟩

theorem exWide_ok : SideOk 2 exWide ⟨⟨32, 126, 32, .colMajor, ⟨.colMajor, 16, 2⟩⟩, -7, 4032, 504⟩ where
  rows := by decide
  layout := by decide +kernel
  range := by decide
  zp := by decide
  depth := by decide
  size := by decide
  sums := by decide
  memory := by decide
  int := by decide
  source k c hk hc := by
    have hk : k < 21 := hk
    have hc : c < 125 := hc
    show 130 * k + c < 2730
    omega
  columns h := by cases h
  lines _ c hc := by
    have hc : c < 32 := hc
    show 130 * c < _
    omega

theorem exTask2_ok (dt : Dt) : TaskOk (exTask2 dt) where
  side s := by
    cases s
    · exact exL_ok
    · exact exWide_ok
  depth := rfl
  drows := rfl
  dcols := rfl
  dstride := by show 5 ≤ 6; decide
  dsize i j hi hj := by
    have hi : i < 5 := hi
    have hj : j < 125 := hj
    show (j * 6 + i) * dt.size + dt.size ≤ 6 * 125 * dt.size
    rw [← Nat.succ_mul]
    exact Nat.mul_le_mul_right _ (by omega)
  dint := by
    refine ⟨by show dt.size * 6 < _; cases dt <;> decide, fun j hj => ?_⟩
    have hj : j < 125 := hj
    show j * 6 < _
    omega
  prod := by show -2 ^ 31 ≤ (72 * -7 * 32 : Int) ∧ (72 * -7 * 32 : Int) < 2 ^ 31; decide
  bias n hn := by cases hn; show 4 * 8 ≤ 32; decide
  fixedBuf n hn := by cases hn; exact ⟨by show 4 * 8 ≤ 32; decide, 32, rfl, by show 4 * 8 ≤ 32; decide⟩
  fixed := by show -2 ^ 31 ≤ (0 : Int) ∧ (0 : Int) < 2 ^ 31; decide
  exponent := by show -2 ^ 31 ≤ (0 : Int) ∧ (0 : Int) < 2 ^ 31; decide
  memory := ⟨by show 6 * 125 * dt.size ≤ _; cases dt <;> decide, fun n hn => by cases hn; decide, fun n hn => by cases hn; decide,
    fun n hn => by cases hn; decide⟩

theorem exTask2_ints (dt : Dt) : DstInts (exTask2 dt) := fun i j hi hj => by
  have hi : i < 5 := hi
  have hj : j < 125 := hj
  show j * 6 + i < _
  omega

/-- The block map for two threads: seven blocks of 8x16 entries and one of 8x14. -/
def exMap : BlockMap := ⟨2, .linear, ⟨8, 126⟩, 0, ⟨0, 3⟩, ⟨4, 2⟩, ⟨8, 14⟩, ⟨0, 7⟩⟩

theorem exMapFor (dt : Dt) : MapFor (shape (exTask2 dt)) exMap :=
  ⟨⟨8, 126, 21, 4, 2, 1, 1, 2, ⟨32768, 524288⟩⟩, by decide +kernel, rfl, rfl, rfl, rfl, by decide, by decide⟩

theorem exTask2_pad (dt : Dt) : PadOk (exTask2 dt) :=
  Validated.pad (fun _ => by simp [BothLowest, exTask2, exL, exWide, lowest]) (by simp [exTask2, exL, exWide])

theorem exTask2_noPair (dt : Dt) (x : Byte) (i j : Nat) : NoPair (exTask2 dt) (exMach x) i j := fun k _ hk hh => by
  have h1 := hh.1
  unfold small at h1
  rw [if_pos hk] at h1
  have : elem (exTask2 dt) (exMach x) .lhs k i ≠ 0 := exMach_ne dt x k i
  change elem (exTask2 dt) (exMach x) .lhs k i - 128 = -128 at h1
  omega

/-- Two threads, RHS prepacked, alternating: the hypotheses of `c88_threads`, `c88_threads_finish` and `c88_int32_partial`. -/
example (x : Byte) : ∃ k s, Exec (exTask2 .i32) ⟨false, true⟩ exMap 2 ((List.range k).map (· % 2)) (exMach x) (.ok s) ∧
    ∀ b, b < 4 → s.mem.dst ((124 * 6 + 4) * 4 + b) = byteOf (exact (exTask2 .i32) (exMach x) 4 124) b := by
  obtain ⟨k, ⟨r, hr⟩, hv⟩ := c88_threads_finish (exTask2_ok .i32) (exTask2_ints .i32) (exMapFor .i32) ⟨false, true⟩
    (threads := 2) (by decide) fair2 (exMach x)
  obtain ⟨s, rfl, hf, hM⟩ := hv r hr
  exact ⟨k, s, hr, c88_int32_partial (exTask2_ok .i32) (exTask2_pad .i32) rfl hM (i := 4) (j := 124) (by show 4 < 5; decide)
    (by show 124 < 125; decide) (exTask2_noPair .i32 x 4 124) (by
      have : isI32 (exact (exTask2 .i32) (exMach 0) 4 124) := by unfold isI32; decide +kernel
      exact this)⟩

/-- The hypotheses of `c88_one_result` and `c88_block_loop`. -/
example (dt : Dt) (x y : Byte) {m1 m2 : Mach} (h1 : Runs (exTask2 dt) (simpleOps (exTask2 dt)) (exMach x) (.ok m1))
    (h2 : BlockLoop (exTask2 dt) ⟨true, false⟩ exMap (exMach y) (.ok m2)) : m1.dst = m2.dst := by
  obtain ⟨k, ⟨r, hr⟩, hv⟩ := c88_threads_finish (exTask2_ok dt) (exTask2_ints dt) (exMapFor dt) ⟨false, true⟩
    (threads := 2) (by decide) fair2 (exMach x)
  obtain ⟨s, rfl, hf, _⟩ := hv r hr
  obtain ⟨a, b, e1, e2, h3, h4⟩ := c88_one_result (exTask2_ok dt) (exTask2_ints dt) (exMapFor dt) (exMapFor dt) ⟨false, true⟩
    ⟨true, false⟩ (by decide) _ (⟨rfl, rfl, rfl, rfl, rfl⟩ : SameInputs (exMach x) (exMach x))
    (⟨rfl, rfl, rfl, rfl, rfl⟩ : SameInputs (exMach x) (exMach y)) hr hf h1 h2
  cases e1
  cases e2
  rw [h3, h4]

example (dt : Dt) (m : Mach) : ∃ m', BlockLoop (exTask2 dt) ⟨true, false⟩ exMap m (.ok m') ∧
    ∀ b, b < dt.size → m'.dst ((124 * 6 + 4) * dt.size + b) = byteOf (Neon.Flow.stored (exTask2 dt) m 4 124) b := by
  obtain ⟨⟨r, hr⟩, hv⟩ := c88_block_loop (exTask2_ok dt) (exMapFor dt) ⟨true, false⟩ m
  obtain ⟨m', rfl, hM⟩ := hv r hr
  exact ⟨m', hr, hM.entry 4 124 (by show 4 < 5; decide) (by show 124 < 125; decide)⟩

/-- The hypotheses of `c88_quantized_partial`. -/
example (x : Byte) {m' : Mach} (hM : Multiplied (exTask2 .u8) (exMach x) m') :
    m'.dst (124 * 6 + 4) = byteOf (quantized (exTask2 .u8) (exMach x) 4 124) 0 := by
  have e : isI32 (exact (exTask2 .u8) (exMach 0) 4 124) := by unfold isI32; decide +kernel
  have f : isI32 (exact (exTask2 .u8) (exMach 0) 4 124 *
      2 ^ (exponentAt (exTask2 .u8) (exMach 0) (channelOf (exTask2 .u8).mp.chan 4 124) + 1).toNat) := by
    unfold isI32; decide +kernel
  have g : -31 ≤ exponentAt (exTask2 .u8) (exMach 0) (channelOf (exTask2 .u8).mp.chan 4 124) ∧
      exponentAt (exTask2 .u8) (exMach 0) (channelOf (exTask2 .u8).mp.chan 4 124) ≤ 30 := by decide +kernel
  exact c88_quantized_partial (exTask2_ok .u8) (exTask2_pad .u8) (by simp [exTask2]) hM (i := 4) (j := 124)
    (by show 4 < 5; decide) (by show 124 < 125; decide) (exTask2_noPair .u8 x 4 124) e g f (by decide) (by decide)
    (by intro h; simp [exTask2] at h) 0 (by decide)

/-- The hypotheses of `c88_aarch64`: two threads on each side, different block maps and prepacked sides. -/
example (dt : Dt) (x y : Byte) : ∃ k k' s s', Exec (exTask2 dt) ⟨false, true⟩ exMap 2 ((List.range k).map (· % 2)) (exMach x) (.ok s) ∧
    Neon.Flow.Exec (Neon.Flow.exTask2 dt) ⟨true, false⟩ Neon.Flow.exMap 2 ((List.range k').map (· % 2)) (exMach y) (.ok s') ∧
    s'.mem.dst = s.mem.dst := by
  obtain ⟨k, ⟨r, hr⟩, hv⟩ := c88_threads_finish (exTask2_ok dt) (exTask2_ints dt) (exMapFor dt) ⟨false, true⟩
    (threads := 2) (by decide) fair2 (exMach x)
  obtain ⟨s, rfl, hf, _⟩ := hv r hr
  obtain ⟨k', ⟨r', hr'⟩, hv'⟩ := Neon.Flow.c60_threads_finish (Neon.Flow.exTask2_ok dt) (Neon.Flow.exTask2_ints dt)
    (Neon.Flow.exMapFor dt) ⟨true, false⟩ (threads := 2) (by decide) fair2 (exMach y)
  obtain ⟨s', rfl, hf', _⟩ := hv' r' hr'
  exact ⟨k, k', s, s', hr, hr', c88_aarch64 (exTask2_ok dt) (Neon.Flow.exTask2_ok dt) (exTask2_ints dt)
    (Neon.Flow.exTask2_ints dt) (exMapFor dt) (Neon.Flow.exMapFor dt) rfl rfl rfl _ _ (by decide) (by decide) _ _
    (⟨rfl, rfl, rfl, rfl, rfl⟩ : SameInputs (exMach x) (exMach y)) hr hf hr' hf'⟩

/-- Nothing is finished before the first step. -/
example : ¬ TrMul.Finished (control ⟨false, false⟩ exMap 2)
    (TrMul.initState (control ⟨false, false⟩ exMap 2) (shape (exTask2 .u8))) := by
  intro h
  exact absurd (h 0 (by decide)) (by decide)

end Ruy.Arm8.Flow

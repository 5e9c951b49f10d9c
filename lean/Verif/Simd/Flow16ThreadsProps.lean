import Verif.Simd.Flow16Threads
import Verif.Simd.Flow16Props
import Verif.Simd.ThreadsProps
/-
Property C93: multiplication of an 8-bit LHS by an int16 RHS on AVX2 and AVX-512 by one thread or by several threads.

  c93_block_loop         the single-threaded block loop writes every entry
  c93_threads            any number of threads, any schedule, any block map: no step fails, and when all tasks have
                         returned every entry is written
  c93_threads_finish     under a fair schedule all tasks return
  c93_one_result         simple loop, block loop and all executions leave the same destination
  c93_threads_int32      int32 destinations: the exact entry, if it fits
  c93_threads_quantized  other destinations: the exactly rounded entry, or one more if the exponent is negative
-/
namespace Ruy.Simd.Flow16
open Ruy.Mat Ruy.Mul Ruy.BlockMap
open Ruy.Front (ScalarType MulParams)
open Ruy.TrMul (Mem MapFor)
open Ruy.Multiplier (isI32 scaled)
open Ruy.Simd.Flow (Op Job Written control prepackCalls blockCalls colsOf shape XState Multiplied map_shape blockCalls_of ctl_finish
  run_prefix exact stored quantized)
open Ruy.Simd.Kern (fixedAt exponentAt ParamsOk MultOk)

section
variable {P : Path16} {ml : Int → Int → Int → Int} {kc : Nat} {jb : Job} {m : Mem Int} {bm : BlockMap}

theorem multiplied_of {m' : Mem Int} {ops : List Op} (hI : Inv ml jb m ops m')
    (hw : ∀ i j, i < m.dst.layout.rows → j < m.dst.layout.cols → Written ops i j) : Multiplied ml jb m m' where
  same := hI.dsame
  entries i j hi hj := hI.entries i j hi hj (hw i j hi hj)
  rest := hI.rest.mono (fun _ _ h => ⟨h.1, h.2.1⟩)

theorem dst_cols (h : JobOk kc jb m) {i j : Nat} (hi : i < m.dst.layout.rows) (hj : j < m.dst.layout.cols) :
    i < (colsOf (shape m)).lhs ∧ j < (colsOf (shape m)).rhs := by
  have ll := (h.shapeOf .lhs).cols
  have lr := (h.shapeOf .rhs).cols
  simp only [SidePair.get_lhs, SidePair.get_rhs] at ll lr
  have := h.drows
  have := h.dcols
  show i < m.packed.lhs.layout.cols ∧ j < m.packed.rhs.layout.cols
  omega

/-- C93: the block loop of one thread, with or without prepacked sides. -/
theorem c93_block_loop (hP : (P, ml) ∈ paths) (h : JobOk P.kc jb m) (hm : MapFor m bm) (pre : SidePair Bool) :
    ∃ m', blockLoop P jb pre bm m = .ok m' ∧ Multiplied ml jb m m' := by
  obtain ⟨n, kd, g, _⟩ := gridOk_of h (map_shape hm)
  obtain ⟨calls, e, hc, hw⟩ := blockCalls_of g (prepack_ok (pre := pre) h g)
  obtain ⟨m', e', hI⟩ := runOps_inv (paths_ok hP) h (ordered_of hc.order)
  refine ⟨m', ?_, multiplied_of hI (fun i j hi hj => hw i j (dst_cols h hi hj).1 (dst_cols h hi hj).2)⟩
  unfold blockLoop
  rw [e, C.ok_bind, e']

/-- C93: several threads. -/
theorem c93_threads (hP : (P, ml) ∈ paths) (h : JobOk P.kc jb m) (hm : MapFor m bm) (pre : SidePair Bool) {threads : Nat} (ht : 0 < threads)
    (sched : List Nat) :
    ∃ x, exec P jb pre bm threads sched m = .ok x ∧
      (TrMul.Finished (control pre bm threads) x.ctl → Multiplied ml jb m x.mem) := by
  obtain ⟨n, kd, g, hk⟩ := gridOk_of h (map_shape hm)
  obtain ⟨x, ops, e, ok, _⟩ := exec_ok (paths_ok hP) h g hk pre threads sched
  exact ⟨x, e, fun hf => multiplied_of ok.mem
    (fun i j hi hj => ctl_finish g ht ok.ctl hf (dst_cols h hi hj).1 (dst_cols h hi hj).2)⟩

/-- C93: under a fair schedule all tasks return, and every entry is written. -/
theorem c93_threads_finish (hP : (P, ml) ∈ paths) (h : JobOk P.kc jb m) (hm : MapFor m bm) (pre : SidePair Bool) {threads : Nat} (ht : 0 < threads)
    {σ : Nat → Nat} (fair : TrMul.Fair threads σ) :
    ∃ k x, exec P jb pre bm threads ((List.range k).map σ) m = .ok x ∧
      TrMul.Finished (control pre bm threads) x.ctl ∧ Multiplied ml jb m x.mem := by
  have sh := shapeOk h
  have hr := sh.ready (pre := pre) (bm := bm) (threads := threads)
  have hs := sh.safe (pre := pre) (bm := bm) (threads := threads)
  obtain ⟨ex, hex⟩ := TrMul.c07_executions_exist (control pre bm threads).tp (shape m) bm threads σ hr hs (map_shape hm)
  obtain ⟨k, hk⟩ := TrMul.c07_fair_executions_finish (control pre bm threads).tp (shape m) bm threads σ ex hr (map_shape hm)
    hex fair
  obtain ⟨n, kd, g, hkd⟩ := gridOk_of h (map_shape hm)
  obtain ⟨x, ops, e, ok, hctl⟩ := exec_ok (paths_ok hP) h g hkd pre threads ((List.range k).map σ)
  have hex' : TrMul.Execution (control pre bm threads) (shape m) σ ex := hex
  have hx : ex k = x.ctl := by
    have := run_prefix hex' k
    rw [hctl] at this
    exact (Except.ok.inj this).symm
  have hf : TrMul.Finished (control pre bm threads) x.ctl := by rw [← hx]; exact hk
  exact ⟨k, x, e, hf, multiplied_of ok.mem
    (fun i j hi hj => ctl_finish g ht ok.ctl hf (dst_cols h hi hj).1 (dst_cols h hi hj).2)⟩

theorem positive (hkc : kc = 8 ∨ kc = 16) (h : JobOk kc jb m) (hm : MapFor m bm) : 0 < m.dst.layout.rows ∧ 0 < m.dst.layout.cols := by
  obtain ⟨n, kd, g, _⟩ := gridOk_of h (map_shape hm)
  have p1 := g.pos .lhs
  have p2 := g.pos .rhs
  rw [cols_get] at p1 p2
  have a1 := (h.shapeOf .lhs).mult
  have a2 := (h.shapeOf .rhs).mult
  have b1 := (h.shapeOf .lhs).cols'
  have b2 := (h.shapeOf .rhs).cols'
  simp only [SidePair.get_lhs, SidePair.get_rhs] at p1 p2 a1 a2 b1 b2
  have := h.drows
  have := h.dcols
  rcases hkc with rfl | rfl <;> omega

/-- C93: the destination does not depend on the block map, on which sides are prepacked, on the number of threads or on
the schedule, and is the one the simple loop leaves. -/
theorem c93_one_result (hP : (P, ml) ∈ paths) (h : JobOk P.kc jb m) {bm' : BlockMap} (hm : MapFor m bm) (hm' : MapFor m bm') (pre pre' : SidePair Bool)
    {threads : Nat} (ht : 0 < threads) (sched : List Nat) {x : XState} (hx : exec P jb pre bm threads sched m = .ok x)
    (hf : TrMul.Finished (control pre bm threads) x.ctl) :
    ∃ m1 m2, simpleLoop P jb m = .ok m1 ∧ blockLoop P jb pre' bm' m = .ok m2 ∧ x.mem.dst = m1.dst ∧ x.mem.dst = m2.dst := by
  obtain ⟨m1, e1, s1, v1, r1⟩ := c92_simple_loop hP h (positive (paths_ok hP).kc h hm).1 (positive (paths_ok hP).kc h hm).2
  obtain ⟨m2, e2, M2⟩ := c93_block_loop hP h hm' pre'
  obtain ⟨x', ex, Mx⟩ := c93_threads hP h hm pre ht sched
  rw [hx] at ex; cases ex
  exact ⟨m1, m2, e1, e2, (Mx hf).unique ⟨s1, v1, r1⟩, (Mx hf).unique M2⟩

/-- C93 for int32 destinations: the exact entry, if it is an int32 value. -/
theorem c93_threads_int32 (hP : (P, ml) ∈ paths) (h : JobOk P.kc jb m) (hm : MapFor m bm) (pre : SidePair Bool) {threads : Nat} (ht : 0 < threads)
    (sched : List Nat) (hdt : jb.dt = .int32) {x : XState} (hx : exec P jb pre bm threads sched m = .ok x)
    (hf : TrMul.Finished (control pre bm threads) x.ctl) {i j : Nat} (hi : i < m.dst.layout.rows)
    (hj : j < m.dst.layout.cols) (h32 : isI32 (exact jb i j)) :
    x.mem.dst.elem i j = .ok (exact jb i j) := by
  obtain ⟨x', ex, Mx⟩ := c93_threads hP h hm pre ht sched
  rw [hx] at ex; cases ex
  rw [(Mx hf).entries i j hi hj]
  unfold stored
  dsimp only
  rw [if_pos hdt]
  unfold isI32 at h32
  rw [wrap32_of h32.1 (by omega)]

/-- C93 for other destinations: the exactly rounded entry, or one more. -/
theorem c93_threads_quantized (hP : (P, ml) ∈ paths) (h : JobOk P.kc jb m) (hm : MapFor m bm) (pre : SidePair Bool) {threads : Nat} (ht : 0 < threads)
    (sched : List Nat) (hdt : jb.dt ≠ .int32) (hp : ParamsOk jb.dt jb.mp) (hz : jb.dt.lo ≤ m.dst.zp ∧ m.dst.zp ≤ jb.dt.hi)
    {x : XState} (hx : exec P jb pre bm threads sched m = .ok x)
    (hf : TrMul.Finished (control pre bm threads) x.ctl) {i j : Nat} (hi : i < m.dst.layout.rows)
    (hj : j < m.dst.layout.cols) (h32 : isI32 (exact jb i j))
    (hq : MultOk jb.mp.quant (channelOf jb.mp.channelDim i j) (exact jb i j))
    (hs : isI32 (m.dst.zp + scaled (exact jb i j) (fixedAt jb.mp.quant (channelOf jb.mp.channelDim i j))
      (exponentAt jb.mp.quant (channelOf jb.mp.channelDim i j)))) :
    ∃ v, x.mem.dst.elem i j = .ok v ∧ quantized jb m.dst.zp i j ≤ v ∧ v ≤ quantized jb m.dst.zp i j + 1 ∧
      (0 ≤ exponentAt jb.mp.quant (channelOf jb.mp.channelDim i j) → v = quantized jb m.dst.zp i j) := by
  obtain ⟨m1, m2, e1, _, h1, _⟩ := c93_one_result hP h hm hm pre pre ht sched hx hf
  obtain ⟨m', e', hv⟩ := c92_quantized hP h (simple_ordered h (positive (paths_ok hP).kc h hm).1 (positive (paths_ok hP).kc h hm).2) hdt hp hz
  have e1 : runOps P jb _ m = .ok m1 := e1
  rw [e1] at e'
  cases e'
  rw [h1]
  refine hv i j hi hj ⟨⟨0, 0⟩, ⟨m.packed.lhs.layout.cols, m.packed.rhs.layout.cols⟩, by simp, Nat.zero_le _, ?_,
    Nat.zero_le _, ?_⟩ h32 hq hs
  · exact (dst_cols h hi hj).1
  · exact (dst_cols h hi hj).2

end

/-! ### Examples -/

/-- RHS: int16, 5x253. -/
def exWide (o : Mat.Order) : Mul.Mat Int := ⟨⟨5, 253, 253, o⟩, ⟨64009, fun o => (o * 2909 % 65536 : Nat) - 32768⟩, -700⟩

def exMem2 (kc : Nat) : Mem Int :=
  ⟨⟨Flow.exPacked kc kc 72, Flow.exPacked kc 256 (-700)⟩, ⟨⟨3, 253, 4, .colMajor⟩, ⟨1012, fun _ => 55⟩, 0⟩⟩

def exJob2 (o : Mat.Order) (dt : ScalarType) : Job := ⟨⟨.uint8, .int16⟩, dt, ⟨Flow.exL, exWide o⟩, Kern.exMp⟩

theorem exWideRhs {kc : Nat} (hkc : kc = 8 ∨ kc = 16) (o : Mat.Order) : RhsOk kc (exWide o) (Flow.exPacked kc 256 (-700)) where
  typed := ⟨by cases o <;> decide, by
    intro i j _ _
    show (-32768 : Int) ≤ ((_ * 2909 % 65536 : Nat) : Int) - 32768 ∧ ((_ * 2909 % 65536 : Nat) : Int) - 32768 ≤ 32767
    omega⟩
  layout := by rcases hkc with rfl | rfl <;> cases o <;> decide +kernel
  zp := by show (-700 : Int) = _; cases o <;> decide +kernel
  sums := rfl
  depth := by show 8 < 2 ^ 16; decide
  fits := by rcases hkc with rfl | rfl <;> exact ⟨by decide, by decide, fun b hb => by cases hb; decide⟩
  source := by
    intro i j hi hj
    have hi : i < 5 := hi
    have hj : j < 253 := hj
    cases o
    · show i + j * 253 < 2 ^ 31 ∧ i + j * 253 < 64009
      omega
    · show i * 253 + j < 2 ^ 31 ∧ i * 253 + j < 64009
      omega
  step := by
    intro _ c hc
    have hc : c < 253 := hc
    show 253 * c < _
    omega

theorem exOk2 {kc : Nat} (hkc : kc = 8 ∨ kc = 16) (o : Mat.Order) {dt : ScalarType} (hd : dt ≠ .float) :
    JobOk kc (exJob2 o dt) (exMem2 kc) where
  lhs := Flow.exSideL (by tauto)
  rhs := exWideRhs hkc o
  depth := rfl
  drows := rfl
  dcols := rfl
  dtype := hd
  dorder := rfl
  dstride := by show 3 ≤ 4; decide
  dfits := by
    intro i j hi hj
    have hi : i < 3 := hi
    have hj : j < 253 := hj
    show i + j * 4 < 2 ^ 31 ∧ i + j * 4 < 1012
    omega
  kd := by
    show kc * (Kern.sizeOf dt * 4) < _
    rcases hkc with rfl | rfl <;> cases dt <;> simp only [Kern.sizeOf] <;> omega
  zp2 := by show -2 ^ 31 ≤ (72 * -700 * 8 : Int) ∧ (72 * -700 * 8 : Int) < 2 ^ 31; decide
  bias := by intro b hb; cases hb; show kc ≤ 16; omega
  both := by intro q hq; cases hq; rfl
  fixed := by intro q f hq hf; cases hq; cases hf; show kc ≤ 16; omega
  exponent := by intro q f hq hf; cases hq; cases hf; show kc ≤ 16; omega
  bias32 := Kern.exBias

/-- The block map for two threads: 1x2 blocks of 16x128 entries. -/
def exMap : BlockMap := ⟨2, .linear, ⟨16, 256⟩, 0, ⟨0, 1⟩, ⟨16, 16⟩, ⟨16, 128⟩, ⟨0, 0⟩⟩
theorem exMapFor : MapFor (exMem2 16) exMap :=
  ⟨⟨16, 256, 8, 16, 16, 1, 2, 2, ⟨32768, 524288⟩⟩, by decide +kernel, rfl, rfl, rfl, rfl, by decide, by decide⟩

theorem fair2 : TrMul.Fair 2 (· % 2) := fun t ht k => ⟨2 * k + t, by omega, by show (2 * k + t) % 2 = t; omega⟩

/-- Two threads, RHS prepacked, alternating, int32 destination. -/
example (o : Mat.Order) : ∃ k x, exec avx512 (exJob2 o .int32) ⟨false, true⟩ exMap 2 ((List.range k).map (· % 2)) (exMem2 16) = .ok x ∧
    x.mem.dst.elem 2 200 = .ok (exact (exJob2 o .int32) 2 200) := by
  have ok := exOk2 (Or.inr rfl) o (dt := .int32) (by decide)
  obtain ⟨k, x, e, hf, _⟩ := c93_threads_finish in512 ok exMapFor ⟨false, true⟩ (threads := 2) (by decide) fair2
  exact ⟨k, x, e, c93_threads_int32 in512 ok exMapFor ⟨false, true⟩ (by decide) _ rfl e hf (by decide) (by decide)
    (by unfold isI32; cases o <;> decide +kernel)⟩

/-- Quantized destination; the exponent of channel 1 is 0. -/
example (o : Mat.Order) : ∃ k x, exec avx512 (exJob2 o .int8) ⟨true, false⟩ exMap 2 ((List.range k).map (· % 2)) (exMem2 16) = .ok x ∧
    x.mem.dst.elem 1 200 = .ok (quantized (exJob2 o .int8) 0 1 200) := by
  have ok := exOk2 (Or.inr rfl) o (dt := .int8) (by decide)
  obtain ⟨k, x, e, hf, _⟩ := c93_threads_finish in512 ok exMapFor ⟨true, false⟩ (threads := 2) (by decide) fair2
  obtain ⟨v, h1, _, _, h2⟩ := c93_threads_quantized in512 ok exMapFor ⟨true, false⟩ (by decide) _ (by cases o <;> decide) Kern.exParams
    (by cases o <;> decide) e hf (i := 1) (j := 200) (by decide) (by decide) (by unfold isI32; cases o <;> decide +kernel)
    (by unfold MultOk isI32; cases o <;> decide +kernel) (by unfold isI32; cases o <;> decide +kernel)
  refine ⟨k, x, e, ?_⟩
  rw [h1, h2 (by cases o <;> decide)]
  rfl

/-- The hypotheses of `c93_block_loop` and `c93_one_result`. -/
example (o : Mat.Order) : ∃ m1 m2, simpleLoop avx512 (exJob2 o .int16) (exMem2 16) = .ok m1 ∧
    blockLoop avx512 (exJob2 o .int16) ⟨true, false⟩ exMap (exMem2 16) = .ok m2 ∧ m1.dst = m2.dst := by
  have ok := exOk2 (Or.inr rfl) o (dt := .int16) (by decide)
  obtain ⟨k, x, e, hf, _⟩ := c93_threads_finish in512 ok exMapFor ⟨false, false⟩ (threads := 2) (by decide) fair2
  obtain ⟨m1, m2, e1, e2, h1, h2⟩ := c93_one_result in512 ok exMapFor exMapFor ⟨false, false⟩ ⟨true, false⟩ (by decide) _ e hf
  exact ⟨m1, m2, e1, e2, h1.symm.trans h2⟩

/-- On AVX2: 1x4 blocks of 8x64 entries. -/
def exMapAvx2 : BlockMap := ⟨2, .linear, ⟨8, 256⟩, 0, ⟨0, 2⟩, ⟨8, 8⟩, ⟨8, 64⟩, ⟨0, 0⟩⟩
theorem exMapForAvx2 : MapFor (exMem2 8) exMapAvx2 :=
  ⟨⟨8, 256, 8, 8, 8, 1, 2, 2, ⟨32768, 524288⟩⟩, by decide +kernel, rfl, rfl, rfl, rfl, by decide, by decide⟩

example (o : Mat.Order) : ∃ k x, exec avx2 (exJob2 o .int32) ⟨false, true⟩ exMapAvx2 2 ((List.range k).map (· % 2)) (exMem2 8) = .ok x ∧
    x.mem.dst.elem 2 200 = .ok (exact (exJob2 o .int32) 2 200) := by
  have ok := exOk2 (Or.inl rfl) o (dt := .int32) (by decide)
  obtain ⟨k, x, e, hf, _⟩ := c93_threads_finish in2 ok exMapForAvx2 ⟨false, true⟩ (threads := 2) (by decide) fair2
  exact ⟨k, x, e, c93_threads_int32 in2 ok exMapForAvx2 ⟨false, true⟩ (by decide) _ rfl e hf (by decide) (by decide)
    (by unfold isI32; cases o <;> decide +kernel)⟩

/-- Nothing is finished before the first step. -/
example : ¬ TrMul.Finished (control ⟨false, false⟩ exMap 2)
    (TrMul.initState (control ⟨false, false⟩ exMap 2) (shape (exMem2 16))) := by
  intro h
  exact absurd (h 0 (by decide)) (by decide)

end Ruy.Simd.Flow16

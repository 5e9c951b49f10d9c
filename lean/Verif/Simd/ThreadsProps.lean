import Verif.Simd.ThreadsInv
/-
Property C53: 8-bit multiplication on the x86 paths by one thread or by several threads.

  c53_block_loop         the single-threaded block loop writes every entry
  c53_threads            any number of threads, any schedule, any block map: no step fails, and when all tasks
                         have returned every entry is written
  c53_threads_finish     under a fair schedule all tasks return
  c53_one_result         simple loop, block loop and all executions leave the same destination
  c53_threads_int32      int32 destinations: the exact entry, if it fits
-/
namespace Ruy.Simd.Flow
open Ruy.Mat Ruy.Mul Ruy.BlockMap
open Ruy.Front (ScalarType MulParams Typed)
open Ruy.TrMul (Mem Cfg State MapFor)
open Ruy.Multiplier (isI32)

section
variable {P : Path} {ml : Int → Int → Int → Int}

/-- C53: the block loop of one thread, with or without prepacked sides. -/
theorem c53_block_loop (hP : (P, ml) ∈ paths) {jb : Job} {m : Mem Int} (h : JobOk P.kernel.isa.kc jb m)
    {bm : BlockMap} (hm : MapFor m bm) (pre : SidePair Bool) :
    ∃ m', (runOps P jb (prepackOps pre m) m >>= blockLoop P jb pre bm) = .ok m' ∧ Multiplied ml jb m m' := by
  obtain ⟨n, kd, mk⟩ := mapOk_of hP h hm
  obtain ⟨m1, tr⟩ := prepack_of (pre := pre) hP h (mk.cols hP h)
  obtain ⟨m', e, hM⟩ := blockLoop_of hP h mk tr
  exact ⟨m', by rw [tr.run, C.ok_bind, e], hM⟩

/-- C53: several threads. -/
theorem c53_threads (hP : (P, ml) ∈ paths) {jb : Job} {m : Mem Int} (h : JobOk P.kernel.isa.kc jb m)
    {bm : BlockMap} (hm : MapFor m bm) (pre : SidePair Bool) {threads : Nat} (ht : 0 < threads)
    (sched : List Nat) :
    ∃ x, exec P jb pre bm threads sched m = .ok x ∧
      (TrMul.Finished (control pre bm threads) x.ctl → Multiplied ml jb m x.mem) := by
  obtain ⟨n, kd, mk⟩ := mapOk_of hP h hm
  obtain ⟨m1, tr⟩ := prepack_of (pre := pre) hP h (mk.cols hP h)
  obtain ⟨x, ops, e, ok, _⟩ := xrun_of hP h mk (control_setup hP h mk) (control_total hP h mk)
    (start_of (threads := threads) hP h mk tr) sched
  refine ⟨x, ?_, finish_of hP h mk ht ok⟩
  unfold exec
  rw [tr.run, C.ok_bind, e]

theorem run_prefix {A : Type} {cfg : Cfg A} {m0 : Mem A} {σ : Nat → Nat} {ex : Nat → State A}
    (h : TrMul.Execution cfg m0 σ ex) (k : Nat) :
    TrMul.run cfg ((List.range k).map σ) (TrMul.initState cfg m0) = .ok (ex k) := by
  have snoc : ∀ (l : List Nat) (t : Nat) (s : State A),
      TrMul.run cfg (l ++ [t]) s = TrMul.run cfg l s >>= fun s' => TrMul.step cfg s' t := by
    intro l t
    induction l with
    | nil =>
      intro s
      show (TrMul.step cfg s t >>= fun s' => TrMul.run cfg [] s') = TrMul.step cfg s t
      cases TrMul.step cfg s t <;> rfl
    | cons a l ih =>
      intro s
      show (TrMul.step cfg s a >>= fun s' => TrMul.run cfg (l ++ [t]) s') =
        (TrMul.step cfg s a >>= fun s' => TrMul.run cfg l s') >>= _
      cases TrMul.step cfg s a with
      | error e => rfl
      | ok s' => exact ih s'
  induction k with
  | zero => rw [h.start]; rfl
  | succ k ih =>
    rw [List.range_succ, List.map_append, List.map_singleton, snoc, ih, C.ok_bind, h.next k]

/-- C53: under a fair schedule all tasks return, and every entry is written. -/
theorem c53_threads_finish (hP : (P, ml) ∈ paths) {jb : Job} {m : Mem Int} (h : JobOk P.kernel.isa.kc jb m)
    {bm : BlockMap} (hm : MapFor m bm) (pre : SidePair Bool) {threads : Nat} (ht : 0 < threads)
    {σ : Nat → Nat} (fair : TrMul.Fair threads σ) :
    ∃ k x, exec P jb pre bm threads ((List.range k).map σ) m = .ok x ∧
      TrMul.Finished (control pre bm threads) x.ctl ∧ Multiplied ml jb m x.mem := by
  have hr := control_ready (pre := pre) (bm := bm) (threads := threads) hP h
  have hs := control_safe (pre := pre) (bm := bm) (threads := threads) hP h
  obtain ⟨ex, hex⟩ := TrMul.c07_executions_exist (control pre bm threads).tp (shape m) bm threads σ hr hs
    (map_shape hm)
  obtain ⟨k, hk⟩ := TrMul.c07_fair_executions_finish (control pre bm threads).tp (shape m) bm threads σ ex hr
    (map_shape hm) hex fair
  obtain ⟨n, kd, mk⟩ := mapOk_of hP h hm
  obtain ⟨m1, tr⟩ := prepack_of (pre := pre) hP h (mk.cols hP h)
  obtain ⟨x, ops, e, ok, hctl⟩ := xrun_of hP h mk (control_setup hP h mk) (control_total hP h mk)
    (start_of (threads := threads) hP h mk tr) ((List.range k).map σ)
  have hex' : TrMul.Execution (control pre bm threads) (shape m) σ ex := hex
  have hx : ex k = x.ctl := by
    have := run_prefix hex' k
    rw [hctl] at this
    exact (Except.ok.inj this).symm
  have hf : TrMul.Finished (control pre bm threads) x.ctl := by rw [← hx]; exact hk
  refine ⟨k, x, ?_, hf, finish_of hP h mk ht ok hf⟩
  unfold exec
  rw [tr.run, C.ok_bind, e]

/-- C53: the destination does not depend on the block map, on which sides are prepacked, on the number of
threads or on the schedule, and is the one the simple loop leaves. -/
theorem c53_one_result (hP : (P, ml) ∈ paths) {jb : Job} {m : Mem Int} (h : JobOk P.kernel.isa.kc jb m)
    {bm bm' : BlockMap} (hm : MapFor m bm) (hm' : MapFor m bm') (pre pre' : SidePair Bool) {threads : Nat}
    (ht : 0 < threads) (sched : List Nat) {x : XState} (hx : exec P jb pre bm threads sched m = .ok x)
    (hf : TrMul.Finished (control pre bm threads) x.ctl) :
    ∃ m1 m2, simpleLoop P jb m = .ok m1 ∧
      (runOps P jb (prepackOps pre' m) m >>= blockLoop P jb pre' bm') = .ok m2 ∧
      x.mem.dst = m1.dst ∧ x.mem.dst = m2.dst := by
  obtain ⟨n, kd, mk⟩ := mapOk_of hP h hm
  have h0 : 0 < m.dst.layout.rows := by rw [h.drows]; exact mk.cols hP h .lhs
  have h1 : 0 < m.dst.layout.cols := by rw [h.dcols]; exact mk.cols hP h .rhs
  obtain ⟨m1, e1, s1, v1, r1⟩ := c52_simple_loop hP h h0 h1
  obtain ⟨m2, e2, M2⟩ := c53_block_loop hP h hm' pre'
  obtain ⟨x', ex, Mx⟩ := c53_threads hP h hm pre ht sched
  rw [hx] at ex; cases ex
  exact ⟨m1, m2, e1, e2, (Mx hf).unique ⟨s1, v1, r1⟩, (Mx hf).unique M2⟩

/-- C53 for int32 destinations: the exact entry, if it is an int32 value. -/
theorem c53_threads_int32 (hP : (P, ml) ∈ paths) {jb : Job} {m : Mem Int} (h : JobOk P.kernel.isa.kc jb m)
    {bm : BlockMap} (hm : MapFor m bm) (pre : SidePair Bool) {threads : Nat} (ht : 0 < threads)
    (sched : List Nat) (hdt : jb.dt = .int32) {x : XState} (hx : exec P jb pre bm threads sched m = .ok x)
    (hf : TrMul.Finished (control pre bm threads) x.ctl) {i j : Nat} (hi : i < m.dst.layout.rows)
    (hj : j < m.dst.layout.cols) (h32 : isI32 (exact jb i j)) :
    x.mem.dst.elem i j = .ok (exact jb i j) := by
  obtain ⟨x', ex, Mx⟩ := c53_threads hP h hm pre ht sched
  rw [hx] at ex; cases ex
  rw [(Mx hf).entries i j hi hj]
  unfold stored
  dsimp only
  rw [if_pos hdt]
  unfold isI32 at h32
  rw [wrap32_of h32.1 (by omega)]

end

/-! ### Examples -/

/-- RHS: int8, 5x125, row-major. -/
def exWide : Mul.Mat Int := ⟨⟨5, 125, 125, .rowMajor⟩, ⟨625, fun o => (o * 29 % 256 : Nat) - 128⟩, -7⟩

def exMem2 : Mem Int :=
  ⟨⟨exPacked 8 8 72, exPacked 8 128 (-7)⟩, ⟨⟨3, 125, 4, .colMajor⟩, ⟨500, fun _ => 55⟩, 0⟩⟩

def exJob2 (dt : ScalarType) : Job := ⟨⟨.uint8, .int8⟩, dt, ⟨exL, exWide⟩, Kern.exMp⟩

theorem exWideSide : SideOk 8 .int8 exWide (exPacked 8 128 (-7)) where
  ty := Or.inl rfl
  typed := ⟨by decide, by
    intro i j _ _
    show (-128 : Int) ≤ ((_ * 29 % 256 : Nat) : Int) - 128 ∧ ((_ * 29 % 256 : Nat) : Int) - 128 ≤ 127
    omega⟩
  layout := by decide +kernel
  zp := by show (-7 : Int) = _; decide +kernel
  sums := rfl
  depth := by show 8 < 2 ^ 24; decide
  fits := ⟨by decide, by decide, fun b hb => by cases hb; decide⟩
  source := by
    intro i j hi hj
    have hi : i < 5 := hi
    have hj : j < 125 := hj
    show i * 125 + j < 2 ^ 31 ∧ i * 125 + j < 625
    omega
  step := by intro h; cases h

theorem exOk2 {dt : ScalarType} (hd : dt ≠ .float) : JobOk 8 (exJob2 dt) exMem2 where
  side s := by
    cases s
    · exact exSideL (Or.inl ⟨rfl, rfl⟩)
    · exact exWideSide
  depth := rfl
  drows := rfl
  dcols := rfl
  dtype := hd
  dorder := rfl
  dstride := by show 3 ≤ 4; decide
  dfits := by
    intro i j hi hj
    have hi : i < 3 := hi
    have hj : j < 125 := hj
    show i + j * 4 < 2 ^ 31 ∧ i + j * 4 < 500
    omega
  kd := by
    show 8 * (Kern.sizeOf dt * 4) < _
    cases dt <;> simp only [Kern.sizeOf] <;> omega
  zp2 := by show -2 ^ 31 ≤ (72 * -7 * 8 : Int) ∧ (72 * -7 * 8 : Int) < 2 ^ 31; decide
  bias := by
    intro b hb; cases hb
    show 8 ≤ 16
    omega
  both := by intro q hq; cases hq; rfl
  fixed := by
    intro q f hq hf; cases hq; cases hf
    show 8 ≤ 16
    omega
  exponent := by
    intro q f hq hf; cases hq; cases hf
    show 8 ≤ 16
    omega
  bias32 := Kern.exBias

/-- The block map for two threads: 1x2 blocks of 8x64 entries. -/
def exMap : BlockMap := ⟨2, .linear, ⟨8, 128⟩, 0, ⟨0, 1⟩, ⟨8, 8⟩, ⟨8, 64⟩, ⟨0, 0⟩⟩

theorem exMapFor : MapFor exMem2 exMap :=
  ⟨⟨8, 128, 8, 8, 8, 1, 1, 2, ⟨32768, 524288⟩⟩, by decide +kernel, rfl, rfl, rfl, rfl, by decide, by decide⟩

/-- Two threads, RHS prepacked, alternating. -/
example : ∃ k x, exec path2 (exJob2 .int32) ⟨false, true⟩ exMap 2 ((List.range k).map (· % 2)) exMem2 = .ok x ∧
    x.mem.dst.elem 2 100 = .ok (exact (exJob2 .int32) 2 100) := by
  have ok := exOk2 (dt := .int32) (by decide)
  obtain ⟨k, x, e, hf, _⟩ := c53_threads_finish (P := path2) (ml := lane) (by simp [paths]) ok exMapFor
    ⟨false, true⟩ (threads := 2) (by decide) (σ := (· % 2))
    (fun t ht k => ⟨2 * k + t, by omega, by show (2 * k + t) % 2 = t; omega⟩)
  exact ⟨k, x, e, c53_threads_int32 (P := path2) (ml := lane) (by simp [paths]) ok exMapFor ⟨false, true⟩
    (by decide) _ rfl e hf (by decide) (by decide) (by unfold isI32; decide +kernel)⟩

/-- The hypotheses of `c53_block_loop` and `c53_one_result`. -/
example : ∃ m1 m2, simpleLoop path2 (exJob2 .int8) exMem2 = .ok m1 ∧
    blockLoop path2 (exJob2 .int8) ⟨false, false⟩ exMap exMem2 = .ok m2 ∧ m1.dst = m2.dst := by
  have ok := exOk2 (dt := .int8) (by decide)
  obtain ⟨k, x, e, hf, _⟩ := c53_threads_finish (P := path2) (ml := lane) (by simp [paths]) ok exMapFor
    ⟨false, false⟩ (threads := 3) (by decide) (σ := (· % 3))
    (fun t ht k => ⟨3 * k + t, by omega, by show (3 * k + t) % 3 = t; omega⟩)
  obtain ⟨m1, m2, e1, e2, h1, h2⟩ := c53_one_result (P := path2) (ml := lane) (by simp [paths]) ok exMapFor
    exMapFor ⟨false, false⟩ ⟨false, false⟩ (by decide) _ e hf
  exact ⟨m1, m2, e1, e2, h1.symm.trans h2⟩

/-- Nothing is finished before the first step. -/
example : ¬ TrMul.Finished (control ⟨false, false⟩ exMap 2)
    (TrMul.initState (control ⟨false, false⟩ exMap 2) (shape exMem2)) := by
  intro h
  exact absurd (h 0 (by decide)) (by decide)

end Ruy.Simd.Flow

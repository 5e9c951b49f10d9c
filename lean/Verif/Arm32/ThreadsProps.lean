import Verif.Arm32.ThreadsInv
import Verif.Arm32.FlushProps
import Verif.NeonF.ThreadsProps
/-
Property C90: multiplication of float matrices on 32-bit ARM (path kNeon) by one thread or by several threads.

  c90_block_loop       the single-threaded block loop writes every entry
  c90_threads          any number of threads, any schedule, any block map: no step fails, and when all tasks have returned
                       every entry is written
  c90_threads_finish   under a fair schedule all tasks return
  c90_one_result       simple loop, block loop and all executions leave the same destination, bit for bit
  c90_close            in binary32, executions on 32-bit ARM and on AArch64 (C74) leave results close to each other
  c90_integers         which are equal for small integers
  c90_neon_close, c90_neon_integers    the same with the arithmetic of 32-bit Advanced SIMD, which flushes denormals

Bounds for the distance to the exact result are those of C89 (`c89_near`, `c89_binary32`, `c89_integers`, `c89_nan`, `c89_neon`).
-/
namespace Ruy.Arm32.Flow
open Ruy.Mat Ruy.Mul Ruy.BlockMap
open Ruy.Float Ruy.FloatErr
open Ruy.TrMul (MapFor)
open Ruy.Simd.Flow (Op Written control prepackCalls blockCalls colsOf blockCalls_of ctl_finish run_prefix)
open Ruy.NeonF (armOps)
open Ruy.NeonF.Flow (Source Target Mach place elem depth biasAt Values exact SameInputs shape XState cols_get exWide intMach)
open Ruy.Neon.Flow (fair2)
open Ruy.Tune (Tuning)

variable {A : Type}

/-- The destination after a complete multiplication is determined by the inputs. -/
theorem Multiplied.unique {t : Task A} {m m' a b : Mach A} (hm : SameInputs m m') (ha : Multiplied t m a)
    (hb : Multiplied t m' b) : b.dst = a.dst := by
  funext o
  by_cases hx : ∃ i j, i < t.dst.layout.rows ∧ j < t.dst.layout.cols ∧ o = place t i j
  · obtain ⟨i, j, h1, h2, rfl⟩ := hx
    rw [ha.entry i j h1 h2, hb.entry i j h1 h2, stored_same hm]
  · rw [ha.rest o (fun i j h1 h2 e => hx ⟨i, j, h1, h2, e⟩), hb.rest o (fun i j h1 h2 e => hx ⟨i, j, h1, h2, e⟩), hm.dst]

theorem multiplied_of {t : Task A} {m m' : Mach A} {ops : List Op} (hI : Inv t m ops m')
    (hw : ∀ i j, i < t.dst.layout.rows → j < t.dst.layout.cols → Written ops i j) : Multiplied t m m' where
  src := hI.kept.src
  bias := hI.kept.bias
  entry i j hi hj := hI.entry i j hi hj (hw i j hi hj)
  rest o ho := hI.rest o (fun i j hi hj _ => ho i j hi hj)

theorem dst_cols {t : Task A} (h : TaskOk t) {i j : Nat} (hi : i < t.dst.layout.rows) (hj : j < t.dst.layout.cols) :
    i < (colsOf (shape t)).lhs ∧ j < (colsOf (shape t)).rhs := by
  obtain ⟨_, _, ll, _⟩ := (h.side .lhs).facts
  obtain ⟨_, _, lr, _⟩ := (h.side .rhs).facts
  simp only [SidePair.get_lhs, SidePair.get_rhs] at ll lr
  have := h.drows
  have := h.dcols
  show i < t.packed.lhs.layout.cols ∧ j < t.packed.rhs.layout.cols
  omega

section
variable {t : Task A} {bm : BlockMap}

/-- C90: the block loop of one thread, with or without prepacked sides. -/
theorem c90_block_loop (h : TaskOk t) (hm : MapFor (shape t) bm) (pre : SidePair Bool) (m : Mach A) :
    (∃ r, BlockLoop t pre bm m r) ∧ ∀ r, BlockLoop t pre bm m r → ∃ m', r = .ok m' ∧ Multiplied t m m' := by
  obtain ⟨n, kd, g, _⟩ := gridOk_of h hm
  obtain ⟨calls, e, hc, hw⟩ := blockCalls_of g (prepack_ok (pre := pre) h g)
  unfold BlockLoop
  rw [e]
  dsimp only
  obtain ⟨h1, h2⟩ := runs_inv (m0 := m) h (InOrder.ordered hc.order)
  refine ⟨h1, fun r hr => ?_⟩
  obtain ⟨m', e, hI⟩ := h2 r hr
  exact ⟨m', e, multiplied_of hI (fun i j hi hj => hw i j (dst_cols h hi hj).1 (dst_cols h hi hj).2)⟩

/-- C90: several threads. -/
theorem c90_threads (h : TaskOk t) (hm : MapFor (shape t) bm) (pre : SidePair Bool) {threads : Nat}
    (ht : 0 < threads) (sched : List Nat) (m : Mach A) :
    (∃ r, Exec t pre bm threads sched m r) ∧ ∀ r, Exec t pre bm threads sched m r → ∃ x, r = .ok x ∧
      (TrMul.Finished (control pre bm threads) x.ctl → Multiplied t m x.mem) := by
  obtain ⟨n, kd, g, hk⟩ := gridOk_of h hm
  obtain ⟨h1, h2⟩ := exec_ok h g hk pre threads sched m
  refine ⟨h1, fun r hr => ?_⟩
  obtain ⟨x, ops, e, ok, _⟩ := h2 r hr
  exact ⟨x, e, fun hf => multiplied_of ok.mem
    (fun i j hi hj => ctl_finish g ht ok.ctl hf (dst_cols h hi hj).1 (dst_cols h hi hj).2)⟩

/-- C90: under a fair schedule all tasks return, and every entry is written. -/
theorem c90_threads_finish (h : TaskOk t) (hm : MapFor (shape t) bm) (pre : SidePair Bool) {threads : Nat}
    (ht : 0 < threads) {σ : Nat → Nat} (fair : TrMul.Fair threads σ) (m : Mach A) :
    ∃ k, (∃ r, Exec t pre bm threads ((List.range k).map σ) m r) ∧
      ∀ r, Exec t pre bm threads ((List.range k).map σ) m r → ∃ x, r = .ok x ∧
        TrMul.Finished (control pre bm threads) x.ctl ∧ Multiplied t m x.mem := by
  have sh := shapeOk h
  have hr := sh.ready (pre := pre) (bm := bm) (threads := threads)
  have hs := sh.safe (pre := pre) (bm := bm) (threads := threads)
  obtain ⟨ex, hex⟩ := TrMul.c07_executions_exist (control pre bm threads).tp (shape t) bm threads σ hr hs hm
  obtain ⟨k, hk⟩ := TrMul.c07_fair_executions_finish (control pre bm threads).tp (shape t) bm threads σ ex hr hm hex fair
  obtain ⟨n, kd, g, hkd⟩ := gridOk_of h hm
  obtain ⟨h1, h2⟩ := exec_ok h g hkd pre threads ((List.range k).map σ) m
  refine ⟨k, h1, fun r hr => ?_⟩
  obtain ⟨x, ops, e, ok, hctl⟩ := h2 r hr
  have hex' : TrMul.Execution (control pre bm threads) (shape t) σ ex := hex
  have hx : ex k = x.ctl := by
    have := run_prefix hex' k
    rw [hctl] at this
    exact (Except.ok.inj this).symm
  have hf : TrMul.Finished (control pre bm threads) x.ctl := by rw [← hx]; exact hk
  exact ⟨x, e, hf, multiplied_of ok.mem
    (fun i j hi hj => ctl_finish g ht ok.ctl hf (dst_cols h hi hj).1 (dst_cols h hi hj).2)⟩

/-- C90: the destination does not depend on the block map, on which sides are prepacked, on the number of threads, on the
schedule or on what was in the packed buffers, and is the one the simple loop leaves. -/
theorem c90_one_result (h : TaskOk t) {bm' : BlockMap} (hm : MapFor (shape t) bm)
    (hm' : MapFor (shape t) bm') (pre pre' : SidePair Bool) {threads : Nat} (ht : 0 < threads) (sched : List Nat)
    {m m' m'' : Mach A} (s' : SameInputs m m') (s'' : SameInputs m m'') {x : XState A}
    (hx : Exec t pre bm threads sched m (.ok x)) (hf : TrMul.Finished (control pre bm threads) x.ctl) {r1 r2 : C (Mach A)}
    (h1 : Runs t (simpleOps t) m' r1) (h2 : BlockLoop t pre' bm' m'' r2) :
    ∃ m1 m2, r1 = .ok m1 ∧ r2 = .ok m2 ∧ m1.dst = x.mem.dst ∧ m2.dst = x.mem.dst := by
  obtain ⟨n, kd, g, _⟩ := gridOk_of h hm
  obtain ⟨x', ex, Mx⟩ := (c90_threads h hm pre ht sched m).2 _ hx
  cases ex
  obtain ⟨m2, rfl, M2⟩ := (c90_block_loop h hm' pre' m'').2 r2 h2
  have pos : 0 < t.dst.layout.rows ∧ 0 < t.dst.layout.cols := by
    have p1 := g.pos .lhs
    have p2 := g.pos .rhs
    rw [cols_get] at p1 p2
    simp only [SidePair.get_lhs, SidePair.get_rhs] at p1 p2
    obtain ⟨-, -, -, kl, al⟩ := (h.side .lhs).facts
    obtain ⟨-, -, -, kr, ar⟩ := (h.side .rhs).facts
    simp only [SidePair.get_lhs, SidePair.get_rhs] at kl kr al ar
    have := h.drows
    have := h.dcols
    change _ % 8 = 0 at al
    change _ % 4 = 0 at ar
    change _ < _ + 8 at kl
    change _ < _ + 4 at kr
    omega
  obtain ⟨m1, rfl, M1⟩ := (c89_simple_loop (m := m') h pos.1 pos.2).2 r1 h1
  exact ⟨m1, m2, rfl, rfl, Multiplied.unique s' (Mx hf) M1, Multiplied.unique s'' (Mx hf) M2⟩

end

/-! ### AArch64 -/

section
variable {t t' : Task Fl} {m m' : Mach Fl} {ftz ftz' : Bool}

theorem elem_same (es : t'.src = t.src) (hs : SameInputs m m') (s : Side) (k c : Nat) : elem t' m' s k c = elem t m s k c := by
  unfold elem
  rw [es, hs.src]

theorem bias_same (ep : t'.mp = t.mp) (hs : SameInputs m m') (ho : t.ops = vmlaOps (binary32 ftz))
    (ho' : t'.ops = armOps (binary32 ftz')) (c : Nat) : biasAt t' m' c = biasAt t m c := by
  unfold biasAt
  rw [ep, hs.bias, ho, ho']
  rfl

theorem bias_neon (ep : t'.mp = t.mp) (hs : SameInputs m m') (ho : t.ops = neonOps)
    (ho' : t'.ops = armOps (binary32 ftz')) (c : Nat) : biasAt t' m' c = biasAt t m c := by
  unfold biasAt
  rw [ep, hs.bias, ho, ho']
  rfl

variable {x y : Mach Fl} {V : Tuning → Prop} (es : t'.src = t.src) (ed : t'.dst = t.dst) (ep : t'.mp = t.mp)
  (hs : SameInputs m m') (ho : t.ops = vmlaOps (binary32 ftz)) (ho' : t'.ops = armOps (binary32 ftz'))
  (hx : Multiplied t m x) (hy : NeonF.Flow.Multiplied V t' m' y) {i j : Nat} (hi : i < t.dst.layout.rows)
  (hj : j < t.dst.layout.cols)
include es ed ep hs ho ho' hx hy hi hj

/-- C90: complete multiplications of the same sources on 32-bit ARM and on AArch64 (`NeonF.Flow.Multiplied`, C73 and C74),
whatever the tunings, block maps, threads and schedules: entries with finite operands differ by at most the two bounds
together. -/
theorem c90_close {a b : Nat → ℚ} {bias : ℚ} (hv : Values t m i j a b bias)
    (hd : depth t + 2 < 2 ^ 23) (hM : mag bias a b (depth t) ≤ 2 ^ (126 : ℤ)) :
    ∃ p q, IsVal (x.dst (place t i j)) p ∧ IsVal (y.dst (place t i j)) q ∧
      |p - q| ≤ ((depth t + 2) * 2 ^ (-23 : ℤ) * mag bias a b (depth t) + 2 * (2 * depth t + 1) * tiny ftz) +
        ((depth t + 1) * 2 ^ (-23 : ℤ) * mag bias a b (depth t) + 2 * (depth t + 1) * tiny ftz') := by
  have e1 : depth t' = depth t := by unfold depth; rw [es]
  have e2 : place t' i j = place t i j := by unfold NeonF.Flow.place; rw [ed]
  have e3 : exact t' a b bias = exact t a b bias := by unfold exact; rw [ep, e1]
  have hv' : Values t' m' i j a b bias := by
    obtain ⟨h1, h2, h3, h4, h5⟩ := hv
    refine ⟨fun k hk => ?_, fun k hk => ?_, ?_, by rw [ep]; exact h4, by rw [ep]; exact h5⟩
    · rw [elem_same es hs]; exact h1 k (e1 ▸ hk)
    · rw [elem_same es hs]; exact h2 k (e1 ▸ hk)
    · rw [bias_same ep hs ho ho', ep]; exact h3
  obtain ⟨p, p1, p2⟩ := c89_binary32 hi hj ho hx hv hd hM
  obtain ⟨q, q1, q2⟩ := NeonF.Flow.c73_binary32 ho' hy (by rw [ed]; exact hi) (by rw [ed]; exact hj) hv' (by rw [e1]; omega)
    (by rw [e1]; exact hM)
  rw [e1, e2, e3] at *
  refine ⟨p, q, p1, q1, ?_⟩
  have : p - q = (p - exact t a b bias) - (q - exact t a b bias) := by ring
  rw [this]
  refine (abs_sub _ _).trans ?_
  linarith

/-- C90: for small integers the two results are equal. -/
theorem c90_integers {a b : Nat → ℤ} {bias lo hi' : ℤ}
    (hv : ∀ k, k < depth t → elem t m .lhs k i = ofInt (a k) ∧ elem t m .rhs k j = ofInt (b k))
    (hb : biasAt t m (channelOf t.mp.chan i j) = ofInt bias) (hlo : t.mp.clampMin = ofInt lo) (hhi : t.mp.clampMax = ofInt hi')
    (hm : |bias| + ∑ k ∈ Finset.range (depth t), |a k * b k| ≤ 2 ^ 24) :
    y.dst (place t i j) = x.dst (place t i j) := by
  have e1 : depth t' = depth t := by unfold depth; rw [es]
  have e2 : place t' i j = place t i j := by unfold NeonF.Flow.place; rw [ed]
  rw [c89_integers hi hj ho hx hv hb hlo hhi hm, ← e2,
    NeonF.Flow.c73_integers ho' hy (by rw [ed]; exact hi) (by rw [ed]; exact hj) (a := a) (b := b) (bias := bias) (lo := lo) (hi' := hi')
      (fun k hk => by rw [elem_same es hs, elem_same es hs]; exact hv k (e1 ▸ hk))
      (by rw [bias_same ep hs ho ho', ep]; exact hb) (by rw [ep]; exact hlo) (by rw [ep]; exact hhi) (by rw [e1]; exact hm), e1]

end

section
variable {t t' : Task Fl} {m m' x y : Mach Fl} {V : Tuning → Prop} {ftz' : Bool} (es : t'.src = t.src) (ed : t'.dst = t.dst)
  (ep : t'.mp = t.mp) (hs : SameInputs m m') (ho : t.ops = neonOps) (ho' : t'.ops = armOps (binary32 ftz'))
  (hx : Multiplied t m x) (hy : NeonF.Flow.Multiplied V t' m' y) {i j : Nat} (hi : i < t.dst.layout.rows)
  (hj : j < t.dst.layout.cols)
include es ed ep hs ho ho' hx hy hi hj

/-- C90: as `c90_close`, with `neonOps`, if there are no denormal operands. -/
theorem c90_neon_close {a b : Nat → ℚ} {bias : ℚ} (hv : Values t m i j a b bias)
    (hn : ∀ k, k < depth t → Normal (elem t m .lhs k i) ∧ Normal (elem t m .rhs k j))
    (hb : Normal (biasAt t m (channelOf t.mp.chan i j))) (hlo : Normal t.mp.clampMin) (hhi : Normal t.mp.clampMax)
    (hd : depth t + 2 < 2 ^ 23) (hM : mag bias a b (depth t) ≤ 2 ^ (126 : ℤ)) :
    ∃ p q, IsVal (x.dst (place t i j)) p ∧ IsVal (y.dst (place t i j)) q ∧
      |p - q| ≤ ((depth t + 2) * 2 ^ (-23 : ℤ) * mag bias a b (depth t) + 2 * (2 * depth t + 1) * 2 ^ (-126 : ℤ)) +
        ((depth t + 1) * 2 ^ (-23 : ℤ) * mag bias a b (depth t) + 2 * (depth t + 1) * tiny ftz') := by
  have e1 : depth t' = depth t := by unfold depth; rw [es]
  have e2 : place t' i j = place t i j := by unfold NeonF.Flow.place; rw [ed]
  have e3 : exact t' a b bias = exact t a b bias := by unfold exact; rw [ep, e1]
  have hv' : Values t' m' i j a b bias := by
    obtain ⟨h1, h2, h3, h4, h5⟩ := hv
    refine ⟨fun k hk => ?_, fun k hk => ?_, ?_, by rw [ep]; exact h4, by rw [ep]; exact h5⟩
    · rw [elem_same es hs]; exact h1 k (e1 ▸ hk)
    · rw [elem_same es hs]; exact h2 k (e1 ▸ hk)
    · rw [bias_neon ep hs ho ho', ep]; exact h3
  obtain ⟨p, p1, p2⟩ := c89_neon_normal hi hj ho hx hv hn hb hlo hhi hd hM
  obtain ⟨q, q1, q2⟩ := NeonF.Flow.c73_binary32 ho' hy (by rw [ed]; exact hi) (by rw [ed]; exact hj) hv' (by rw [e1]; omega)
    (by rw [e1]; exact hM)
  rw [e1, e2, e3] at *
  refine ⟨p, q, p1, q1, ?_⟩
  have : p - q = (p - exact t a b bias) - (q - exact t a b bias) := by ring
  rw [this]
  refine (abs_sub _ _).trans ?_
  linarith

/-- C90: for small integers the two results are equal, with `neonOps` too. -/
theorem c90_neon_integers {a b : Nat → ℤ} {bias lo hi' : ℤ}
    (hv : ∀ k, k < depth t → elem t m .lhs k i = ofInt (a k) ∧ elem t m .rhs k j = ofInt (b k))
    (hb : biasAt t m (channelOf t.mp.chan i j) = ofInt bias) (hlo : t.mp.clampMin = ofInt lo) (hhi : t.mp.clampMax = ofInt hi')
    (hm : |bias| + ∑ k ∈ Finset.range (depth t), |a k * b k| ≤ 2 ^ 24) :
    y.dst (place t i j) = x.dst (place t i j) := by
  have e1 : depth t' = depth t := by unfold depth; rw [es]
  have e2 : place t' i j = place t i j := by unfold NeonF.Flow.place; rw [ed]
  rw [c89_neon_integers hi hj ho hx hv hb hlo hhi hm, ← e2,
    NeonF.Flow.c73_integers ho' hy (by rw [ed]; exact hi) (by rw [ed]; exact hj) (a := a) (b := b) (bias := bias) (lo := lo) (hi' := hi')
      (fun k hk => by rw [elem_same es hs, elem_same es hs]; exact hv k (e1 ▸ hk))
      (by rw [bias_neon ep hs ho ho', ep]; exact hb) (by rw [ep]; exact hlo) (by rw [ep]; exact hhi) (by rw [e1]; exact hm), e1]

end

/-! ### Examples -/

def exTask2 (ops : NeonF.Ops A) (lo hi : A) : Task A where
  dot := false
  src := ⟨NeonF.Flow.exL, exWide⟩
  packed := ⟨NeonF.Flow.exP, ⟨⟨21, 128, 21, .colMajor, ⟨.rowMajor, 1, 4⟩⟩, 2688⟩⟩
  dst := ⟨⟨13, 125, 14, .colMajor⟩, 1750⟩
  mp := ⟨some 16, .row, lo, hi⟩
  ops := ops

theorem exTask2_ok (ops : NeonF.Ops A) (lo hi : A) : TaskOk (exTask2 ops lo hi) where
  side s := by
    cases s
    · exact (exTask_ok ops lo hi).side .lhs
    · refine ⟨by show 0 < 21; decide, ?_, by show 21 * 128 ≤ 2688; decide, fun k c hk hc => ?_,
        by show 4 * 2730 ≤ 2 ^ 32 ∧ 4 * 2688 ≤ 2 ^ 32; decide, fun h => by cases h⟩
      · show createPackedLayout ⟨21, 125, 130, .rowMajor⟩ ⟨.rowMajor, 1, 4⟩ = .ok ⟨21, 128, 21, .colMajor, ⟨.rowMajor, 1, 4⟩⟩
        decide +kernel
      · have hk : k < 21 := hk
        have hc : c < 125 := hc
        show 130 * k + c < 2730
        omega
  depth := rfl
  drows := rfl
  dcols := rfl
  dstride := by show 13 ≤ 14; decide
  dsize i j hi hj := by
    have hi : i < 13 := hi
    have hj : j < 125 := hj
    show j * 14 + i < 1750
    omega
  dint := by show 4 * 14 < _; decide
  dmem := by show 4 * 1750 ≤ _; decide
  bias n hn := by cases hn; show 16 ≤ 16 ∧ 4 * 16 ≤ 2 ^ 32; decide

/-- The block map for two threads: eight blocks of 16x16 entries. -/
def exMap : BlockMap := ⟨2, .linear, ⟨16, 128⟩, 0, ⟨0, 3⟩, ⟨8, 4⟩, ⟨16, 16⟩, ⟨0, 0⟩⟩

theorem exMapFor (ops : NeonF.Ops A) (lo hi : A) : MapFor (shape (exTask2 ops lo hi)) exMap :=
  ⟨⟨16, 128, 21, 8, 4, 1, 1, 2, ⟨32768, 524288⟩⟩, by decide +kernel, rfl, rfl, rfl, rfl, by decide, by decide⟩

/-- Two threads, RHS prepacked, alternating, on integers: the hypotheses of `c90_threads` and `c90_threads_finish`. -/
example : ∃ k s, Exec (exTask2 (vmlaOps (binary32 true)) (ofInt (-1000)) (ofInt 1000)) ⟨false, true⟩ exMap 2
    ((List.range k).map (· % 2)) intMach (.ok s) ∧ s.mem.dst (124 * 14 + 12) = .fin (-121) := by
  obtain ⟨k, ⟨r, hr⟩, hv⟩ := c90_threads_finish (exTask2_ok (vmlaOps (binary32 true)) (ofInt (-1000)) (ofInt 1000))
    (exMapFor _ _ _) ⟨false, true⟩ (threads := 2) (by decide) fair2 intMach
  obtain ⟨s, rfl, hf, hM⟩ := hv r hr
  exact ⟨k, s, hr, (c89_integers (ftz := true) (i := 12) (j := 124) (by show 12 < 13; decide) (by show 124 < 125; decide) rfl hM
    (a := fun _ => 3) (b := fun _ => -2) (bias := 5) (lo := -1000) (hi' := 1000) (fun _ _ => ⟨rfl, rfl⟩) rfl rfl rfl
    (by show |5| + ∑ k ∈ Finset.range 21, |(3 : ℤ) * -2| ≤ _; decide +kernel)).trans
    (by show ofInt (min (max (XFloat.isum 5 (fun _ => 3) (fun _ => -2) 21) _) _) = _; decide +kernel)⟩

/-- The hypotheses of `c90_one_result` and `c90_block_loop`. -/
example (ops : NeonF.Ops A) (lo hi : A) {m m' : Mach A} (hm : SameInputs m m') :
    ∃ m1 m2, Runs (exTask2 ops lo hi) (simpleOps (exTask2 ops lo hi)) m (.ok m1) ∧
      BlockLoop (exTask2 ops lo hi) ⟨true, false⟩ exMap m' (.ok m2) ∧ m1.dst = m2.dst := by
  obtain ⟨k, ⟨r, hr⟩, hv⟩ := c90_threads_finish (exTask2_ok ops lo hi) (exMapFor ops lo hi) ⟨false, true⟩
    (threads := 2) (by decide) fair2 m
  obtain ⟨s, rfl, hf, _⟩ := hv r hr
  obtain ⟨⟨r1, h1⟩, -⟩ := c89_simple_loop (m := m) (exTask2_ok ops lo hi) (by show 0 < 13; decide) (by show 0 < 125; decide)
  obtain ⟨⟨r2, h2⟩, -⟩ := c90_block_loop (exTask2_ok ops lo hi) (exMapFor ops lo hi) ⟨true, false⟩ m'
  obtain ⟨a, b, rfl, rfl, h3, h4⟩ := c90_one_result (exTask2_ok ops lo hi) (exMapFor ops lo hi) (exMapFor ops lo hi) ⟨false, true⟩
    ⟨true, false⟩ (by decide) _ (⟨rfl, rfl, rfl⟩ : SameInputs m m) hm hr hf h1 h2
  exact ⟨a, b, h1, h2, by rw [h3, h4]⟩

/-- The hypotheses of `c90_integers`: two threads on each side. -/
example (dot : Bool) : ∃ k k' s s', Exec (exTask2 (vmlaOps (binary32 true)) (ofInt (-1000)) (ofInt 1000)) ⟨false, true⟩ exMap 2
      ((List.range k).map (· % 2)) intMach (.ok s) ∧
    NeonF.Flow.Exec (fun _ => True) (NeonF.Flow.exTask2 dot (armOps (binary32 false)) (ofInt (-1000)) (ofInt 1000)) ⟨true, false⟩
      NeonF.Flow.exMap 2 ((List.range k').map (· % 2)) intMach (.ok s') ∧
    s'.mem.dst (124 * 14 + 12) = s.mem.dst (124 * 14 + 12) := by
  obtain ⟨k, ⟨r, hr⟩, hv⟩ := c90_threads_finish (exTask2_ok (vmlaOps (binary32 true)) (ofInt (-1000)) (ofInt 1000))
    (exMapFor _ _ _) ⟨false, true⟩ (threads := 2) (by decide) fair2 intMach
  obtain ⟨s, rfl, hf, hM⟩ := hv r hr
  obtain ⟨k', hk'⟩ := NeonF.Flow.c74_threads_finish (NeonF.Flow.exTask2_ok dot (armOps (binary32 false)) (ofInt (-1000)) (ofInt 1000))
    (NeonF.Flow.exTask2_ints dot _ _ _) (NeonF.Flow.exMapFor dot _ _ _) ⟨true, false⟩ (threads := 2) (by decide) fair2
  obtain ⟨⟨r', hr'⟩, hv'⟩ := hk' (fun _ => True) intMach ⟨.x1, trivial⟩
  obtain ⟨s', rfl, hf', hM'⟩ := hv' r' hr'
  exact ⟨k, k', s, s', hr, hr', c90_integers (t := exTask2 (vmlaOps (binary32 true)) (ofInt (-1000)) (ofInt 1000))
    (t' := NeonF.Flow.exTask2 dot (armOps (binary32 false)) (ofInt (-1000)) (ofInt 1000)) (ftz := true) (ftz' := false) rfl rfl rfl ⟨rfl, rfl, rfl⟩ rfl rfl hM hM'
    (i := 12) (j := 124) (by show 12 < 13; decide) (by show 124 < 125; decide)
    (a := fun _ => 3) (b := fun _ => -2) (bias := 5) (lo := -1000) (hi' := 1000) (fun _ _ => ⟨rfl, rfl⟩) rfl rfl rfl
    (by show |5| + ∑ k ∈ Finset.range 21, |(3 : ℤ) * -2| ≤ _; decide +kernel)⟩

/-- The hypotheses of `c90_close`: the sources of `c89_differ`, for which the results are not equal. -/
example (u : Tuning) : ∃ x y, Multiplied (fineTask 8 4 (vmlaOps (binary32 true))) fineMach x ∧
    NeonF.Flow.Multiplied (· = u) (fineTask 8 8 (armOps (binary32 true))) fineMach y ∧
    ∃ p q, IsVal (x.dst 0) p ∧ IsVal (y.dst 0) q ∧ |p - q| ≤ 1 / 2 ^ 18 := by
  obtain ⟨⟨r, hr⟩, hv⟩ := c89_simple_loop (m := fineMach) (fine_ok (vmlaOps (binary32 true))) (by show 0 < 1; decide)
    (by show 0 < 1; decide)
  obtain ⟨x, rfl, hM⟩ := hv r hr
  obtain ⟨⟨r', hr'⟩, hv'⟩ := NeonF.Flow.c73_simple_loop (m := fineMach) u (fine_ok64 (armOps (binary32 true))) (by show 0 < 1; decide)
    (by show 0 < 1; decide)
  obtain ⟨y, rfl, hM'⟩ := hv' r' hr'
  obtain ⟨a, b, hV, hm, -⟩ := fine_values
  obtain ⟨p, q, h1, h2, h3⟩ := c90_close (t := fineTask 8 4 (vmlaOps (binary32 true)))
    (t' := fineTask 8 8 (armOps (binary32 true))) (ftz := true) (ftz' := true) rfl rfl rfl
    ⟨rfl, rfl, rfl⟩ rfl rfl hM hM' (i := 0) (j := 0) (by show 0 < 1; decide) (by show 0 < 1; decide) hV
    (by show 2 + 2 < _; decide) (hm.trans (by norm_num))
  refine ⟨x, y, hM, hM', p, q, h1, h2, h3.trans ?_⟩
  have e : (depth (fineTask 8 4 (vmlaOps (binary32 true))) : ℚ) = 2 := rfl
  rw [e]
  unfold tiny
  norm_num
  linarith

/-- The hypotheses of `c90_neon_integers` and, with them, of `c90_neon_close`: two threads on each side. -/
example (dot : Bool) : ∃ k k' s s', Exec (exTask2 neonOps (ofInt (-1000)) (ofInt 1000)) ⟨false, true⟩ exMap 2
      ((List.range k).map (· % 2)) intMach (.ok s) ∧
    NeonF.Flow.Exec (fun _ => True) (NeonF.Flow.exTask2 dot (armOps (binary32 false)) (ofInt (-1000)) (ofInt 1000)) ⟨true, false⟩
      NeonF.Flow.exMap 2 ((List.range k').map (· % 2)) intMach (.ok s') ∧
    s'.mem.dst (124 * 14 + 12) = s.mem.dst (124 * 14 + 12) ∧
    ∃ p q, IsVal (s.mem.dst (124 * 14 + 12)) p ∧ IsVal (s'.mem.dst (124 * 14 + 12)) q ∧ |p - q| ≤ 1 := by
  obtain ⟨k, ⟨r, hr⟩, hv⟩ := c90_threads_finish (exTask2_ok neonOps (ofInt (-1000)) (ofInt 1000))
    (exMapFor _ _ _) ⟨false, true⟩ (threads := 2) (by decide) fair2 intMach
  obtain ⟨s, rfl, hf, hM⟩ := hv r hr
  obtain ⟨k', hk'⟩ := NeonF.Flow.c74_threads_finish (NeonF.Flow.exTask2_ok dot (armOps (binary32 false)) (ofInt (-1000)) (ofInt 1000))
    (NeonF.Flow.exTask2_ints dot _ _ _) (NeonF.Flow.exMapFor dot _ _ _) ⟨true, false⟩ (threads := 2) (by decide) fair2
  obtain ⟨⟨r', hr'⟩, hv'⟩ := hk' (fun _ => True) intMach ⟨.x1, trivial⟩
  obtain ⟨s', rfl, hf', hM'⟩ := hv' r' hr'
  have hV : Values (exTask2 neonOps (ofInt (-1000)) (ofInt 1000)) intMach 12 124 (fun _ => 3) (fun _ => -2) 5 :=
    ⟨fun _ _ => rfl, fun _ _ => rfl, rfl, trivial, trivial⟩
  have hm : mag 5 (fun _ => 3) (fun _ => -2) (depth (exTask2 neonOps (ofInt (-1000)) (ofInt 1000))) = 131 := by decide +kernel
  obtain ⟨p, q, h1, h2, h3⟩ := c90_neon_close (t := exTask2 neonOps (ofInt (-1000)) (ofInt 1000))
    (t' := NeonF.Flow.exTask2 dot (armOps (binary32 false)) (ofInt (-1000)) (ofInt 1000)) (ftz' := false) rfl rfl rfl
    ⟨rfl, rfl, rfl⟩ rfl rfl hM hM' (i := 12) (j := 124) (by show 12 < 13; decide) (by show 124 < 125; decide) hV
    (fun k _ => ⟨ofInt_normal 3, by
      rw [show elem (exTask2 neonOps (ofInt (-1000)) (ofInt 1000)) intMach .rhs k 124 = ofInt (-2) from rfl]
      exact ofInt_normal _⟩) (ofInt_normal 5)
    (by show Normal (ofInt (-1000)); exact ofInt_normal _) (by show Normal (ofInt 1000); exact ofInt_normal _)
    (by show 21 + 2 < _; decide) (by rw [hm]; norm_num)
  refine ⟨k, k', s, s', hr, hr', c90_neon_integers (t := exTask2 neonOps (ofInt (-1000)) (ofInt 1000))
    (t' := NeonF.Flow.exTask2 dot (armOps (binary32 false)) (ofInt (-1000)) (ofInt 1000)) (ftz' := false) rfl rfl rfl
    ⟨rfl, rfl, rfl⟩ rfl rfl hM hM' (i := 12) (j := 124) (by show 12 < 13; decide) (by show 124 < 125; decide)
    (a := fun _ => 3) (b := fun _ => -2) (bias := 5) (lo := -1000) (hi' := 1000) (fun _ _ => ⟨rfl, rfl⟩) rfl rfl rfl
    (by show |5| + ∑ k ∈ Finset.range 21, |(3 : ℤ) * -2| ≤ _; decide +kernel), p, q, h1, h2, h3.trans ?_⟩
  have e : (depth (exTask2 neonOps (ofInt (-1000)) (ofInt 1000)) : ℚ) = 21 := rfl
  rw [hm, e]
  unfold tiny
  norm_num

/-- Nothing is finished before the first step. -/
example (ops : NeonF.Ops A) (lo hi : A) : ¬ TrMul.Finished (control ⟨false, false⟩ exMap 2)
    (TrMul.initState (control ⟨false, false⟩ exMap 2) (shape (exTask2 ops lo hi))) := by
  intro h
  exact absurd (h 0 (by decide)) (fun e => by cases e)

end Ruy.Arm32.Flow

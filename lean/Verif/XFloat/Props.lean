import Verif.XFloat.ThreadsInv
import Verif.Simd.ThreadsProps
import Verif.Float.Props
/-
Property C61: multiplication of float matrices on the x86 paths.

  c61_any_order       the calls in any order that TrMul can use them in: no undefined behaviour, every entry covered by a kernel
                      call is the specified one, the rest of the destination is unchanged
  c61_simple_loop     the simple loop writes every entry
  c61_block_loop      so does the single-threaded block loop, with any block map and any sides prepacked
  c61_threads         any number of threads, any schedule: no step fails; when all tasks have returned every entry is written
  c61_threads_finish  under a fair schedule all tasks return
  c61_one_result      the destination is the same for all of these, for all three paths (with the same multiply-add), and for
                      all contents of packed buffers and uninitialised trailing buffers
  c61_integers        integers small enough to be exact: the exact result
  c61_nan, c61_nan_reference   a NaN becomes clamp_max, unlike in ReferenceMul
  c61_depth0, c61_stride, c61_bias   what happens when a hypothesis of `JobOk` does not hold
-/
namespace Ruy.XFloat
open Ruy.Mat Ruy.Mul Ruy.BlockMap
open Ruy.Front (MulParams)
open Ruy.TrMul (Mem Cfg State MapFor)
open Ruy.Simd.Flow (Op Covered Written control prepackCalls blockCalls colsOf InOrder GridOk CallsOk blockCalls_of ctl_finish
  run_prefix)

variable {A : Type}

/-- The three paths, with a given multiply-add. -/
inductive IsPath (o : VOps A) : Path A → Prop
  | avx : IsPath o (pathAvx o)
  | avx2 : IsPath o (pathAvx2 o)
  | avx512 : IsPath o (pathAvx512 o)

theorem IsPath.ok {o : VOps A} {P : Path A} (h : IsPath o P) : PathOk P ∧ P.isa.ops = o := by
  cases h
  · exact ⟨pathAvx_ok o, rfl⟩
  · exact ⟨pathAvx2_ok o, rfl⟩
  · exact ⟨pathAvx512_ok o, rfl⟩

/-- What calls leave: the entries in `W` and nothing else in the destination. -/
structure Leaves (o : VOps A) (jb : Job A) (W : Nat → Nat → Prop) (m m' : Mem A) : Prop where
  same : DSame m.dst m'.dst
  entries : ∀ i j, i < m.dst.layout.rows → j < m.dst.layout.cols → W i j → m'.dst.elem i j = .ok (entry o jb i j)
  rest : DOutside (fun i j => i < m.dst.layout.rows ∧ j < m.dst.layout.cols ∧ W i j) m.dst m'.dst

/-- What a complete multiplication leaves. -/
def Multiplied (o : VOps A) (jb : Job A) (m m' : Mem A) : Prop := Leaves o jb (fun _ _ => True) m m'

theorem leaves_of {o : VOps A} {jb : Job A} {kc : Nat} {m m' : Mem A} {ops : List Op} (h : JobOk kc jb m)
    (hI : Inv o jb m ops m') : Leaves o jb (Written ops) m m' :=
  ⟨hI.dsame, fun _ _ hi hj hw => hI.elem h hi hj hw, hI.rest h⟩

theorem multiplied_of {o : VOps A} {jb : Job A} {kc : Nat} {m m' : Mem A} {ops : List Op} (h : JobOk kc jb m)
    (hI : Inv o jb m ops m')
    (hw : ∀ i j, i < m.dst.layout.rows → j < m.dst.layout.cols → Written ops i j) : Multiplied o jb m m' :=
  ⟨hI.dsame, fun i j hi hj _ => hI.elem h hi hj (hw i j hi hj),
    fun x hx => hI.rest h x (fun i j hij => hx i j ⟨hij.1, hij.2.1, trivial⟩)⟩

theorem dst_cols {jb : Job A} {kc : Nat} {m : Mem A} (h : JobOk kc jb m) {i j : Nat} (hi : i < m.dst.layout.rows)
    (hj : j < m.dst.layout.cols) : i < (colsOf (shape m)).lhs ∧ j < (colsOf (shape m)).rhs := by
  obtain ⟨_, _, _, _, _, ll, _⟩ := (h.side .lhs).facts
  obtain ⟨_, _, _, _, _, lr, _⟩ := (h.side .rhs).facts
  simp only [SidePair.get_lhs, SidePair.get_rhs] at ll lr
  have := h.drows
  have := h.dcols
  show i < m.packed.lhs.layout.cols ∧ j < m.packed.rhs.layout.cols
  omega

/-- Two multiplications that read the same: sources and parameters.  What uninitialised trailing buffers hold may differ. -/
def SameReads (jb jb' : Job A) : Prop := jb'.src = jb.src ∧ jb'.mp = jb.mp

theorem entry_same {o : VOps A} {jb jb' : Job A} (h : SameReads jb jb') (i j : Nat) : entry o jb' i j = entry o jb i j := by
  unfold entry
  rw [h.1, h.2]

/-- The destination after calls that cover the same entries is determined by sources, parameters and the destination
before. -/
theorem Leaves.unique {o : VOps A} {jb jb' : Job A} {kc : Nat} {W W' : Nat → Nat → Prop} {m m' a b : Mem A}
    (h : JobOk kc jb m) (hs : SameReads jb jb') (hd : m'.dst = m.dst)
    (hw : ∀ i j, i < m.dst.layout.rows → j < m.dst.layout.cols → (W i j ↔ W' i j)) (ha : Leaves o jb W m a)
    (hb : Leaves o jb' W' m' b) : b.dst = a.dst := by
  obtain ⟨a1, a2, a3⟩ := ha
  obtain ⟨b1, b2, b3⟩ := hb
  rw [hd] at b1 b2 b3
  have hval : b.dst.data.val = a.dst.data.val := by
    funext x
    by_cases hx : ∃ i j, (i < m.dst.layout.rows ∧ j < m.dst.layout.cols ∧ W i j) ∧ x = off m.dst.layout i j
    · obtain ⟨i, j, ⟨hi, hj, hW⟩, rfl⟩ := hx
      have e1 := a2 i j hi hj hW
      have e2 := b2 i j hi hj ((hw i j hi hj).1 hW)
      have hf := h.dfits i j hi hj
      unfold Mat.elem at e1 e2
      rw [a1.layout, offset_eq, C.int_of hf.1, C.ok_bind, Buf.read_of (by rw [a1.size]; exact hf.2)] at e1
      rw [b1.layout, offset_eq, C.int_of hf.1, C.ok_bind, Buf.read_of (by rw [b1.size]; exact hf.2)] at e2
      rw [Except.ok.inj e1, Except.ok.inj e2, entry_same hs]
    · rw [a3 x (fun i j hij e => hx ⟨i, j, hij, e⟩),
        b3 x (fun i j hij e => hx ⟨i, j, ⟨hij.1, hij.2.1, (hw i j hij.1 hij.2.1).2 hij.2.2⟩, e⟩)]
  have l1 := a1.layout
  have l2 := b1.layout
  have s1 := a1.size
  have s2 := b1.size
  have z1 := a1.zp
  have z2 := b1.zp
  cases hA : a.dst with
  | mk la da za =>
    cases hB : b.dst with
    | mk lb db zb =>
      rw [hA] at l1 s1 z1 hval
      rw [hB] at l2 s2 z2 hval
      cases da
      cases db
      simp_all

section
variable {o : VOps A} {P : Path A}

/-- C61: any order of calls. -/
theorem c61_any_order (hP : IsPath o P) {jb : Job A} {m : Mem A} (h : JobOk P.isa.kc jb m) {ops : List Op}
    (ho : Ordered P.isa.kc jb m ops) :
    ∃ m', runOps P jb ops m = .ok m' ∧ Leaves o jb (Written ops) m m' := by
  obtain ⟨ok, e⟩ := hP.ok
  obtain ⟨m', e1, hI⟩ := runOps_inv ok h ho
  rw [e] at hI
  exact ⟨m', e1, leaves_of h hI⟩

/-- C61: two orders of calls, on any two of the paths, leave the same destination if they cover the same entries. -/
theorem c61_same (hP : IsPath o P) {P' : Path A} (hP' : IsPath o P') {jb jb' : Job A} (hs : SameReads jb jb') {m m' : Mem A}
    (h : JobOk P.isa.kc jb m) (h' : JobOk P'.isa.kc jb' m') (hd : m'.dst = m.dst) {ops ops' : List Op}
    (ho : Ordered P.isa.kc jb m ops) (ho' : Ordered P'.isa.kc jb' m' ops')
    (hw : ∀ i j, i < m.dst.layout.rows → j < m.dst.layout.cols → (Written ops i j ↔ Written ops' i j)) :
    ∃ a b, runOps P jb ops m = .ok a ∧ runOps P' jb' ops' m' = .ok b ∧ b.dst = a.dst := by
  obtain ⟨a, e1, hA⟩ := c61_any_order hP h ho
  obtain ⟨b, e2, hB⟩ := c61_any_order hP' h' ho'
  exact ⟨a, b, e1, e2, Leaves.unique h hs hd hw hA hB⟩

theorem simple_ordered {jb : Job A} {m : Mem A} {kc : Nat} (h : JobOk kc jb m) (hr : 0 < m.dst.layout.rows)
    (hc : 0 < m.dst.layout.cols) :
    Ordered kc jb m [.pack .lhs 0 m.packed.lhs.layout.cols, .pack .rhs 0 m.packed.rhs.layout.cols,
      .kernel ⟨0, 0⟩ ⟨m.packed.lhs.layout.cols, m.packed.rhs.layout.cols⟩] := by
  have hblock : ∀ s : Side, Simd.Flow.Block kc (m.packed.get s).layout.cols 0 (m.packed.get s).layout.cols := by
    intro s
    obtain ⟨_, _, _, _, _, c1, c2, c3⟩ := (h.side s).facts
    refine ⟨Nat.zero_mod _, c3, ?_, Nat.le_refl _⟩
    cases s with
    | lhs => have := h.drows; simp only [SidePair.get_lhs] at c1 ⊢; omega
    | rhs => have := h.dcols; simp only [SidePair.get_rhs] at c1 ⊢; omega
  refine ⟨fun s lo hi hm => ?_, fun start stop hm s => ?_, fun pre start stop post he s c h1 h2 _ => ?_⟩
  · simp only [List.mem_cons, List.not_mem_nil, or_false, Op.pack.injEq, reduceCtorEq] at hm
    rcases hm with ⟨rfl, rfl, rfl⟩ | ⟨rfl, rfl, rfl⟩
    · exact hblock .lhs
    · exact hblock .rhs
  · simp only [List.mem_cons, List.not_mem_nil, or_false, Op.kernel.injEq, reduceCtorEq, false_or] at hm
    obtain ⟨rfl, rfl⟩ := hm
    have := hblock s
    cases s <;> exact this
  · match pre, he with
    | [_, _], he =>
      simp only [List.cons_append, List.nil_append, List.cons.injEq] at he
      obtain ⟨rfl, rfl, he, _⟩ := he
      cases he
      cases s
      · exact ⟨0, _, by simp, h1, h2⟩
      · exact ⟨0, _, by simp, h1, h2⟩
    | [], he => simp at he
    | [_], he => simp at he
    | _ :: _ :: _ :: _, he => simp at he

/-- C61: the simple loop. -/
theorem c61_simple_loop (hP : IsPath o P) {jb : Job A} {m : Mem A} (h : JobOk P.isa.kc jb m) (hr : 0 < m.dst.layout.rows)
    (hc : 0 < m.dst.layout.cols) : ∃ m', simpleLoop P jb m = .ok m' ∧ Multiplied o jb m m' := by
  obtain ⟨ok, e⟩ := hP.ok
  obtain ⟨m', e1, hI⟩ := runOps_inv ok h (simple_ordered h hr hc)
  rw [e] at hI
  refine ⟨m', e1, multiplied_of h hI (fun i j hi hj => ?_)⟩
  obtain ⟨h1, h2⟩ := dst_cols h hi hj
  exact ⟨⟨0, 0⟩, ⟨m.packed.lhs.layout.cols, m.packed.rhs.layout.cols⟩, by simp, Nat.zero_le _, h1, Nat.zero_le _, h2⟩

/-- C61: the block loop of one thread, with or without prepacked sides. -/
theorem c61_block_loop (hP : IsPath o P) {jb : Job A} {m : Mem A} (h : JobOk P.isa.kc jb m) {bm : BlockMap}
    (hm : MapFor (shape m) bm) (pre : SidePair Bool) :
    ∃ m', blockLoop P jb pre bm m = .ok m' ∧ Multiplied o jb m m' := by
  obtain ⟨ok, e⟩ := hP.ok
  obtain ⟨n, kd, g, _⟩ := gridOk_of h hm
  obtain ⟨calls, e1, hc, hw⟩ := blockCalls_of g (prepack_ok (pre := pre) h g)
  obtain ⟨m', e2, hI⟩ := runOps_inv ok h (InOrder.ordered hc.order)
  rw [e] at hI
  refine ⟨m', ?_, multiplied_of h hI (fun i j hi hj => hw i j (dst_cols h hi hj).1 (dst_cols h hi hj).2)⟩
  unfold blockLoop
  rw [e1, C.ok_bind, e2]

/-- C61: several threads. -/
theorem c61_threads (hP : IsPath o P) {jb : Job A} {m : Mem A} (h : JobOk P.isa.kc jb m) {bm : BlockMap}
    (hm : MapFor (shape m) bm) (pre : SidePair Bool) {threads : Nat} (ht : 0 < threads) (sched : List Nat) :
    ∃ x, exec P jb pre bm threads sched m = .ok x ∧
      (TrMul.Finished (control pre bm threads) x.ctl → Multiplied o jb m x.mem) := by
  obtain ⟨ok, e⟩ := hP.ok
  obtain ⟨n, kd, g, hk⟩ := gridOk_of h hm
  obtain ⟨x, ops, e1, hx, _⟩ := exec_ok ok h g hk pre threads sched
  have hI := hx.mem
  rw [e] at hI
  exact ⟨x, e1, fun hf => multiplied_of h hI
    (fun i j hi hj => ctl_finish g ht hx.ctl hf (dst_cols h hi hj).1 (dst_cols h hi hj).2)⟩

/-- C61: under a fair schedule all tasks return, and every entry is written. -/
theorem c61_threads_finish (hP : IsPath o P) {jb : Job A} {m : Mem A} (h : JobOk P.isa.kc jb m) {bm : BlockMap}
    (hm : MapFor (shape m) bm) (pre : SidePair Bool) {threads : Nat} (ht : 0 < threads) {σ : Nat → Nat}
    (fair : TrMul.Fair threads σ) :
    ∃ k x, exec P jb pre bm threads ((List.range k).map σ) m = .ok x ∧
      TrMul.Finished (control pre bm threads) x.ctl ∧ Multiplied o jb m x.mem := by
  have sh := shapeOk h
  have hr := sh.ready (pre := pre) (bm := bm) (threads := threads)
  have hs := sh.safe (pre := pre) (bm := bm) (threads := threads)
  obtain ⟨ex, hex⟩ := TrMul.c07_executions_exist (control pre bm threads).tp (shape m) bm threads σ hr hs hm
  obtain ⟨k, hk⟩ := TrMul.c07_fair_executions_finish (control pre bm threads).tp (shape m) bm threads σ ex hr hm hex fair
  obtain ⟨ok, e⟩ := hP.ok
  obtain ⟨n, kd, g, hkd⟩ := gridOk_of h hm
  obtain ⟨x, ops, e1, hx, hctl⟩ := exec_ok ok h g hkd pre threads ((List.range k).map σ)
  have hex' : TrMul.Execution (control pre bm threads) (shape m) σ ex := hex
  have hxk : ex k = x.ctl := by
    have := run_prefix hex' k
    rw [hctl] at this
    exact (Except.ok.inj this).symm
  have hf : TrMul.Finished (control pre bm threads) x.ctl := by rw [← hxk]; exact hk
  have hI := hx.mem
  rw [e] at hI
  exact ⟨k, x, e1, hf, multiplied_of h hI
    (fun i j hi hj => ctl_finish g ht hx.ctl hf (dst_cols h hi hj).1 (dst_cols h hi hj).2)⟩

/-- C61: the destination does not depend on the path (given the multiply-add), on the block map, on which sides are prepacked,
on the number of threads, on the schedule, or on what packed matrices and uninitialised trailing buffers held; and it is the
one the simple loop leaves. -/
theorem c61_one_result (hP : IsPath o P) {P1 P2 : Path A} (hP1 : IsPath o P1) (hP2 : IsPath o P2) {jb jb1 jb2 : Job A}
    (hs1 : SameReads jb jb1) (hs2 : SameReads jb jb2) {m m1 m2 : Mem A} (h : JobOk P.isa.kc jb m)
    (h1 : JobOk P1.isa.kc jb1 m1) (h2 : JobOk P2.isa.kc jb2 m2) (hd1 : m1.dst = m.dst) (hd2 : m2.dst = m.dst)
    {bm bm2 : BlockMap} (hm : MapFor (shape m) bm) (hm2 : MapFor (shape m2) bm2) (pre pre2 : SidePair Bool) {threads : Nat}
    (ht : 0 < threads) (sched : List Nat) {x : XState A} (hx : exec P jb pre bm threads sched m = .ok x)
    (hf : TrMul.Finished (control pre bm threads) x.ctl) :
    ∃ a b, simpleLoop P1 jb1 m1 = .ok a ∧ blockLoop P2 jb2 pre2 bm2 m2 = .ok b ∧
      a.dst = x.mem.dst ∧ b.dst = x.mem.dst := by
  obtain ⟨x', ex, Mx⟩ := c61_threads hP h hm pre ht sched
  rw [hx] at ex
  cases ex
  obtain ⟨b, eb, Mb⟩ := c61_block_loop hP2 h2 hm2 pre2
  obtain ⟨n, kd, g, _⟩ := gridOk_of h hm
  have pos : 0 < m.dst.layout.rows ∧ 0 < m.dst.layout.cols := by
    obtain ⟨_, _, _, _, _, _, kl, al⟩ := (h.side .lhs).facts
    obtain ⟨_, _, _, _, _, _, kr, ar⟩ := (h.side .rhs).facts
    have p1 := g.pos .lhs
    have p2 := g.pos .rhs
    rw [cols_get] at p1 p2
    simp only [SidePair.get_lhs, SidePair.get_rhs] at p1 p2 kl kr al ar
    have := h.drows
    have := h.dcols
    have hkc := hP.ok.1.isa.kc
    constructor
    · by_contra hz
      have hz : m.dst.layout.rows = 0 := by omega
      rw [Nat.mod_eq_of_lt (by omega)] at al
      omega
    · by_contra hz
      have hz : m.dst.layout.cols = 0 := by omega
      rw [Nat.mod_eq_of_lt (by omega)] at ar
      omega
  obtain ⟨a, ea, Ma⟩ := c61_simple_loop hP1 h1 (by rw [hd1]; exact pos.1) (by rw [hd1]; exact pos.2)
  exact ⟨a, b, ea, eb, Leaves.unique h hs1 hd1 (fun _ _ _ _ => Iff.rfl) (Mx hf) Ma,
    Leaves.unique h hs2 hd2 (fun _ _ _ _ => Iff.rfl) (Mx hf) Mb⟩

end

/-! ### Integers -/

/-- On the integers in `good`, represented by `val`, the operations are exact as long as the results are in `good`. -/
structure ExactOn (o : VOps A) (val : Int → A) (good : Int → Prop) : Prop where
  zero : o.zero = val 0
  madd : ∀ a b c, good a → good b → good c → good (a * b) → good (a * b + c) → o.madd (val a) (val b) (val c) = val (a * b + c)
  lt : ∀ a b, good a → good b → o.lt (val a) (val b) = decide (a < b)

/-- The exact sum of products. -/
def isum (b : Int) (f g : Nat → Int) : Nat → Int
  | 0 => b
  | n + 1 => isum b f g n + f n * g n

theorem clamped_val {o : VOps A} {val : Int → A} {good : Int → Prop} (he : ExactOn o val good) {s lo hi : Int} (gs : good s)
    (glo : good lo) (ghi : good hi) : clamped o (val lo) (val hi) (val s) = val (max (min s hi) lo) := by
  unfold clamped
  have h1 : o.min (val s) (val hi) = val (min s hi) ∧ good (min s hi) := by
    unfold VOps.min
    rw [he.lt _ _ gs ghi]
    by_cases h : s < hi
    · rw [if_pos (by simpa using h), Int.min_eq_left (Int.le_of_lt h)]; exact ⟨rfl, gs⟩
    · rw [if_neg (by simpa using h), Int.min_eq_right (by omega)]; exact ⟨rfl, ghi⟩
  rw [h1.1]
  unfold VOps.max
  rw [he.lt _ _ glo h1.2]
  by_cases h : lo < min s hi
  · rw [if_pos (by simpa using h), Int.max_eq_left (Int.le_of_lt h)]
  · rw [if_neg (by simpa using h), Int.max_eq_right (by omega)]

/-- C61: with sources, bias and clamp bounds that are integers on which the arithmetic is exact, and products and partial
sums that are such integers, a complete multiplication stores the exact, clamped result. -/
theorem c61_integers {o : VOps A} {jb : Job A} {m m' : Mem A} (hM : Multiplied o jb m m') {val : Int → A}
    {good : Int → Prop} (he : ExactOn o val good) {L R : Nat → Int} {b lo hi : Int}
    {i j : Nat} (hi' : i < m.dst.layout.rows) (hj : j < m.dst.layout.cols)
    (hl : ∀ d, d < jb.src.lhs.layout.rows → jb.src.lhs.at d i = val (L d) ∧ good (L d))
    (hr : ∀ d, d < jb.src.lhs.layout.rows → jb.src.rhs.at d j = val (R d) ∧ good (R d))
    (hb : biasAt o.zero jb.mp (channelOf jb.mp.channelDim i j) = val b)
    (hmin : jb.mp.clampMin = val lo ∧ good lo) (hmax : jb.mp.clampMax = val hi ∧ good hi)
    (hp : ∀ d, d < jb.src.lhs.layout.rows → good (L d * R d))
    (hsum : ∀ n, n ≤ jb.src.lhs.layout.rows → good (isum b L R n)) :
    m'.dst.elem i j = .ok (val (max (min (isum b L R jb.src.lhs.layout.rows) hi) lo)) := by
  rw [hM.entries i j hi' hj trivial]
  unfold entry
  have hdot : ∀ n, n ≤ jb.src.lhs.layout.rows →
      dot o.madd (biasAt o.zero jb.mp (channelOf jb.mp.channelDim i j)) (fun d => jb.src.lhs.at d i)
        (fun d => jb.src.rhs.at d j) n = val (isum b L R n) := by
    intro n hn
    induction n with
    | zero => exact hb
    | succ n ih =>
      have g := hsum (n + 1) hn
      unfold isum at g ⊢
      unfold dot
      rw [ih (by omega), (hl n (by omega)).1, (hr n (by omega)).1,
        he.madd _ _ _ (hl n (by omega)).2 (hr n (by omega)).2 (hsum n (by omega)) (hp n (by omega)) (by rw [Int.add_comm]; exact g),
        Int.add_comm]
  rw [hdot _ (Nat.le_refl _), hmin.1, hmax.1, clamped_val he (hsum _ (Nat.le_refl _)) hmin.2 hmax.2]

/-! ### Examples and witnesses -/

/-- Integers as floats. -/
def intOps : VOps Int := ⟨0, fun a b c => a * b + c, fun a b => decide (a < b)⟩

theorem intOps_exact : ExactOn intOps id (fun _ => True) := ⟨rfl, fun _ _ _ _ _ _ _ _ => rfl, fun _ _ _ _ => rfl⟩

/-- LHS (transposed): 3x10, column-major, stride 4; RHS: 3x125, row-major, stride 126. -/
def exL : Mul.Mat Int := ⟨⟨3, 10, 4, .colMajor⟩, ⟨39, fun o => (o * 7 % 11 : Nat) - 5⟩, 0⟩
def exR : Mul.Mat Int := ⟨⟨3, 125, 126, .rowMajor⟩, ⟨377, fun o => (o * 5 % 13 : Nat) - 6⟩, 0⟩

def exPacked (kc cols : Nat) (x : Int) : PMat Int := ⟨⟨3, cols, 3, .colMajor, ⟨.rowMajor, 1, kc⟩⟩, ⟨3 * cols, fun _ => x⟩, none, 0⟩

def exMp (ch : ChannelDim) : MulParams Int := ⟨some ⟨128, fun c => (c : Int) - 3⟩, none, ch, 128, -60, 90⟩

/-- Destination 10x125, stride 12. -/
def exMem (kc : Nat) (x : Int) : Mem Int :=
  ⟨⟨exPacked kc 16 x, exPacked kc 128 x⟩, ⟨⟨10, 125, 12, .colMajor⟩, ⟨1500, fun _ => 77⟩, 0⟩⟩

def exJob (ch : ChannelDim) (y : Int) : Job Int := ⟨⟨exL, exR⟩, exMp ch, fun _ _ _ => y⟩

theorem exL_side (kc : Nat) (h : kc = 8 ∨ kc = 16) (x : Int) : SideOk kc exL (exPacked kc 16 x) where
  layout := by
    show _ = Except.ok (exPacked kc 16 0).layout
    rcases h with rfl | rfl <;> decide +kernel
  int := by
    show pflatSize (exPacked kc 16 0).layout < _
    rcases h with rfl | rfl <;> decide +kernel
  data := by
    show pflatSize (exPacked kc 16 0).layout ≤ (exPacked kc 16 0).data.size
    rcases h with rfl | rfl <;> decide +kernel
  source i j hi hj := by
    have hi : i < 3 := hi
    have hj : j < 10 := hj
    show i + j * 4 < 2 ^ 31 ∧ i + j * 4 < 39
    omega
  step _ c hc := by
    have hc : c < 10 := hc
    show 4 * c < 2 ^ 31
    omega

theorem exR_side (kc : Nat) (h : kc = 8 ∨ kc = 16) (x : Int) : SideOk kc exR (exPacked kc 128 x) where
  layout := by
    show _ = Except.ok (exPacked kc 128 0).layout
    rcases h with rfl | rfl <;> decide +kernel
  int := by
    show pflatSize (exPacked kc 128 0).layout < _
    rcases h with rfl | rfl <;> decide +kernel
  data := by
    show pflatSize (exPacked kc 128 0).layout ≤ (exPacked kc 128 0).data.size
    rcases h with rfl | rfl <;> decide +kernel
  source i j hi hj := by
    have hi : i < 3 := hi
    have hj : j < 125 := hj
    show i * 126 + j < 2 ^ 31 ∧ i * 126 + j < 377
    omega
  step h := by cases h

theorem exJob_ok (kc : Nat) (h : kc = 8 ∨ kc = 16) (ch : ChannelDim) (x y : Int) : JobOk kc (exJob ch y) (exMem kc x) where
  side s := by
    cases s
    · exact exL_side kc h x
    · exact exR_side kc h x
  depth := rfl
  drows := rfl
  dcols := rfl
  dorder := rfl
  dstride := by show 10 ≤ 12; decide
  dfits i j hi hj := by
    have hi : i < 10 := hi
    have hj : j < 125 := hj
    show i + j * 12 < 2 ^ 31 ∧ i + j * 12 < 1500
    omega
  bias b hb := by
    cases hb
    cases ch
    · show 16 ≤ 128; decide
    · show 128 ≤ 128; decide
  depth4 := by show 4 * 3 < _; decide
  stride4 := by show 4 * 12 < _; decide
  deep _ := by show 0 < 3; decide

/-- Block maps for two threads: 1x4 blocks of 16x32 entries, and one block. -/
def exMap8 : BlockMap := ⟨2, .linear, ⟨16, 128⟩, 0, ⟨0, 2⟩, ⟨8, 8⟩, ⟨16, 32⟩, ⟨0, 0⟩⟩
def exMap16 : BlockMap := ⟨1, .linear, ⟨16, 128⟩, 0, ⟨0, 0⟩, ⟨16, 16⟩, ⟨16, 128⟩, ⟨0, 0⟩⟩

theorem exMap8For (x : Int) : MapFor (shape (exMem 8 x)) exMap8 :=
  ⟨⟨16, 128, 3, 8, 8, 4, 4, 2, ⟨32768, 524288⟩⟩, by decide +kernel, rfl, rfl, rfl, rfl, by decide, by decide⟩

theorem exMap16For (x : Int) : MapFor (shape (exMem 16 x)) exMap16 :=
  ⟨⟨16, 128, 3, 16, 16, 4, 4, 2, ⟨32768, 524288⟩⟩, by decide +kernel, rfl, rfl, rfl, rfl, by decide, by decide⟩

/-- The hypotheses of `c61_any_order`, `c61_same` and `c61_simple_loop`; the gap between columns is unchanged. -/
example (x y : Int) : ∃ m', simpleLoop (pathAvx512 intOps) (exJob .row y) (exMem 16 x) = .ok m' ∧
    m'.dst.elem 9 124 = .ok (entry intOps (exJob .row 0) 9 124) ∧ m'.dst.data.val 10 = 77 := by
  obtain ⟨m', e, hM⟩ := c61_simple_loop .avx512 (exJob_ok 16 (.inr rfl) .row x y) (by show 0 < 10; decide)
    (by show 0 < 125; decide)
  refine ⟨m', e, hM.entries 9 124 (by show 9 < 10; decide) (by show 124 < 125; decide) trivial, ?_⟩
  have := hM.rest 10 (fun i j hij he => by
    have h1 : i < 10 := hij.1
    change 10 = i + j * 12 at he
    omega)
  exact this

/-- Two threads alternating, RHS prepacked, on AVX; simple loop on AVX2; block loop on AVX-512: the hypotheses of `c61_threads`,
`c61_threads_finish`, `c61_block_loop` and `c61_one_result`. -/
example (ch : ChannelDim) (x1 x2 x3 y1 y2 y3 : Int) : ∃ k x a b,
    exec (pathAvx intOps) (exJob ch y1) ⟨false, true⟩ exMap8 2 ((List.range k).map (· % 2)) (exMem 8 x1) = .ok x ∧
      simpleLoop (pathAvx2 intOps) (exJob ch y2) (exMem 8 x2) = .ok a ∧
      blockLoop (pathAvx512 intOps) (exJob ch y3) ⟨true, false⟩ exMap16 (exMem 16 x3) = .ok b ∧
      a.dst = x.mem.dst ∧ b.dst = x.mem.dst := by
  obtain ⟨k, x, e, hf, _⟩ := c61_threads_finish (.avx (o := intOps)) (exJob_ok 8 (.inl rfl) ch x1 y1) (exMap8For x1) ⟨false, true⟩
    (threads := 2) (by decide) (σ := (· % 2)) (fun t ht k => ⟨2 * k + t, by omega, by show (2 * k + t) % 2 = t; omega⟩)
  obtain ⟨a, b, e1, e2, h1, h2⟩ := c61_one_result (.avx (o := intOps)) .avx2 .avx512 (jb := exJob ch y1)
    (jb1 := exJob ch y2) (jb2 := exJob ch y3)
    ⟨rfl, rfl⟩ ⟨rfl, rfl⟩ (exJob_ok 8 (.inl rfl) ch x1 y1) (exJob_ok 8 (.inl rfl) ch x2 y2) (exJob_ok 16 (.inr rfl) ch x3 y3)
    rfl rfl (exMap8For x1) (exMap16For x3) ⟨false, true⟩ ⟨true, false⟩ (by decide) _ e hf
  exact ⟨k, x, a, b, e, e1, e2, h1, h2⟩

/-- The hypotheses of `c61_integers`; the value is 11 before clamping. -/
example {m m' : Mem Int} (hm : m = exMem 8 0) (hM : Multiplied intOps (exJob .row 0) m m') : m'.dst.elem 9 124 = .ok 11 := by
  subst hm
  rw [c61_integers hM intOps_exact (L := fun d => exL.at d 9) (R := fun d => exR.at d 124) (b := 6) (lo := -60) (hi := 90)
    (by decide) (by decide) (fun _ _ => ⟨rfl, trivial⟩) (fun _ _ => ⟨rfl, trivial⟩) rfl ⟨rfl, trivial⟩ ⟨rfl, trivial⟩
    (fun _ _ => trivial) (fun _ _ => trivial)]
  rfl

/-! A NaN. -/

/-- C61: an accumulator that is not less than clamp_max, such as a NaN, is replaced by clamp_max. -/
theorem c61_nan (o : VOps A) (cmin cmax x : A) (h : o.lt x cmax = false) : clamped o cmin cmax x = o.max cmax cmin := by
  unfold clamped VOps.min
  rw [h]
  rfl

/-! Concrete runs. -/

/-- A multiplication with one row and one column and depth 1. -/
def oneJob (x y lo hi : Float.Fl) : Job Float.Fl :=
  ⟨⟨⟨⟨1, 1, 1, .colMajor⟩, ⟨1, fun _ => x⟩, 0⟩, ⟨⟨1, 1, 1, .colMajor⟩, ⟨1, fun _ => y⟩, 0⟩⟩,
    ⟨none, none, .row, 1, lo, hi⟩, fun _ _ _ => .nan 5⟩

def oneMem : Mem Float.Fl :=
  let p : PMat Float.Fl := ⟨⟨1, 8, 1, .colMajor, ⟨.rowMajor, 1, 8⟩⟩, ⟨8, fun _ => .nan 6⟩, none, 0⟩
  ⟨⟨p, p⟩, ⟨⟨1, 1, 1, .colMajor⟩, ⟨1, fun _ => .nan 7⟩, 0⟩⟩

/-- C61: the product NaN * 1 clamped to [-2, 3] is 3 on AVX and NaN in ReferenceMul. -/
theorem c61_nan_reference :
    ∃ m' d', simpleLoop (pathAvx (.unfused Float.x86Env.ops)) (oneJob (.nan 1) (.fin 1) (.fin (-2)) (.fin 3)) oneMem = .ok m' ∧
      Front.referenceMul (Float.floatScalars Float.x86Env.ops (fun _ => false)) (oneJob (.nan 1) (.fin 1) (.fin (-2)) (.fin 3)).src.lhs
        (oneJob (.nan 1) (.fin 1) (.fin (-2)) (.fin 3)).src.rhs oneMem.dst (oneJob (.nan 1) (.fin 1) (.fin (-2)) (.fin 3)).mp = .ok d' ∧
      m'.dst.elem 0 0 = .ok (.fin 3) ∧ d'.elem 0 0 = .ok (.nan 1) :=
  ⟨_, _, rfl, rfl, by decide +kernel, by decide +kernel⟩

/-- Depth 0, 16 columns. -/
def emptyJob : Job Int := ⟨⟨⟨⟨0, 16, 0, .colMajor⟩, ⟨0, fun _ => 0⟩, 0⟩, ⟨⟨0, 16, 0, .colMajor⟩, ⟨0, fun _ => 0⟩, 0⟩⟩,
    ⟨none, none, .row, 1, -100, 100⟩, fun _ _ _ => 0⟩

def emptyMem (kc : Nat) : Mem Int :=
  let p : PMat Int := ⟨⟨0, 16, 0, .colMajor, ⟨.rowMajor, 1, kc⟩⟩, ⟨0, fun _ => 0⟩, none, 0⟩
  ⟨⟨p, p⟩, ⟨⟨16, 16, 16, .colMajor⟩, ⟨256, fun _ => 7⟩, 0⟩⟩

/-- C61: with depth 0 the AVX-512 kernel reads a row of each empty packed matrix for its whole-block loop
(kernel_avx512.cc:957-991), the AVX kernel does not. -/
theorem c61_depth0 : simpleLoop (pathAvx512 intOps) emptyJob (emptyMem 16) = .error .ub ∧
    ∃ m', simpleLoop (pathAvx intOps) emptyJob (emptyMem 8) = .ok m' ∧ m'.dst.elem 15 15 = .ok 0 :=
  ⟨rfl, _, rfl, by decide +kernel⟩

/-- One row, two columns, destination stride `st`. -/
def wideJob : Job Int := ⟨⟨⟨⟨1, 1, 1, .colMajor⟩, ⟨1, fun _ => 3⟩, 0⟩, ⟨⟨1, 2, 1, .colMajor⟩, ⟨2, fun _ => 5⟩, 0⟩⟩,
    ⟨none, none, .row, 1, -100, 100⟩, fun _ _ _ => 0⟩

def wideMem (st : Nat) : Mem Int :=
  let p : PMat Int := ⟨⟨1, 8, 1, .colMajor, ⟨.rowMajor, 1, 8⟩⟩, ⟨8, fun _ => 0⟩, none, 0⟩
  ⟨⟨p, p⟩, ⟨⟨1, 2, st, .colMajor⟩, ⟨st + 1, fun _ => 7⟩, 0⟩⟩

/-- C61: a destination stride of 2^29 is a legal int, but 2^29 * sizeof(float) is not an int32: the second column is stored
at a wrong address (kernel_common.h:229, 272). -/
theorem c61_stride : simpleLoop (pathAvx intOps) wideJob (wideMem (2 ^ 29)) = .error .ub ∧
    ∃ m', simpleLoop (pathAvx intOps) wideJob (wideMem (2 ^ 29 - 1)) = .ok m' ∧ m'.dst.elem 0 1 = .ok 15 :=
  ⟨rfl, _, rfl, by decide +kernel⟩

/-- C61: bias buffers must cover the packed width; CreateTrMulParams sees to that (C29). -/
theorem c61_bias (ch : ChannelDim) :
    simpleLoop (pathAvx intOps) { wideJob with mp := { wideJob.mp with bias := some ⟨7, fun _ => 1⟩, channelDim := ch } } (wideMem 1) =
      .error .ub ∧
    ∃ m', simpleLoop (pathAvx intOps) { wideJob with mp := { wideJob.mp with bias := some ⟨8, fun _ => 1⟩, channelDim := ch } }
      (wideMem 1) = .ok m' ∧ m'.dst.elem 0 1 = .ok 16 := by
  cases ch
  · exact ⟨rfl, _, rfl, by decide +kernel⟩
  · exact ⟨rfl, _, rfl, by decide +kernel⟩

end Ruy.XFloat

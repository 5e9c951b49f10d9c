import Verif.Front.Props
import Verif.TrMul.TopProps
/-
Mul with TrMul's own choice of threads and algorithm: C01, C04, C36, C37.
-/
namespace Ruy.Front
open Ruy.Mat Ruy.Mul Ruy.TrMul Ruy.BlockMap

variable {A : Type}

/-- `d` is a destination that ruy::Mul may end with for the given settings of the context
(ruy.h:36-48, frontend.h:80-95, trmul.cc:309-422); unlike in `Mul`, the number of threads and the
algorithm are those TrMul chooses. -/
def MulTop (st : Settings) (sz : ScalarSizes) (sc : Scalars A) (kern : SidePair KernelLayout)
    (lhs rhs dst : Mul.Mat A) (mp : MulParams A) (d : Mul.Mat A) : Prop :=
  ∃ junk tp m adv d', frontEnd sc kern lhs rhs dst mp junk = .ok (tp, m, adv) ∧
    Ends st sz tp m d' ∧ d = userView dst d'

theorem kernel_of_layout {l : MatLayout} {k : KernelLayout} {p : PMatLayout}
    (h : createPackedLayout l k = .ok p) : p.kernel = k := by
  unfold createPackedLayout at h
  obtain ⟨_, _, h⟩ := C.bind_ok h
  obtain ⟨_, _, h⟩ := C.bind_ok h
  cases h; rfl

theorem Filled.packedFor {sc : Scalars A} {kern : SidePair KernelLayout} {lhs rhs dst : Mul.Mat A}
    {mp : MulParams A} {ch : ChannelDim} {tp : TrMul.Params A} {m : Mem A}
    (h : Filled sc kern lhs rhs dst mp ch tp m) : PackedFor tp m := by
  intro s
  rw [h.src]
  cases s
  · show createPackedLayout lhs.layout m.packed.lhs.layout.kernel = _
    rw [kernel_of_layout h.llay]; exact h.llay
  · show createPackedLayout rhs.layout m.packed.rhs.layout.kernel = _
    rw [kernel_of_layout h.rlay]; exact h.rlay

theorem frontEnd_packedFor {sc : Scalars A} {kern : SidePair KernelLayout} {lhs rhs dst : Mul.Mat A}
    {mp : MulParams A} {junk : Junk A} {tp : TrMul.Params A} {m : Mem A} {adv : Bool}
    (h : frontEnd sc kern lhs rhs dst mp junk = .ok (tp, m, adv)) : PackedFor tp m := by
  have hf := (frontEnd_filled h).1
  unfold UserFilled at hf
  split at hf <;> exact hf.packedFor

/-- Whatever is proved about `Mul` holds for Mul with TrMul's own choices. -/
theorem MulTop.mul {st : Settings} {sz : ScalarSizes} {sc : Scalars A} {kern : SidePair KernelLayout}
    {lhs rhs dst : Mul.Mat A} {mp : MulParams A} {d : Mul.Mat A}
    (h : MulTop st sz sc kern lhs rhs dst mp d) : Mul sc kern lhs rhs dst mp d := by
  obtain ⟨junk, tp, m, adv, d', hf, he, rfl⟩ := h
  exact ⟨junk, tp, m, adv, d', hf, he.outcome (frontEnd_packedFor hf), rfl⟩

/-- C01 with TrMul's own choices: every entry is the documented product. -/
theorem c01_entries_any_settings (st : Settings) (sz : ScalarSizes) (ty packed : SidePair ScalarType)
    (dstTy : ScalarType) (kern : SidePair KernelLayout) (lhs rhs dst d : Mul.Mat Int)
    (mp : MulParams Int) (hs : Shapes kern lhs rhs dst) (hi : IntOk ty packed dstTy lhs rhs mp)
    (h : MulTop st sz (intScalars Arith.int32 ty packed dstTy) kern lhs rhs dst mp d) (i j : Nat)
    (hr : i < dst.layout.rows) (hc : j < dst.layout.cols) :
    d.elem i j = .ok (entrySpec lhs rhs dst mp i j) :=
  c01_entries ty packed dstTy kern lhs rhs dst d mp hs hi h.mul i j hr hc

/-- C04, C37: for any scalar types and any arithmetic (floating point included) the destination
memory after Mul does not depend on max_num_threads, the strategy, the cache sizes, the schedule or
the contents of fresh memory. -/
theorem c04_mul_settings_irrelevant (st st' : Settings) (sz sz' : ScalarSizes) (sc : Scalars A)
    (kern : SidePair KernelLayout) (lhs rhs dst d d' : Mul.Mat A) (mp : MulParams A)
    (hs : Shapes kern lhs rhs dst) (h : MulTop st sz sc kern lhs rhs dst mp d)
    (h' : MulTop st' sz' sc kern lhs rhs dst mp d') : d = d' := by
  obtain ⟨p, r1, _, c1⟩ := mul_computes hs h.mul
  obtain ⟨p', r2, _, c2⟩ := mul_computes hs h'.mul
  unfold RoundedDepth at r1 r2
  rw [r1] at r2
  cases r2
  exact c1.unique c2

/-! ### Totality -/

/-- Bounds under which TrMul finds a plan: `K` bounds the kernels' widths, `S` the scalar sizes. -/
structure PlanOk (st : Settings) (sz : ScalarSizes) (K S rows cols depth : Nat) : Prop where
  threads : 1 ≤ st.maxThreads
  cache : 1 ≤ st.cache.localSize
  src : ∀ s, 1 ≤ sz.src.get s ∧ sz.src.get s ≤ S
  packed : ∀ s, 1 ≤ sz.packed.get s ∧ sz.packed.get s ≤ S
  rows_pos : 1 ≤ rows
  cols_pos : 1 ≤ cols
  depth_pos : 1 ≤ depth
  rows_le : rows + K ≤ 2 ^ 30
  cols_le : cols + K ≤ 2 ^ 30
  area : (rows + K) * (cols + K) ≤ 2 ^ 31
  work : S * (rows + K + (cols + K)) * depth ≤ 2 ^ 31

theorem PlanOk.swap {st : Settings} {sz : ScalarSizes} {K S rows cols depth : Nat}
    (h : PlanOk st sz K S rows cols depth) : PlanOk st sz K S cols rows depth :=
  { h with rows_pos := h.cols_pos, cols_pos := h.rows_pos, rows_le := h.cols_le, cols_le := h.rows_le,
           area := by rw [Nat.mul_comm]; exact h.area
           work := by rw [Nat.add_comm (cols + K)]; exact h.work }

theorem weigh {S a b x y d : Nat} (ha : a ≤ S) (hb : b ≤ S) :
    (a * x + b * y) * d ≤ S * (x + y) * d := by
  rw [Nat.mul_add]
  exact Nat.mul_le_mul_right _ (Nat.add_le_add (Nat.mul_le_mul_right _ ha) (Nat.mul_le_mul_right _ hb))

theorem plan_total {st : Settings} {sz : ScalarSizes} {tp : TrMul.Params A} {m : Mem A} {K S : Nat}
    (hp : PackedFor tp m) (hK : ∀ s, (m.packed.get s).layout.kernel.cols ≤ K)
    (h : PlanOk st sz K S tp.src.lhs.layout.cols tp.src.rhs.layout.cols tp.src.lhs.layout.rows) :
    ∃ p, plan st sz tp m = .ok p := by
  obtain ⟨l1, l2, l3, ⟨kl, l4⟩, l5⟩ := hp.cols .lhs
  obtain ⟨r1, r2, r3, ⟨kr, r4⟩, r5⟩ := hp.cols .rhs
  have lK := hK .lhs
  have rK := hK .rhs
  obtain ⟨sl1, sl2⟩ := h.src .lhs
  obtain ⟨sr1, sr2⟩ := h.src .rhs
  obtain ⟨pl1, pl2⟩ := h.packed .lhs
  obtain ⟨pr1, pr2⟩ := h.packed .rhs
  simp only [SidePair.get_lhs, SidePair.get_rhs] at *
  have hrows := h.rows_pos; have hcols := h.cols_pos; have hdepth := h.depth_pos
  have hr30 := h.rows_le; have hc30 := h.cols_le
  have hmono : ∀ x y, x < tp.src.lhs.layout.cols + K → y < tp.src.rhs.layout.cols + K →
      x * y < 2 ^ 31 ∧ ∀ a b, a ≤ S → b ≤ S → (a * x + b * y) * tp.src.lhs.layout.rows < 2 ^ 31 := by
    intro x y hx hy
    have e : x * y + 1 ≤ 2 ^ 31 := by
      refine Nat.le_trans ?_ h.area
      have : x * y ≤ x * (tp.src.rhs.layout.cols + K) := Nat.mul_le_mul_left _ hy.le
      have : (x + 1) * (tp.src.rhs.layout.cols + K) ≤
        (tp.src.lhs.layout.cols + K) * (tp.src.rhs.layout.cols + K) := Nat.mul_le_mul_right _ hx
      rw [Nat.succ_mul] at this
      omega
    refine ⟨e, fun a b ha hb => ?_⟩
    have e1 := weigh (x := x) (y := y) (d := tp.src.lhs.layout.rows) ha hb
    have e2 : S * (x + y + 1) * tp.src.lhs.layout.rows ≤ 2 ^ 31 := by
      refine Nat.le_trans ?_ h.work
      exact Nat.mul_le_mul_right _ (Nat.mul_le_mul_left _ (by omega))
    have e3 : S * (x + y + 1) * tp.src.lhs.layout.rows =
        S * (x + y) * tp.src.lhs.layout.rows + S * tp.src.lhs.layout.rows := by ring
    have e4 : 0 < S * tp.src.lhs.layout.rows := Nat.mul_pos (by omega) (by omega)
    omega
  have hKpos : 0 < K := by have := Nat.two_pow_pos kl; omega
  obtain ⟨s1, s2⟩ := hmono tp.src.lhs.layout.cols tp.src.rhs.layout.cols (by omega) (by omega)
  obtain ⟨p1, p2⟩ := hmono m.packed.lhs.layout.cols m.packed.rhs.layout.cols (by omega) (by omega)
  have s2' := s2 1 1 (by omega) (by omega)
  rw [Nat.one_mul, Nat.one_mul, Nat.add_mul] at s2'
  -- the number of threads
  obtain ⟨t, ht, ht1⟩ : ∃ t, tentativeThreadCount st tp.src.lhs.layout.cols
      tp.src.rhs.layout.cols tp.src.lhs.layout.rows = .ok t ∧ 1 ≤ t := by
    have hmt := h.threads
    cases hst : st.strategy with
    | forceMaxNumThreads => exact ⟨st.maxThreads, by unfold tentativeThreadCount; rw [hst], hmt⟩
    | default => exact ⟨_, c36_tentative_count st _ _ _ hst (by omega) (by omega) s1, by omega⟩
  unfold plan
  dsimp only
  rw [ht, C.ok_bind]
  obtain ⟨b, hb⟩ : ∃ b, useSimpleLoop t tp.src.lhs.layout.cols tp.src.rhs.layout.cols
      tp.src.lhs.layout.rows sz.src.lhs sz.src.rhs st.cache = .ok b := by
    unfold useSimpleLoop isObviouslyLinearTraversal
    split
    · split
      · exact ⟨_, rfl⟩
      · obtain ⟨o, ho⟩ := getTraversalOrder_of st.cache hdepth (s2 sz.src.lhs sz.src.rhs sl2 sr2)
        rw [ho]
        exact ⟨_, rfl⟩
    · exact ⟨_, rfl⟩
  rw [hb, C.ok_bind]
  cases b with
  | true => exact ⟨_, rfl⟩
  | false =>
    obtain ⟨bm, hbm⟩ := c10_make_block_map_safe_partial (mapArgs st sz tp m t.toNat) ⟨kl, l4⟩ ⟨kr, r4⟩
      (show 1 ≤ m.packed.lhs.layout.cols by omega) (show 1 ≤ m.packed.rhs.layout.cols by omega)
      hdepth l3 r3 pl1 (show 1 ≤ t.toNat by omega) h.cache
      (show m.packed.lhs.layout.cols < 2 ^ 30 by omega) (show m.packed.rhs.layout.cols < 2 ^ 30 by omega)
      p1 (p2 sz.packed.lhs sz.packed.rhs pl2 pr2)
    have htc : 1 ≤ bm.threadCount := by
      obtain ⟨_, _, h1, _⟩ := c36_block_map_threads _ bm hbm (show 1 ≤ t.toNat by omega)
      exact h1
    refine ⟨.blocks bm, ?_⟩
    unfold mapArgs at hbm
    rw [if_neg (by decide), hbm, C.ok_bind, C.check_of htc]
    rfl

/-- C01, C04, totality: within the bounds of `MulOk` and `PlanOk`, Mul with TrMul's own choices
returns, for any settings of threads, strategy and caches. -/
theorem c01_returns_any_settings (st : Settings) (sz : ScalarSizes) (ty packed : SidePair ScalarType)
    (dstTy : ScalarType) (kern : SidePair KernelLayout) (lhs rhs dst : Mul.Mat Int)
    (mp : MulParams Int) (Ml Zl Mr Zr B : Int) (K S : Nat)
    (h : MulOk ty packed dstTy kern lhs rhs dst mp Ml Zl Mr Zr B)
    (hK : ∀ s, (kern.get s).cols ≤ K)
    (hp : PlanOk st sz K S lhs.layout.rows rhs.layout.cols lhs.layout.cols) :
    ∃ d, MulTop st sz (intScalars Arith.int32 ty packed dstTy) kern lhs rhs dst mp d := by
  obtain ⟨tp, m, adv, hf, hr, hs⟩ := frontEnd_total h
    ⟨⟨fun _ => 0, fun _ => 0⟩, ⟨fun _ => 0, fun _ => 0⟩⟩
  have hpk := frontEnd_packedFor hf
  obtain ⟨p, hplan⟩ : ∃ p, plan st sz tp m = .ok p := by
    have hfl := (frontEnd_filled hf).1
    unfold UserFilled at hfl
    split at hfl
    · refine plan_total (K := K) (S := S) hpk (fun s => ?_) ?_
      · cases s
        · show m.packed.lhs.layout.kernel.cols ≤ K
          rw [kernel_of_layout hfl.llay]; exact hK .lhs
        · show m.packed.rhs.layout.kernel.cols ≤ K
          rw [kernel_of_layout hfl.rlay]; exact hK .rhs
      · rw [hfl.src]; exact hp
    · refine plan_total (K := K) (S := S) hpk (fun s => ?_) ?_
      · cases s
        · show m.packed.lhs.layout.kernel.cols ≤ K
          rw [kernel_of_layout hfl.llay]; exact hK .lhs
        · show m.packed.rhs.layout.kernel.cols ≤ K
          rw [kernel_of_layout hfl.rlay]; exact hK .rhs
      · rw [hfl.src]
        show PlanOk st sz K S rhs.layout.cols lhs.layout.rows rhs.layout.rows
        rw [← h.shapes.depth]
        exact hp.swap
  obtain ⟨d, hd⟩ := c04_plan_ends st sz tp m p hr hs hpk hplan
  exact ⟨_, _, tp, m, adv, d, hf, hd, rfl⟩

/-- Four threads are forced. -/
def demoSettings : Settings := ⟨.forceMaxNumThreads, 4, ⟨32768, 524288⟩⟩

theorem demo_planOk : PlanOk demoSettings sz1 4 1 2 2 3 where
  threads := by decide
  cache := by decide
  src s := by cases s <;> decide
  packed s := by cases s <;> decide
  rows_pos := by decide
  cols_pos := by decide
  depth_pos := by decide
  rows_le := by decide
  cols_le := by decide
  area := by decide
  work := by decide

-- The hypotheses hold for the 2 × 3 by 3 × 2 product of Verif/Front/Props.lean.
example : ∃ d, MulTop demoSettings sz1 demoSc k44 demoLhs demoRhs demoDst demoMp d ∧
    d.elem 1 0 = .ok (entrySpec demoLhs demoRhs demoDst demoMp 1 0) := by
  obtain ⟨d, h⟩ := c01_returns_any_settings demoSettings sz1 _ _ _ _ _ _ _ _ _ _ _ _ _ 4 1 demo_mulOk
    (fun s => by cases s <;> decide) demo_planOk
  exact ⟨d, h, c01_entries_any_settings _ _ _ _ _ _ _ _ _ _ _ demo_shapes demo_intOk h 1 0 (by decide)
    (by decide)⟩

end Ruy.Front

import Verif.TrMul.TopModel
import Mathlib.Tactic.Linarith
/-
Properties of the function TrMul: C36 (threads), C37 (the shortcut), and C04 for whatever TrMul
decides.
-/
namespace Ruy.TrMul
open Ruy.Mat Ruy.Mul Ruy.BlockMap

variable {A : Type}

/-- The arguments of MakeBlockMap in TrMul for `t` threads (trmul.cc:361-369). -/
def mapArgs (st : Settings) (sz : ScalarSizes) (tp : Params A) (m : Mem A) (t : Nat) : Args :=
  ⟨m.packed.lhs.layout.cols, m.packed.rhs.layout.cols, tp.src.lhs.layout.rows,
    m.packed.lhs.layout.kernel.cols, m.packed.rhs.layout.kernel.cols, sz.packed.lhs, sz.packed.rhs,
    t, st.cache⟩

/-- The packed matrices have the layouts that create_trmul_params.h:42-52 gives them. -/
def PackedFor (tp : Params A) (m : Mem A) : Prop :=
  ∀ s, createPackedLayout (tp.src.get s).layout (m.packed.get s).layout.kernel =
    .ok (m.packed.get s).layout

theorem PackedFor.cols {tp : Params A} {m : Mem A} (h : PackedFor tp m) (s : Side) :
    (tp.src.get s).layout.cols ≤ (m.packed.get s).layout.cols ∧
    (m.packed.get s).layout.cols < (tp.src.get s).layout.cols + (m.packed.get s).layout.kernel.cols ∧
    (m.packed.get s).layout.kernel.cols ∣ (m.packed.get s).layout.cols ∧
    (∃ k, (m.packed.get s).layout.kernel.cols = 2 ^ k) ∧ (m.packed.get s).layout.cols < 2 ^ 31 := by
  have h := h s
  unfold createPackedLayout at h
  obtain ⟨r, _, h⟩ := C.bind_ok h
  obtain ⟨c, hc, h⟩ := C.bind_ok h
  have e : (m.packed.get s).layout.cols = c := by
    have := Except.ok.inj h
    rw [← this]
  obtain ⟨h1, h2, h3, h4, h5⟩ := nRoundUpPot_ge hc
  rw [e]
  exact ⟨h2, h3, h4, h1, by omega⟩

theorem plan_ok {st : Settings} {sz : ScalarSizes} {tp : Params A} {m : Mem A} {p : Plan}
    (h : plan st sz tp m = .ok p) :
    ∃ t b, tentativeThreadCount st tp.src.lhs.layout.cols tp.src.rhs.layout.cols
        tp.src.lhs.layout.rows = .ok t ∧
      useSimpleLoop t tp.src.lhs.layout.cols tp.src.rhs.layout.cols tp.src.lhs.layout.rows
        sz.src.lhs sz.src.rhs st.cache = .ok b ∧
      ((b = true ∧ p = .simple) ∨ (b = false ∧ ∃ bm, makeBlockMap (mapArgs st sz tp m t.toNat) = .ok bm ∧
        1 ≤ bm.threadCount ∧ p = .blocks bm)) := by
  unfold plan at h
  obtain ⟨t, ht, h⟩ := C.bind_ok h
  obtain ⟨b, hb, h⟩ := C.bind_ok h
  refine ⟨t, b, ht, hb, ?_⟩
  cases b with
  | true => cases h; exact .inl ⟨rfl, rfl⟩
  | false =>
    rw [if_neg (by decide)] at h
    obtain ⟨bm, hbm, h⟩ := C.bind_ok h
    obtain ⟨_, hc, h⟩ := C.bind_ok h
    cases h
    exact .inr ⟨rfl, bm, hbm, C.check_ok hc, rfl⟩

/-! ### C04 -/

/-- Whatever TrMul decides to do, its result is one of `Outcome`. -/
theorem Ends.outcome {st : Settings} {sz : ScalarSizes} {tp : Params A} {m : Mem A} {d : Mul.Mat A}
    (hp : PackedFor tp m) (h : Ends st sz tp m d) : Outcome tp m d := by
  have hl : m.packed.lhs.layout.cols < 2 ^ 31 := (hp.cols .lhs).2.2.2.2
  have hr : m.packed.rhs.layout.cols < 2 ^ 31 := (hp.cols .rhs).2.2.2.2
  have mapFor : ∀ bm, plan st sz tp m = .ok (.blocks bm) → MapFor m bm ∧ 1 ≤ bm.threadCount := by
    intro bm hp
    obtain ⟨t, b, _, _, hb⟩ := plan_ok hp
    rcases hb with ⟨_, hb⟩ | ⟨_, bm', hm, h1, hb⟩ <;> cases hb
    exact ⟨⟨_, hm, rfl, rfl, rfl, rfl, hl, hr⟩, h1⟩
  cases h with
  | simple m' _ h hd => exact .simple m' h hd
  | one bm m' hp _ h hd => exact .blocks bm m' (mapFor bm hp).1 h hd
  | many bm sched s hp _ h hf hd =>
    exact .threads bm bm.threadCount sched s (mapFor bm hp).1 (mapFor bm hp).2 h hf hd

/-- C04, C37: the destination after TrMul does not depend on the maximum number of threads, the
strategy, the cache sizes or the schedule. -/
theorem c04_settings_irrelevant (st st' : Settings) (sz sz' : ScalarSizes) (tp : Params A) (m : Mem A)
    (d d' : Mul.Mat A) (hr : Ready tp m) (hp : PackedFor tp m) (h : Ends st sz tp m d)
    (h' : Ends st' sz' tp m d') : d = d' :=
  c04_one_result tp m d d' hr (h.outcome hp) (h'.outcome hp)

theorem run_append (cfg : Cfg A) (l l' : List Nat) (s : State A) :
    run cfg (l ++ l') s = run cfg l s >>= run cfg l' := by
  induction l generalizing s with
  | nil => rfl
  | cons t ts ih =>
    show (step cfg s t >>= fun s' => run cfg (ts ++ l') s') =
      ((step cfg s t >>= fun s' => run cfg ts s') >>= run cfg l')
    cases step cfg s t with
    | error e => rfl
    | ok s' => exact ih s'

/-- Some schedule finishes. -/
theorem can_finish {tp : Params A} {m : Mem A} {bm : BlockMap} {threads : Nat} (hr : Ready tp m)
    (hs : Safe tp m) (hm : MapFor m bm) (ht : 0 < threads) :
    ∃ sched s, run ⟨tp, bm, threads⟩ sched (initState ⟨tp, bm, threads⟩ m) = .ok s ∧
      Finished ⟨tp, bm, threads⟩ s := by
  obtain ⟨ex, hex⟩ := c07_executions_exist tp m bm threads (fun k => k % threads) hr hs hm
  obtain ⟨k, hk⟩ := c07_fair_executions_finish tp m bm threads _ ex hr hm hex (by
    intro t ht' k
    refine ⟨threads * k + t, ?_, ?_⟩
    · have : 1 * k ≤ threads * k := Nat.mul_le_mul_right _ ht
      omega
    · show (threads * k + t) % threads = t
      rw [Nat.mul_add_mod, Nat.mod_eq_of_lt ht'])
  refine ⟨(List.range k).map (fun k => k % threads), ex k, ?_, hk⟩
  clear hk
  induction k with
  | zero => rw [hex.start]; rfl
  | succ k ih =>
    rw [List.range_succ, List.map_append, run_append, ih, C.ok_bind]
    show (step _ (ex k) (k % threads) >>= fun s' => run _ [] s') = _
    rw [hex.next k, C.ok_bind]
    rfl

/-- TrMul ends, with some result, if it finds a plan: in particular `Ends` is not empty. -/
theorem c04_plan_ends (st : Settings) (sz : ScalarSizes) (tp : Params A) (m : Mem A) (p : Plan)
    (hr : Ready tp m) (hs : Safe tp m) (hp : PackedFor tp m) (h : plan st sz tp m = .ok p) :
    ∃ d, Ends st sz tp m d := by
  obtain ⟨t, b, _, _, hb⟩ := plan_ok h
  rcases hb with ⟨_, rfl⟩ | ⟨_, bm, hm, hc, rfl⟩
  · obtain ⟨m', hm'⟩ := simpleLoop_total hr hs
    exact ⟨_, .simple m' h hm' rfl⟩
  · have hmap : MapFor m bm := ⟨_, hm, rfl, rfl, rfl, rfl, (hp.cols .lhs).2.2.2.2, (hp.cols .rhs).2.2.2.2⟩
    by_cases h1 : bm.threadCount = 1
    · obtain ⟨_, ⟨m', hm'⟩, _⟩ := c04_no_fault tp m bm hr hs hmap
      exact ⟨_, .one bm m' h h1 hm' rfl⟩
    · obtain ⟨sched, s, hrun, hf⟩ := can_finish hr hs hmap hc
      exact ⟨_, .many bm sched s h h1 hrun hf rfl⟩

/-! ### C36 -/

/-- The number of threads a plan uses. -/
def Plan.threads : Plan → Nat
  | .simple => 1
  | .blocks bm => bm.threadCount

theorem tentative_le {st : Settings} {r c d : Nat} {t : Int}
    (h : tentativeThreadCount st r c d = .ok t) : t ≤ st.maxThreads := by
  unfold tentativeThreadCount at h
  cases hs : st.strategy with
  | forceMaxNumThreads => rw [hs] at h; cases h; exact Int.le_refl _
  | default =>
    rw [hs] at h
    obtain ⟨rc, _, h⟩ := C.bind_ok h
    obtain ⟨n, _, h⟩ := C.bind_ok h
    cases h
    exact Int.min_le_right _ _

theorem useSimpleLoop_true {t : Int} {r c d ls rs : Nat} {cp : CacheParams}
    (h : useSimpleLoop t r c d ls rs cp = .ok true) :
    t = 1 ∧ isObviouslyLinearTraversal r c d ls rs cp = .ok true := by
  unfold useSimpleLoop at h
  split at h
  · exact ⟨by assumption, h⟩
  · cases h

/-- C36: TrMul uses at least one thread, at most max_num_threads, at most the number of blocks. -/
theorem c36_thread_count (st : Settings) (sz : ScalarSizes) (tp : Params A) (m : Mem A) (p : Plan)
    (h : plan st sz tp m = .ok p) :
    1 ≤ p.threads ∧ (p.threads : Int) ≤ st.maxThreads ∧
      ∀ bm, p = .blocks bm → ∃ n, numBlocks bm = .ok n ∧ p.threads ≤ n := by
  obtain ⟨t, b, ht, hb, hp⟩ := plan_ok h
  have hle := tentative_le ht
  rcases hp with ⟨rfl, rfl⟩ | ⟨_, bm, hm, h1, rfl⟩
  · obtain ⟨rfl, _⟩ := useSimpleLoop_true hb
    exact ⟨Nat.le_refl _, hle, fun bm h => by cases h⟩
  · obtain ⟨_, _, _, _, hN, hth, _⟩ := makeBlockMap_ok hm
    have hth' : bm.threadCount ≤ t.toNat := by rw [hth]; exact Nat.min_le_left _ _
    have h30 : 2 ^ (2 * bm.baseLog2 + bm.rectLog2.lhs + bm.rectLog2.rhs) ≤ 2 ^ 30 :=
      Nat.pow_le_pow_right (by omega) hN
    refine ⟨h1, ?_, fun bm' hbm => ?_⟩
    · show (bm.threadCount : Int) ≤ _
      omega
    · cases hbm
      refine ⟨_, C.int_of (by omega), ?_⟩
      show bm.threadCount ≤ _
      rw [hth]; exact Nat.min_le_right _ _

/-- C36: with the default strategy a problem of fewer than 2^16 multiplications runs on one
thread. -/
theorem c36_small_problem (st : Settings) (sz : ScalarSizes) (tp : Params A) (m : Mem A) (p : Plan)
    (hst : st.strategy = .default)
    (hsmall : tp.src.lhs.layout.cols * tp.src.rhs.layout.cols * tp.src.lhs.layout.rows < 2 ^ 16)
    (h : plan st sz tp m = .ok p) : p.threads = 1 := by
  have h1 := (c36_thread_count st sz tp m p h).1
  obtain ⟨t, b, ht, hb, hp⟩ := plan_ok h
  unfold tentativeThreadCount at ht
  rw [hst] at ht
  obtain ⟨rc, h2, ht⟩ := C.bind_ok ht
  obtain ⟨n, h3, ht⟩ := C.bind_ok ht
  cases ht
  obtain ⟨rfl, _⟩ := C.i64_ok h2
  obtain ⟨rfl, _⟩ := C.i64_ok h3
  rcases hp with ⟨rfl, rfl⟩ | ⟨_, bm, hm, _, rfl⟩
  · rfl
  · obtain ⟨_, _, _, _, _, hth, _⟩ := makeBlockMap_ok hm
    have hle : bm.threadCount ≤ _ := hth.trans_le (Nat.min_le_left _ _)
    have hle : bm.threadCount ≤ (min (max ((tp.src.lhs.layout.cols : Int) * tp.src.rhs.layout.cols *
      tp.src.lhs.layout.rows / 32768) 1) st.maxThreads).toNat := hle
    have hn : ((tp.src.lhs.layout.cols : Int) * tp.src.rhs.layout.cols * tp.src.lhs.layout.rows) <
        2 ^ 16 := by exact_mod_cast hsmall
    have h1 : 1 ≤ bm.threadCount := h1
    show bm.threadCount = 1
    generalize ((tp.src.lhs.layout.cols : Int) * tp.src.rhs.layout.cols * tp.src.lhs.layout.rows) = z at *
    omega

/-- C36: the size computation of the default strategy does not overflow if each of the three
matrices has fewer than 2^31 entries; the count is the number of 2^15-multiplication portions,
raised to at least one and then cut to max_num_threads. -/
theorem c36_tentative_count (st : Settings) (rows cols depth : Nat) (hst : st.strategy = .default)
    (h1 : rows * depth < 2 ^ 31) (h2 : cols * depth < 2 ^ 31) (h3 : rows * cols < 2 ^ 31) :
    tentativeThreadCount st rows cols depth =
      .ok (min (max ((rows * cols * depth / 2 ^ 15 : Nat) : Int) 1) st.maxThreads) := by
  have hb : rows * cols * depth < 2 ^ 63 := by
    have e : (rows * cols * depth) * (rows * cols * depth) =
        (rows * depth) * (cols * depth) * (rows * cols) := by ring
    have a : (rows * depth) * (cols * depth) ≤ 2 ^ 31 * 2 ^ 31 := Nat.mul_le_mul (by omega) (by omega)
    have b : (rows * depth) * (cols * depth) * (rows * cols) ≤ 2 ^ 31 * 2 ^ 31 * 2 ^ 31 :=
      Nat.mul_le_mul a (by omega)
    rw [← e] at b
    by_contra hc
    have : 2 ^ 63 * 2 ^ 63 ≤ (rows * cols * depth) * (rows * cols * depth) :=
      Nat.mul_le_mul (by omega) (by omega)
    omega
  unfold tentativeThreadCount
  rw [hst]
  dsimp only
  have e1 : (rows : Int) * cols = ((rows * cols : Nat) : Int) := by push_cast; rfl
  have e2 : ((rows * cols : Nat) : Int) * depth = ((rows * cols * depth : Nat) : Int) := by
    push_cast; rfl
  rw [e1, C.i64_of (by omega) (by omega), C.ok_bind, e2, C.i64_of (by omega) (by omega), C.ok_bind]
  congr 2

/-- C36: a max_num_threads that is not positive is rejected: TrMul finds no plan. -/
theorem c36_no_threads_rejected (st : Settings) (sz : ScalarSizes) (tp : Params A) (m : Mem A)
    (hst : st.maxThreads ≤ 0) (p : Plan) : plan st sz tp m ≠ .ok p := by
  intro h
  have := c36_thread_count st sz tp m p h
  omega

/-! ### C37 -/

/-- Linear traversal: the squares one after the other, each column by column. -/
def LinearTraversal (bm : BlockMap) : Prop :=
  ∀ n i, numBlocks bm = .ok n → i < n → ∃ l r, getBlockByIndex bm i = .ok ⟨l, r⟩ ∧
    let side := 2 ^ bm.baseLog2
    let q := i % (side * side)
    let square := i / (side * side)
    l % side = q % side ∧ r % side = q / side ∧
    l / side = square % 2 ^ bm.rectLog2.lhs ∧ r / side = square % 2 ^ bm.rectLog2.rhs

/-- Base-curve lemma: the linear order and a square of one block are traversed linearly. -/
theorem linear_of {a : Args} {bm : BlockMap} (h : makeBlockMap a = .ok bm)
    (ho : bm.order = .linear ∨ bm.baseLog2 = 0) : LinearTraversal bm := by
  obtain ⟨_, _, _, _, hN, _, _⟩ := makeBlockMap_ok h
  intro n i hn hi
  obtain ⟨rfl, _⟩ := C.int_ok hn
  refine ⟨_, _, getBlockByIndex_eq bm i hN hi, ?_⟩
  dsimp only
  have hs := Nat.two_pow_pos bm.baseLog2
  have hq : i % (2 ^ bm.baseLog2 * 2 ^ bm.baseLog2) < 2 ^ bm.baseLog2 * 2 ^ bm.baseLog2 :=
    Nat.mod_lt _ (Nat.mul_pos hs hs)
  have hd : decodePair bm.order bm.baseLog2 (i % 4 ^ bm.baseLog2) =
      (i % (2 ^ bm.baseLog2 * 2 ^ bm.baseLog2) % 2 ^ bm.baseLog2,
       i % (2 ^ bm.baseLog2 * 2 ^ bm.baseLog2) / 2 ^ bm.baseLog2) := by
    rw [← four_pow]
    rcases ho with ho | ho
    · rw [ho]; rfl
    · have := (decodePair_bij bm.order bm.baseLog2 (by omega)).range (i % 4 ^ bm.baseLog2)
        (Nat.mod_lt _ (Nat.pow_pos (by omega)))
      rw [ho] at this ⊢
      obtain ⟨a1, a2⟩ := this
      simp only [Nat.pow_zero, Nat.lt_one_iff] at a1 a2
      refine Prod.ext ?_ ?_
      · simp only [Nat.pow_zero]; rw [a1]; omega
      · simp only [Nat.pow_zero]; rw [a2]; omega
  have q2 : i % (2 ^ bm.baseLog2 * 2 ^ bm.baseLog2) / 2 ^ bm.baseLog2 < 2 ^ bm.baseLog2 :=
    Nat.div_lt_of_lt_mul hq
  have q1 : i % (2 ^ bm.baseLog2 * 2 ^ bm.baseLog2) % 2 ^ bm.baseLog2 < 2 ^ bm.baseLog2 :=
    Nat.mod_lt _ hs
  unfold blockOf
  rw [hd, four_pow]
  dsimp only
  refine ⟨?_, ?_, ?_, ?_⟩
  · rw [Nat.add_mul_mod_self_right, Nat.mod_eq_of_lt q1]
  · rw [Nat.add_mul_mod_self_right, Nat.mod_eq_of_lt q2]
  · rw [Nat.add_mul_div_right _ _ hs, Nat.div_eq_of_lt q1, Nat.zero_add]
  · rw [Nat.add_mul_div_right _ _ hs, Nat.div_eq_of_lt q2, Nat.zero_add]

/-- If one dimension is no larger than its kernel, the base of the block map is a single block. -/
theorem base_zero {a : Args} {bm : BlockMap} (h : makeBlockMap a = .ok bm)
    (ho : a.rows ≤ a.kernelRows ∨ a.cols ≤ a.kernelCols) : bm.baseLog2 = 0 := by
  unfold makeBlockMap at h
  obtain ⟨_, h1, h⟩ := C.bind_ok h
  obtain ⟨_, h2, h⟩ := C.bind_ok h
  obtain ⟨_, h3, h⟩ := C.bind_ok h
  obtain ⟨_, h4, h⟩ := C.bind_ok h
  obtain ⟨_, h5, h⟩ := C.bind_ok h
  obtain ⟨_, h6, h⟩ := C.bind_ok h
  obtain ⟨⟨rr, cr⟩, h7, h⟩ := C.bind_ok h
  obtain ⟨kr, h8, h⟩ := C.bind_ok h
  obtain ⟨kc, h9, h⟩ := C.bind_ok h
  obtain ⟨fl, h10, h⟩ := C.bind_ok h
  obtain ⟨best, h11, h⟩ := C.bind_ok h
  obtain ⟨_, h12, h⟩ := C.bind_ok h
  obtain ⟨_, h13, h⟩ := C.bind_ok h
  obtain ⟨⟨sr, lr⟩, h14, h⟩ := C.bind_ok h
  obtain ⟨⟨sc, lc⟩, h15, h⟩ := C.bind_ok h
  obtain ⟨o, h16, h⟩ := C.bind_ok h
  obtain ⟨nb, h17, h⟩ := C.bind_ok h
  cases h
  have hkr := nPotLog2_ok h8
  have hkc := nPotLog2_ok h9
  obtain ⟨h10a, rfl⟩ := nFloorLog2_ok h10
  have hmin : min a.rows a.cols ≤ 2 ^ max kc kr := by
    have e1 : 2 ^ kr ≤ 2 ^ max kc kr := Nat.pow_le_pow_right (by omega) (by omega)
    have e2 : 2 ^ kc ≤ 2 ^ max kc kr := Nat.pow_le_pow_right (by omega) (by omega)
    rw [← hkr] at e1
    rw [← hkc] at e2
    omega
  have hlog : (min a.rows a.cols).log2 ≤ max kc kr := by
    have := log2_mono hmin (by omega)
    rwa [Nat.log2_two_pow] at this
  have e : max (max kc kr) (min a.rows a.cols).log2 = max kc kr := by omega
  rw [e, show min (max kc kr) (max kc kr + 6) + 1 - max kc kr = 1 by omega] at h11
  obtain ⟨c, hc, hb⟩ := bestLoop_first [] _ _ h11
  simp only [List.mem_cons, List.not_mem_nil, or_false] at hc
  show ((max (max kc kr) (min a.rows a.cols).log2 : Nat) - best.2).toNat = 0
  rw [e, hb, hc]
  omega

theorem obviouslyLinear_ok {r c d ls rs : Nat} {cp : CacheParams}
    (h : isObviouslyLinearTraversal r c d ls rs cp = .ok true) :
    (r = 1 ∨ c = 1) ∨ (ls * r + rs * c) * d ≤ cp.localSize := by
  unfold isObviouslyLinearTraversal at h
  split at h
  · exact .inl (by assumption)
  · right
    obtain ⟨o, ho, h⟩ := C.bind_ok h
    cases h' : o <;> rw [h'] at h <;> first | cases h | skip
    subst h'
    unfold getTraversalOrder at ho
    obtain ⟨_, h1, ho⟩ := C.bind_ok ho
    obtain ⟨_, h2, ho⟩ := C.bind_ok ho
    obtain ⟨_, h3, ho⟩ := C.bind_ok ho
    obtain ⟨_, h4, ho⟩ := C.bind_ok ho
    obtain ⟨rfl, _⟩ := C.int_ok h1
    obtain ⟨rfl, _⟩ := C.int_ok h2
    obtain ⟨rfl, _⟩ := C.int_ok h3
    obtain ⟨rfl, _⟩ := C.int_ok h4
    split at ho
    · split at ho <;> cases ho
    · omega

theorem order_linear {a : Args} {bm : BlockMap} (h : makeBlockMap a = .ok bm)
    (hw : (a.lhsSize * a.rows + a.rhsSize * a.cols) * a.depth ≤ a.cache.localSize) :
    bm.order = .linear := by
  obtain ⟨_, _, _, _, _, _, ho⟩ := makeBlockMap_ok h
  unfold getTraversalOrder at ho
  obtain ⟨_, h1, ho⟩ := C.bind_ok ho
  obtain ⟨_, h2, ho⟩ := C.bind_ok ho
  obtain ⟨_, h3, ho⟩ := C.bind_ok ho
  obtain ⟨_, h4, ho⟩ := C.bind_ok ho
  obtain ⟨rfl, _⟩ := C.int_ok h1
  obtain ⟨rfl, _⟩ := C.int_ok h2
  obtain ⟨rfl, _⟩ := C.int_ok h3
  obtain ⟨rfl, _⟩ := C.int_ok h4
  have e1 := Nat.mul_le_mul_left a.lhsSize (Nat.div_le_self a.rows (2 ^ bm.rectLog2.lhs))
  have e2 := Nat.mul_le_mul_left a.rhsSize (Nat.div_le_self a.cols (2 ^ bm.rectLog2.rhs))
  have e3 := Nat.mul_le_mul_right a.depth (Nat.add_le_add e1 e2)
  rw [if_neg (by omega)] at ho
  exact (Except.ok.inj ho).symm

/-- C37, second half, for IsObviouslyLinearTraversal itself: if it answers "yes" for some
dimensions, then the map that MakeBlockMap makes for the same dimensions is traversed linearly. -/
theorem c37_obviously_linear (a : Args) (bm : BlockMap) (h : makeBlockMap a = .ok bm)
    (ho : isObviouslyLinearTraversal a.rows a.cols a.depth a.lhsSize a.rhsSize a.cache = .ok true) :
    LinearTraversal bm := by
  have kpos : 1 ≤ a.kernelRows ∧ 1 ≤ a.kernelCols := by
    obtain ⟨hs, _, hk, _⟩ := makeBlockMap_ok h
    obtain ⟨p, hp⟩ := (hs .lhs).pot
    obtain ⟨q, hq⟩ := (hs .rhs).pot
    rw [hk] at hp hq
    have hp : a.kernelRows = 2 ^ p := hp
    have hq : a.kernelCols = 2 ^ q := hq
    have := Nat.two_pow_pos p
    have := Nat.two_pow_pos q
    omega
  refine linear_of h ?_
  rcases obviouslyLinear_ok ho with ho | ho
  · exact .inr (base_zero h (by omega))
  · exact .inl (order_linear h ho)

/-- C37, second half (partial): when TrMul takes the shortcut, the block map it would have made is
traversed linearly, provided that a dimension is 1 or packing does not enlarge the operands.
Missing: TrMul asks IsObviouslyLinearTraversal about the source matrices but makes the block map for
the packed ones; if packing enlarges them the claim fails, see `c37_shortcut_not_linear`. -/
theorem c37_shortcut_linear_partial (st : Settings) (sz : ScalarSizes) (tp : Params A) (m : Mem A)
    (bm : BlockMap) (hp : PackedFor tp m) (h : plan st sz tp m = .ok .simple)
    (hm : makeBlockMap (mapArgs st sz tp m 1) = .ok bm)
    (hsize : (tp.src.lhs.layout.cols = 1 ∨ tp.src.rhs.layout.cols = 1) ∨
      sz.packed.lhs * m.packed.lhs.layout.cols + sz.packed.rhs * m.packed.rhs.layout.cols ≤
        sz.src.lhs * tp.src.lhs.layout.cols + sz.src.rhs * tp.src.rhs.layout.cols) :
    LinearTraversal bm := by
  obtain ⟨t, b, _, hb, hc⟩ := plan_ok h
  rcases hc with ⟨rfl, _⟩ | ⟨_, _, _, _, hc⟩
  · obtain ⟨_, ho⟩ := useSimpleLoop_true hb
    have narrow : ∀ s, (tp.src.get s).layout.cols = 1 →
        (m.packed.get s).layout.cols ≤ (m.packed.get s).layout.kernel.cols := by
      intro s h1
      have := hp.cols s
      omega
    have one : (tp.src.lhs.layout.cols = 1 ∨ tp.src.rhs.layout.cols = 1) → LinearTraversal bm := by
      intro h1
      refine linear_of hm (.inr (base_zero hm ?_))
      rcases h1 with h1 | h1
      · exact .inl (narrow .lhs h1)
      · exact .inr (narrow .rhs h1)
    rcases obviouslyLinear_ok ho with ho | ho
    · exact one ho
    · rcases hsize with h1 | hsize
      · exact one h1
      · exact linear_of hm (.inl (order_linear hm
          ((Nat.mul_le_mul_right tp.src.lhs.layout.rows hsize).trans ho)))
  · cases hc

/-! ### C37: the shortcut is taken although the block map would not be traversed linearly -/

/-- int8 matrices, 32 KiB of local cache, one thread. -/
def st32k : Settings := ⟨.default, 1, ⟨32768, 524288⟩⟩
def sz1 : ScalarSizes := ⟨⟨1, 1⟩, ⟨1, 1⟩⟩
/-- An 8-column kernel (as on AVX2, kernel_x86.h). -/
def k48 : KernelLayout := ⟨.colMajor, 4, 8⟩

/-- A 257 × 63 by 63 × 257 product. -/
def tp257 : Params Int where
  ar := .int32
  mp := ⟨none, .row, fun _ x => .ok x, -1000, 1000, fun x => x⟩
  src := ⟨⟨⟨63, 257, 63, .colMajor⟩, ⟨63 * 257, fun _ => 1⟩, 0⟩,
    ⟨⟨63, 257, 63, .colMajor⟩, ⟨63 * 257, fun _ => 1⟩, 0⟩⟩
  pack := ⟨fun x => x, fun x => x⟩
  isPrepacked := ⟨false, false⟩

def mem257 : Mem Int where
  packed := ⟨⟨⟨64, 264, 64, .colMajor, k48⟩, ⟨64 * 264, fun _ => 0⟩, some ⟨264, fun _ => 0⟩, 0⟩,
    ⟨⟨64, 264, 64, .colMajor, k48⟩, ⟨64 * 264, fun _ => 0⟩, some ⟨264, fun _ => 0⟩, 0⟩⟩
  dst := ⟨⟨257, 257, 257, .colMajor⟩, ⟨257 * 257, fun _ => 0⟩, 0⟩

theorem packedFor257 : PackedFor tp257 mem257 := by
  intro s
  cases s <;> decide +kernel

/-- The block map for it. -/
def map257 : BlockMap := ⟨1, .fractalU, ⟨264, 264⟩, 1, ⟨0, 0⟩, ⟨8, 8⟩, ⟨128, 128⟩, ⟨1, 1⟩⟩

/-- C37, second half, fails as stated: a 257 × 63 by 63 × 257 int8 product with 8-column kernels fits
in 32 KiB before rounding up to 264 columns but not after.  TrMul takes the shortcut; the block map
would have been traversed along a fractal curve. -/
theorem c37_shortcut_not_linear :
    PackedFor tp257 mem257 ∧ plan st32k sz1 tp257 mem257 = .ok .simple ∧
    makeBlockMap (mapArgs st32k sz1 tp257 mem257 1) = .ok map257 ∧ ¬ LinearTraversal map257 := by
  refine ⟨packedFor257, by decide +kernel, by decide +kernel, fun h => ?_⟩
  obtain ⟨l, r, h1, h2, h3, _⟩ := h 4 2 (by decide) (by decide)
  have e : getBlockByIndex map257 2 = .ok ⟨1, 1⟩ := by decide +kernel
  rw [e] at h1
  cases h1
  revert h2
  decide

/-! ### Concrete instances of the hypotheses -/

def st4 : Settings := ⟨.forceMaxNumThreads, 4, ⟨32768, 524288⟩⟩

theorem packedForDemo : PackedFor demoTp demoMem := by
  intro s
  cases s <;> decide +kernel

-- Four threads are allowed and four blocks exist.
example : ∃ bm, plan st4 sz1 demoTp demoMem = .ok (.blocks bm) ∧ bm.threadCount = 4 := by
  refine ⟨demoMap, by decide +kernel, rfl⟩
-- With the default strategy the same problem is small: one thread, simple loop.
example : plan { st4 with strategy := .default } sz1 demoTp demoMem = .ok .simple := by decide +kernel
-- The same result either way.
example : ∃ d, Ends st4 sz1 demoTp demoMem d ∧
    Ends { st4 with strategy := .default } sz1 demoTp demoMem d := by
  obtain ⟨d, h⟩ := c04_plan_ends st4 sz1 demoTp demoMem (.blocks demoMap) demo_ready demo_safe packedForDemo
    (by decide +kernel)
  obtain ⟨d', h'⟩ := c04_plan_ends { st4 with strategy := .default } sz1 demoTp demoMem .simple demo_ready
    demo_safe packedForDemo (by decide +kernel)
  refine ⟨d, h, ?_⟩
  rw [c04_settings_irrelevant st4 _ sz1 sz1 demoTp demoMem d d' demo_ready packedForDemo h h']
  exact h'
-- c36_tentative_count: 1024 × 1024 × 1024.
example : tentativeThreadCount ⟨.default, 100000, ⟨32768, 524288⟩⟩ 1024 1024 1024 = .ok 32768 := by
  decide +kernel
-- c37_obviously_linear: 256 × 256 × 63 int8 fits.
example : isObviouslyLinearTraversal 256 256 63 1 1 ⟨32768, 524288⟩ = .ok true ∧
    ∃ bm, makeBlockMap ⟨256, 256, 63, 8, 8, 1, 1, 1, ⟨32768, 524288⟩⟩ = .ok bm ∧ bm.baseLog2 = 1 := by
  refine ⟨by decide +kernel, ⟨1, .linear, ⟨256, 256⟩, 1, ⟨0, 0⟩, ⟨8, 8⟩, ⟨128, 128⟩, ⟨0, 0⟩⟩,
    by decide +kernel, rfl⟩

end Ruy.TrMul

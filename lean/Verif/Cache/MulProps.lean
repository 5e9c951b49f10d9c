import Verif.Cache.MulLemmas
import Verif.Front.Props
/-
C18, C21, C23: Mul with caching.

`Wanted` (MulLemmas) is the documented caching decision. `CallOk f cl` says that the matrices
of the call are the ones `f` assigns to their cache keys (address, packed layout, zero
point); this is the hypothesis that the code does not guarantee, see `c18_same_matrix_twice`
and `c18_same_address`.
-/
namespace Ruy.Cache
open Ruy.Mat Ruy.Mul Ruy.Front Ruy.TrMul

variable {A : Type}

/-! ### C23 -/

/-- C23: the decision is the documented one. -/
theorem c23_decision (p : CachePolicy) (otherWidth otherKernel : Nat) (h : 4 * otherKernel < 2 ^ 31) :
    ∃ b, shouldCache p otherWidth otherKernel = .ok b ∧
      (b = true ↔ p = .alwaysCache ∨ p = .cacheIfLargeSpeedup ∧ otherWidth ≤ otherKernel ∨
        p = .cacheIfSignificantSpeedup ∧ otherWidth ≤ 4 * otherKernel) := by
  refine ⟨_, shouldCache_of h, ?_⟩
  rw [decide_eq_true_iff]
  cases p <;> simp [Wanted]

theorem prepareSide_requests {sys : Nat → Bool} {w w' : World A}
    {ar : Arith A} {pack : A → A} {packZp : Int → Int} {t : ElemTypes} {arg : Arg A} {l : PMatLayout}
    {ow ok : Nat} {data sums : Nat → A} {sl : Slot A}
    (h : prepareSide sys ar pack packZp t arg l ow ok data sums w = .ok (sl, w')) :
    sl.isCached = decide (Wanted arg.policy ow ok) ∧
    run sys (if Wanted arg.policy ow ok then [request packZp t arg l] else []) w.cache = .ok w'.cache := by
  unfold prepareSide at h
  obtain ⟨b, hb, h⟩ := C.bind_ok h
  have hb' := shouldCache_ok hb
  subst hb'
  by_cases hw : Wanted arg.policy ow ok
  · rw [if_pos (by simpa using hw)] at h
    rw [if_pos hw]
    unfold prepareCached at h
    obtain ⟨⟨pe, ins, c'⟩, hg, h⟩ := C.bind_ok h
    have hrun : run sys [request packZp t arg l] w.cache = .ok c' := by
      show (get sys w.cache (request packZp t arg l) >>= _) = _
      rw [hg]
      rfl
    dsimp only at h
    split at h
    · obtain ⟨p, _, h⟩ := C.bind_ok h
      obtain ⟨p', _, h⟩ := C.bind_ok h
      cases h
      exact ⟨(decide_eq_true hw).symm, hrun⟩
    · cases h
      exact ⟨(decide_eq_true hw).symm, hrun⟩
  · rw [if_neg (by simpa using hw)] at h
    rw [if_neg hw]
    unfold prepareFresh at h
    obtain ⟨_, _, h⟩ := C.bind_ok h
    obtain ⟨_, _, h⟩ := C.bind_ok h
    cases h
    exact ⟨(decide_eq_false hw).symm, rfl⟩

theorem run_append (sys : Nat → Bool) : ∀ (a b : List Req) (c c1 c2 : Cache), run sys a c = .ok c1 →
    run sys b c1 = .ok c2 → run sys (a ++ b) c = .ok c2
  | [], b, c, c1, c2, h1, h2 => by cases h1; exact h2
  | r :: a, b, c, c1, c2, h1, h2 => by
    obtain ⟨x, hx, h1⟩ := C.bind_ok h1
    show (get sys c r >>= fun x => run sys (a ++ b) x.2.2) = _
    rw [hx]
    exact run_append sys a b _ c1 c2 h1 h2

theorem createColMajorC_requests {sys : Nat → Bool} {w w' : World A}
    {cl : Call A} {ch : ChannelDim} {junk : Junk A} {tp : TrMul.Params A} {m : Mem A} {adv : Bool}
    (h : createColMajorC sys cl ch junk w = .ok (tp, m, adv, w')) :
    tp.isPrepacked = ⟨decide (Wanted cl.lhs.policy cl.rhs.mat.layout.cols cl.kern.rhs.cols),
      decide (Wanted cl.rhs.policy cl.lhs.mat.layout.cols cl.kern.lhs.cols)⟩ ∧
    ∃ rs, run sys rs w.cache = .ok w'.cache ∧ rs.map Req.src =
      (if Wanted cl.lhs.policy cl.rhs.mat.layout.cols cl.kern.rhs.cols then [cl.lhs.addr] else []) ++
      (if Wanted cl.rhs.policy cl.lhs.mat.layout.cols cl.kern.lhs.cols then [cl.rhs.addr] else []) := by
  unfold createColMajorC at h
  obtain ⟨_, h1, h⟩ := C.bind_ok h
  obtain ⟨ll, hll, h⟩ := C.bind_ok h
  obtain ⟨lr, hlr, h⟩ := C.bind_ok h
  dsimp only at h
  obtain ⟨e, he, h⟩ := C.bind_ok h
  obtain ⟨⟨sa, wa⟩, ha, h⟩ := C.bind_ok h
  obtain ⟨⟨sb, wb⟩, hb, h⟩ := C.bind_ok h
  obtain ⟨pl, hpl, h⟩ := C.bind_ok h
  obtain ⟨pr, hpr, h⟩ := C.bind_ok h
  cases h
  dsimp only at hb
  obtain ⟨a1, a2⟩ := prepareSide_requests ha
  obtain ⟨b1, b2⟩ := prepareSide_requests hb
  refine ⟨by dsimp only; rw [a1, b1], _, run_append sys _ _ _ _ _ a2 b2, ?_⟩
  rw [List.map_append]
  congr 1
  · split <;> rfl
  · split <;> rfl

/-- C23: Mul makes exactly the requests to the cache that the policies ask for, and the matrices it
takes as prepacked are exactly those. `kl` and `kr` are the kernel widths of the sides on which
the user's LHS and RHS are packed. -/
theorem c23_policy_honoured (sys : Nat → Bool) (cl : Call A) (junk : Junk A) (w w' : World A)
    (tp : TrMul.Params A) (m : Mem A) (adv : Bool) (h : frontEndC sys cl junk w = .ok (tp, m, adv, w'))
    (kl kr : Nat)
    (hk : if cl.dst.layout.order = .colMajor then kl = cl.kern.lhs.cols ∧ kr = cl.kern.rhs.cols
      else kl = cl.kern.rhs.cols ∧ kr = cl.kern.lhs.cols) :
    let wl := Wanted cl.lhs.policy cl.rhs.mat.layout.cols kr
    let wr := Wanted cl.rhs.policy cl.lhs.mat.layout.rows kl
    ∃ rs, run sys rs w.cache = .ok w'.cache ∧
      if cl.dst.layout.order = .colMajor then
        rs.map Req.src = (if wl then [cl.lhs.addr] else []) ++ (if wr then [cl.rhs.addr] else []) ∧
          tp.isPrepacked = ⟨decide wl, decide wr⟩
      else
        rs.map Req.src = (if wr then [cl.rhs.addr] else []) ++ (if wl then [cl.lhs.addr] else []) ∧
          tp.isPrepacked = ⟨decide wr, decide wl⟩ := by
  unfold frontEndC at h
  obtain ⟨_, _, h⟩ := C.bind_ok h
  split at h
  · rename_i hord
    rw [if_pos hord] at hk
    obtain ⟨rfl, rfl⟩ := hk
    obtain ⟨h1, rs, h2, h3⟩ := createColMajorC_requests h
    refine ⟨rs, h2, ?_⟩
    rw [if_pos hord]
    exact ⟨h3, h1⟩
  · rename_i hord
    rw [if_neg hord] at hk
    obtain ⟨rfl, rfl⟩ := hk
    obtain ⟨h1, rs, h2, h3⟩ := createColMajorC_requests h
    refine ⟨rs, h2, ?_⟩
    rw [if_neg hord]
    exact ⟨h3, h1⟩

/-! ### C18 -/

/-- The contexts that can arise: from a new one, by multiplications whose cached matrices are
what `f` assigns to their keys, and by ClearPrepackedCache. -/
inductive Reach [Inhabited A] (f : Key → Origin A) (sys : Nat → Bool) (cap : Int) : World A → Prop
  | start : Reach f sys cap (World.start cap)
  | mul (cl : Call A) (w w' : World A) (d : Mul.Mat A) : Reach f sys cap w → CallOk f cl.inner →
      MulC sys cl w d w' → Reach f sys cap w'
  | clear (w : World A) : Reach f sys cap w → Reach f sys cap ⟨init cap, w.buf⟩

theorem Reach.good [Inhabited A] {f : Key → Origin A} {sys : Nat → Bool} {cap : Int} {w : World A}
    (hsys : ∀ k, sys k = true) (h : Reach f sys cap w) : w.cache.cap = cap ∧ ∃ L, Good f w L := by
  induction h with
  | start => exact ⟨rfl, [], good_start f cap⟩
  | mul cl w w' d _ ok h ih =>
    obtain ⟨hc, L, g⟩ := ih
    obtain ⟨junk, tp, m, adv, d', hf, -, -⟩ := h
    obtain ⟨-, -, h1, h2⟩ := frontEndC_ok hsys g ok hf
    exact ⟨h1.trans hc, h2⟩
  | clear w _ _ => exact ⟨rfl, [], init_inv cap, by simp, Int.le_refl _⟩

theorem mulC_computes [Inhabited A] {f : Key → Origin A} {sys : Nat → Bool} {cap : Int} {w w' : World A}
    {cl : Call A} {d : Mul.Mat A} (hsys : ∀ k, sys k = true) (hr : Reach f sys cap w)
    (ok : CallOk f cl.inner) (hs : Shapes cl.kern cl.lhs.mat cl.rhs.mat cl.dst)
    (h : MulC sys cl w d w') :
    ∃ depth, RoundedDepth cl.kern cl.lhs.mat.layout.cols depth ∧ cl.lhs.mat.layout.cols ≤ depth ∧
      Computes (userEntry cl.sc cl.lhs.mat cl.rhs.mat cl.dst cl.mp depth) cl.dst d := by
  obtain ⟨-, L, g⟩ := hr.good hsys
  obtain ⟨junk, tp, m, adv, d', hf, ho, rfl⟩ := h
  obtain ⟨h1, h2, -, -⟩ := frontEndC_ok hsys g ok hf
  exact userFilled_computes hs h1 h2 ho

/-- C18 as far as it holds, any arithmetic: Mul with caching ends with the same destination as Mul
without caching, after any history in which the cache key identifies the matrix.
Missing: histories in which two different matrices have the same key (the key has neither
the dimensions before rounding, nor the stride, the order and the side of the source); see
`c18_same_matrix_twice`, `c18_same_address`. -/
theorem c18_equals_uncached_partial [Inhabited A] (f : Key → Origin A) (sys : Nat → Bool) (cap : Int)
    (w w' : World A) (cl : Call A) (d d0 : Mul.Mat A) (hsys : ∀ k, sys k = true)
    (hr : Reach f sys cap w) (ok : CallOk f cl.inner)
    (hs : Shapes cl.kern cl.lhs.mat cl.rhs.mat cl.dst) (h : MulC sys cl w d w')
    (h0 : Front.Mul cl.sc cl.kern cl.lhs.mat cl.rhs.mat cl.dst cl.mp d0) : d = d0 := by
  obtain ⟨k1, a1, -, c1⟩ := mulC_computes hsys hr ok hs h
  obtain ⟨k2, a2, -, c2⟩ := mul_computes hs h0
  have : k1 = k2 := by
    unfold RoundedDepth at a1 a2
    rw [a1] at a2
    cases a2; rfl
  subst this
  exact c1.unique c2

/-- C18 for integers: every entry is the documented product. -/
theorem c18_entries_partial (f : Key → Origin Int) (sys : Nat → Bool) (cap : Int)
    (w w' : World Int) (cl : Call Int) (d : Mul.Mat Int) (ty packed : SidePair ScalarType)
    (dstTy : ScalarType) (hsc : cl.sc = intScalars Arith.int32 ty packed dstTy)
    (hsys : ∀ k, sys k = true) (hr : Reach f sys cap w) (ok : CallOk f cl.inner)
    (hs : Shapes cl.kern cl.lhs.mat cl.rhs.mat cl.dst)
    (hi : IntOk ty packed dstTy cl.lhs.mat cl.rhs.mat cl.mp) (h : MulC sys cl w d w') (i j : Nat)
    (hrow : i < cl.dst.layout.rows) (hcol : j < cl.dst.layout.cols) :
    d.elem i j = .ok (entrySpec cl.lhs.mat cl.rhs.mat cl.dst cl.mp i j) := by
  obtain ⟨k1, -, a1, c1⟩ := mulC_computes hsys hr ok hs h
  rw [hsc] at c1
  obtain ⟨v, h1, h2⟩ := (int_computes hs.depth hs.rows hs.cols hi a1 c1).done i j hrow hcol
  cases h2; exact h1

/-- C18, totality: within the bounds under which Mul without caching returns, and with room in the
cache for the matrices of one call, Mul with caching returns. -/
theorem c18_returns_partial (f : Key → Origin Int) (sys : Nat → Bool) (cap : Int)
    (w : World Int) (cl : Call Int) (ty packed : SidePair ScalarType) (dstTy : ScalarType)
    (Ml Zl Mr Zr B : Int) (hsc : cl.sc = intScalars Arith.int32 ty packed dstTy)
    (hsys : ∀ k, sys k = true) (hr : Reach f sys cap w) (ok : CallOk f cl.inner)
    (hk : 4 * cl.kern.lhs.cols < 2 ^ 31 ∧ 4 * cl.kern.rhs.cols < 2 ^ 31)
    (hroom : RoomFor cap cl.inner)
    (hm : MulOk ty packed dstTy cl.kern cl.lhs.mat cl.rhs.mat cl.dst cl.mp Ml Zl Mr Zr B)
    (junk : Junk Int) :
    ∃ tp m adv w', frontEndC sys cl junk w = .ok (tp, m, adv, w') ∧ (∃ m', simpleLoop tp m = .ok m') ∧
      ∀ bm, MapFor m bm → (∃ m', seqRun tp bm m = .ok m') ∧
        ∀ threads sched, ∃ s,
          TrMul.run ⟨tp, bm, threads⟩ sched (initState ⟨tp, bm, threads⟩ m) = .ok s := by
  obtain ⟨hc, L, g⟩ := hr.good hsys
  obtain ⟨tp0, m0, adv0, h0, -, s0⟩ := frontEnd_total hm junk
  rw [← hsc] at h0
  obtain ⟨tp, m, adv, w', hf, hsafe⟩ := frontEndC_total (junk := junk) hsys g ok hk
    (by rw [hc]; exact hroom) h0 s0
  obtain ⟨h1, h2, -, -⟩ := frontEndC_ok hsys g ok hf
  have hready := userFilled_ready hm.shapes h1 h2
  exact ⟨tp, m, adv, w', hf, simpleLoop_total hready hsafe,
    fun bm hbm => (c04_no_fault tp m bm hready hsafe hbm).2⟩

/-! ### C21 -/

/-- C21 as far as it holds: if the cached matrices of one call fit in the cache together, then both
packed matrices are in memory when the multiplication starts (nothing is freed until it ends). -/
theorem c21_buffers_alive_partial [Inhabited A] (f : Key → Origin A) (sys : Nat → Bool) (cap : Int)
    (w wa wb : World A) (cl : Call A) (ll lr : PMatLayout) (dl sl dr sr : Nat → A) (sa sb : Slot A)
    (hsys : ∀ k, sys k = true) (hr : Reach f sys cap w) (ok : CallOk f cl) (hroom : RoomFor cap cl)
    (hll : createPackedLayout cl.lhs.mat.layout cl.kern.lhs = .ok ll)
    (hlr : createPackedLayout cl.rhs.mat.layout cl.kern.rhs = .ok lr)
    (ha : prepareSide sys cl.sc.ar cl.sc.pack.lhs cl.sc.packZp.lhs cl.types.lhs cl.lhs ll
      cl.rhs.mat.layout.cols cl.kern.rhs.cols dl sl w = .ok (sa, wa))
    (hb : prepareSide sys cl.sc.ar cl.sc.pack.rhs cl.sc.packZp.rhs cl.types.rhs cl.rhs lr
      cl.lhs.mat.layout.cols cl.kern.lhs.cols dr sr wa = .ok (sb, wb)) :
    ∃ pl pr, sa.load wb = .ok pl ∧ sb.load wb = .ok pr := by
  obtain ⟨hc, L, g⟩ := hr.good hsys
  exact both_loadable hsys g (createPackedLayout_ok hll).1 (createPackedLayout_ok hlr).1
    (ok.lhs _ hll) (ok.rhs _ hlr) (by rw [hc]; exact hroom _ _ hll hlr) ha hb

/-- Preparing the RHS after the LHS with too little room for both frees the LHS. -/
theorem lhs_freed [Inhabited A] {f : Key → Origin A} {sys : Nat → Bool} {cap : Int} {wa wb : World A}
    {ar : Arith A} {packl packr : A → A} {zl zr : Int → Int} {tl tr : ElemTypes} {lhs rhs : Arg A}
    {ll lr : PMatLayout} {owl okl owr okr : Nat} {dl sl' dr sr : Nat → A} {sa sb : Slot A}
    (hsys : ∀ k, sys k = true) (hll : PackedOk ll)
    (hwl : Wanted lhs.policy owl okl) (hwr : Wanted rhs.policy owr okr)
    (sol : SideOk f ar packl zl tl lhs ll) (sor : SideOk f ar packr zr tr rhs lr)
    (hkey : (request zl tl lhs ll).key ≠ (request zr tr rhs lr).key)
    (hroom : cap < (newBytes (request zl tl lhs ll) + newBytes (request zr tr rhs lr) : Nat))
    (ha : prepareSide sys ar packl zl tl lhs ll owl okl dl sl' (World.start cap) = .ok (sa, wa))
    (hb : prepareSide sys ar packr zr tr rhs lr owr okr dr sr wa = .ok (sb, wb)) :
    sa.load wb = .error .ub := by
  -- after the LHS
  obtain ⟨La, ga, -, ca, oa, hca, -⟩ := prepareSide_ok hsys (good_start f cap) hll (fun _ => sol) ha
  obtain ⟨-, ra⟩ := prepareSide_requests ha
  obtain ⟨-, rb⟩ := prepareSide_requests hb
  rw [if_pos hwl] at ra
  rw [if_pos hwr] at rb
  obtain ⟨⟨pe, ins, c1⟩, hg, ra⟩ := C.bind_ok ra
  cases ra
  obtain ⟨m1, i1, c1', L1, g1, inv1, cap1, calls1, k1⟩ := get_spec (sys := sys) (init_inv cap) sol.sizes
  have hg' : get sys (init cap) (request zl tl lhs ll) = .ok (pe, ins, wa.cache) := hg
  rw [hg'] at g1
  cases g1
  rcases k1 with ⟨-, k1⟩ | ⟨rfl, k1⟩
  · obtain ⟨e, A1, A2, h, -⟩ := k1.split
    exact absurd (congrArg List.length h) (by simp)
  obtain ⟨kept, dropped, hnil, hL1, b1, -, -⟩ := k1.split
  obtain ⟨rfl, rfl⟩ := List.append_eq_nil_iff.mp hnil.symm
  have hbytes : wa.cache.bytes = (newBytes (request zl tl lhs ll) : Nat) := by
    rw [b1]
    show (0 : Int) - _ + _ = _
    simp [reps]
  have hslot : sa = .cached pe := by
    cases oa with
    | fresh q => rw [decide_eq_true hwl] at hca; cases hca
    | cached k q s K hL =>
      have hp := ga.inv.perm.trans inv1.perm.symm
      rw [hL, hL1] at hp
      have hm := hp.subset List.mem_cons_self
      rw [List.mem_singleton] at hm
      rw [Entry.mk.injEq] at hm
      rw [hm.2.1]
  have hd0 : pe.data ≠ 0 := (k1.served hsys).1
  have hle : pe.data ≤ wa.cache.calls :=
    (inv1.le_calls (e := ⟨(request zl tl lhs ll).key, pe, (init cap).clock⟩) (by rw [hL1]; simp)).1
  -- after the RHS
  obtain ⟨⟨pe2, ins2, c2⟩, hg2, rb⟩ := C.bind_ok rb
  cases rb
  obtain ⟨m2, i2, c2', L2, g2, inv2, cap2, calls2, k2⟩ := get_spec (sys := sys) inv1 sor.sizes
  rw [hg2] at g2
  cases g2
  rcases k2 with ⟨-, k2⟩ | ⟨rfl, k2⟩
  · obtain ⟨e, A1, A2, h, hke, -⟩ := k2.split
    rw [hL1] at h
    have he : e ∈ [(⟨(request zl tl lhs ll).key, pe, (init cap).clock⟩ : Entry)] := by rw [h]; simp
    rw [List.mem_singleton] at he
    subst he
    exact absurd hke hkey
  obtain ⟨kept2, dropped2, hL, hL2, b2, b3, -⟩ := k2.split
  have hkept : kept2 = [] := by
    rcases b3 with h | h
    · exact h
    · cases kept2 with
      | nil => rfl
      | cons x kept2 =>
        exfalso
        have hcap' : wa.cache.cap = cap := ca
        rw [hL1] at hL
        have hd : dropped2 = [] := by
          have := congrArg List.length hL
          simp only [List.length_cons, List.length_nil, List.length_append] at this
          exact List.length_eq_zero_iff.mp (by omega)
        rw [b2, hbytes, hcap', hd] at h
        have : reps ([] : List Entry) = 0 := rfl
        rw [this] at h
        push_cast at hroom h
        omega
  subst hkept
  have hdead : ¬ ∃ b ∈ wb.cache.held, b.1 = pe.data := by
    rintro ⟨b, hb, he⟩
    have hb := inv2.held.subset hb
    rw [hL2] at hb
    simp only [List.nil_append, List.flatMap_cons, List.flatMap_nil, List.append_nil, blocks,
      List.mem_append] at hb
    obtain ⟨f1, f2, -⟩ := k2.fresh
    rcases hb with hb | hb
    · split at hb
      · simp at hb
      · rw [List.mem_singleton] at hb
        subst hb
        dsimp only at he
        omega
    · split at hb
      · simp at hb
      · rw [List.mem_singleton] at hb
        subst hb
        dsimp only at he
        omega
  rw [hslot]
  show wb.loadMat pe = _
  unfold World.loadMat World.load
  rw [if_neg hd0]
  unfold C.require
  rw [if_neg hdead]
  rfl

/-- C21 fails: starting with an empty cache, when both matrices are to be cached and do not fit
together, the RHS evicts the LHS that the same Mul is about to read. -/
theorem c21_use_after_free [Inhabited A] (f : Key → Origin A) (sys : Nat → Bool) (cap : Int)
    (cl : Call A) (junk junk0 : Junk A) (tp0 : TrMul.Params A) (m0 : Mem A) (adv0 : Bool)
    (hcol : cl.dst.layout.order = .colMajor)
    (hsys : ∀ k, sys k = true) (ok : CallOk f cl.inner)
    (hk : 4 * cl.kern.lhs.cols < 2 ^ 31 ∧ 4 * cl.kern.rhs.cols < 2 ^ 31)
    (hwl : Wanted cl.lhs.policy cl.rhs.mat.layout.cols cl.kern.rhs.cols)
    (hwr : Wanted cl.rhs.policy cl.lhs.mat.layout.rows cl.kern.lhs.cols)
    (haddr : cl.lhs.addr ≠ cl.rhs.addr)
    (h0 : frontEnd cl.sc cl.kern cl.lhs.mat cl.rhs.mat cl.dst cl.mp junk0 = .ok (tp0, m0, adv0))
    (hs0 : Safe tp0 m0)
    (hroom : ∀ ll lr, createPackedLayout cl.lhs.mat.transpose.layout cl.kern.lhs = .ok ll →
      createPackedLayout cl.rhs.mat.layout cl.kern.rhs = .ok lr →
      cap < (pflatSize ll * cl.types.lhs.dataSize + pflatSize lr * cl.types.rhs.dataSize : Nat)) :
    frontEndC sys cl junk (World.start cap) = .error .ub := by
  unfold frontEnd at h0
  obtain ⟨u, hv, h0⟩ := C.bind_ok h0
  unfold Call.inner at ok
  rw [if_pos hcol] at ok
  unfold frontEndC
  rw [hv, C.ok_bind, if_pos hcol]
  unfold createTrMulParams at h0
  rw [if_pos hcol] at h0
  obtain ⟨e, sa, wa, sb, wb, -, ha, hb, heq⟩ := createColMajorC_prepared (cl := cl.transposeLhs)
    (junk := junk) hsys (good_start f cap) ok hk h0 hs0
  have cr := createColMajor_ok h0
  have hl := createPackedLayout_ok cr.lpk.layout
  have hroom := hroom _ _ cr.lpk.layout cr.rpk.layout
  have hbig : cap < ((newBytes (request cl.sc.packZp.lhs cl.types.lhs cl.transposeLhs.lhs
      m0.packed.lhs.layout) + newBytes (request cl.sc.packZp.rhs cl.types.rhs cl.rhs
      m0.packed.rhs.layout) : Nat) : Int) := by
    refine Int.lt_of_lt_of_le hroom (Int.ofNat_le.mpr (Nat.add_le_add ?_ ?_))
    · exact Nat.le_add_right _ _
    · exact Nat.le_add_right _ _
  have hdead : sa.load wb = .error .ub := lhs_freed (lhs := cl.transposeLhs.lhs) (rhs := cl.rhs) hsys hl.1 hwl hwr
    (ok.lhs _ cr.lpk.layout hwl) (ok.rhs _ cr.rpk.layout hwr)
    (fun h => haddr (congrArg Key.src h)) hbig ha hb
  rw [heq, hdead]
  rfl

/-! ### Instances and counterexamples -/

/-- One call of Mul with the simple loop. -/
def runOnce (sys : Nat → Bool) (cl : Call A) (junk : Junk A) (w : World A) : C (Mul.Mat A × World A) := do
  let r ← frontEndC sys cl junk w
  let m ← simpleLoop r.1 r.2.1
  .ok (userView cl.dst m.dst, r.2.2.2)

theorem runOnce_ok {sys : Nat → Bool} {cl : Call A} {junk : Junk A} {w w' : World A} {d : Mul.Mat A}
    (h : runOnce sys cl junk w = .ok (d, w')) : MulC sys cl w d w' := by
  unfold runOnce at h
  obtain ⟨⟨tp, m, adv, w1⟩, h1, h⟩ := C.bind_ok h
  obtain ⟨m', h2, h⟩ := C.bind_ok h
  cases h
  exact ⟨junk, tp, m, adv, m'.dst, h1, .simple m' h2 rfl, rfl⟩

/-- One call without caching. -/
def runPlain (cl : Call A) (junk : Junk A) : C (Mul.Mat A) := do
  let r ← frontEnd cl.sc cl.kern cl.lhs.mat cl.rhs.mat cl.dst cl.mp junk
  let m ← simpleLoop r.1 r.2.1
  .ok (userView cl.dst m.dst)

theorem runPlain_ok {cl : Call A} {junk : Junk A} {d : Mul.Mat A} (h : runPlain cl junk = .ok d) :
    Front.Mul cl.sc cl.kern cl.lhs.mat cl.rhs.mat cl.dst cl.mp d := by
  unfold runPlain at h
  obtain ⟨⟨tp, m, adv⟩, h1, h⟩ := C.bind_ok h
  obtain ⟨m', h2, h⟩ := C.bind_ok h
  cases h
  exact ⟨junk, tp, m, adv, m'.dst, h1, .simple m' h2 rfl, rfl⟩

def zeroJunk : Junk Int := ⟨⟨fun _ => 0, fun _ => 0⟩, ⟨fun _ => 0, fun _ => 0⟩⟩

def sc8 : Scalars Int := intScalars Arith.int32 ⟨.int8, .int8⟩ ⟨.int8, .int8⟩ .int32
def t8 : SidePair ElemTypes := ⟨⟨1, 4, false⟩, ⟨1, 4, false⟩⟩

/-- [[1, 2], [3, 4]] in row-major order, to be cached always. -/
def mat1234 : Arg Int := ⟨1000, ⟨⟨2, 2, 2, .rowMajor⟩, ⟨4, fun i => [1, 2, 3, 4].getD i 0⟩, 0⟩, .alwaysCache⟩

def square : Call Int :=
  ⟨sc8, ⟨k11, k11⟩, t8, mat1234, mat1234, ⟨⟨2, 2, 2, .rowMajor⟩, ⟨4, fun _ => 77⟩, 0⟩, mp32⟩

/-- C18 fails: the key does not say which side the matrix is on. The product of a matrix with
itself, in a new context with the default capacity, is computed as that of its transpose with
itself. -/
theorem c18_same_matrix_twice : ∃ d w' d0, MulC (fun _ => true) square (World.start (2 ^ 28)) d w' ∧
    Front.Mul square.sc square.kern square.lhs.mat square.rhs.mat square.dst square.mp d0 ∧
    d.elem 0 1 = .ok 14 ∧ d0.elem 0 1 = .ok 10 := by
  have h : (do
      let r ← runOnce (fun _ => true) square zeroJunk (World.start (2 ^ 28))
      r.1.elem 0 1) = .ok 14 := by decide +kernel
  have h0 : (do
      let d ← runPlain square zeroJunk
      d.elem 0 1) = .ok 10 := by decide +kernel
  obtain ⟨⟨d, w'⟩, h1, h2⟩ := C.bind_ok h
  obtain ⟨d0, h3, h4⟩ := C.bind_ok h0
  exact ⟨d, w', d0, runOnce_ok h1, runPlain_ok h3, h2, h4⟩

/-- The first `n` columns of a column-major 4 × 4 matrix in memory. -/
def view (n : Nat) : Arg Int :=
  ⟨1000, ⟨⟨4, n, 4, .colMajor⟩, ⟨16, fun i => (i : Int) + 1⟩, 0⟩, .alwaysCache⟩

/-- The identity times `view n`. -/
def viewCall (n : Nat) : Call Int :=
  ⟨sc8, k44, t8,
    ⟨2000, ⟨⟨4, 4, 4, .rowMajor⟩, ⟨16, fun i => if i % 5 = 0 then 1 else 0⟩, 0⟩, .neverCache⟩, view n,
    ⟨⟨4, n, 4, .colMajor⟩, ⟨4 * n, fun _ => 77⟩, 0⟩, mp32⟩

/-- C18 fails: the key does not give the dimensions of the source. After a product with the first
three columns of a matrix, the product with all four takes the padding for the fourth. -/
theorem c18_same_address : ∃ d1 w1 d w2 d0,
    MulC (fun _ => true) (viewCall 3) (World.start (2 ^ 28)) d1 w1 ∧
    MulC (fun _ => true) (viewCall 4) w1 d w2 ∧
    Front.Mul sc8 k44 (viewCall 4).lhs.mat (view 4).mat (viewCall 4).dst mp32 d0 ∧
    d.elem 1 3 = .ok 0 ∧ d0.elem 1 3 = .ok 14 := by
  have h : (do
      let r1 ← runOnce (fun _ => true) (viewCall 3) zeroJunk (World.start (2 ^ 28))
      let r ← runOnce (fun _ => true) (viewCall 4) zeroJunk r1.2
      r.1.elem 1 3) = .ok 0 := by decide +kernel
  have h0 : (do
      let d ← runPlain (viewCall 4) zeroJunk
      d.elem 1 3) = .ok 14 := by decide +kernel
  obtain ⟨⟨d1, w1⟩, h1, h⟩ := C.bind_ok h
  obtain ⟨⟨d, w2⟩, h2, h⟩ := C.bind_ok h
  obtain ⟨d0, h3, h4⟩ := C.bind_ok h0
  exact ⟨d1, w1, d, w2, d0, runOnce_ok h1, runOnce_ok h2, runPlain_ok h3, h, h4⟩

/-- An `n × n` matrix of zeros, cached always. -/
def zeros (addr n : Nat) (o : Order) : Arg Int :=
  ⟨addr, ⟨⟨n, n, n, o⟩, ⟨n * n, fun _ => 0⟩, 0⟩, .alwaysCache⟩

def bigN : Nat := 16384

/-- Two int8 matrices of 256 MiB each. -/
def bigCall : Call Int :=
  ⟨sc8, ⟨k11, k11⟩, t8, zeros 1000 bigN .rowMajor, zeros 2000 bigN .colMajor,
    ⟨⟨bigN, bigN, bigN, .colMajor⟩, ⟨bigN * bigN, fun _ => 77⟩, 0⟩, mp32⟩

theorem at_zeros (addr n : Nat) (o : Order) (i j : Nat) : (zeros addr n o).mat.at i j = 0 := rfl

theorem big_off {o : Order} {i j : Nat} (hi : i < bigN) (hj : j < bigN) :
    off ⟨bigN, bigN, bigN, o⟩ i j < 2 ^ 31 ∧ off ⟨bigN, bigN, bigN, o⟩ i j < bigN * bigN := by
  unfold bigN at *
  cases o
  · show i + j * 16384 < _ ∧ i + j * 16384 < _
    omega
  · show i * 16384 + j < _ ∧ i * 16384 + j < _
    omega

theorem zeros_accum (a b n : Nat) (o o' : Order) (i j : Nat) :
    accumSpec (fun x : Int => x) (zeros a n o).mat (zeros b n o').mat mp32 i j = 0 := by
  unfold accumSpec
  rw [Finset.sum_eq_zero]
  · rfl
  · intro k _
    rfl

theorem big_mulOk : MulOk ⟨.int8, .int8⟩ ⟨.int8, .int8⟩ .int32 ⟨k11, k11⟩ bigCall.lhs.mat bigCall.rhs.mat
    bigCall.dst mp32 1 0 1 0 0 where
  shapes := ⟨rfl, rfl, rfl, Nat.le_refl _, rfl⟩
  int := {
    lpack := by decide
    rpack := by decide
    lty := ⟨by decide, fun i j hi hj => by rw [show bigCall.lhs.mat.at i j = 0 from rfl]; decide⟩
    rty := ⟨by decide, fun i j hi hj => by rw [show bigCall.rhs.mat.at i j = 0 from rfl]; decide⟩
    clamp := ⟨by decide, by decide⟩ }
  valid := by decide
  lsize s := by
    cases s <;> exact ⟨⟨⟨0, rfl⟩, ⟨0, rfl⟩⟩, by decide, by decide, by decide, by decide, by decide⟩
  rsize s := by
    cases s <;> exact ⟨⟨⟨0, rfl⟩, ⟨0, rfl⟩⟩, by decide, by decide, by decide, by decide, by decide⟩
  lfits i j hi hj := big_off hi hj
  rfits i j hi hj := big_off hi hj
  dfits i j hi hj := big_off hi hj
  buffers := by
    refine ⟨⟨0, rfl⟩, by decide, fun cap h x hx => (by cases hx), fun cap q h hq => (by cases hq),
      fun cap q h hq => (by cases hq)⟩
  lvals i k hi hk := by rw [show bigCall.lhs.mat.at i k = 0 from rfl]; decide
  rvals k j hk hj := by rw [show bigCall.rhs.mat.at k j = 0 from rfl]; decide
  lzp := by decide
  rzp := by decide
  bias := ⟨by decide, fun c hc x hx => by cases hx⟩
  bound := by decide
  finish i j hi hj := by
    rw [show accumSpec (fun x : Int => x) bigCall.lhs.mat bigCall.rhs.mat mp32 i j = 0 from
      zeros_accum 1000 2000 bigN .rowMajor .colMajor i j]
    refine ⟨fun q hq => ?_, ?_⟩
    · cases hq
    · show Multiplier.isI32 (0 + 0)
      decide

/-- What the keys of `bigCall` stand for. -/
def bigOrigin (k : Key) : Origin Int :=
  if k.src = 1000 then ⟨bigCall.lhs.mat.transpose, sc8.ar, sc8.pack.lhs, t8.lhs⟩
  else ⟨bigCall.rhs.mat, sc8.ar, sc8.pack.rhs, t8.rhs⟩

theorem big_layout : createPackedLayout ⟨bigN, bigN, bigN, .colMajor⟩ k11 =
    .ok ⟨bigN, bigN, bigN, .colMajor, k11⟩ := by decide +kernel

theorem big_callOk : CallOk bigOrigin bigCall.inner where
  lhs l hl _ := by
    have hl : createPackedLayout ⟨bigN, bigN, bigN, .colMajor⟩ k11 = .ok l := hl
    rw [big_layout] at hl
    cases hl
    exact ⟨by unfold Sizes; decide +kernel, rfl⟩
  rhs l hl _ := by
    have hl : createPackedLayout ⟨bigN, bigN, bigN, .colMajor⟩ k11 = .ok l := hl
    rw [big_layout] at hl
    cases hl
    exact ⟨by unfold Sizes; decide +kernel, rfl⟩
  lfloat h := by cases h
  rfloat h := by cases h

/-- C21 fails with the default capacity: two matrices of 256 MiB, both to be cached; Mul
without caching is well-defined on them. -/
theorem c21_default_capacity (junk : Junk Int) :
    frontEndC (fun _ => true) bigCall junk (World.start (2 ^ 28)) = .error .ub ∧
    ∃ d, Front.Mul bigCall.sc bigCall.kern bigCall.lhs.mat bigCall.rhs.mat bigCall.dst bigCall.mp d := by
  obtain ⟨tp, m, adv, h, -, hs⟩ := frontEnd_total big_mulOk junk
  refine ⟨c21_use_after_free bigOrigin (fun _ => true) (2 ^ 28) bigCall junk junk tp m adv rfl (fun _ => rfl)
    big_callOk (by decide) trivial trivial (by decide) h hs ?_,
    c01_result_exists _ _ _ _ _ _ _ _ _ _ _ _ _ big_mulOk⟩
  intro ll lr hl hr
  have hl : createPackedLayout ⟨bigN, bigN, bigN, .colMajor⟩ k11 = .ok ll := hl
  have hr : createPackedLayout ⟨bigN, bigN, bigN, .colMajor⟩ k11 = .ok lr := hr
  rw [big_layout] at hl hr
  cases hl; cases hr
  decide +kernel

/-- C51 fails: when the system has no memory for the packed matrix of a cached side, the null pointer
is not noticed (there is no counterpart to the RUY_CHECKs of prepare_packed_matrices.cc:89-92) and
packing writes through it. -/
theorem c51_cache_out_of_memory :
    frontEndC (fun _ => false) square zeroJunk (World.start (2 ^ 28)) = .error .ub := by
  have h : (match frontEndC (fun _ => false) square zeroJunk (World.start (2 ^ 28)) with
      | .error .ub => true
      | _ => false) = true := by decide +kernel
  split at h
  · assumption
  · cases h

/-- C51 as far as it holds: without caching, an unserved request (a null pointer, here for an
empty buffer) aborts. -/
theorem c51_unserved_aborts_partial (packZp : Int → Int) (arg : Arg A) (l : PMatLayout)
    (data sums : Nat → A) (w : World A) (h : pflatSize l = 0 ∨ l.cols = 0) :
    prepareFresh packZp arg l data sums w = .error .abort := by
  unfold prepareFresh
  by_cases h1 : pflatSize l = 0
  · unfold C.check; rw [if_neg (by simpa using h1)]; rfl
  · rw [C.check_of h1, C.ok_bind]
    unfold C.check; rw [if_neg (by simpa using h.resolve_left h1)]; rfl

/-! #### A call that meets the hypotheses: both sides cached, row-major destination -/

def demoCall : Call Int :=
  ⟨demoSc, k44, t8, ⟨1000, demoLhs, .alwaysCache⟩, ⟨2000, demoRhs, .cacheIfLargeSpeedup⟩, demoDst, demoMp⟩

def demoOrigin (k : Key) : Origin Int :=
  if k.src = 1000 then ⟨demoLhs.transpose, demoSc.ar, demoSc.pack.lhs, t8.lhs⟩
  else ⟨demoRhs, demoSc.ar, demoSc.pack.rhs, t8.rhs⟩

theorem demo_layout : createPackedLayout ⟨3, 2, 3, .colMajor⟩ k44.lhs = .ok ⟨4, 4, 4, .colMajor, k44.lhs⟩ ∧
    createPackedLayout ⟨3, 2, 4, .colMajor⟩ k44.rhs = .ok ⟨4, 4, 4, .colMajor, k44.rhs⟩ := by
  decide +kernel

theorem demo_callOk : CallOk demoOrigin demoCall.inner where
  lhs l hl _ := by
    have hl : createPackedLayout ⟨3, 2, 3, .colMajor⟩ k44.lhs = .ok l := hl
    rw [demo_layout.1] at hl
    cases hl
    exact ⟨by unfold Sizes; decide +kernel, rfl⟩
  rhs l hl _ := by
    have hl : createPackedLayout ⟨3, 2, 4, .colMajor⟩ k44.rhs = .ok l := hl
    rw [demo_layout.2] at hl
    cases hl
    exact ⟨by unfold Sizes; decide +kernel, rfl⟩
  lfloat h := by cases h
  rfloat h := by cases h

theorem demo_room : RoomFor (2 ^ 28) demoCall.inner := by
  intro ll lr hl hr
  have hl : createPackedLayout ⟨3, 2, 3, .colMajor⟩ k44.lhs = .ok ll := hl
  have hr : createPackedLayout ⟨3, 2, 4, .colMajor⟩ k44.rhs = .ok lr := hr
  rw [demo_layout.1] at hl
  rw [demo_layout.2] at hr
  cases hl; cases hr
  decide +kernel

-- Twice in a row: the second time both sides are taken from the cache.
example : (do
      let r1 ← runOnce (fun _ => true) demoCall zeroJunk (World.start (2 ^ 28))
      let r ← runOnce (fun _ => true) demoCall zeroJunk r1.2
      let x ← r.1.elem 0 0
      let y ← r.1.elem 1 0
      .ok (r1.2.cache.entries.length, r1.2.cache.calls, r.2.cache.calls, x, y)) =
    (.ok (2, 4, 4, 10, 129) : C (Nat × Nat × Nat × Int × Int)) := by
  decide +kernel

-- Hypotheses of c18_equals_uncached_partial and c18_entries_partial: a second call, which is served
-- from the cache, on top of a first one.
example : ∃ w1 d w2, Reach demoOrigin (fun _ => true) (2 ^ 28) w1 ∧ w1.cache.entries.length = 2 ∧
    MulC (fun _ => true) demoCall w1 d w2 ∧
    d.elem 1 0 = .ok (entrySpec demoLhs demoRhs demoDst demoMp 1 0) := by
  have h : (do
      let r1 ← runOnce (fun _ => true) demoCall zeroJunk (World.start (2 ^ 28))
      C.require (r1.2.cache.entries.length = 2)
      let r ← runOnce (fun _ => true) demoCall zeroJunk r1.2
      .ok () : C Unit) = .ok () := by decide +kernel
  obtain ⟨⟨d1, w1⟩, h1, h⟩ := C.bind_ok h
  obtain ⟨_, h2, h⟩ := C.bind_ok h
  obtain ⟨⟨d, w2⟩, h3, -⟩ := C.bind_ok h
  have hr : Reach demoOrigin (fun _ => true) (2 ^ 28) w1 :=
    .mul demoCall _ _ d1 .start demo_callOk (runOnce_ok h1)
  exact ⟨w1, d, w2, hr, C.require_ok h2, runOnce_ok h3,
    c18_entries_partial demoOrigin (fun _ => true) (2 ^ 28) w1 w2 demoCall d _ _ _ rfl (fun _ => rfl) hr
      demo_callOk demo_shapes demo_intOk (runOnce_ok h3) 1 0 (by decide) (by decide)⟩

-- Hypotheses of c18_returns_partial and c21_buffers_alive_partial.
example (junk : Junk Int) : ∃ tp m adv w',
    frontEndC (fun _ => true) demoCall junk (World.start (2 ^ 28)) = .ok (tp, m, adv, w') := by
  obtain ⟨tp, m, adv, w', h, -⟩ := c18_returns_partial demoOrigin (fun _ => true) (2 ^ 28) _ demoCall
    _ _ _ _ _ _ _ _ rfl (fun _ => rfl) .start demo_callOk (by decide) demo_room demo_mulOk junk
  exact ⟨tp, m, adv, w', h⟩

-- c23: the RHS of `demoCall` is 2 wide, the kernel 4; `cacheIfLargeSpeedup` asks for at most one kernel.
example : Wanted .cacheIfLargeSpeedup 4 4 ∧ ¬ Wanted .cacheIfLargeSpeedup 5 4 ∧
    Wanted .cacheIfSignificantSpeedup 16 4 ∧ ¬ Wanted .cacheIfSignificantSpeedup 17 4 := by decide

end Ruy.Cache

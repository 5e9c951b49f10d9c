import Verif.XFloat.Props
import Verif.Front.Total
/-
From ruy::Mul to TrMul on the x86 paths, float matrices: validation, the choice of sides, packed matrices and bias buffers
(frontend.h:47-71, create_trmul_params.h:42-480, prepare_packed_matrices.cc:70-95), as in `Front/Model.lean`, but with the kernel
layouts of kernel_x86.h.
-/
namespace Ruy.XFloat.Top
open Ruy.Mat Ruy.Mul
open Ruy.Front (Scalars MulParams Junk PackSizes newPacked ensureBuffers channelSide validate userView)
open Ruy.TrMul (Mem)
open Ruy.Simd.Flow (control)

variable {A : Type}

/-! ### Model -/

/-- kernel_x86.h:93-94, kernel_x86.h:167-168, kernel_x86.h:192-193 (`LhsLayout`, `RhsLayout`): one level, `kc` columns. -/
def layout (kc : Nat) : KernelLayout := ⟨.rowMajor, 1, kc⟩

/-- create_trmul_params.h:405-442 + prepare_packed_matrices.cc:70-95 without caching (`Front.createColMajor`).  `trail` is what
the trailing buffers of the packing functions hold when they are created. -/
def create (sc : Scalars A) (kc : Nat) (lhs rhs dst : Mul.Mat A) (mp : MulParams A) (ch : ChannelDim) (junk : Junk A)
    (trail : Side → Nat → Nat → A) : C (Job A × Mem A) := do
  C.check (dst.layout.order = .colMajor)
  let pl ← newPacked sc.packZp.lhs (layout kc) lhs junk.data.lhs junk.sums.lhs
  let pr ← newPacked sc.packZp.rhs (layout kc) rhs junk.data.rhs junk.sums.rhs
  let packed : SidePair (PMat A) := ⟨pl, pr⟩
  let src : SidePair (Mul.Mat A) := ⟨lhs, rhs⟩
  let e ← ensureBuffers sc { mp with channelDim := ch } (src.get (channelSide ch)).layout.cols
    (packed.get (channelSide ch)).layout.cols
  .ok (⟨src, e.1, trail⟩, ⟨packed, dst⟩)

/-- frontend.h:47-71 and create_trmul_params.h:465-480 (`Front.frontEnd`). -/
def setup (sc : Scalars A) (kc : Nat) (lhs rhs dst : Mul.Mat A) (mp : MulParams A) (junk : Junk A) (trail : Side → Nat → Nat → A) :
    C (Job A × Mem A) := do
  validate .float .float .float lhs.zp rhs.zp dst.zp
  if dst.layout.order = .colMajor then create sc kc lhs.transpose rhs dst mp mp.channelDim junk trail
  else create sc kc rhs lhs.transpose dst.transpose mp mp.channelDim.transpose junk trail

/-! ### Bias buffers -/

/-- The bias buffer has the documented capacity, with zeros behind the channels (mul_params.h:70-102). -/
structure BiasOk (sc : Scalars A) (mp : MulParams A) (n : Nat) : Prop where
  rounding : ∃ k, mp.capacityRounding = 2 ^ k
  size : n + mp.capacityRounding < 2 ^ 31
  quant : mp.quant = none
  tail : ∀ cap, SizeUtil.nRoundUpPot n mp.capacityRounding = .ok cap → ∀ b, mp.bias = some b →
    cap ≤ b.size ∧ ∀ i, n ≤ i → i < cap → sc.isZero (b.val i) = true

/-- Parameters a kernel cannot tell from `mp` on the first `n` channels, with a bias buffer of at least `req` values. -/
structure Same (n req : Nat) (mp mp' : MulParams A) : Prop where
  channel : mp'.channelDim = mp.channelDim
  lo : mp'.clampMin = mp.clampMin
  hi : mp'.clampMax = mp.clampMax
  bias : ∀ (z : A) (c : Nat), c < n → biasAt z mp' c = biasAt z mp c
  size : ∀ b, mp'.bias = some b → req ≤ b.size

theorem ensured {sc : Scalars A} {mp : MulParams A} {n : Nat} (req : Nat) (hb : BiasOk sc mp n) :
    ∃ r, ensureBuffers sc mp n req = .ok r ∧ Same n req mp r.1 := by
  obtain ⟨k, hk⟩ := hb.rounding
  obtain ⟨cap, hcap⟩ : ∃ cap, SizeUtil.nRoundUpPot n mp.capacityRounding = .ok cap := by
    rw [hk]; exact nRoundUpPot_total (by rw [← hk]; exact hb.size)
  have hn := (nRoundUpPot_ge hcap).2.1
  have h1 : Front.assertZeroTail sc.isZero mp.bias n cap = .ok () := by
    unfold Front.assertZeroTail
    cases hm : mp.bias with
    | none => rfl
    | some x =>
      obtain ⟨h1, h2⟩ := hb.tail cap hcap x hm
      dsimp only
      unfold forRange
      obtain ⟨u, hu, _⟩ := forUpTo_total (n := cap - n) (s := ())
        (body := fun i _ => do
          let y ← x.read (n + i)
          C.check (sc.isZero y = true)) (fun _ _ => True) trivial
        (fun i s hi _ => ⟨(), (by
          rw [Buf.read_of (by omega), C.ok_bind]
          exact C.check_of (h2 (n + i) (by omega) (by omega))), trivial⟩)
      exact hu
  by_cases hc : req ≤ cap
  · refine ⟨(mp, false), ?_, ⟨rfl, rfl, rfl, fun _ _ _ => rfl, fun b hm => hc.trans (hb.tail cap hcap b hm).1⟩⟩
    unfold ensureBuffers
    rw [hcap, C.ok_bind, h1, C.ok_bind, hb.quant]
    show (if req ≤ cap then _ else _) = _
    rw [if_pos hc]
  · cases hm : mp.bias with
    | none =>
      refine ⟨({ mp with bias := none, quant := none }, true), ?_, ⟨rfl, rfl, rfl, fun z c _ => ?_, fun b h => by cases h⟩⟩
      · unfold ensureBuffers
        rw [hcap, C.ok_bind, h1, C.ok_bind, hb.quant, hm]
        show (if req ≤ cap then _ else _) = _
        rw [if_neg hc]
        rfl
      · unfold biasAt; rw [hm]
    | some x =>
      have hx := (hb.tail cap hcap x hm).1
      refine ⟨({ mp with bias := some ⟨req, fun i => if i < n then x.val i else sc.ar.zero⟩, quant := none }, true), ?_,
        ⟨rfl, rfl, rfl, fun z c h => ?_, fun b h => by cases h; exact Nat.le_refl _⟩⟩
      · unfold ensureBuffers
        rw [hcap, C.ok_bind, h1, C.ok_bind, hb.quant, hm]
        show (if req ≤ cap then _ else _) = _
        rw [if_neg hc]
        unfold Front.growBuffer
        dsimp only
        rw [C.require_of (hn.trans hx)]
        rfl
      · unfold biasAt
        rw [hm]
        show (if c < n then x.val c else _) = _
        rw [if_pos h]

/-! ### TrMul is called as C61 assumes -/

/-- Sizes of a source that can be packed. -/
structure SizeOk (kc rows cols : Nat) : Prop where
  pack : PackSizes (layout kc) rows cols
  flat : rows * (cols + kc) < 2 ^ 31

/-- Conditions on the arguments of CreateTrMulParamsAssumingColMajorDst. -/
structure CoreOk (sc : Scalars A) (kc : Nat) (lhs rhs dst : Mul.Mat A) (mp : MulParams A) (ch : ChannelDim) : Prop where
  lsize : SizeOk kc lhs.layout.rows lhs.layout.cols
  rsize : SizeOk kc rhs.layout.rows rhs.layout.cols
  depth : rhs.layout.rows = lhs.layout.rows
  depth4 : 4 * lhs.layout.rows < 2 ^ 31
  sources : DFits lhs ∧ DFits rhs
  drows : dst.layout.rows = lhs.layout.cols
  dcols : dst.layout.cols = rhs.layout.cols
  dorder : dst.layout.order = .colMajor
  dstride : dst.layout.rows ≤ dst.layout.stride
  dfits : DFits dst
  stride4 : 4 * dst.layout.stride < 2 ^ 31
  bias : BiasOk sc mp ((SidePair.mk lhs rhs).get (channelSide ch)).layout.cols

theorem step_of {m : Mul.Mat A} (h : DFits m) (h0 : 0 < m.layout.rows) (ho : m.layout.order = .colMajor) (c : Nat)
    (hc : c < m.layout.cols) : m.layout.stride * c < 2 ^ 31 := by
  have := (h 0 c h0 hc).1
  unfold off at this
  rw [ho] at this
  dsimp only at this
  have e := Nat.mul_comm m.layout.stride c
  omega

theorem side_of {f : Int → Int} {kc : Nat} {src : Mul.Mat A} {data sums : Nat → A}
    (hs : SizeOk kc src.layout.rows src.layout.cols) (hf : DFits src) :
    ∃ p, newPacked f (layout kc) src data sums = .ok p ∧ SideOk kc src p := by
  obtain ⟨p, e, _⟩ := Front.newPacked_total (f := f) (data := data) (sums := sums) hs.pack
  have hp := Front.newPacked_ok e
  obtain ⟨_, l1, l2, l3, l4, l5, l6, l7⟩ := createPackedLayout_ok hp.layout
  change p.layout.rows < src.layout.rows + 1 at l5
  change p.layout.cols < src.layout.cols + kc at l7
  refine ⟨p, e, ⟨hp.layout, ?_, hp.data.ge, hf, step_of hf hs.pack.rows_pos⟩⟩
  have h1 := hs.flat
  have h2 : p.layout.rows * p.layout.cols ≤ src.layout.rows * (src.layout.cols + kc) := Nat.mul_le_mul (by omega) (by omega)
  unfold pflatSize
  rw [l1, l2]
  dsimp only
  omega

theorem create_ok {sc : Scalars A} {kc : Nat} {lhs rhs dst : Mul.Mat A} {mp : MulParams A}
    {ch : ChannelDim} (h : CoreOk sc kc lhs rhs dst mp ch) (junk : Junk A) (trail : Side → Nat → Nat → A) :
    ∃ jb m n, create sc kc lhs rhs dst mp ch junk trail = .ok (jb, m) ∧ JobOk kc jb m ∧ m.dst = dst ∧ jb.src = ⟨lhs, rhs⟩ ∧
      Same ((SidePair.mk lhs rhs).get (channelSide ch)).layout.cols n { mp with channelDim := ch } jb.mp := by
  obtain ⟨pl, e1, s1⟩ := side_of (f := sc.packZp.lhs) (data := junk.data.lhs) (sums := junk.sums.lhs) h.lsize h.sources.1
  obtain ⟨pr, e2, s2⟩ := side_of (f := sc.packZp.rhs) (data := junk.data.rhs) (sums := junk.sums.rhs) h.rsize h.sources.2
  have hb : BiasOk sc { mp with channelDim := ch } ((SidePair.mk lhs rhs).get (channelSide ch)).layout.cols :=
    ⟨h.bias.rounding, h.bias.size, h.bias.quant, h.bias.tail⟩
  obtain ⟨r, e3, sm⟩ := ensured ((SidePair.mk pl pr).get (channelSide ch)).layout.cols hb
  have hw : channelStop r.1 ⟨pl.layout.cols, pr.layout.cols⟩ = ((SidePair.mk pl pr).get (channelSide ch)).layout.cols := by
    unfold channelStop
    rw [sm.channel]
    cases ch <;> rfl
  refine ⟨⟨⟨lhs, rhs⟩, r.1, trail⟩, ⟨⟨pl, pr⟩, dst⟩, _, ?_, ?_, rfl, rfl, sm⟩
  · unfold create
    rw [C.check_of h.dorder, C.ok_bind, e1, C.ok_bind, e2, C.ok_bind]
    dsimp only
    rw [e3]
    rfl
  · refine ⟨fun s => ?_, h.depth, h.drows, h.dcols, h.dorder, h.dstride, h.dfits, fun b hb => ?_, h.depth4, h.stride4,
      fun _ => h.lsize.pack.rows_pos⟩
    · cases s
      · exact s1
      · exact s2
    · show channelStop r.1 ⟨pl.layout.cols, pr.layout.cols⟩ ≤ _
      rw [hw]; exact sm.size b hb

/-! ### Conditions on the arguments of ruy::Mul -/

/-- The number of channels. -/
def channels (dst : Mul.Mat A) : ChannelDim → Nat
  | .row => dst.layout.rows
  | .col => dst.layout.cols

/-- Float matrices ruy::Mul accepts, with buffers that are large enough and sizes that are not too large. -/
structure UserOk (sc : Scalars A) (kc : Nat) (lhs rhs dst : Mul.Mat A) (mp : MulParams A) : Prop where
  valid : lhs.zp = 0 ∧ rhs.zp = 0 ∧ dst.zp = 0
  depth : lhs.layout.cols = rhs.layout.rows
  rows : dst.layout.rows = lhs.layout.rows
  cols : dst.layout.cols = rhs.layout.cols
  lsize : SizeOk kc lhs.layout.cols lhs.layout.rows
  rsize : SizeOk kc rhs.layout.rows rhs.layout.cols
  depth4 : 4 * lhs.layout.cols < 2 ^ 31
  fits : DFits lhs ∧ DFits rhs ∧ DFits dst
  stride : StrideOk dst.layout
  stride4 : 4 * dst.layout.stride < 2 ^ 31
  bias : BiasOk sc mp (channels dst mp.channelDim)

section
variable {sc : Scalars A} {kc : Nat} {lhs rhs dst : Mul.Mat A} {mp : MulParams A} {jb : Job A} {m : Mem A}

theorem UserOk.core (h : UserOk sc kc lhs rhs dst mp) (ho : dst.layout.order = .colMajor) :
    CoreOk sc kc lhs.transpose rhs dst mp mp.channelDim where
  lsize := h.lsize
  rsize := h.rsize
  depth := h.depth.symm
  depth4 := h.depth4
  sources := ⟨Front.dfits_transpose h.fits.1, h.fits.2.1⟩
  drows := h.rows
  dcols := h.cols
  dorder := ho
  dstride := by have := h.stride; unfold StrideOk at this; rw [ho] at this; exact this
  dfits := h.fits.2.2
  stride4 := h.stride4
  bias := by
    have := h.bias
    have hr := h.rows
    have hc := h.cols
    unfold channels at this
    cases hd : mp.channelDim <;> rw [hd] at this <;> dsimp only at this
    · rw [hr] at this; exact this
    · rw [hc] at this; exact this

theorem UserOk.swapped (h : UserOk sc kc lhs rhs dst mp) (ho : dst.layout.order ≠ .colMajor) :
    CoreOk sc kc rhs lhs.transpose dst.transpose mp mp.channelDim.transpose where
  lsize := h.rsize
  rsize := h.lsize
  depth := h.depth
  depth4 := by rw [← h.depth]; exact h.depth4
  sources := ⟨h.fits.2.1, Front.dfits_transpose h.fits.1⟩
  drows := h.cols
  dcols := h.rows
  dorder := by
    show dst.layout.transpose.order = _
    cases hd : dst.layout.order
    · exact absurd hd ho
    · unfold MatLayout.transpose; rw [hd]; rfl
  dstride := by
    have := h.stride
    unfold StrideOk at this
    cases hd : dst.layout.order
    · exact absurd hd ho
    · rw [hd] at this; exact this
  dfits := Front.dfits_transpose h.fits.2.2
  stride4 := h.stride4
  bias := by
    have := h.bias
    have hr := h.rows
    have hc := h.cols
    unfold channels at this
    cases hd : mp.channelDim <;> rw [hd] at this <;> dsimp only at this
    · rw [hr] at this; exact this
    · rw [hc] at this; exact this

/-! ### What TrMul computes, for the user -/

/-- Entry (i, j): multiply-adds in the order of the depth, starting with the bias, then clamped.  For row-major destinations the
factors are exchanged, which makes a difference at most for the payload of a NaN. -/
def entry (o : VOps A) (order : Mat.Order) (lhs rhs : Mul.Mat A) (mp : MulParams A) (i j : Nat) : A :=
  clamped o mp.clampMin mp.clampMax
    (match order with
      | .colMajor => dot o.madd (biasAt o.zero mp (channelOf mp.channelDim i j)) (fun k => lhs.at i k) (fun k => rhs.at k j)
          lhs.layout.cols
      | .rowMajor => dot o.madd (biasAt o.zero mp (channelOf mp.channelDim i j)) (fun k => rhs.at k j) (fun k => lhs.at i k)
          lhs.layout.cols)

/-- A destination TrMul may end with: simple loop, blocks by one thread, or any execution of several threads (trmul.cc:337-422). -/
inductive Ends (P : Path A) (jb : Job A) (m : Mem A) : Mul.Mat A → Prop
  | simple {m' : Mem A} : simpleLoop P jb m = .ok m' → Ends P jb m m'.dst
  | blocks {m' : Mem A} {bm : BlockMap.BlockMap} (pre : SidePair Bool) : TrMul.MapFor (shape m) bm →
      blockLoop P jb pre bm m = .ok m' → Ends P jb m m'.dst
  | threads {x : XState A} {bm : BlockMap.BlockMap} (pre : SidePair Bool) (threads : Nat) (sched : List Nat) :
      TrMul.MapFor (shape m) bm → 0 < threads → exec P jb pre bm threads sched m = .ok x →
      TrMul.Finished (control pre bm threads) x.ctl → Ends P jb m x.mem.dst

/-- `d` is a destination that ruy::Mul (ruy.h:36-48, frontend.h:80-95) may end with on path `P`. -/
def Mul (sc : Scalars A) (P : Path A) (lhs rhs dst : Mul.Mat A) (mp : MulParams A) (d : Mul.Mat A) : Prop :=
  ∃ junk trail jb m d', setup sc P.isa.kc lhs rhs dst mp junk trail = .ok (jb, m) ∧ Ends P jb m d' ∧ d = userView dst d'

/-- The job that TrMul gets from arguments as in `UserOk`. -/
structure SetUp (kc : Nat) (lhs rhs dst : Mul.Mat A) (mp : MulParams A) (jb : Job A) (m : Mem A) : Prop where
  ok : JobOk kc jb m
  target : m.dst = userView dst dst
  entries : ∀ o i j, i < dst.layout.rows → j < dst.layout.cols →
    ∃ r c, (r, c) = (if dst.layout.order = .colMajor then (i, j) else (j, i)) ∧
      XFloat.entry o jb r c = entry o dst.layout.order lhs rhs mp i j

theorem setup_ok (h : UserOk sc kc lhs rhs dst mp) (junk : Junk A) (trail : Side → Nat → Nat → A) :
    ∃ jb m, setup sc kc lhs rhs dst mp junk trail = .ok (jb, m) ∧ SetUp kc lhs rhs dst mp jb m := by
  have hv : validate .float .float .float lhs.zp rhs.zp dst.zp = .ok () := by
    obtain ⟨a, b, c⟩ := h.valid
    rw [a, b, c]
    decide
  unfold setup
  rw [hv, C.ok_bind]
  by_cases ho : dst.layout.order = .colMajor
  · rw [if_pos ho]
    obtain ⟨jb, m, n, e, ok, e1, e3, sm⟩ := create_ok (h.core ho) junk trail
    refine ⟨jb, m, e, ok, ?_, fun o i j hi hj => ⟨i, j, (by rw [if_pos ho]), ?_⟩⟩
    · rw [e1]; unfold userView; rw [if_pos ho]
    have hc : channelOf mp.channelDim i j < ((SidePair.mk lhs.transpose rhs).get (channelSide mp.channelDim)).layout.cols := by
      cases mp.channelDim
      · show i < lhs.layout.rows
        rw [← h.rows]; exact hi
      · show j < rhs.layout.cols
        rw [← h.cols]; exact hj
    have hch : jb.mp.channelDim = mp.channelDim := sm.channel
    have hlo : jb.mp.clampMin = mp.clampMin := sm.lo
    have hhi : jb.mp.clampMax = mp.clampMax := sm.hi
    have hbi : biasAt o.zero jb.mp (channelOf mp.channelDim i j) = biasAt o.zero mp (channelOf mp.channelDim i j) := sm.bias _ _ hc
    unfold XFloat.entry entry
    rw [hch, hlo, hhi, hbi, e3, ho]
    show clamped o _ _ (dot o.madd _ (fun d => lhs.transpose.at d i) (fun d => rhs.at d j) lhs.layout.cols) = _
    simp only [Front.at_transpose]
  · rw [if_neg ho]
    obtain ⟨jb, m, n, e, ok, e1, e3, sm⟩ := create_ok (h.swapped ho) junk trail
    refine ⟨jb, m, e, ok, ?_, fun o i j hi hj => ⟨j, i, (by rw [if_neg ho]), ?_⟩⟩
    · rw [e1]; unfold userView; rw [if_neg ho]
    have hc : channelOf mp.channelDim i j <
        ((SidePair.mk rhs lhs.transpose).get (channelSide mp.channelDim.transpose)).layout.cols := by
      cases mp.channelDim
      · show i < lhs.layout.rows
        rw [← h.rows]; exact hi
      · show j < rhs.layout.cols
        rw [← h.cols]; exact hj
    have ho' : dst.layout.order = .rowMajor := by
      cases hd : dst.layout.order
      · exact absurd hd ho
      · rfl
    have hch : jb.mp.channelDim = mp.channelDim.transpose := sm.channel
    have hlo : jb.mp.clampMin = mp.clampMin := sm.lo
    have hhi : jb.mp.clampMax = mp.clampMax := sm.hi
    have hbi : biasAt o.zero jb.mp (channelOf mp.channelDim i j) = biasAt o.zero mp (channelOf mp.channelDim i j) := sm.bias _ _ hc
    unfold XFloat.entry entry
    rw [hch, Front.channelOf_transpose, hlo, hhi, hbi, e3, ho']
    show clamped o _ _ (dot o.madd _ (fun d => rhs.at d j) (fun d => lhs.transpose.at d i) rhs.layout.rows) = _
    rw [h.depth]
    simp only [Front.at_transpose]

theorem ends_of {o : VOps A} {P : Path A} (hP : IsPath o P) (h : JobOk P.isa.kc jb m) (h0 : 0 < m.dst.layout.rows)
    (h1 : 0 < m.dst.layout.cols) {d : Mul.Mat A} (he : Ends P jb m d) : ∃ m', m'.dst = d ∧ Multiplied o jb m m' := by
  cases he with
  | simple e =>
    obtain ⟨m', e', M⟩ := c61_simple_loop hP h h0 h1
    rw [e] at e'; cases e'
    exact ⟨_, rfl, M⟩
  | blocks pre hm e =>
    obtain ⟨m', e', M⟩ := c61_block_loop hP h hm pre
    rw [e] at e'; cases e'
    exact ⟨_, rfl, M⟩
  | threads pre t sched hm ht e hf =>
    obtain ⟨x, e', M⟩ := c61_threads hP h hm pre ht sched
    rw [e] at e'; cases e'
    exact ⟨_, rfl, M hf⟩

theorem SetUp.rows (hs : SetUp kc lhs rhs dst mp jb m) : (m.dst.layout.rows, m.dst.layout.cols) =
    if dst.layout.order = .colMajor then (dst.layout.rows, dst.layout.cols) else (dst.layout.cols, dst.layout.rows) := by
  rw [hs.target]
  unfold userView
  split <;> rfl

theorem SetUp.inside (hs : SetUp kc lhs rhs dst mp jb m) {i j r c : Nat} (hi : i < dst.layout.rows) (hj : j < dst.layout.cols)
    (h : (r, c) = if dst.layout.order = .colMajor then (i, j) else (j, i)) : r < m.dst.layout.rows ∧ c < m.dst.layout.cols := by
  have e := hs.rows
  split at h <;> rename_i ho
  · rw [if_pos ho] at e
    simp only [Prod.mk.injEq] at h e
    omega
  · rw [if_neg ho] at e
    simp only [Prod.mk.injEq] at h e
    omega

theorem SetUp.pos (hs : SetUp kc lhs rhs dst mp jb m) (h : UserOk sc kc lhs rhs dst mp) :
    0 < m.dst.layout.rows ∧ 0 < m.dst.layout.cols := by
  have h1 := h.lsize.pack.cols_pos
  have h2 := h.rsize.pack.cols_pos
  have e1 := h.rows
  have e2 := h.cols
  exact hs.inside (i := 0) (j := 0) (by omega) (by omega) (by split <;> rfl)

theorem view_elem {d : Mul.Mat A} {i j r c : Nat} (h : (r, c) = if dst.layout.order = .colMajor then (i, j) else (j, i)) :
    (userView dst d).elem i j = d.elem r c := by
  unfold userView
  split at h <;> rename_i ho
  · rw [if_pos ho]; cases h; rfl
  · rw [if_neg ho]; cases h; exact Front.elem_transpose _ _ _

end

end Ruy.XFloat.Top

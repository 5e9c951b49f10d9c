import Verif.Simd.ThreadsProps
import Verif.Front.Props
/-
From ruy::Mul to TrMul on the x86 paths, 8-bit sources: validation, the choice of sides, packed matrices and per-channel
buffers (frontend.h:47-71, create_trmul_params.h:42-480, prepare_packed_matrices.cc:70-95), as in `Front/Model.lean`, but with
the kernel layouts of kernel_x86.h and keeping the MulParams that the SIMD kernels read.
-/
namespace Ruy.Simd.Top
open Ruy.Mat Ruy.Mul
open Ruy.Front (ScalarType MulParams Quant Junk Typed BuffersOk PackSizes newPacked ensureBuffers intScalars packInt channelSide validate
  channels userView)
open Ruy.TrMul (Mem)
open Ruy.Simd.Flow (Job)
open Ruy.Simd.Kern (biasAt fixedAt exponentAt BiasOk channelStop)
open Ruy.Simd.Pack (Is8)

/-! ### Model -/

/-- kernel_x86.h:45-46, kernel_x86.h:119-120, kernel_x86.h:217-218 (`LhsLayout`, `RhsLayout`): four levels, `kc` columns. -/
def layout (kc : Nat) : KernelLayout := ⟨.colMajor, 4, kc⟩

/-- create_trmul_params.h:405-442 + prepare_packed_matrices.cc:70-95 without caching (`Front.createColMajor`). -/
def create (kc : Nat) (ty : SidePair ScalarType) (dt : ScalarType) (lhs rhs dst : Mul.Mat Int) (mp : MulParams Int) (ch : ChannelDim)
    (junk : Junk Int) : C (Job × Mem Int) := do
  C.check (dst.layout.order = .colMajor)
  let pl ← newPacked (packInt ty.lhs .int8) (layout kc) lhs junk.data.lhs junk.sums.lhs
  let pr ← newPacked (packInt ty.rhs .int8) (layout kc) rhs junk.data.rhs junk.sums.rhs
  let packed : SidePair (PMat Int) := ⟨pl, pr⟩
  let src : SidePair (Mul.Mat Int) := ⟨lhs, rhs⟩
  let e ← ensureBuffers (intScalars Arith.int32 ty ⟨.int8, .int8⟩ dt) { mp with channelDim := ch }
    (src.get (channelSide ch)).layout.cols (packed.get (channelSide ch)).layout.cols
  .ok (⟨ty, dt, src, e.1⟩, ⟨packed, dst⟩)

/-- frontend.h:47-71 and create_trmul_params.h:465-480 (`Front.frontEnd`). -/
def setup (kc : Nat) (ty : SidePair ScalarType) (dt : ScalarType) (lhs rhs dst : Mul.Mat Int) (mp : MulParams Int) (junk : Junk Int) :
    C (Job × Mem Int) := do
  validate ty.lhs ty.rhs dt lhs.zp rhs.zp dst.zp
  if dst.layout.order = .colMajor then create kc ty dt lhs.transpose rhs dst mp mp.channelDim junk
  else create kc ⟨ty.rhs, ty.lhs⟩ dt rhs lhs.transpose dst.transpose mp mp.channelDim.transpose junk

/-! ### Per-channel buffers -/

/-- Parameters a kernel cannot tell from `mp` on the first `n` channels. -/
structure Same (n : Nat) (mp mp' : MulParams Int) : Prop where
  channel : mp'.channelDim = mp.channelDim
  lo : mp'.clampMin = mp.clampMin
  hi : mp'.clampMax = mp.clampMax
  some : mp'.quant.isSome = mp.quant.isSome
  bias : ∀ c, c < n → biasAt mp'.bias c = biasAt mp.bias c
  fixed : ∀ c, c < n → fixedAt mp'.quant c = fixedAt mp.quant c
  exponent : ∀ c, c < n → exponentAt mp'.quant c = exponentAt mp.quant c
  both : (∀ q, mp.quant = .some q → q.exponentPerChannel.isSome = q.fixedPerChannel.isSome) →
    ∀ q, mp'.quant = .some q → q.exponentPerChannel.isSome = q.fixedPerChannel.isSome
  bias32 : BiasOk mp → BiasOk mp'

theorem grown_isSome {α : Type} {z : α} {n req : Nat} {b b' : Option (Buf α)} (h : Front.Grown z n req b b') :
    b'.isSome = b.isSome := by
  rcases h with ⟨rfl, rfl⟩ | ⟨x, x', rfl, rfl, _⟩ <;> rfl

theorem ensured {ty packed : SidePair ScalarType} {dt : ScalarType} {mp : MulParams Int} {n req : Nat} {r : MulParams Int × Bool}
    (hb : BuffersOk mp n) (h : ensureBuffers (intScalars Arith.int32 ty packed dt) mp n req = .ok r) : Same n mp r.1 := by
  obtain ⟨k, hk⟩ := hb.rounding
  obtain ⟨cap, hcap⟩ : ∃ cap, SizeUtil.nRoundUpPot n mp.capacityRounding = .ok cap := by
    rw [hk]; exact nRoundUpPot_total (by rw [← hk]; exact hb.size)
  have hn := (nRoundUpPot_ge hcap).2.1
  obtain ⟨_, h2, h3⟩ := Front.c29_replacement _ mp n req cap r h hcap
  cases hr : r.2 with
  | false =>
    rw [h2 hr]
    exact ⟨rfl, rfl, rfl, rfl, fun _ _ => rfl, fun _ _ => rfl, fun _ _ => rfl, fun h => h, fun h => h⟩
  | true =>
    obtain ⟨g1, g2, g3, g4, g5⟩ := h3 hr
    have hq : mp.quant = none → r.1.quant = none := by
      intro hmq
      unfold ensureBuffers at h
      rw [hcap, C.ok_bind] at h
      obtain ⟨_, _, h⟩ := C.bind_ok h
      obtain ⟨_, _, h⟩ := C.bind_ok h
      split at h
      · cases h; exact hmq
      · obtain ⟨_, _, h⟩ := C.bind_ok h
        obtain ⟨q', hq', h⟩ := C.bind_ok h
        cases h
        rw [hmq] at hq'
        cases hq'
        rfl
    have gb : ∀ c, c < n → biasAt r.1.bias c = biasAt mp.bias c := by
      intro c hc
      rcases g1 with ⟨e1, e2⟩ | ⟨x, x', e1, e2, _, e3, _⟩
      · rw [e1, e2]
      · rw [e1, e2]; exact e3 c hc
    have gB : BiasOk mp → BiasOk r.1 := by
      intro hB b ch e hch
      rcases g1 with ⟨e1, e2⟩ | ⟨x, x', e1, e2, _, e3, e4⟩
      · rw [e2] at e; cases e
      · rw [e2] at e; cases e
        by_cases hc : ch < n
        · rw [e3 ch hc]
          exact hB x ch e1 (by have := (hb.bias cap hcap x e1).1; omega)
        · rw [e4 ch (by omega)]
          show Multiplier.isI32 0
          unfold Multiplier.isI32
          omega
    cases hmq : mp.quant with
    | none =>
      have := hq hmq
      exact ⟨g3, g4, g5, (by rw [this, hmq]), gb, (fun _ _ => by rw [this, hmq]), (fun _ _ => by rw [this, hmq]),
        (fun _ q e => by rw [this] at e; cases e), gB⟩
    | some q0 =>
      obtain ⟨q', e, e1, e2, f1, f2⟩ := g2 q0 hmq
      refine ⟨g3, g4, g5, by rw [e, hmq]; rfl, gb, fun c hc => ?_, fun c hc => ?_, fun hh q e' => ?_, gB⟩
      · rw [e, hmq]
        unfold fixedAt
        dsimp only
        rcases f1 with ⟨e3, e4⟩ | ⟨x, x', e3, e4, _, e5, _⟩
        · rw [e3, e4]; exact e1
        · rw [e3, e4]; exact e5 c hc
      · rw [e, hmq]
        unfold exponentAt
        dsimp only
        rcases f2 with ⟨e3, e4⟩ | ⟨x, x', e3, e4, _, e5, _⟩
        · rw [e3, e4]; exact e2
        · rw [e3, e4]; exact e5 c hc
      · rw [e] at e'; cases e'
        rw [grown_isSome f1, grown_isSome f2]
        exact hh q0 hmq

/-! ### TrMul is called as C52 and C53 assume -/

/-- Conditions on the arguments of CreateTrMulParamsAssumingColMajorDst. -/
structure CoreOk (kc : Nat) (ty : SidePair ScalarType) (dt : ScalarType) (lhs rhs dst : Mul.Mat Int) (mp : MulParams Int)
    (ch : ChannelDim) : Prop where
  types : Is8 ty.lhs ∧ Is8 ty.rhs
  typed : Typed ty.lhs lhs ∧ Typed ty.rhs rhs
  lsize : PackSizes (layout kc) lhs.layout.rows lhs.layout.cols
  rsize : PackSizes (layout kc) rhs.layout.rows rhs.layout.cols
  depth : rhs.layout.rows = lhs.layout.rows
  small : lhs.layout.rows + 3 < 2 ^ 24
  sources : DFits lhs ∧ DFits rhs
  drows : dst.layout.rows = lhs.layout.cols
  dcols : dst.layout.cols = rhs.layout.cols
  dtype : dt ≠ .float
  dorder : dst.layout.order = .colMajor
  dstride : dst.layout.rows ≤ dst.layout.stride
  dfits : DFits dst
  kd : kc * (Kern.sizeOf dt * dst.layout.stride) < 2 ^ 31
  zps : |packInt ty.lhs .int8 lhs.zp * packInt ty.rhs .int8 rhs.zp| * (lhs.layout.rows + 3 : Nat) < 2 ^ 31
  buffers : BuffersOk mp ((SidePair.mk lhs rhs).get (channelSide ch)).layout.cols
  both : ∀ q, mp.quant = some q → q.exponentPerChannel.isSome = q.fixedPerChannel.isSome
  bias32 : BiasOk mp

theorem step_of {m : Mul.Mat Int} (h : DFits m) (h0 : 0 < m.layout.rows) (ho : m.layout.order = .colMajor) (c : Nat)
    (hc : c < m.layout.cols) : m.layout.stride * c < 2 ^ 31 := by
  have := (h 0 c h0 hc).1
  unfold off at this
  rw [ho] at this
  dsimp only at this
  have e := Nat.mul_comm m.layout.stride c
  omega

theorem side_of {kc : Nat} {t : ScalarType} {src : Mul.Mat Int} {data sums : Nat → Int} (ht : Is8 t) (hty : Typed t src)
    (hs : PackSizes (layout kc) src.layout.rows src.layout.cols) (hd : src.layout.rows + 3 < 2 ^ 24) (hf : DFits src) :
    ∃ p, newPacked (packInt t .int8) (layout kc) src data sums = .ok p ∧ Flow.SideOk kc t src p ∧
      p.layout.rows ≤ src.layout.rows + 3 := by
  obtain ⟨p, e, hfl⟩ := Front.newPacked_total (f := packInt t .int8) (data := data) (sums := sums) hs
  have hp := Front.newPacked_ok e
  have kl := createPackedLayout_ok hp.layout
  have hr : p.layout.rows < src.layout.rows + 4 := kl.2.2.2.2.2.1
  exact ⟨p, e, ⟨ht, hty, hp.layout, hp.zp, hp.sums, by omega, ⟨hfl, hp.data.ge, fun b hb => (hp.sumsSize b hb).ge⟩, hf,
    step_of hf hs.rows_pos⟩, by omega⟩

theorem create_ok {kc : Nat} {ty : SidePair ScalarType} {dt : ScalarType} {lhs rhs dst : Mul.Mat Int} {mp : MulParams Int}
    {ch : ChannelDim} (h : CoreOk kc ty dt lhs rhs dst mp ch) (junk : Junk Int) :
    ∃ jb m, create kc ty dt lhs rhs dst mp ch junk = .ok (jb, m) ∧ Flow.JobOk kc jb m ∧ m.dst = dst ∧ jb.dt = dt ∧
      jb.src = ⟨lhs, rhs⟩ ∧ Same ((SidePair.mk lhs rhs).get (channelSide ch)).layout.cols { mp with channelDim := ch } jb.mp := by
  obtain ⟨pl, e1, s1, r1⟩ := side_of (data := junk.data.lhs) (sums := junk.sums.lhs) h.types.1 h.typed.1 h.lsize h.small h.sources.1
  obtain ⟨pr, e2, s2, r2⟩ := side_of (data := junk.data.rhs) (sums := junk.sums.rhs) h.types.2 h.typed.2 h.rsize
    (by rw [h.depth]; exact h.small) h.sources.2
  have hb : BuffersOk { mp with channelDim := ch } ((SidePair.mk lhs rhs).get (channelSide ch)).layout.cols :=
    ⟨h.buffers.rounding, h.buffers.size, h.buffers.bias, h.buffers.fixed, h.buffers.exponent⟩
  obtain ⟨r, e3⟩ := Front.ensureBuffers_total (ar := Arith.int32) (ty := ty) (packed := ⟨.int8, .int8⟩) (dst := dt)
    (req := ((SidePair.mk pl pr).get (channelSide ch)).layout.cols) hb
  have sm := ensured hb e3
  obtain ⟨w1, w2⟩ := Front.c29_covers_packed_width _ _ _ _ _ _ _ _ hb e3
  have hw : channelStop r.1 ⟨pl.layout.cols, pr.layout.cols⟩ = ((SidePair.mk pl pr).get (channelSide ch)).layout.cols := by
    unfold channelStop
    rw [sm.channel]
    cases ch <;> rfl
  refine ⟨⟨ty, dt, ⟨lhs, rhs⟩, r.1⟩, ⟨⟨pl, pr⟩, dst⟩, ?_, ?_, rfl, rfl, rfl, sm⟩
  · unfold create
    rw [C.check_of h.dorder, C.ok_bind, e1, C.ok_bind, e2, C.ok_bind]
    dsimp only
    rw [e3]
    rfl
  · refine ⟨fun s => ?_, h.depth, h.drows, h.dcols, h.dtype, h.dorder, h.dstride, h.dfits, h.kd, ?_, fun b hb => ?_,
      sm.both h.both, fun q f hq hf => ?_, fun q f hq hf => ?_, sm.bias32 h.bias32⟩
    · cases s
      · exact s1
      · exact s2
    · show -2 ^ 31 ≤ pl.zp * pr.zp * (pl.layout.rows : Int) ∧ pl.zp * pr.zp * (pl.layout.rows : Int) < 2 ^ 31
      rw [s1.zp, s2.zp]
      have hz := h.zps
      generalize packInt ty.lhs .int8 lhs.zp * packInt ty.rhs .int8 rhs.zp = z at hz ⊢
      have : |z * (pl.layout.rows : Int)| < 2 ^ 31 := by
        rw [abs_mul, Nat.abs_cast]
        refine lt_of_le_of_lt (mul_le_mul_of_nonneg_left ?_ (abs_nonneg z)) hz
        exact_mod_cast r1
      obtain ⟨a, b⟩ := abs_lt.1 this
      exact ⟨a.le, b⟩
    · show channelStop r.1 ⟨pl.layout.cols, pr.layout.cols⟩ ≤ _
      rw [hw]; exact w1 b hb
    · show channelStop r.1 ⟨pl.layout.cols, pr.layout.cols⟩ ≤ _
      rw [hw]; exact (w2 q hq).1 f hf
    · show channelStop r.1 ⟨pl.layout.cols, pr.layout.cols⟩ ≤ _
      rw [hw]; exact (w2 q hq).2 f hf

/-! ### Conditions on the arguments of ruy::Mul -/

/-- 8-bit matrices ruy::Mul accepts, with buffers that are large enough and sizes that are not too large. -/
structure UserOk (kc : Nat) (ty : SidePair ScalarType) (dt : ScalarType) (lhs rhs dst : Mul.Mat Int) (mp : MulParams Int) : Prop where
  types : Is8 ty.lhs ∧ Is8 ty.rhs
  typed : Typed ty.lhs lhs ∧ Typed ty.rhs rhs
  valid : validate ty.lhs ty.rhs dt lhs.zp rhs.zp dst.zp = .ok ()
  depth : lhs.layout.cols = rhs.layout.rows
  rows : dst.layout.rows = lhs.layout.rows
  cols : dst.layout.cols = rhs.layout.cols
  lsize : PackSizes (layout kc) lhs.layout.cols lhs.layout.rows
  rsize : PackSizes (layout kc) rhs.layout.rows rhs.layout.cols
  small : lhs.layout.cols + 3 < 2 ^ 24
  fits : DFits lhs ∧ DFits rhs ∧ DFits dst
  dtype : dt ≠ .float
  stride : StrideOk dst.layout
  block : kc * (Kern.sizeOf dt * dst.layout.stride) < 2 ^ 31
  zps : |packInt ty.lhs .int8 lhs.zp * packInt ty.rhs .int8 rhs.zp| * (lhs.layout.cols + 3 : Nat) < 2 ^ 31
  buffers : BuffersOk mp (channels dst mp.channelDim)
  both : ∀ q, mp.quant = some q → q.exponentPerChannel.isSome = q.fixedPerChannel.isSome
  bias32 : BiasOk mp

theorem typed_transpose {t : ScalarType} {m : Mul.Mat Int} (h : Typed t m) : Typed t m.transpose :=
  ⟨h.zp, fun i j hi hj => by rw [Front.at_transpose]; exact h.elems j i hj hi⟩

theorem UserOk.core {kc : Nat} {ty : SidePair ScalarType} {dt : ScalarType} {lhs rhs dst : Mul.Mat Int} {mp : MulParams Int}
    (h : UserOk kc ty dt lhs rhs dst mp) (ho : dst.layout.order = .colMajor) :
    CoreOk kc ty dt lhs.transpose rhs dst mp mp.channelDim where
  types := h.types
  typed := ⟨typed_transpose h.typed.1, h.typed.2⟩
  lsize := h.lsize
  rsize := h.rsize
  depth := h.depth.symm
  small := h.small
  sources := ⟨Front.dfits_transpose h.fits.1, h.fits.2.1⟩
  drows := h.rows
  dcols := h.cols
  dtype := h.dtype
  dorder := ho
  dstride := by have := h.stride; unfold StrideOk at this; rw [ho] at this; exact this
  dfits := h.fits.2.2
  kd := h.block
  zps := h.zps
  buffers := by
    have := h.buffers
    have hr := h.rows
    have hc := h.cols
    unfold channels at this
    cases hd : mp.channelDim <;> rw [hd] at this <;> dsimp only at this
    · rw [hr] at this; exact this
    · rw [hc] at this; exact this
  both := h.both
  bias32 := h.bias32

theorem UserOk.swapped {kc : Nat} {ty : SidePair ScalarType} {dt : ScalarType} {lhs rhs dst : Mul.Mat Int} {mp : MulParams Int}
    (h : UserOk kc ty dt lhs rhs dst mp) (ho : dst.layout.order ≠ .colMajor) :
    CoreOk kc ⟨ty.rhs, ty.lhs⟩ dt rhs lhs.transpose dst.transpose mp mp.channelDim.transpose where
  types := ⟨h.types.2, h.types.1⟩
  typed := ⟨h.typed.2, typed_transpose h.typed.1⟩
  lsize := h.rsize
  rsize := h.lsize
  depth := h.depth
  small := by rw [← h.depth]; exact h.small
  sources := ⟨h.fits.2.1, Front.dfits_transpose h.fits.1⟩
  drows := h.cols
  dcols := h.rows
  dtype := h.dtype
  dorder := by
    show dst.layout.transpose.order = _
    cases hd : dst.layout.order
    · exact absurd hd ho
    · unfold MatLayout.transpose; rw [hd]; rfl
  dstride := by
    have := h.stride
    unfold StrideOk at this
    cases hd : dst.layout.order
    · exact absurd hd ho
    · rw [hd] at this; exact this
  dfits := Front.dfits_transpose h.fits.2.2
  kd := h.block
  zps := by
    rw [← h.depth, mul_comm (packInt ty.rhs .int8 rhs.zp)]
    exact h.zps
  buffers := by
    have := h.buffers
    have hr := h.rows
    have hc := h.cols
    unfold channels at this
    cases hd : mp.channelDim <;> rw [hd] at this <;> dsimp only at this
    · rw [hr] at this; exact this
    · rw [hc] at this; exact this
  both := h.both
  bias32 := h.bias32

/-! ### What TrMul computes, for the user -/

/-- The mathematical entry: bias plus inner product of a row of LHS and a column of RHS, without their zero points. -/
def entry (lhs rhs : Mul.Mat Int) (mp : MulParams Int) (i j : Nat) : Int :=
  biasAt mp.bias (channelOf mp.channelDim i j) +
    ∑ k ∈ Finset.range lhs.layout.cols, (lhs.at i k - lhs.zp) * (rhs.at k j - rhs.zp)

/-- The same with zero point, exactly rounded multiplier and clamp. -/
def quantizedEntry (lhs rhs : Mul.Mat Int) (mp : MulParams Int) (dzp : Int) (i j : Nat) : Int :=
  max mp.clampMin (min mp.clampMax (dzp + Multiplier.scaled (entry lhs rhs mp i j)
    (fixedAt mp.quant (channelOf mp.channelDim i j)) (exponentAt mp.quant (channelOf mp.channelDim i j))))

/-- A destination TrMul may end with: simple loop, blocks by one thread, or any execution of several threads (trmul.cc:337-422). -/
inductive Ends (P : Flow.Path) (jb : Job) (m : Mem Int) : Mul.Mat Int → Prop
  | simple {m' : Mem Int} : Flow.simpleLoop P jb m = .ok m' → Ends P jb m m'.dst
  | blocks {m' : Mem Int} {bm : BlockMap.BlockMap} (pre : SidePair Bool) : TrMul.MapFor m bm →
      (Flow.runOps P jb (Flow.prepackOps pre m) m >>= Flow.blockLoop P jb pre bm) = .ok m' → Ends P jb m m'.dst
  | threads {x : Flow.XState} {bm : BlockMap.BlockMap} (pre : SidePair Bool) (threads : Nat) (sched : List Nat) :
      TrMul.MapFor m bm → 0 < threads → Flow.exec P jb pre bm threads sched m = .ok x →
      TrMul.Finished (Flow.control pre bm threads) x.ctl → Ends P jb m x.mem.dst

/-- `d` is a destination that ruy::Mul (ruy.h:36-48, frontend.h:80-95) may end with on path `P`. -/
def Mul (P : Flow.Path) (ty : SidePair ScalarType) (dt : ScalarType) (lhs rhs dst : Mul.Mat Int) (mp : MulParams Int)
    (d : Mul.Mat Int) : Prop :=
  ∃ junk jb m d', setup P.kernel.isa.kc ty dt lhs rhs dst mp junk = .ok (jb, m) ∧ Ends P jb m d' ∧ d = userView dst d'

/-- The job that TrMul gets from arguments as in `UserOk`. -/
structure SetUp (kc : Nat) (dt : ScalarType) (lhs rhs dst : Mul.Mat Int) (mp : MulParams Int) (jb : Job) (m : Mem Int) : Prop where
  ok : Flow.JobOk kc jb m
  result : jb.dt = dt
  target : m.dst = userView dst dst
  lo : jb.mp.clampMin = mp.clampMin
  hi : jb.mp.clampMax = mp.clampMax
  quant : jb.mp.quant.isSome = mp.quant.isSome
  entries : ∀ i j, i < dst.layout.rows → j < dst.layout.cols → ∃ r c, (r, c) = (if dst.layout.order = .colMajor then (i, j) else (j, i)) ∧
    Flow.exact jb r c = entry lhs rhs mp i j ∧
    fixedAt jb.mp.quant (channelOf jb.mp.channelDim r c) = fixedAt mp.quant (channelOf mp.channelDim i j) ∧
    exponentAt jb.mp.quant (channelOf jb.mp.channelDim r c) = exponentAt mp.quant (channelOf mp.channelDim i j)

theorem setup_ok {kc : Nat} {ty : SidePair ScalarType} {dt : ScalarType} {lhs rhs dst : Mul.Mat Int} {mp : MulParams Int}
    (h : UserOk kc ty dt lhs rhs dst mp) (junk : Junk Int) :
    ∃ jb m, setup kc ty dt lhs rhs dst mp junk = .ok (jb, m) ∧ SetUp kc dt lhs rhs dst mp jb m := by
  unfold setup
  rw [h.valid, C.ok_bind]
  by_cases ho : dst.layout.order = .colMajor
  · rw [if_pos ho]
    obtain ⟨jb, m, e, ok, e1, e2, e3, sm⟩ := create_ok (h.core ho) junk
    refine ⟨jb, m, e, ok, e2, ?_, sm.lo, sm.hi, sm.some, fun i j hi hj => ⟨i, j, (by rw [if_pos ho]), ?_⟩⟩
    · rw [e1]; unfold userView; rw [if_pos ho]
    have hc : channelOf mp.channelDim i j < ((SidePair.mk lhs.transpose rhs).get (channelSide mp.channelDim)).layout.cols := by
      cases mp.channelDim
      · show i < lhs.layout.rows
        rw [← h.rows]; exact hi
      · show j < rhs.layout.cols
        rw [← h.cols]; exact hj
    have hch : jb.mp.channelDim = mp.channelDim := sm.channel
    rw [hch]
    refine ⟨?_, sm.fixed _ hc, sm.exponent _ hc⟩
    unfold Flow.exact entry
    rw [hch, sm.bias _ hc, e3]
    show _ + ∑ k ∈ Finset.range lhs.layout.cols, (lhs.transpose.at k i - lhs.zp) * (rhs.at k j - rhs.zp) = _
    simp only [Front.at_transpose]
  · rw [if_neg ho]
    obtain ⟨jb, m, e, ok, e1, e2, e3, sm⟩ := create_ok (h.swapped ho) junk
    refine ⟨jb, m, e, ok, e2, ?_, sm.lo, sm.hi, sm.some, fun i j hi hj => ⟨j, i, (by rw [if_neg ho]), ?_⟩⟩
    · rw [e1]; unfold userView; rw [if_neg ho]
    have hc : channelOf mp.channelDim i j <
        ((SidePair.mk rhs lhs.transpose).get (channelSide mp.channelDim.transpose)).layout.cols := by
      cases mp.channelDim
      · show i < lhs.layout.rows
        rw [← h.rows]; exact hi
      · show j < rhs.layout.cols
        rw [← h.cols]; exact hj
    have hch : jb.mp.channelDim = mp.channelDim.transpose := sm.channel
    rw [hch, Front.channelOf_transpose]
    refine ⟨?_, sm.fixed _ hc, sm.exponent _ hc⟩
    unfold Flow.exact entry
    rw [hch, Front.channelOf_transpose, sm.bias _ hc, e3]
    show _ + ∑ k ∈ Finset.range rhs.layout.rows, (rhs.at k j - rhs.zp) * (lhs.transpose.at k i - lhs.zp) = _
    rw [h.depth]
    congr 1
    refine Finset.sum_congr rfl (fun k _ => ?_)
    rw [Front.at_transpose, mul_comm]

theorem ends_of {P : Flow.Path} {ml : Int → Int → Int → Int} (hP : (P, ml) ∈ Flow.paths) {jb : Job} {m : Mem Int}
    (h : Flow.JobOk P.kernel.isa.kc jb m) (h0 : 0 < m.dst.layout.rows) (h1 : 0 < m.dst.layout.cols) {d : Mul.Mat Int}
    (he : Ends P jb m d) : ∃ m', m'.dst = d ∧ Flow.Multiplied ml jb m m' := by
  cases he with
  | simple e =>
    obtain ⟨m', e', s, v, r⟩ := Flow.c52_simple_loop hP h h0 h1
    rw [e] at e'; cases e'
    exact ⟨_, rfl, s, v, r⟩
  | blocks pre hm e =>
    obtain ⟨m', e', M⟩ := Flow.c53_block_loop hP h hm pre
    rw [e] at e'; cases e'
    exact ⟨_, rfl, M⟩
  | threads pre t sched hm ht e hf =>
    obtain ⟨x, e', M⟩ := Flow.c53_threads hP h hm pre ht sched
    rw [e] at e'; cases e'
    exact ⟨_, rfl, M hf⟩

section
variable {kc : Nat} {ty : SidePair ScalarType} {dt : ScalarType} {lhs rhs dst : Mul.Mat Int} {mp : MulParams Int} {jb : Job} {m : Mem Int}

theorem SetUp.rows (hs : SetUp kc dt lhs rhs dst mp jb m) : (m.dst.layout.rows, m.dst.layout.cols) =
    if dst.layout.order = .colMajor then (dst.layout.rows, dst.layout.cols) else (dst.layout.cols, dst.layout.rows) := by
  rw [hs.target]
  unfold userView
  split <;> rfl

theorem SetUp.inside (hs : SetUp kc dt lhs rhs dst mp jb m) {i j r c : Nat} (hi : i < dst.layout.rows) (hj : j < dst.layout.cols)
    (h : (r, c) = if dst.layout.order = .colMajor then (i, j) else (j, i)) : r < m.dst.layout.rows ∧ c < m.dst.layout.cols := by
  have e := hs.rows
  split at h <;> rename_i ho
  · rw [if_pos ho] at e
    simp only [Prod.mk.injEq] at h e
    omega
  · rw [if_neg ho] at e
    simp only [Prod.mk.injEq] at h e
    omega

theorem SetUp.pos (hs : SetUp kc dt lhs rhs dst mp jb m) (h : UserOk kc ty dt lhs rhs dst mp) :
    0 < m.dst.layout.rows ∧ 0 < m.dst.layout.cols := by
  have h1 := h.lsize.cols_pos
  have h2 := h.rsize.cols_pos
  have e1 := h.rows
  have e2 := h.cols
  exact hs.inside (i := 0) (j := 0) (by omega) (by omega) (by split <;> rfl)

theorem SetUp.packed (hs : SetUp kc dt lhs rhs dst mp jb m) {r c : Nat} (hr : r < m.dst.layout.rows) (hc : c < m.dst.layout.cols) :
    r < m.packed.lhs.layout.cols ∧ c < m.packed.rhs.layout.cols := by
  have l := (createPackedLayout_ok (hs.ok.side .lhs).layout).2.2.2.2.2.2.1
  have r := (createPackedLayout_ok (hs.ok.side .rhs).layout).2.2.2.2.2.2.1
  simp only [SidePair.get_lhs, SidePair.get_rhs] at l r
  have := hs.ok.drows
  have := hs.ok.dcols
  omega

theorem view_elem {d : Mul.Mat Int} {i j r c : Nat} (h : (r, c) = if dst.layout.order = .colMajor then (i, j) else (j, i)) :
    (userView dst d).elem i j = d.elem r c := by
  unfold userView
  split at h <;> rename_i ho
  · rw [if_pos ho]; cases h; rfl
  · rw [if_neg ho]; cases h; exact Front.elem_transpose _ _ _
end

end Ruy.Simd.Top

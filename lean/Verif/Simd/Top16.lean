import Verif.Simd.Top
import Verif.Simd.Flow16ThreadsProps
/-
From ruy::Mul to TrMul on AVX2 and AVX-512 with an 8-bit and an int16 source, as `Simd/Top.lean`.

TrMul has SIMD kernels for an 8-bit LHS and an int16 RHS only (kernel_x86.h:62-86, kernel_x86.h:136-159).  They are reached by
an 8-bit LHS and an int16 RHS for column-major destinations, and by an int16 LHS and an 8-bit RHS for row-major destinations,
for which the sides are exchanged.  The other combinations use the generic kernel (kernel_x86.h:34-36), which is not modelled here.
-/
namespace Ruy.Simd.Top16
open Ruy.Mat Ruy.Mul
open Ruy.Front (ScalarType MulParams Quant Junk Typed BuffersOk PackSizes newPacked ensureBuffers intScalars packInt channelSide validate
  channels userView)
open Ruy.TrMul (Mem)
open Ruy.Simd.Flow (Job Multiplied)
open Ruy.Simd.Kern (biasAt fixedAt exponentAt BiasOk channelStop)
open Ruy.Simd.Pack (Is8)
open Ruy.Simd.Top (Same layout step_of typed_transpose entry quantizedEntry)
open Ruy.Simd.Flow16 (Path16)

/-! ### Model -/

/-- pack_common.h:47-53, pack_x86.h:44-57: uint8 is packed as int8, int8 and int16 as they are. -/
def packedType (t : ScalarType) : ScalarType := if t = .uint8 then .int8 else t

/-- create_trmul_params.h:405-442 + prepare_packed_matrices.cc:70-95 without caching (`Front.createColMajor`). -/
def create (kc : Nat) (ty : SidePair ScalarType) (dt : ScalarType) (lhs rhs dst : Mul.Mat Int) (mp : MulParams Int) (ch : ChannelDim)
    (junk : Junk Int) : C (Job × Mem Int) := do
  C.check (dst.layout.order = .colMajor)
  let pl ← newPacked (packInt ty.lhs (packedType ty.lhs)) (layout kc) lhs junk.data.lhs junk.sums.lhs
  let pr ← newPacked (packInt ty.rhs (packedType ty.rhs)) (layout kc) rhs junk.data.rhs junk.sums.rhs
  let packed : SidePair (PMat Int) := ⟨pl, pr⟩
  let src : SidePair (Mul.Mat Int) := ⟨lhs, rhs⟩
  let e ← ensureBuffers (intScalars Arith.int32 ty ⟨packedType ty.lhs, packedType ty.rhs⟩ dt) { mp with channelDim := ch }
    (src.get (channelSide ch)).layout.cols (packed.get (channelSide ch)).layout.cols
  .ok (⟨ty, dt, src, e.1⟩, ⟨packed, dst⟩)

/-- frontend.h:47-71 and create_trmul_params.h:465-480 (`Front.frontEnd`). -/
def setup (kc : Nat) (ty : SidePair ScalarType) (dt : ScalarType) (lhs rhs dst : Mul.Mat Int) (mp : MulParams Int) (junk : Junk Int) :
    C (Job × Mem Int) := do
  validate ty.lhs ty.rhs dt lhs.zp rhs.zp dst.zp
  if dst.layout.order = .colMajor then create kc ty dt lhs.transpose rhs dst mp mp.channelDim junk
  else create kc ⟨ty.rhs, ty.lhs⟩ dt rhs lhs.transpose dst.transpose mp mp.channelDim.transpose junk

/-! ### TrMul is called as C92 and C93 assume -/

/-- Conditions on the arguments of CreateTrMulParamsAssumingColMajorDst. -/
structure CoreOk (kc : Nat) (ty : SidePair ScalarType) (dt : ScalarType) (lhs rhs dst : Mul.Mat Int) (mp : MulParams Int)
    (ch : ChannelDim) : Prop where
  types : Is8 ty.lhs ∧ ty.rhs = .int16
  typed : Typed ty.lhs lhs ∧ Typed ty.rhs rhs
  lsize : PackSizes (layout kc) lhs.layout.rows lhs.layout.cols
  rsize : PackSizes (layout kc) rhs.layout.rows rhs.layout.cols
  depth : rhs.layout.rows = lhs.layout.rows
  small : lhs.layout.rows + 3 < 2 ^ 16
  sources : DFits lhs ∧ DFits rhs
  drows : dst.layout.rows = lhs.layout.cols
  dcols : dst.layout.cols = rhs.layout.cols
  dtype : dt ≠ .float
  dorder : dst.layout.order = .colMajor
  dstride : dst.layout.rows ≤ dst.layout.stride
  dfits : DFits dst
  kd : kc * (Kern.sizeOf dt * dst.layout.stride) < 2 ^ 31
  zero : rhs.zp = 0
  buffers : BuffersOk mp ((SidePair.mk lhs rhs).get (channelSide ch)).layout.cols
  both : ∀ q, mp.quant = some q → q.exponentPerChannel.isSome = q.fixedPerChannel.isSome
  bias32 : BiasOk mp

theorem rhs_of {kc : Nat} {src : Mul.Mat Int} {data sums : Nat → Int} (hty : Typed .int16 src)
    (hs : PackSizes (layout kc) src.layout.rows src.layout.cols) (hd : src.layout.rows + 3 < 2 ^ 16) (hf : DFits src) :
    ∃ p, newPacked (packInt .int16 .int16) (layout kc) src data sums = .ok p ∧ Flow16.RhsOk kc src p := by
  obtain ⟨p, e, hfl⟩ := Front.newPacked_total (f := packInt .int16 .int16) (data := data) (sums := sums) hs
  have hp := Front.newPacked_ok e
  have kl := createPackedLayout_ok hp.layout
  have hr : p.layout.rows < src.layout.rows + 4 := kl.2.2.2.2.2.1
  exact ⟨p, e, ⟨hty, hp.layout, hp.zp, hp.sums, by omega, ⟨hfl, hp.data.ge, fun b hb => (hp.sumsSize b hb).ge⟩, hf,
    step_of hf hs.rows_pos⟩⟩

theorem create_ok {kc : Nat} {ty : SidePair ScalarType} {dt : ScalarType} {lhs rhs dst : Mul.Mat Int} {mp : MulParams Int}
    {ch : ChannelDim} (h : CoreOk kc ty dt lhs rhs dst mp ch) (junk : Junk Int) :
    ∃ jb m, create kc ty dt lhs rhs dst mp ch junk = .ok (jb, m) ∧ Flow16.JobOk kc jb m ∧ m.dst = dst ∧ jb.dt = dt ∧
      jb.src = ⟨lhs, rhs⟩ ∧ Same ((SidePair.mk lhs rhs).get (channelSide ch)).layout.cols { mp with channelDim := ch } jb.mp := by
  obtain ⟨tl, tr⟩ := ty
  obtain ⟨h8, h16⟩ := h.types
  dsimp only at h8 h16
  subst h16
  have hsm := h.small
  have ht : packedType tl = .int8 := by rcases h8 with rfl | rfl <;> rfl
  obtain ⟨pl, e1, s1, r1⟩ := Top.side_of (data := junk.data.lhs) (sums := junk.sums.lhs) h.types.1 h.typed.1 h.lsize (by omega) h.sources.1
  obtain ⟨pr, e2, s2⟩ := rhs_of (data := junk.data.rhs) (sums := junk.sums.rhs) h.typed.2 h.rsize
    (by rw [h.depth]; exact h.small) h.sources.2
  have hb : BuffersOk { mp with channelDim := ch } ((SidePair.mk lhs rhs).get (channelSide ch)).layout.cols :=
    ⟨h.buffers.rounding, h.buffers.size, h.buffers.bias, h.buffers.fixed, h.buffers.exponent⟩
  obtain ⟨r, e3⟩ := Front.ensureBuffers_total (ar := Arith.int32) (ty := ⟨tl, .int16⟩) (packed := ⟨.int8, .int16⟩) (dst := dt)
    (req := ((SidePair.mk pl pr).get (channelSide ch)).layout.cols) hb
  have sm := Top.ensured hb e3
  obtain ⟨w1, w2⟩ := Front.c29_covers_packed_width _ _ _ _ _ _ _ _ hb e3
  have hw : channelStop r.1 ⟨pl.layout.cols, pr.layout.cols⟩ = ((SidePair.mk pl pr).get (channelSide ch)).layout.cols := by
    unfold channelStop
    rw [sm.channel]
    cases ch <;> rfl
  refine ⟨⟨⟨tl, .int16⟩, dt, ⟨lhs, rhs⟩, r.1⟩, ⟨⟨pl, pr⟩, dst⟩, ?_, ?_, rfl, rfl, rfl, sm⟩
  · unfold create
    rw [C.check_of h.dorder, C.ok_bind]
    dsimp only at e1 ⊢
    rw [ht, e1, C.ok_bind]
    show (newPacked (packInt .int16 .int16) _ _ _ _ >>= _) = _
    rw [e2, C.ok_bind]
    show (ensureBuffers (intScalars Arith.int32 ⟨tl, .int16⟩ ⟨.int8, .int16⟩ dt) _ _ _ >>= _) = _
    rw [e3]
    rfl
  · exact {
      lhs := s1
      rhs := s2
      depth := h.depth
      drows := h.drows
      dcols := h.dcols
      dtype := h.dtype
      dorder := h.dorder
      dstride := h.dstride
      dfits := h.dfits
      kd := h.kd
      zp2 := by
        have : pr.zp = 0 := by rw [s2.zp, h.zero]; rfl
        show -2 ^ 31 ≤ pl.zp * pr.zp * (pl.layout.rows : Int) ∧ pl.zp * pr.zp * (pl.layout.rows : Int) < 2 ^ 31
        rw [this]
        simp
      bias := by
        intro b hb
        show channelStop r.1 ⟨pl.layout.cols, pr.layout.cols⟩ ≤ _
        rw [hw]; exact w1 b hb
      both := sm.both h.both
      fixed := by
        intro q f hq hf
        show channelStop r.1 ⟨pl.layout.cols, pr.layout.cols⟩ ≤ _
        rw [hw]; exact (w2 q hq).1 f hf
      exponent := by
        intro q f hq hf
        show channelStop r.1 ⟨pl.layout.cols, pr.layout.cols⟩ ≤ _
        rw [hw]; exact (w2 q hq).2 f hf
      bias32 := sm.bias32 h.bias32 }

/-! ### Conditions on the arguments of ruy::Mul -/

/-- An 8-bit and an int16 matrix that ruy::Mul accepts and that reach the SIMD kernel, with buffers that are large enough and
sizes that are not too large. -/
structure UserOk (kc : Nat) (ty : SidePair ScalarType) (dt : ScalarType) (lhs rhs dst : Mul.Mat Int) (mp : MulParams Int) : Prop where
  types : (dst.layout.order = .colMajor ∧ Is8 ty.lhs ∧ ty.rhs = .int16) ∨ (dst.layout.order = .rowMajor ∧ ty.lhs = .int16 ∧ Is8 ty.rhs)
  typed : Typed ty.lhs lhs ∧ Typed ty.rhs rhs
  valid : validate ty.lhs ty.rhs dt lhs.zp rhs.zp dst.zp = .ok ()
  depth : lhs.layout.cols = rhs.layout.rows
  rows : dst.layout.rows = lhs.layout.rows
  cols : dst.layout.cols = rhs.layout.cols
  lsize : PackSizes (layout kc) lhs.layout.cols lhs.layout.rows
  rsize : PackSizes (layout kc) rhs.layout.rows rhs.layout.cols
  small : lhs.layout.cols + 3 < 2 ^ 16
  fits : DFits lhs ∧ DFits rhs ∧ DFits dst
  dtype : dt ≠ .float
  stride : StrideOk dst.layout
  block : kc * (Kern.sizeOf dt * dst.layout.stride) < 2 ^ 31
  buffers : BuffersOk mp (channels dst mp.channelDim)
  both : ∀ q, mp.quant = some q → q.exponentPerChannel.isSome = q.fixedPerChannel.isSome
  bias32 : BiasOk mp

theorem valid_zero {l r d : ScalarType} {lzp rzp dzp : Int} (h : validate l r d lzp rzp dzp = .ok ()) (h16 : l = .int16 ∨ r = .int16) :
    lzp = 0 ∧ rzp = 0 ∧ dzp = 0 := by
  unfold validate at h
  obtain ⟨_, _, h⟩ := C.bind_ok h
  obtain ⟨_, _, h⟩ := C.bind_ok h
  obtain ⟨_, _, h⟩ := C.bind_ok h
  obtain ⟨_, h1, _⟩ := C.bind_ok h
  exact C.check_ok h1 h16

theorem UserOk.zero {kc : Nat} {ty : SidePair ScalarType} {dt : ScalarType} {lhs rhs dst : Mul.Mat Int} {mp : MulParams Int}
    (h : UserOk kc ty dt lhs rhs dst mp) : lhs.zp = 0 ∧ rhs.zp = 0 ∧ dst.zp = 0 :=
  valid_zero h.valid (by rcases h.types with h | h <;> tauto)

theorem UserOk.core {kc : Nat} {ty : SidePair ScalarType} {dt : ScalarType} {lhs rhs dst : Mul.Mat Int} {mp : MulParams Int}
    (h : UserOk kc ty dt lhs rhs dst mp) (ho : dst.layout.order = .colMajor) :
    CoreOk kc ty dt lhs.transpose rhs dst mp mp.channelDim where
  types := by
    rcases h.types with h | h
    · exact h.2
    · rw [ho] at h; cases h.1
  typed := ⟨typed_transpose h.typed.1, h.typed.2⟩
  lsize := h.lsize
  rsize := h.rsize
  depth := h.depth.symm
  small := h.small
  sources := ⟨Front.dfits_transpose h.fits.1, h.fits.2.1⟩
  drows := h.rows
  dcols := h.cols
  dtype := h.dtype
  dorder := ho
  dstride := by have := h.stride; unfold StrideOk at this; rw [ho] at this; exact this
  dfits := h.fits.2.2
  kd := h.block
  zero := h.zero.2.1
  buffers := by
    have := h.buffers
    have hr := h.rows
    have hc := h.cols
    unfold channels at this
    cases hd : mp.channelDim <;> rw [hd] at this <;> dsimp only at this
    · rw [hr] at this; exact this
    · rw [hc] at this; exact this
  both := h.both
  bias32 := h.bias32

theorem UserOk.swapped {kc : Nat} {ty : SidePair ScalarType} {dt : ScalarType} {lhs rhs dst : Mul.Mat Int} {mp : MulParams Int}
    (h : UserOk kc ty dt lhs rhs dst mp) (ho : dst.layout.order ≠ .colMajor) :
    CoreOk kc ⟨ty.rhs, ty.lhs⟩ dt rhs lhs.transpose dst.transpose mp mp.channelDim.transpose where
  types := by
    rcases h.types with h | h
    · exact absurd h.1 ho
    · exact ⟨h.2.2, h.2.1⟩
  typed := ⟨h.typed.2, typed_transpose h.typed.1⟩
  lsize := h.rsize
  rsize := h.lsize
  depth := h.depth
  small := by rw [← h.depth]; exact h.small
  sources := ⟨h.fits.2.1, Front.dfits_transpose h.fits.1⟩
  drows := h.cols
  dcols := h.rows
  dtype := h.dtype
  dorder := by
    show dst.layout.transpose.order = _
    cases hd : dst.layout.order
    · exact absurd hd ho
    · unfold MatLayout.transpose; rw [hd]; rfl
  dstride := by
    have := h.stride
    unfold StrideOk at this
    cases hd : dst.layout.order
    · exact absurd hd ho
    · rw [hd] at this; exact this
  dfits := Front.dfits_transpose h.fits.2.2
  kd := h.block
  zero := h.zero.1
  buffers := by
    have := h.buffers
    have hr := h.rows
    have hc := h.cols
    unfold channels at this
    cases hd : mp.channelDim <;> rw [hd] at this <;> dsimp only at this
    · rw [hr] at this; exact this
    · rw [hc] at this; exact this
  both := h.both
  bias32 := h.bias32

/-! ### What TrMul computes, for the user -/

/-- A destination TrMul may end with: simple loop, blocks by one thread, or any execution of several threads (trmul.cc:337-422). -/
inductive Ends (P : Path16) (jb : Job) (m : Mem Int) : Mul.Mat Int → Prop
  | simple {m' : Mem Int} : Flow16.simpleLoop P jb m = .ok m' → Ends P jb m m'.dst
  | blocks {m' : Mem Int} {bm : BlockMap.BlockMap} (pre : SidePair Bool) : TrMul.MapFor m bm →
      Flow16.blockLoop P jb pre bm m = .ok m' → Ends P jb m m'.dst
  | threads {x : Flow.XState} {bm : BlockMap.BlockMap} (pre : SidePair Bool) (threads : Nat) (sched : List Nat) :
      TrMul.MapFor m bm → 0 < threads → Flow16.exec P jb pre bm threads sched m = .ok x →
      TrMul.Finished (Flow.control pre bm threads) x.ctl → Ends P jb m x.mem.dst

/-- `d` is a destination that ruy::Mul (ruy.h:36-48, frontend.h:80-95) may end with on path `P`. -/
def Mul (P : Path16) (ty : SidePair ScalarType) (dt : ScalarType) (lhs rhs dst : Mul.Mat Int) (mp : MulParams Int)
    (d : Mul.Mat Int) : Prop :=
  ∃ junk jb m d', setup P.kc ty dt lhs rhs dst mp junk = .ok (jb, m) ∧ Ends P jb m d' ∧ d = userView dst d'

/-- The job that TrMul gets from arguments as in `UserOk`. -/
structure SetUp (kc : Nat) (dt : ScalarType) (lhs rhs dst : Mul.Mat Int) (mp : MulParams Int) (jb : Job) (m : Mem Int) : Prop where
  ok : Flow16.JobOk kc jb m
  result : jb.dt = dt
  target : m.dst = userView dst dst
  lo : jb.mp.clampMin = mp.clampMin
  hi : jb.mp.clampMax = mp.clampMax
  quant : jb.mp.quant.isSome = mp.quant.isSome
  entries : ∀ i j, i < dst.layout.rows → j < dst.layout.cols → ∃ r c, (r, c) = (if dst.layout.order = .colMajor then (i, j) else (j, i)) ∧
    Flow.exact jb r c = entry lhs rhs mp i j ∧
    fixedAt jb.mp.quant (channelOf jb.mp.channelDim r c) = fixedAt mp.quant (channelOf mp.channelDim i j) ∧
    exponentAt jb.mp.quant (channelOf jb.mp.channelDim r c) = exponentAt mp.quant (channelOf mp.channelDim i j)

theorem setup_ok {kc : Nat} {ty : SidePair ScalarType} {dt : ScalarType} {lhs rhs dst : Mul.Mat Int} {mp : MulParams Int}
    (h : UserOk kc ty dt lhs rhs dst mp) (junk : Junk Int) :
    ∃ jb m, setup kc ty dt lhs rhs dst mp junk = .ok (jb, m) ∧ SetUp kc dt lhs rhs dst mp jb m := by
  unfold setup
  rw [h.valid, C.ok_bind]
  by_cases ho : dst.layout.order = .colMajor
  · rw [if_pos ho]
    obtain ⟨jb, m, e, ok, e1, e2, e3, sm⟩ := create_ok (h.core ho) junk
    refine ⟨jb, m, e, ok, e2, ?_, sm.lo, sm.hi, sm.some, fun i j hi hj => ⟨i, j, (by rw [if_pos ho]), ?_⟩⟩
    · rw [e1]; unfold userView; rw [if_pos ho]
    have hc : channelOf mp.channelDim i j < ((SidePair.mk lhs.transpose rhs).get (channelSide mp.channelDim)).layout.cols := by
      cases mp.channelDim
      · show i < lhs.layout.rows
        rw [← h.rows]; exact hi
      · show j < rhs.layout.cols
        rw [← h.cols]; exact hj
    have hch : jb.mp.channelDim = mp.channelDim := sm.channel
    rw [hch]
    refine ⟨?_, sm.fixed _ hc, sm.exponent _ hc⟩
    unfold Flow.exact entry
    rw [hch, sm.bias _ hc, e3]
    show _ + ∑ k ∈ Finset.range lhs.layout.cols, (lhs.transpose.at k i - lhs.zp) * (rhs.at k j - rhs.zp) = _
    simp only [Front.at_transpose]
  · rw [if_neg ho]
    obtain ⟨jb, m, e, ok, e1, e2, e3, sm⟩ := create_ok (h.swapped ho) junk
    refine ⟨jb, m, e, ok, e2, ?_, sm.lo, sm.hi, sm.some, fun i j hi hj => ⟨j, i, (by rw [if_neg ho]), ?_⟩⟩
    · rw [e1]; unfold userView; rw [if_neg ho]
    have hc : channelOf mp.channelDim i j <
        ((SidePair.mk rhs lhs.transpose).get (channelSide mp.channelDim.transpose)).layout.cols := by
      cases mp.channelDim
      · show i < lhs.layout.rows
        rw [← h.rows]; exact hi
      · show j < rhs.layout.cols
        rw [← h.cols]; exact hj
    have hch : jb.mp.channelDim = mp.channelDim.transpose := sm.channel
    rw [hch, Front.channelOf_transpose]
    refine ⟨?_, sm.fixed _ hc, sm.exponent _ hc⟩
    unfold Flow.exact entry
    rw [hch, Front.channelOf_transpose, sm.bias _ hc, e3]
    show _ + ∑ k ∈ Finset.range rhs.layout.rows, (rhs.at k j - rhs.zp) * (lhs.transpose.at k i - lhs.zp) = _
    rw [h.depth]
    congr 1
    refine Finset.sum_congr rfl (fun k _ => ?_)
    rw [Front.at_transpose, mul_comm]

theorem ends_of {P : Path16} {ml : Int → Int → Int → Int} (hP : (P, ml) ∈ Flow16.paths) {jb : Job} {m : Mem Int}
    (h : Flow16.JobOk P.kc jb m) (h0 : 0 < m.dst.layout.rows) (h1 : 0 < m.dst.layout.cols) {d : Mul.Mat Int}
    (he : Ends P jb m d) : ∃ m', m'.dst = d ∧ Multiplied ml jb m m' := by
  cases he with
  | simple e =>
    obtain ⟨m', e', s, v, r⟩ := Flow16.c92_simple_loop hP h h0 h1
    rw [e] at e'; cases e'
    exact ⟨_, rfl, s, v, r⟩
  | blocks pre hm e =>
    obtain ⟨m', e', M⟩ := Flow16.c93_block_loop hP h hm pre
    rw [e] at e'; cases e'
    exact ⟨_, rfl, M⟩
  | threads pre t sched hm ht e hf =>
    obtain ⟨x, e', M⟩ := Flow16.c93_threads hP h hm pre ht sched
    rw [e] at e'; cases e'
    exact ⟨_, rfl, M hf⟩

section
variable {kc : Nat} {ty : SidePair ScalarType} {dt : ScalarType} {lhs rhs dst : Mul.Mat Int} {mp : MulParams Int} {jb : Job} {m : Mem Int}

theorem SetUp.rows (hs : SetUp kc dt lhs rhs dst mp jb m) : (m.dst.layout.rows, m.dst.layout.cols) =
    if dst.layout.order = .colMajor then (dst.layout.rows, dst.layout.cols) else (dst.layout.cols, dst.layout.rows) := by
  rw [hs.target]
  unfold userView
  split <;> rfl

theorem SetUp.inside (hs : SetUp kc dt lhs rhs dst mp jb m) {i j r c : Nat} (hi : i < dst.layout.rows) (hj : j < dst.layout.cols)
    (h : (r, c) = if dst.layout.order = .colMajor then (i, j) else (j, i)) : r < m.dst.layout.rows ∧ c < m.dst.layout.cols := by
  have e := hs.rows
  split at h <;> rename_i ho
  · rw [if_pos ho] at e
    simp only [Prod.mk.injEq] at h e
    omega
  · rw [if_neg ho] at e
    simp only [Prod.mk.injEq] at h e
    omega

theorem SetUp.pos (hs : SetUp kc dt lhs rhs dst mp jb m) (h : UserOk kc ty dt lhs rhs dst mp) :
    0 < m.dst.layout.rows ∧ 0 < m.dst.layout.cols := by
  have h1 := h.lsize.cols_pos
  have h2 := h.rsize.cols_pos
  have e1 := h.rows
  have e2 := h.cols
  exact hs.inside (i := 0) (j := 0) (by omega) (by omega) (by split <;> rfl)

theorem SetUp.packed (hs : SetUp kc dt lhs rhs dst mp jb m) {r c : Nat} (hr : r < m.dst.layout.rows) (hc : c < m.dst.layout.cols) :
    r < m.packed.lhs.layout.cols ∧ c < m.packed.rhs.layout.cols := by
  have l := (createPackedLayout_ok hs.ok.lhs.layout).2.2.2.2.2.2.1
  have r := (createPackedLayout_ok hs.ok.rhs.layout).2.2.2.2.2.2.1
  have := hs.ok.drows
  have := hs.ok.dcols
  omega
end

end Ruy.Simd.Top16

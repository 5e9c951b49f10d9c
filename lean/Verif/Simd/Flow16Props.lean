import Verif.Simd.Flow16Run
import Verif.Simd.FlowProps
/-
Property C92: multiplication of an 8-bit LHS by an int16 RHS on AVX2 and AVX-512, packing and kernels together.

  c92_any_order          pack calls and kernel calls in any order that packs before it multiplies, any
                         blocks: every entry of a kernel block is the exact entry modulo 2^32, put through
                         the output stage; the rest of the destination is unchanged
  c92_same               two such orders that write the same entries leave the same destination
  c92_int32              int32 destinations: the exact entry, if it fits
  c92_quantized          other destinations: the exactly rounded entry, or one more if the exponent is
                         negative
  c92_simple_loop        the simple loop of TrMul writes every entry
  c92_row_overflow       why the depth is bounded: sums of generic packing code can overflow
-/
namespace Ruy.Simd.Flow16
open Ruy.Mat Ruy.Mul
open Ruy.Front (ScalarType MulParams Typed)
open Ruy.TrMul (Mem setSide)
open Ruy.Multiplier (isI32 scaled)
open Ruy.Simd.Flow (Op Job Block Ordered Written Covered exact stored quantized)
open Ruy.Simd.Kern (biasAt fixedAt exponentAt ParamsOk BiasOk MultOk conv succeeds succeeds_ok)

/-- The paths with kernels for int16, and their multiplication by a quantized multiplier. -/
def paths : List (Path16 × (Int → Int → Int → Int)) := [(avx2, lane), (avx512, lane512)]

theorem paths_ok {P : Path16} {ml : Int → Int → Int → Int} (h : (P, ml) ∈ paths) : PathOk P ml := by
  unfold paths at h
  simp only [List.mem_cons, Prod.mk.injEq, List.not_mem_nil, or_false] at h
  rcases h with ⟨rfl, rfl⟩ | ⟨rfl, rfl⟩
  · exact avx2_ok
  · exact avx512_ok

theorem paths_lane {P : Path16} {ml : Int → Int → Int → Int} (h : (P, ml) ∈ paths) :
    ∀ x m e, 0 ≤ m → isI32 m → -31 ≤ e → isI32 e → ml x m e = lane x m e := by
  unfold paths at h
  simp only [List.mem_cons, Prod.mk.injEq, List.not_mem_nil, or_false] at h
  intro x m e h1 h2 h3 h4
  rcases h with ⟨rfl, rfl⟩ | ⟨rfl, rfl⟩
  · rfl
  · exact (lane_value x m e h1 h2 h3 h4).2

section
variable {P : Path16} {ml : Int → Int → Int → Int}

/-- C92: pack and kernel calls in any order that packs the columns of a block before it is multiplied.
All calls succeed; entries in kernel blocks are stored as specified by `stored`, the rest of the destination
buffer is unchanged. -/
theorem c92_any_order (hP : (P, ml) ∈ paths) {jb : Job} {m : Mem Int} {ops : List Op}
    (h : JobOk P.kc jb m) (ho : Ordered P.kc jb m ops) :
    ∃ m', runOps P jb ops m = .ok m' ∧ DSame m.dst m'.dst ∧
      (∀ i j, i < m.dst.layout.rows → j < m.dst.layout.cols → Written ops i j →
        m'.dst.elem i j = .ok (stored ml jb m.dst.zp i j)) ∧
      DOutside (fun i j => i < m.dst.layout.rows ∧ j < m.dst.layout.cols ∧ Written ops i j) m.dst m'.dst := by
  obtain ⟨m', e, hI⟩ := runOps_inv (paths_ok hP) h ho
  exact ⟨m', e, hI.dsame, hI.entries, hI.rest⟩

/-- C92: the order of the calls and the choice of blocks do not matter. -/
theorem c92_same (hP : (P, ml) ∈ paths) {jb : Job} {m : Mem Int} {ops ops' : List Op}
    (h : JobOk P.kc jb m) (ho : Ordered P.kc jb m ops)
    (ho' : Ordered P.kc jb m ops')
    (hw : ∀ i j, i < m.dst.layout.rows → j < m.dst.layout.cols → (Written ops i j ↔ Written ops' i j)) :
    ∃ m1 m2, runOps P jb ops m = .ok m1 ∧ runOps P jb ops' m = .ok m2 ∧ m1.dst = m2.dst := by
  obtain ⟨m1, e1, s1, v1, r1⟩ := c92_any_order hP h ho
  obtain ⟨m2, e2, s2, v2, r2⟩ := c92_any_order hP h ho'
  refine ⟨m1, m2, e1, e2, ?_⟩
  refine Kern.mat_ext s1 s2 r1 (r2.mono ?_) ?_
  · rintro i j ⟨h1, h2, h3⟩
    exact ⟨h1, h2, (hw i j h1 h2).2 h3⟩
  · rintro i j ⟨h1, h2, h3⟩
    exact ⟨_, v1 i j h1 h2 h3, v2 i j h1 h2 ((hw i j h1 h2).1 h3)⟩

/-- C92 for int32 destinations: the exact entry, if it is an int32 value. -/
theorem c92_int32 (hP : (P, ml) ∈ paths) {jb : Job} {m : Mem Int} {ops : List Op}
    (h : JobOk P.kc jb m) (ho : Ordered P.kc jb m ops) (hdt : jb.dt = .int32) :
    ∃ m', runOps P jb ops m = .ok m' ∧
      ∀ i j, i < m.dst.layout.rows → j < m.dst.layout.cols → Written ops i j → isI32 (exact jb i j) →
        m'.dst.elem i j = .ok (exact jb i j) := by
  obtain ⟨m', e, _, hv, _⟩ := c92_any_order hP h ho
  refine ⟨m', e, fun i j hi hj hw h32 => ?_⟩
  rw [hv i j hi hj hw]
  unfold stored
  dsimp only
  rw [if_pos hdt]
  unfold isI32 at h32
  rw [wrap32_of h32.1 (by omega)]

/-- C92 for other destinations: the exactly rounded entry, or one more. -/
theorem c92_quantized (hP : (P, ml) ∈ paths) {jb : Job} {m : Mem Int} {ops : List Op}
    (h : JobOk P.kc jb m) (ho : Ordered P.kc jb m ops) (hdt : jb.dt ≠ .int32)
    (hp : ParamsOk jb.dt jb.mp) (hz : jb.dt.lo ≤ m.dst.zp ∧ m.dst.zp ≤ jb.dt.hi) :
    ∃ m', runOps P jb ops m = .ok m' ∧
      ∀ i j, i < m.dst.layout.rows → j < m.dst.layout.cols → Written ops i j → isI32 (exact jb i j) →
        MultOk jb.mp.quant (channelOf jb.mp.channelDim i j) (exact jb i j) →
        isI32 (m.dst.zp + scaled (exact jb i j) (fixedAt jb.mp.quant (channelOf jb.mp.channelDim i j))
          (exponentAt jb.mp.quant (channelOf jb.mp.channelDim i j))) →
        ∃ v, m'.dst.elem i j = .ok v ∧ quantized jb m.dst.zp i j ≤ v ∧ v ≤ quantized jb m.dst.zp i j + 1 ∧
          (0 ≤ exponentAt jb.mp.quant (channelOf jb.mp.channelDim i j) → v = quantized jb m.dst.zp i j) := by
  obtain ⟨m', e, _, hv, _⟩ := c92_any_order hP h ho
  refine ⟨m', e, fun i j hi hj hw h32 hm hs => ⟨_, hv i j hi hj hw, ?_⟩⟩
  unfold stored quantized
  dsimp only
  rw [if_neg hdt]
  generalize hch : channelOf jb.mp.channelDim i j = ch at *
  obtain ⟨-, hcl⟩ := hp.narrow hdt
  obtain ⟨m0, m1, e0, e1, hfit⟩ := hm
  have hm1 : isI32 (fixedAt jb.mp.quant ch) := by unfold isI32; omega
  have he1 : isI32 (exponentAt jb.mp.quant ch) := by unfold isI32; omega
  have hl := Kern.lane_near (exact jb i j) (fixedAt jb.mp.quant ch) (exponentAt jb.mp.quant ch) m0 hm1 e0 e1 hfit
  have hsm : exponentAt jb.mp.quant ch < 0 →
      scaled (exact jb i j) (fixedAt jb.mp.quant ch) (exponentAt jb.mp.quant ch) ≤ 2 ^ 30 :=
    fun hneg => (Kern.scaled_small _ _ _ h32 hm1 m0 hneg).2
  rw [wrap32_of h32.1 (by have := h32.2; omega), paths_lane hP _ _ _ m0 hm1 e0 he1]
  have hcv : ∀ x : Int, conv jb.dt (max (min x jb.mp.clampMax) jb.mp.clampMin) =
      max (min x jb.mp.clampMax) jb.mp.clampMin := by
    intro x
    have h1 := hcl.min; have h2 := hcl.max
    rw [Kern.conv_wrap h.dtype hdt, Front.wrap_of (by omega) (by omega)]
  rw [hcv]
  have ht : m.dst.zp ≤ 2 ^ 16 := by
    have := hz.2
    have hf := h.dtype
    cases hd : jb.dt <;> rw [hd] at this hf hdt <;> simp only [ScalarType.hi] at this <;>
      first | exact absurd rfl hf | exact absurd rfl hdt | omega
  unfold isI32 at hs
  rcases hl with hl | ⟨hneg, hl⟩
  · rw [hl, wrap32_of (by omega) (by omega)]
    generalize scaled (exact jb i j) (fixedAt jb.mp.quant ch) (exponentAt jb.mp.quant ch) = r at *
    refine ⟨by omega, by omega, fun _ => by omega⟩
  · have := hsm hneg
    rw [hl, wrap32_of (by omega) (by omega)]
    generalize scaled (exact jb i j) (fixedAt jb.mp.quant ch) (exponentAt jb.mp.quant ch) = r at *
    refine ⟨by omega, by omega, fun _ => by omega⟩

theorem whole_block {kc : Nat} {src : Mul.Mat Int} {p : PMat Int} (h : Shape kc src p) (h0 : 0 < src.layout.cols) :
    Block kc p.layout.cols 0 p.layout.cols :=
  ⟨Nat.zero_mod _, h.mult, by have := h.cols; omega, Nat.le_refl _⟩

theorem simple_ordered {jb : Job} {m : Mem Int} (h : JobOk P.kc jb m)
    (h0 : 0 < m.dst.layout.rows) (h1 : 0 < m.dst.layout.cols) :
    Ordered P.kc jb m [.pack .lhs 0 m.packed.lhs.layout.cols, .pack .rhs 0 m.packed.rhs.layout.cols,
      .kernel ⟨0, 0⟩ ⟨m.packed.lhs.layout.cols, m.packed.rhs.layout.cols⟩] := by
  have bl := whole_block (h.shapeOf .lhs) (by show 0 < jb.src.lhs.layout.cols; rw [← h.drows]; exact h0)
  have br := whole_block (h.shapeOf .rhs) (by show 0 < jb.src.rhs.layout.cols; rw [← h.dcols]; exact h1)
  refine ⟨fun s lo hi hm => ?_, fun start stop hm s => ?_, fun pre start stop post he s c hlo hhi _ => ?_⟩
  · simp only [List.mem_cons, List.not_mem_nil, or_false, reduceCtorEq, Op.pack.injEq] at hm
    rcases hm with ⟨rfl, rfl, rfl⟩ | ⟨rfl, rfl, rfl⟩
    · exact bl
    · exact br
  · simp only [List.mem_cons, List.not_mem_nil, or_false, reduceCtorEq, false_or, Op.kernel.injEq] at hm
    obtain ⟨rfl, rfl⟩ := hm
    cases s
    · exact bl
    · exact br
  · rcases pre with _ | ⟨a, _ | ⟨b, _ | ⟨c', rest⟩⟩⟩
    · cases he
    · cases he
    · cases he
      cases s
      · exact ⟨0, _, by simp, Nat.zero_le _, hhi⟩
      · exact ⟨0, _, by simp, Nat.zero_le _, hhi⟩
    · injection he with _ he
      injection he with _ he
      injection he with _ he
      exact absurd (congrArg List.length he) (by simp)

/-- C92: the simple loop of TrMul writes every entry of a non-empty destination. -/
theorem c92_simple_loop (hP : (P, ml) ∈ paths) {jb : Job} {m : Mem Int} (h : JobOk P.kc jb m)
    (h0 : 0 < m.dst.layout.rows) (h1 : 0 < m.dst.layout.cols) :
    ∃ m', simpleLoop P jb m = .ok m' ∧ DSame m.dst m'.dst ∧
      (∀ i j, i < m.dst.layout.rows → j < m.dst.layout.cols →
        m'.dst.elem i j = .ok (stored ml jb m.dst.zp i j)) ∧
      DOutside (fun i j => i < m.dst.layout.rows ∧ j < m.dst.layout.cols) m.dst m'.dst := by
  obtain ⟨m', e, hs, hv, hr⟩ := c92_any_order hP h (simple_ordered h h0 h1)
  refine ⟨m', e, hs, fun i j hi hj => hv i j hi hj ?_, hr.mono (fun i j h => ⟨h.1, h.2.1⟩)⟩
  have ll := (h.shapeOf .lhs).cols
  have lr := (h.shapeOf .rhs).cols
  simp only [SidePair.get_lhs, SidePair.get_rhs] at ll lr
  have := h.drows
  have := h.dcols
  refine ⟨⟨0, 0⟩, ⟨m.packed.lhs.layout.cols, m.packed.rhs.layout.cols⟩, by simp, Nat.zero_le _, ?_,
    Nat.zero_le _, ?_⟩ <;> dsimp only <;> omega

end

/-! ### The depth bound -/

/-- C92, why the depth is bounded: whenever SIMD packing does not apply and the exact sum of a source column does not
fit 32 bits, packing it is undefined. -/
theorem c92_row_overflow {P : Path16} {src : Mul.Mat Int} {lo hi : Nat} {p : PMat Int} (ho : ¬ (P.simd = true ∧ src.layout.order = .colMajor))
    (hl : createPackedLayout src.layout ⟨.colMajor, 4, P.kc⟩ = .ok p.layout) (hs : p.sums.isSome)
    (hhi : hi ≤ p.layout.cols) {c : Nat} (h1 : lo ≤ c) (h2 : c < hi)
    (h3 : ¬ isI32 (∑ r ∈ Finset.range p.layout.rows, Pack16.gval src p.zp r c)) :
    ∀ q, packRhs P src lo hi p ≠ .ok q := by
  intro q h
  unfold packRhs at h
  rw [if_neg ho] at h
  obtain ⟨g1, _, g3⟩ := runPack_ok (shape_of hl).ok hhi h
  obtain ⟨s, _, e⟩ := (g3 c h1 h2).sums (by rw [g1.sums]; exact hs)
  rw [g1.zp, g1.layout] at e
  obtain ⟨rfl, e⟩ := colSum_ok e
  unfold Front.InI32 at e
  unfold isI32 at h3
  omega

/-- A column of 65540 elements 32767. -/
def exLong (o : Order) : Mul.Mat Int := ⟨⟨65540, 1, 65540, o⟩, ⟨65540 * 65540, fun _ => 32767⟩, 0⟩
def exLongP (kc : Nat) : PMat Int :=
  ⟨⟨65540, kc, 65540, .colMajor, ⟨.colMajor, 4, kc⟩⟩, ⟨65540 * kc, fun _ => 0⟩, some ⟨kc, fun _ => 0⟩, 0⟩

theorem exLong_sum (o : Order) (kc : Nat) :
    ¬ isI32 (∑ r ∈ Finset.range (exLongP kc).layout.rows, Pack16.gval (exLong o) (exLongP kc).zp r 0) := by
  have e : ∑ r ∈ Finset.range (exLongP kc).layout.rows, Pack16.gval (exLong o) (exLongP kc).zp r 0 = 65540 * 32767 := by
    rw [Finset.sum_congr rfl (g := fun _ => (32767 : Int)) (fun r hr => ?_)]
    · rw [Finset.sum_const, Finset.card_range]; rfl
    · have hr : r < 65540 := Finset.mem_range.1 hr
      unfold Pack16.gval
      rw [if_pos ⟨show 0 < 1 by decide, hr⟩]
      show Front.packInt .int16 .int16 32767 = _
      decide
  rw [e]
  unfold isI32
  decide

/-- Row-major sources on AVX-512, all sources on AVX2. -/
example : ∀ q, packRhs avx512 (exLong .rowMajor) 0 16 (exLongP 16) ≠ .ok q :=
  c92_row_overflow (c := 0) (by decide) (by decide +kernel) rfl (by decide) (by decide) (by decide) (exLong_sum _ _)
example (o : Order) : ∀ q, packRhs avx2 (exLong o) 0 8 (exLongP 8) ≠ .ok q :=
  c92_row_overflow (c := 0) (by cases o <;> decide) (by cases o <;> decide +kernel) rfl (by decide) (by decide) (by decide) (exLong_sum _ _)

/-! ### Examples -/

/-- An int16 source, 5x10: column-major with a gap, or row-major. -/
def exR (o : Order) : Mul.Mat Int := ⟨⟨5, 10, 11, o⟩, ⟨110, fun o => (o * 2909 % 65536 : Nat) - 32768⟩, -700⟩

def exMem (kc : Nat) : Mem Int :=
  ⟨⟨Flow.exPacked kc kc 72, Flow.exPacked kc 16 (-700)⟩, ⟨⟨3, 10, 4, .colMajor⟩, ⟨40, fun _ => 55⟩, 0⟩⟩

def exJob (o : Order) (dt : ScalarType) (mp : MulParams Int) : Job := ⟨⟨.uint8, .int16⟩, dt, ⟨Flow.exL, exR o⟩, mp⟩

theorem exRhs {kc : Nat} (hkc : kc = 8 ∨ kc = 16) (o : Order) : RhsOk kc (exR o) (Flow.exPacked kc 16 (-700)) where
  typed := ⟨by cases o <;> decide, by
    intro i j _ _
    show (-32768 : Int) ≤ ((_ * 2909 % 65536 : Nat) : Int) - 32768 ∧ ((_ * 2909 % 65536 : Nat) : Int) - 32768 ≤ 32767
    omega⟩
  layout := by rcases hkc with rfl | rfl <;> cases o <;> decide +kernel
  zp := by show (-700 : Int) = _; cases o <;> decide +kernel
  sums := rfl
  depth := by show 8 < 2 ^ 16; decide
  fits := by rcases hkc with rfl | rfl <;> exact ⟨by decide, by decide, fun b hb => by cases hb; decide⟩
  source := by
    intro i j hi hj
    have hi : i < 5 := hi
    have hj : j < 10 := hj
    cases o
    · show i + j * 11 < 2 ^ 31 ∧ i + j * 11 < 110
      omega
    · show i * 11 + j < 2 ^ 31 ∧ i * 11 + j < 110
      omega
  step := by
    intro _ c hc
    have hc : c < 10 := hc
    show 11 * c < _
    omega

theorem exOk {kc : Nat} (hkc : kc = 8 ∨ kc = 16) (o : Order) {dt : ScalarType} (hd : dt ≠ .float) :
    JobOk kc (exJob o dt Kern.exMp) (exMem kc) where
  lhs := Flow.exSideL (by tauto)
  rhs := exRhs hkc o
  depth := rfl
  drows := rfl
  dcols := rfl
  dtype := hd
  dorder := rfl
  dstride := by show 3 ≤ 4; decide
  dfits := by
    intro i j hi hj
    have hi : i < 3 := hi
    have hj : j < 10 := hj
    show i + j * 4 < 2 ^ 31 ∧ i + j * 4 < 40
    omega
  kd := by
    show kc * (Kern.sizeOf dt * 4) < _
    rcases hkc with rfl | rfl <;> cases dt <;> simp only [Kern.sizeOf] <;> omega
  zp2 := by show -2 ^ 31 ≤ (72 * -700 * 8 : Int) ∧ (72 * -700 * 8 : Int) < 2 ^ 31; decide
  bias := by intro b hb; cases hb; show kc ≤ 16; omega
  both := by intro q hq; cases hq; rfl
  fixed := by intro q f hq hf; cases hq; cases hf; show kc ≤ 16; omega
  exponent := by intro q f hq hf; cases hq; cases hf; show kc ≤ 16; omega
  bias32 := Kern.exBias

theorem in2 : (avx2, lane) ∈ paths := by simp [paths]
theorem in512 : (avx512, lane512) ∈ paths := by simp [paths]

/-- The hypotheses of `c92_simple_loop`, both orders, quantized destination. -/
example (o : Order) : ∃ m', simpleLoop avx512 (exJob o .int16 Kern.exMp) (exMem 16) = .ok m' ∧
    m'.dst.elem 2 9 = .ok (stored lane512 (exJob o .int16 Kern.exMp) 0 2 9) := by
  obtain ⟨m', e, _, hv, _⟩ := c92_simple_loop in512 (exOk (Or.inr rfl) o (dt := .int16) (by decide)) (by decide) (by decide)
  exact ⟨m', e, hv 2 9 (by decide) (by decide)⟩
example (o : Order) : ∃ m', simpleLoop avx2 (exJob o .int16 Kern.exMp) (exMem 8) = .ok m' ∧
    m'.dst.elem 2 9 = .ok (stored lane (exJob o .int16 Kern.exMp) 0 2 9) := by
  obtain ⟨m', e, _, hv, _⟩ := c92_simple_loop in2 (exOk (Or.inl rfl) o (dt := .int16) (by decide)) (by decide) (by decide)
  exact ⟨m', e, hv 2 9 (by decide) (by decide)⟩

/-- The hypotheses of `c92_int32`. -/
example (o : Order) : ∃ m', simpleLoop avx2 (exJob o .int32 Kern.exMp) (exMem 8) = .ok m' ∧
    m'.dst.elem 2 9 = .ok (exact (exJob o .int32 Kern.exMp) 2 9) ∧ exact (exJob o .int32 Kern.exMp) 2 9 ≠ 0 := by
  have h := exOk (Or.inl rfl) o (dt := .int32) (by decide)
  obtain ⟨m', e, hv⟩ := c92_int32 in2 h (simple_ordered h (by decide) (by decide)) rfl
  refine ⟨m', e, hv 2 9 (by decide) (by decide) ⟨⟨0, 0⟩, ⟨8, 16⟩, by simp [exMem, Flow.exPacked], by decide⟩ ?_, ?_⟩
  · unfold isI32; cases o <;> decide +kernel
  · cases o <;> decide +kernel

/-- The hypotheses of `c92_quantized`; the exponent of channel 1 is 0. -/
example (o : Order) : ∃ m', simpleLoop avx512 (exJob o .int8 Kern.exMp) (exMem 16) = .ok m' ∧
    m'.dst.elem 1 3 = .ok (quantized (exJob o .int8 Kern.exMp) 0 1 3) := by
  have h := exOk (Or.inr rfl) o (dt := .int8) (by decide)
  obtain ⟨m', e, hv⟩ := c92_quantized in512 h (simple_ordered h (by decide) (by decide)) (by cases o <;> decide) Kern.exParams
    (by cases o <;> decide)
  obtain ⟨v, h1, _, _, h2⟩ := hv 1 3 (by decide) (by decide)
    ⟨⟨0, 0⟩, ⟨16, 16⟩, by simp [exMem, Flow.exPacked], by decide⟩
    (by unfold isI32; cases o <;> decide +kernel)
    (by unfold MultOk isI32; cases o <;> decide +kernel) (by unfold isI32; cases o <;> decide +kernel)
  refine ⟨m', e, ?_⟩
  rw [h1, h2 (by cases o <;> decide)]
  rfl

/-- Packing twice, RHS first: the hypotheses of `c92_same`. -/
def exOps : List Op := [.pack .rhs 0 16, .pack .lhs 0 16, .pack .rhs 0 16, .kernel ⟨0, 0⟩ ⟨16, 16⟩]

theorem exOrdered (jb : Job) : Ordered 16 jb (exMem 16) exOps where
  packs s lo hi hm := by
    simp only [exOps, List.mem_cons, List.not_mem_nil, or_false, reduceCtorEq, Op.pack.injEq] at hm
    rcases hm with ⟨rfl, rfl, rfl⟩ | ⟨rfl, rfl, rfl⟩ | ⟨rfl, rfl, rfl⟩ <;> (unfold Block; decide)
  kernels start stop hm s := by
    simp only [exOps, List.mem_cons, List.not_mem_nil, or_false, reduceCtorEq, false_or, Op.kernel.injEq] at hm
    obtain ⟨rfl, rfl⟩ := hm
    cases s <;> (unfold Block; decide)
  first pre start stop post he s c hlo hhi _ := by
    have split : pre = [.pack .rhs 0 16, .pack .lhs 0 16, .pack .rhs 0 16] ∧ start = ⟨0, 0⟩ ∧ stop = ⟨16, 16⟩ := by
      unfold exOps at he
      rcases pre with _ | ⟨a, _ | ⟨b, _ | ⟨c, _ | ⟨d, rest⟩⟩⟩⟩
      · cases he
      · cases he
      · cases he
      · cases he; exact ⟨rfl, rfl, rfl⟩
      · exact absurd (congrArg List.length he) (by simp)
    obtain ⟨rfl, rfl, rfl⟩ := split
    cases s <;> exact ⟨0, 16, by simp, hlo, hhi⟩

example (o : Order) : ∃ m1 m2, runOps avx512 (exJob o .int8 Kern.exMp) exOps (exMem 16) = .ok m1 ∧
    simpleLoop avx512 (exJob o .int8 Kern.exMp) (exMem 16) = .ok m2 ∧ m1.dst = m2.dst := by
  have h := exOk (Or.inr rfl) o (dt := .int8) (by decide)
  refine c92_same in512 h (exOrdered _) (simple_ordered h (by decide) (by decide)) (fun i j hi hj => ?_)
  have hi : i < 3 := hi
  have hj : j < 10 := hj
  constructor <;> rintro -
  · exact ⟨⟨0, 0⟩, ⟨16, 16⟩, by simp [exMem, Flow.exPacked], by dsimp only; omega⟩
  · exact ⟨⟨0, 0⟩, ⟨16, 16⟩, by simp [exOps], by dsimp only; omega⟩

end Ruy.Simd.Flow16

import Verif.Simd.FlowRun
/-
Property C52: 8-bit multiplication on the x86 paths, packing and kernels together.

  c52_any_order          pack calls and kernel calls in any order that packs before it multiplies, any
                         blocks: every entry of a kernel block is the exact entry modulo 2^32, put through
                         the output stage; the rest of the destination is unchanged
  c52_same               two such orders that write the same entries leave the same destination
  c52_int32              int32 destinations: the exact entry, if it fits
  c52_quantized          other destinations: the exactly rounded entry, or one more if the exponent is
                         negative
  c52_simple_loop        the simple loop of TrMul writes every entry
  c52_unpacked           why packing must come first
-/
namespace Ruy.Simd.Flow
open Ruy.Mat Ruy.Mul
open Ruy.Front (ScalarType MulParams Typed)
open Ruy.TrMul (Mem setSide)
open Ruy.Multiplier (isI32 scaled)
open Ruy.Simd.Pack (Is8)
open Ruy.Simd.Kern (biasAt fixedAt exponentAt ParamsOk BiasOk MultOk conv succeeds succeeds_ok)

/-- The x86 paths with the function one lane of their multiplier computes. -/
def paths : List (Path × (Int → Int → Int → Int)) := [(path2, lane), (pathAvx, lane), (path512, lane512)]

theorem paths_ok {P : Path} {ml : Int → Int → Int → Int} (h : (P, ml) ∈ paths) : PathOk P ml := by
  unfold paths at h
  simp only [List.mem_cons, Prod.mk.injEq, List.not_mem_nil, or_false] at h
  rcases h with ⟨rfl, rfl⟩ | ⟨rfl, rfl⟩ | ⟨rfl, rfl⟩
  · exact path2_ok
  · exact pathAvx_ok
  · exact path512_ok

theorem paths_lane {P : Path} {ml : Int → Int → Int → Int} (h : (P, ml) ∈ paths) :
    ∀ x m e, 0 ≤ m → isI32 m → -31 ≤ e → isI32 e → ml x m e = lane x m e := by
  unfold paths at h
  simp only [List.mem_cons, Prod.mk.injEq, List.not_mem_nil, or_false] at h
  intro x m e h1 h2 h3 h4
  rcases h with ⟨rfl, rfl⟩ | ⟨rfl, rfl⟩ | ⟨rfl, rfl⟩
  · rfl
  · rfl
  · exact (lane_value x m e h1 h2 h3 h4).2

section
variable {P : Path} {ml : Int → Int → Int → Int}

/-- C52: pack and kernel calls in any order that packs the columns of a block before it is multiplied.
All calls succeed; entries in kernel blocks are stored as specified by `stored`, the rest of the destination
buffer is unchanged. -/
theorem c52_any_order (hP : (P, ml) ∈ paths) {jb : Job} {m : Mem Int} {ops : List Op}
    (h : JobOk P.kernel.isa.kc jb m) (ho : Ordered P.kernel.isa.kc jb m ops) :
    ∃ m', runOps P jb ops m = .ok m' ∧ DSame m.dst m'.dst ∧
      (∀ i j, i < m.dst.layout.rows → j < m.dst.layout.cols → Written ops i j →
        m'.dst.elem i j = .ok (stored ml jb m.dst.zp i j)) ∧
      DOutside (fun i j => i < m.dst.layout.rows ∧ j < m.dst.layout.cols ∧ Written ops i j) m.dst m'.dst := by
  obtain ⟨m', e, hI⟩ := runOps_inv (paths_ok hP) h ho
  exact ⟨m', e, hI.dsame, hI.entries, hI.rest⟩

/-- C52: the order of the calls and the choice of blocks do not matter. -/
theorem c52_same (hP : (P, ml) ∈ paths) {jb : Job} {m : Mem Int} {ops ops' : List Op}
    (h : JobOk P.kernel.isa.kc jb m) (ho : Ordered P.kernel.isa.kc jb m ops)
    (ho' : Ordered P.kernel.isa.kc jb m ops')
    (hw : ∀ i j, i < m.dst.layout.rows → j < m.dst.layout.cols → (Written ops i j ↔ Written ops' i j)) :
    ∃ m1 m2, runOps P jb ops m = .ok m1 ∧ runOps P jb ops' m = .ok m2 ∧ m1.dst = m2.dst := by
  obtain ⟨m1, e1, s1, v1, r1⟩ := c52_any_order hP h ho
  obtain ⟨m2, e2, s2, v2, r2⟩ := c52_any_order hP h ho'
  refine ⟨m1, m2, e1, e2, ?_⟩
  refine Kern.mat_ext s1 s2 r1 (r2.mono ?_) ?_
  · rintro i j ⟨h1, h2, h3⟩
    exact ⟨h1, h2, (hw i j h1 h2).2 h3⟩
  · rintro i j ⟨h1, h2, h3⟩
    exact ⟨_, v1 i j h1 h2 h3, v2 i j h1 h2 ((hw i j h1 h2).1 h3)⟩

/-- C52 for int32 destinations: the exact entry, if it is an int32 value. -/
theorem c52_int32 (hP : (P, ml) ∈ paths) {jb : Job} {m : Mem Int} {ops : List Op}
    (h : JobOk P.kernel.isa.kc jb m) (ho : Ordered P.kernel.isa.kc jb m ops) (hdt : jb.dt = .int32) :
    ∃ m', runOps P jb ops m = .ok m' ∧
      ∀ i j, i < m.dst.layout.rows → j < m.dst.layout.cols → Written ops i j → isI32 (exact jb i j) →
        m'.dst.elem i j = .ok (exact jb i j) := by
  obtain ⟨m', e, _, hv, _⟩ := c52_any_order hP h ho
  refine ⟨m', e, fun i j hi hj hw h32 => ?_⟩
  rw [hv i j hi hj hw]
  unfold stored
  dsimp only
  rw [if_pos hdt]
  unfold isI32 at h32
  rw [wrap32_of h32.1 (by omega)]

/-- Specification of the quantized entry: exact rounding, zero point, clamping. -/
def quantized (jb : Job) (dzp : Int) (i j : Nat) : Int :=
  let ch := channelOf jb.mp.channelDim i j
  max jb.mp.clampMin (min jb.mp.clampMax
    (dzp + scaled (exact jb i j) (fixedAt jb.mp.quant ch) (exponentAt jb.mp.quant ch)))

/-- C52 for other destinations: the exactly rounded entry, or one more. -/
theorem c52_quantized (hP : (P, ml) ∈ paths) {jb : Job} {m : Mem Int} {ops : List Op}
    (h : JobOk P.kernel.isa.kc jb m) (ho : Ordered P.kernel.isa.kc jb m ops) (hdt : jb.dt ≠ .int32)
    (hp : ParamsOk jb.dt jb.mp) (hz : jb.dt.lo ≤ m.dst.zp ∧ m.dst.zp ≤ jb.dt.hi) :
    ∃ m', runOps P jb ops m = .ok m' ∧
      ∀ i j, i < m.dst.layout.rows → j < m.dst.layout.cols → Written ops i j → isI32 (exact jb i j) →
        MultOk jb.mp.quant (channelOf jb.mp.channelDim i j) (exact jb i j) →
        isI32 (m.dst.zp + scaled (exact jb i j) (fixedAt jb.mp.quant (channelOf jb.mp.channelDim i j))
          (exponentAt jb.mp.quant (channelOf jb.mp.channelDim i j))) →
        ∃ v, m'.dst.elem i j = .ok v ∧ quantized jb m.dst.zp i j ≤ v ∧ v ≤ quantized jb m.dst.zp i j + 1 ∧
          (0 ≤ exponentAt jb.mp.quant (channelOf jb.mp.channelDim i j) → v = quantized jb m.dst.zp i j) := by
  obtain ⟨m', e, _, hv, _⟩ := c52_any_order hP h ho
  refine ⟨m', e, fun i j hi hj hw h32 hm hs => ⟨_, hv i j hi hj hw, ?_⟩⟩
  unfold stored quantized
  dsimp only
  rw [if_neg hdt]
  generalize hch : channelOf jb.mp.channelDim i j = ch at *
  obtain ⟨-, hcl⟩ := hp.narrow hdt
  obtain ⟨m0, m1, e0, e1, hfit⟩ := hm
  have hm1 : isI32 (fixedAt jb.mp.quant ch) := by unfold isI32; omega
  have he1 : isI32 (exponentAt jb.mp.quant ch) := by unfold isI32; omega
  have hl := Kern.lane_near (exact jb i j) (fixedAt jb.mp.quant ch) (exponentAt jb.mp.quant ch) m0 hm1 e0 e1 hfit
  have hsm : exponentAt jb.mp.quant ch < 0 →
      scaled (exact jb i j) (fixedAt jb.mp.quant ch) (exponentAt jb.mp.quant ch) ≤ 2 ^ 30 :=
    fun hneg => (Kern.scaled_small _ _ _ h32 hm1 m0 hneg).2
  rw [wrap32_of h32.1 (by have := h32.2; omega), paths_lane hP _ _ _ m0 hm1 e0 he1]
  have hcv : ∀ x : Int, conv jb.dt (max (min x jb.mp.clampMax) jb.mp.clampMin) =
      max (min x jb.mp.clampMax) jb.mp.clampMin := by
    intro x
    have h1 := hcl.min; have h2 := hcl.max
    rw [Kern.conv_wrap h.dtype hdt, Front.wrap_of (by omega) (by omega)]
  rw [hcv]
  have ht : m.dst.zp ≤ 2 ^ 16 := by
    have := hz.2
    have hf := h.dtype
    cases hd : jb.dt <;> rw [hd] at this hf hdt <;> simp only [ScalarType.hi] at this <;>
      first | exact absurd rfl hf | exact absurd rfl hdt | omega
  unfold isI32 at hs
  rcases hl with hl | ⟨hneg, hl⟩
  · rw [hl, wrap32_of (by omega) (by omega)]
    generalize scaled (exact jb i j) (fixedAt jb.mp.quant ch) (exponentAt jb.mp.quant ch) = r at *
    refine ⟨by omega, by omega, fun _ => by omega⟩
  · have := hsm hneg
    rw [hl, wrap32_of (by omega) (by omega)]
    generalize scaled (exact jb i j) (fixedAt jb.mp.quant ch) (exponentAt jb.mp.quant ch) = r at *
    refine ⟨by omega, by omega, fun _ => by omega⟩

theorem whole_block {kc : Nat} (hkc : kc = 8 ∨ kc = 16) {t : ScalarType} {src : Mul.Mat Int} {p : PMat Int}
    (h : SideOk kc t src p) (h0 : 0 < src.layout.cols) : Block kc p.layout.cols 0 p.layout.cols := by
  obtain ⟨_, _, _, _, _, l5, _, _, l8, _⟩ := h.facts hkc
  exact ⟨Nat.zero_mod _, l8, by omega, Nat.le_refl _⟩

theorem simple_ordered {kc : Nat} (hkc : kc = 8 ∨ kc = 16) {jb : Job} {m : Mem Int} (h : JobOk kc jb m)
    (h0 : 0 < m.dst.layout.rows) (h1 : 0 < m.dst.layout.cols) :
    Ordered kc jb m [.pack .lhs 0 m.packed.lhs.layout.cols, .pack .rhs 0 m.packed.rhs.layout.cols,
      .kernel ⟨0, 0⟩ ⟨m.packed.lhs.layout.cols, m.packed.rhs.layout.cols⟩] := by
  have bl := whole_block hkc (h.side .lhs) (by show 0 < jb.src.lhs.layout.cols; rw [← h.drows]; exact h0)
  have br := whole_block hkc (h.side .rhs) (by show 0 < jb.src.rhs.layout.cols; rw [← h.dcols]; exact h1)
  refine ⟨fun s lo hi hm => ?_, fun start stop hm s => ?_, fun pre start stop post he s c hlo hhi _ => ?_⟩
  · simp only [List.mem_cons, List.not_mem_nil, or_false, reduceCtorEq, Op.pack.injEq] at hm
    rcases hm with ⟨rfl, rfl, rfl⟩ | ⟨rfl, rfl, rfl⟩
    · exact bl
    · exact br
  · simp only [List.mem_cons, List.not_mem_nil, or_false, reduceCtorEq, false_or, Op.kernel.injEq] at hm
    obtain ⟨rfl, rfl⟩ := hm
    cases s
    · exact bl
    · exact br
  · rcases pre with _ | ⟨a, _ | ⟨b, _ | ⟨c', rest⟩⟩⟩
    · cases he
    · cases he
    · cases he
      cases s
      · exact ⟨0, _, by simp, Nat.zero_le _, hhi⟩
      · exact ⟨0, _, by simp, Nat.zero_le _, hhi⟩
    · injection he with _ he
      injection he with _ he
      injection he with _ he
      exact absurd (congrArg List.length he) (by simp)

/-- C52: the simple loop of TrMul writes every entry of a non-empty destination. -/
theorem c52_simple_loop (hP : (P, ml) ∈ paths) {jb : Job} {m : Mem Int} (h : JobOk P.kernel.isa.kc jb m)
    (h0 : 0 < m.dst.layout.rows) (h1 : 0 < m.dst.layout.cols) :
    ∃ m', simpleLoop P jb m = .ok m' ∧ DSame m.dst m'.dst ∧
      (∀ i j, i < m.dst.layout.rows → j < m.dst.layout.cols →
        m'.dst.elem i j = .ok (stored ml jb m.dst.zp i j)) ∧
      DOutside (fun i j => i < m.dst.layout.rows ∧ j < m.dst.layout.cols) m.dst m'.dst := by
  have hkc := kc_of (paths_ok hP)
  obtain ⟨m', e, hs, hv, hr⟩ := c52_any_order hP h (simple_ordered hkc h h0 h1)
  refine ⟨m', e, hs, fun i j hi hj => hv i j hi hj ?_, hr.mono (fun i j h => ⟨h.1, h.2.1⟩)⟩
  obtain ⟨_, _, _, _, _, ll, _⟩ := (h.side .lhs).facts hkc
  obtain ⟨_, _, _, _, _, lr, _⟩ := (h.side .rhs).facts hkc
  simp only [SidePair.get_lhs, SidePair.get_rhs] at ll lr
  have := h.drows
  have := h.dcols
  refine ⟨⟨0, 0⟩, ⟨m.packed.lhs.layout.cols, m.packed.rhs.layout.cols⟩, by simp, Nat.zero_le _, ?_,
    Nat.zero_le _, ?_⟩ <;> dsimp only <;> omega

end

/-! ### Examples -/

/-- Sources: uint8, 5x3, column-major with a gap, and int8, 5x10, row-major. -/
def exL : Mul.Mat Int := ⟨⟨5, 3, 7, .colMajor⟩, ⟨21, fun o => (o * 37 % 256 : Nat)⟩, 200⟩
def exR : Mul.Mat Int := ⟨⟨5, 10, 10, .rowMajor⟩, ⟨50, fun o => (o * 29 % 256 : Nat) - 128⟩, -7⟩

/-- An empty packed matrix. -/
def exPacked (kc cols : Nat) (zp : Int) : PMat Int where
  layout := ⟨8, cols, 8, .colMajor, ⟨.colMajor, 4, kc⟩⟩
  data := ⟨8 * cols, fun _ => 99⟩
  sums := some ⟨cols, fun _ => 99⟩
  zp := zp

def exMem (kc lc rc : Nat) : Mem Int :=
  ⟨⟨exPacked kc lc 72, exPacked kc rc (-7)⟩, ⟨⟨3, 10, 4, .colMajor⟩, ⟨40, fun _ => 55⟩, 0⟩⟩

def exJob (dt : ScalarType) (mp : MulParams Int) : Job := ⟨⟨.uint8, .int8⟩, dt, ⟨exL, exR⟩, mp⟩

theorem exSideL {kc lc : Nat} (h : (kc = 8 ∧ lc = 8) ∨ (kc = 16 ∧ lc = 16)) :
    SideOk kc .uint8 exL (exPacked kc lc 72) where
  ty := Or.inr rfl
  typed := ⟨by decide, by
    intro i j _ _
    show (0 : Int) ≤ ((_ * 37 % 256 : Nat) : Int) ∧ ((_ * 37 % 256 : Nat) : Int) ≤ 255
    omega⟩
  layout := by rcases h with ⟨rfl, rfl⟩ | ⟨rfl, rfl⟩ <;> decide +kernel
  zp := by show (72 : Int) = _; decide +kernel
  sums := rfl
  depth := by show 8 < 2 ^ 24; decide
  fits := by rcases h with ⟨rfl, rfl⟩ | ⟨rfl, rfl⟩ <;> exact ⟨by decide, by decide, fun b hb => by cases hb; decide⟩
  source := by
    intro i j hi hj
    have hi : i < 5 := hi
    have hj : j < 3 := hj
    show i + j * 7 < 2 ^ 31 ∧ i + j * 7 < 21
    omega
  step := by
    intro _ c hc
    have hc : c < 3 := hc
    show 7 * c < _
    omega

theorem exSideR {kc rc : Nat} (h : (kc = 8 ∨ kc = 16) ∧ rc = 16) :
    SideOk kc .int8 exR (exPacked kc rc (-7)) where
  ty := Or.inl rfl
  typed := ⟨by decide, by
    intro i j _ _
    show (-128 : Int) ≤ ((_ * 29 % 256 : Nat) : Int) - 128 ∧ ((_ * 29 % 256 : Nat) : Int) - 128 ≤ 127
    omega⟩
  layout := by rcases h with ⟨rfl | rfl, rfl⟩ <;> decide +kernel
  zp := by show (-7 : Int) = _; decide +kernel
  sums := rfl
  depth := by show 8 < 2 ^ 24; decide
  fits := by rcases h with ⟨rfl | rfl, rfl⟩ <;> exact ⟨by decide, by decide, fun b hb => by cases hb; decide⟩
  source := by
    intro i j hi hj
    have hi : i < 5 := hi
    have hj : j < 10 := hj
    show i * 10 + j < 2 ^ 31 ∧ i * 10 + j < 50
    omega
  step := by intro h; cases h

theorem exOk {kc lc : Nat} (h : (kc = 8 ∧ lc = 8) ∨ (kc = 16 ∧ lc = 16)) {dt : ScalarType} (hd : dt ≠ .float) :
    JobOk kc (exJob dt Kern.exMp) (exMem kc lc 16) where
  side s := by
    cases s
    · exact exSideL h
    · exact exSideR ⟨by omega, rfl⟩
  depth := rfl
  drows := rfl
  dcols := rfl
  dtype := hd
  dorder := rfl
  dstride := by show 3 ≤ 4; decide
  dfits := by
    intro i j hi hj
    have hi : i < 3 := hi
    have hj : j < 10 := hj
    show i + j * 4 < 2 ^ 31 ∧ i + j * 4 < 40
    omega
  kd := by
    show kc * (Kern.sizeOf dt * 4) < _
    cases dt <;> simp only [Kern.sizeOf] <;> omega
  zp2 := by show -2 ^ 31 ≤ (72 * -7 * 8 : Int) ∧ (72 * -7 * 8 : Int) < 2 ^ 31; decide
  bias := by
    intro b hb; cases hb
    show lc ≤ 16
    omega
  both := by intro q hq; cases hq; rfl
  fixed := by
    intro q f hq hf; cases hq; cases hf
    show lc ≤ 16
    omega
  exponent := by
    intro q f hq hf; cases hq; cases hf
    show lc ≤ 16
    omega
  bias32 := Kern.exBias

/-- The hypotheses of `c52_simple_loop`, AVX2 and AVX-512, quantized destination. -/
example : ∃ m', simpleLoop path2 (exJob .int8 Kern.exMp) (exMem 8 8 16) = .ok m' ∧
    m'.dst.elem 2 9 = .ok (stored lane (exJob .int8 Kern.exMp) 0 2 9) := by
  obtain ⟨m', e, _, hv, _⟩ := c52_simple_loop (P := path2) (ml := lane) (by simp [paths])
    (exOk (Or.inl ⟨rfl, rfl⟩) (dt := .int8) (by decide)) (by decide) (by decide)
  exact ⟨m', e, hv 2 9 (by decide) (by decide)⟩
example : ∃ m', simpleLoop path512 (exJob .int8 Kern.exMp) (exMem 16 16 16) = .ok m' ∧
    m'.dst.elem 2 9 = .ok (stored lane512 (exJob .int8 Kern.exMp) 0 2 9) := by
  obtain ⟨m', e, _, hv, _⟩ := c52_simple_loop (P := path512) (ml := lane512) (by simp [paths])
    (exOk (Or.inr ⟨rfl, rfl⟩) (dt := .int8) (by decide)) (by decide) (by decide)
  exact ⟨m', e, hv 2 9 (by decide) (by decide)⟩

/-- Two blocks, the second RHS block packed after the first has been multiplied, one block packed twice. -/
def exOps : List Op :=
  [.pack .rhs 8 16, .pack .lhs 0 8, .kernel ⟨0, 8⟩ ⟨8, 16⟩, .pack .rhs 0 8, .pack .rhs 8 16,
    .kernel ⟨0, 0⟩ ⟨8, 8⟩]

theorem exOrdered (jb : Job) : Ordered 8 jb (exMem 8 8 16) exOps where
  packs s lo hi hm := by
    simp only [exOps, List.mem_cons, List.not_mem_nil, or_false, reduceCtorEq, false_or, Op.pack.injEq] at hm
    rcases hm with ⟨rfl, rfl, rfl⟩ | ⟨rfl, rfl, rfl⟩ | ⟨rfl, rfl, rfl⟩ | ⟨rfl, rfl, rfl⟩ <;>
      (unfold Block; decide)
  kernels start stop hm s := by
    simp only [exOps, List.mem_cons, List.not_mem_nil, or_false, reduceCtorEq, false_or, Op.kernel.injEq] at hm
    rcases hm with ⟨rfl, rfl⟩ | ⟨rfl, rfl⟩ <;> cases s <;> (unfold Block; decide)
  first pre start stop post he s c hlo hhi _ := by
    have split : (pre = [.pack .rhs 8 16, .pack .lhs 0 8] ∧ start = ⟨0, 8⟩ ∧ stop = ⟨8, 16⟩) ∨
        (pre = [.pack .rhs 8 16, .pack .lhs 0 8, .kernel ⟨0, 8⟩ ⟨8, 16⟩, .pack .rhs 0 8, .pack .rhs 8 16] ∧
          start = ⟨0, 0⟩ ∧ stop = ⟨8, 8⟩) := by
      unfold exOps at he
      rcases pre with _ | ⟨a, _ | ⟨b, _ | ⟨c, _ | ⟨d, _ | ⟨e, _ | ⟨f, rest⟩⟩⟩⟩⟩⟩
      · cases he
      · cases he
      · cases he; exact Or.inl ⟨rfl, rfl, rfl⟩
      · cases he
      · cases he
      · cases he; exact Or.inr ⟨rfl, rfl, rfl⟩
      · exact absurd (congrArg List.length he) (by simp)
    rcases split with ⟨rfl, rfl, rfl⟩ | ⟨rfl, rfl, rfl⟩ <;> cases s
    · exact ⟨0, 8, by simp, hlo, hhi⟩
    · exact ⟨8, 16, by simp, hlo, hhi⟩
    · exact ⟨0, 8, by simp, hlo, hhi⟩
    · exact ⟨0, 8, by simp, hlo, hhi⟩

/-- The hypotheses of `c52_any_order` and `c52_int32`. -/
example : ∃ m', runOps pathAvx (exJob .int32 Kern.exMp) exOps (exMem 8 8 16) = .ok m' ∧
    m'.dst.elem 2 9 = .ok (exact (exJob .int32 Kern.exMp) 2 9) ∧
    exact (exJob .int32 Kern.exMp) 2 9 ≠ 0 := by
  obtain ⟨m', e, hv⟩ := c52_int32 (P := pathAvx) (ml := lane) (by simp [paths])
    (exOk (Or.inl ⟨rfl, rfl⟩) (dt := .int32) (by decide)) (exOrdered _) rfl
  refine ⟨m', e, hv 2 9 (by decide) (by decide) ⟨⟨0, 8⟩, ⟨8, 16⟩, by simp [exOps], by decide⟩ ?_, ?_⟩
  · unfold isI32; decide +kernel
  · decide +kernel

/-- The hypotheses of `c52_quantized`; the exponent of channel 1 is 0. -/
example : ∃ m', runOps path2 (exJob .int8 Kern.exMp) exOps (exMem 8 8 16) = .ok m' ∧
    m'.dst.elem 1 3 = .ok (quantized (exJob .int8 Kern.exMp) 0 1 3) := by
  obtain ⟨m', e, hv⟩ := c52_quantized (P := path2) (ml := lane) (by simp [paths])
    (exOk (Or.inl ⟨rfl, rfl⟩) (dt := .int8) (by decide)) (exOrdered _) (by decide) Kern.exParams
    (by decide)
  obtain ⟨v, h1, _, _, h2⟩ := hv 1 3 (by decide) (by decide)
    ⟨⟨0, 0⟩, ⟨8, 8⟩, by simp [exOps], by decide⟩ (by unfold isI32; decide +kernel)
    (by unfold MultOk isI32; decide +kernel) (by unfold isI32; decide +kernel)
  refine ⟨m', e, ?_⟩
  rw [h1, h2 (by decide)]
  rfl

/-- The hypotheses of `c52_same`. -/
example : ∃ m1 m2, runOps path2 (exJob .int8 Kern.exMp) exOps (exMem 8 8 16) = .ok m1 ∧
    simpleLoop path2 (exJob .int8 Kern.exMp) (exMem 8 8 16) = .ok m2 ∧ m1.dst = m2.dst := by
  have h := exOk (Or.inl ⟨rfl, rfl⟩) (kc := 8) (lc := 8) (dt := .int8) (by decide)
  refine c52_same (P := path2) (ml := lane) (by simp [paths]) h (exOrdered _)
    (simple_ordered (Or.inl rfl) h (by decide) (by decide)) (fun i j hi hj => ?_)
  have hi : i < 3 := hi
  have hj : j < 10 := hj
  constructor
  · rintro -
    exact ⟨⟨0, 0⟩, ⟨8, 16⟩, by simp [exMem, exPacked], by dsimp only; omega⟩
  · rintro -
    by_cases h8 : j < 8
    · exact ⟨⟨0, 0⟩, ⟨8, 8⟩, by simp [exOps], by dsimp only; omega⟩
    · exact ⟨⟨0, 8⟩, ⟨8, 16⟩, by simp [exOps], by dsimp only; omega⟩

/-- Why packing must come first: without it the kernel multiplies what was in the buffers. -/
theorem c52_unpacked :
    (runOps path2 (exJob .int32 Kern.exRaw) [.kernel ⟨0, 0⟩ ⟨8, 8⟩] (exMem 8 8 16) >>=
      fun m => m.dst.elem 0 0) ≠ .ok (exact (exJob .int32 Kern.exRaw) 0 0) ∧
    (simpleLoop path2 (exJob .int32 Kern.exRaw) (exMem 8 8 16) >>= fun m => m.dst.elem 0 0) =
      .ok (exact (exJob .int32 Kern.exRaw) 0 0) := by
  constructor <;> decide +kernel

end Ruy.Simd.Flow

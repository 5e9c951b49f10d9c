import Verif.Simd.Top
/-
Property C94: ruy::Mul with 8-bit matrices on the x86 paths, from its arguments to its destination.

  c94_runs          the front end succeeds, and then no way of running TrMul fails; under a fair schedule all threads return
  c94_int32         int32 destinations: the exact entry, if it fits
  c94_quantized     other destinations: the exactly rounded entry, or one more if the exponent is negative
  c94_rest          nothing else in the destination's memory changes
  c94_paths_int32   AVX2, AVX and AVX-512 leave the same int32 destination
-/
namespace Ruy.Simd.Top
open Ruy.Mat Ruy.Mul
open Ruy.Front (ScalarType MulParams Junk userView)
open Ruy.TrMul (Mem MapFor)
open Ruy.Multiplier (isI32 scaled)
open Ruy.Simd.Flow (Job)
open Ruy.Simd.Kern (fixedAt exponentAt ParamsOk MultOk)

section
variable {P : Flow.Path} {ml : Int → Int → Int → Int} {ty : SidePair ScalarType} {dt : ScalarType} {lhs rhs dst : Mul.Mat Int}
  {mp : MulParams Int}

/-- C94: with any contents of fresh memory the front end returns; then the simple loop, the block loop and all steps of all
executions of several threads return; under fair schedules all threads come to an end. -/
theorem c94_runs (hP : (P, ml) ∈ Flow.paths) (h : UserOk P.kernel.isa.kc ty dt lhs rhs dst mp) (junk : Junk Int) :
    ∃ jb m, setup P.kernel.isa.kc ty dt lhs rhs dst mp junk = .ok (jb, m) ∧
      (∃ m', Flow.simpleLoop P jb m = .ok m') ∧
      ∀ bm, MapFor m bm → ∀ pre : SidePair Bool,
        (∃ m', (Flow.runOps P jb (Flow.prepackOps pre m) m >>= Flow.blockLoop P jb pre bm) = .ok m') ∧
        ∀ threads, 0 < threads →
          (∀ sched, ∃ x, Flow.exec P jb pre bm threads sched m = .ok x) ∧
          ∀ σ, TrMul.Fair threads σ → ∃ k x, Flow.exec P jb pre bm threads ((List.range k).map σ) m = .ok x ∧
            TrMul.Finished (Flow.control pre bm threads) x.ctl := by
  obtain ⟨jb, m, e, hs⟩ := setup_ok h junk
  obtain ⟨h0, h1⟩ := hs.pos h
  refine ⟨jb, m, e, ?_, fun bm hm pre => ⟨?_, fun t ht => ⟨fun sched => ?_, fun σ fair => ?_⟩⟩⟩
  · obtain ⟨m', e', _⟩ := Flow.c52_simple_loop hP hs.ok h0 h1
    exact ⟨m', e'⟩
  · obtain ⟨m', e', _⟩ := Flow.c53_block_loop hP hs.ok hm pre
    exact ⟨m', e'⟩
  · obtain ⟨x, e', _⟩ := Flow.c53_threads hP hs.ok hm pre ht sched
    exact ⟨x, e'⟩
  · obtain ⟨k, x, e', hf, _⟩ := Flow.c53_threads_finish hP hs.ok hm pre ht fair
    exact ⟨k, x, e', hf⟩

/-- C94 for int32 destinations. -/
theorem c94_int32 (hP : (P, ml) ∈ Flow.paths) (h : UserOk P.kernel.isa.kc ty dt lhs rhs dst mp) (hdt : dt = .int32)
    {d : Mul.Mat Int} (hd : Mul P ty dt lhs rhs dst mp d) {i j : Nat} (hi : i < dst.layout.rows) (hj : j < dst.layout.cols)
    (h32 : isI32 (entry lhs rhs mp i j)) : d.elem i j = .ok (entry lhs rhs mp i j) := by
  obtain ⟨junk, jb, m, d', e, he, rfl⟩ := hd
  obtain ⟨jb', m', e', hs⟩ := setup_ok h junk
  rw [e] at e'; cases e'
  obtain ⟨h0, h1⟩ := hs.pos h
  obtain ⟨m', rfl, M⟩ := ends_of hP hs.ok h0 h1 he
  obtain ⟨r, c, hrc, ex, _, _⟩ := hs.entries i j hi hj
  obtain ⟨hr, hc⟩ := hs.inside hi hj hrc
  rw [view_elem hrc, M.entries r c hr hc]
  unfold Flow.stored
  dsimp only
  rw [if_pos (hs.result.trans hdt), ex]
  unfold isI32 at h32
  rw [wrap32_of h32.1 (by omega)]

/-- C94 for other destinations. -/
theorem c94_quantized (hP : (P, ml) ∈ Flow.paths) (h : UserOk P.kernel.isa.kc ty dt lhs rhs dst mp) (hdt : dt ≠ .int32)
    (hp : ParamsOk dt mp) (hz : dt.lo ≤ dst.zp ∧ dst.zp ≤ dt.hi) {d : Mul.Mat Int} (hd : Mul P ty dt lhs rhs dst mp d)
    {i j : Nat} (hi : i < dst.layout.rows) (hj : j < dst.layout.cols) (h32 : isI32 (entry lhs rhs mp i j))
    (hm : MultOk mp.quant (channelOf mp.channelDim i j) (entry lhs rhs mp i j))
    (hs32 : isI32 (dst.zp + scaled (entry lhs rhs mp i j) (fixedAt mp.quant (channelOf mp.channelDim i j))
      (exponentAt mp.quant (channelOf mp.channelDim i j)))) :
    ∃ v, d.elem i j = .ok v ∧ quantizedEntry lhs rhs mp dst.zp i j ≤ v ∧ v ≤ quantizedEntry lhs rhs mp dst.zp i j + 1 ∧
      (0 ≤ exponentAt mp.quant (channelOf mp.channelDim i j) → v = quantizedEntry lhs rhs mp dst.zp i j) := by
  obtain ⟨junk, jb, m, d', e, he, rfl⟩ := hd
  obtain ⟨jb', m', e', hs⟩ := setup_ok h junk
  rw [e] at e'; cases e'
  obtain ⟨h0, h1⟩ := hs.pos h
  obtain ⟨m', rfl, M⟩ := ends_of hP hs.ok h0 h1 he
  obtain ⟨r, c, hrc, ex, ef, ee⟩ := hs.entries i j hi hj
  obtain ⟨hr, hc⟩ := hs.inside hi hj hrc
  have hzp : m.dst.zp = dst.zp := by
    rw [hs.target]; unfold userView; split <;> rfl
  have hdt' : jb.dt ≠ .int32 := by rw [hs.result]; exact hdt
  have hp' : ParamsOk jb.dt jb.mp := by
    refine ⟨fun h => absurd h hdt', fun _ => ?_⟩
    obtain ⟨p1, p2⟩ := hp.narrow hdt
    refine ⟨hs.quant.trans p1, ?_, ?_⟩
    · rw [hs.lo, hs.result]; exact p2.min
    · rw [hs.hi, hs.result]; exact p2.max
  have hkc := Flow.kc_of (Flow.paths_ok hP)
  obtain ⟨m1, e1, hv⟩ := Flow.c52_quantized hP hs.ok (Flow.simple_ordered hkc hs.ok h0 h1) hdt' hp'
    (by rw [hzp, hs.result]; exact hz)
  obtain ⟨m2, e2, s, v, r'⟩ := Flow.c52_simple_loop hP hs.ok h0 h1
  have e2' : Flow.runOps P jb _ m = .ok m2 := e2
  rw [e1] at e2'; cases e2'
  have M2 : Flow.Multiplied ml jb m m1 := ⟨s, v, r'⟩
  have hin := hs.packed hr hc
  have := hv r c hr hc ⟨⟨0, 0⟩, ⟨m.packed.lhs.layout.cols, m.packed.rhs.layout.cols⟩, (by simp), Nat.zero_le _, hin.1, Nat.zero_le _,
    hin.2⟩ (by rw [ex]; exact h32)
    (by unfold MultOk; rw [ex, ef, ee]; exact hm) (by rw [ex, ef, ee, hzp]; exact hs32)
  rw [view_elem hrc, M.unique M2]
  have hq : Flow.quantized jb m.dst.zp r c = quantizedEntry lhs rhs mp dst.zp i j := by
    unfold Flow.quantized quantizedEntry
    dsimp only
    rw [ex, ef, ee, hzp, hs.lo, hs.hi]
  rw [hq, ee] at this
  exact this

/-- C94: layout, zero point and all memory outside the entries stay as they were. -/
theorem c94_rest (hP : (P, ml) ∈ Flow.paths) (h : UserOk P.kernel.isa.kc ty dt lhs rhs dst mp) {d : Mul.Mat Int}
    (hd : Mul P ty dt lhs rhs dst mp d) :
    DSame dst d ∧ ∀ o, (∀ i j, i < dst.layout.rows → j < dst.layout.cols → o ≠ off dst.layout i j) →
      d.data.val o = dst.data.val o := by
  obtain ⟨junk, jb, m, d', e, he, rfl⟩ := hd
  obtain ⟨jb', m', e', hs⟩ := setup_ok h junk
  rw [e] at e'; cases e'
  obtain ⟨h0, h1⟩ := hs.pos h
  obtain ⟨m', rfl, M⟩ := ends_of hP hs.ok h0 h1 he
  have hsame := M.same
  have hrest := M.rest
  rw [hs.target] at hsame hrest
  unfold userView at hsame hrest ⊢
  by_cases ho : dst.layout.order = .colMajor
  · simp only [if_pos ho] at hsame hrest ⊢
    exact ⟨hsame, fun o h => hrest o (fun i j hij => h i j hij.1 hij.2)⟩
  · simp only [if_neg ho] at hsame hrest ⊢
    refine ⟨⟨?_, hsame.zp, hsame.size⟩, fun o h => hrest o (fun i j hij => ?_)⟩
    · show m'.dst.layout.transpose = dst.layout
      rw [hsame.layout]
      exact congrArg (fun d => d.layout) (Front.transpose_transpose dst)
    · show o ≠ off dst.layout.transpose i j
      rw [off_transpose]
      exact h j i hij.2 hij.1

/-- C94: the int32 destination is the same on all paths, whenever its entries fit. -/
theorem c94_paths_int32 {P' : Flow.Path} {ml' : Int → Int → Int → Int} (hP : (P, ml) ∈ Flow.paths) (hP' : (P', ml') ∈ Flow.paths)
    (h : UserOk P.kernel.isa.kc ty dt lhs rhs dst mp) (h' : UserOk P'.kernel.isa.kc ty dt lhs rhs dst mp) (hdt : dt = .int32)
    {d d' : Mul.Mat Int} (hd : Mul P ty dt lhs rhs dst mp d) (hd' : Mul P' ty dt lhs rhs dst mp d')
    (h32 : ∀ i j, i < dst.layout.rows → j < dst.layout.cols → isI32 (entry lhs rhs mp i j)) : d = d' := by
  obtain ⟨s, r⟩ := c94_rest hP h hd
  obtain ⟨s', r'⟩ := c94_rest hP' h' hd'
  have key : ∀ o, d.data.val o = d'.data.val o := by
    intro o
    by_cases ho : ∃ i j, i < dst.layout.rows ∧ j < dst.layout.cols ∧ o = off dst.layout i j
    · obtain ⟨i, j, hi, hj, rfl⟩ := ho
      have a := elem_at (c94_int32 hP h hdt hd hi hj (h32 i j hi hj))
      have b := elem_at (c94_int32 hP' h' hdt hd' hi hj (h32 i j hi hj))
      unfold Mat.at at a b
      rw [s.layout] at a
      rw [s'.layout] at b
      rw [← a, ← b]
    · have hn : ∀ i j, i < dst.layout.rows → j < dst.layout.cols → o ≠ off dst.layout i j :=
        fun i j hi hj e => ho ⟨i, j, hi, hj, e⟩
      rw [r o hn, r' o hn]
  obtain ⟨l, ⟨n, v⟩, z⟩ := d
  obtain ⟨l', ⟨n', v'⟩, z'⟩ := d'
  have e1 : l = dst.layout := s.layout
  have e2 : l' = dst.layout := s'.layout
  have e3 : z = dst.zp := s.zp
  have e4 : z' = dst.zp := s'.zp
  have e5 : n = dst.data.size := s.size
  have e6 : n' = dst.data.size := s'.size
  have e7 : v = v' := funext key
  rw [e1, e2, e3, e4, e5, e6, e7]

end

/-! ### Examples -/

/-- LHS: uint8, 3x5, row-major. -/
def exLhs : Mul.Mat Int := ⟨⟨3, 5, 7, .rowMajor⟩, ⟨21, fun o => (o * 37 % 256 : Nat)⟩, 200⟩
/-- RHS: int8, 5x125, row-major. -/
def exRhs : Mul.Mat Int := ⟨⟨5, 125, 125, .rowMajor⟩, ⟨625, fun o => (o * 29 % 256 : Nat) - 128⟩, -7⟩
def exDst (o : Mat.Order) : Mul.Mat Int := ⟨⟨3, 125, 130, o⟩, ⟨130 * 125, fun _ => 55⟩, 0⟩

/-- Buffers of three values, which ruy replaces by longer ones. -/
def exParams : MulParams Int where
  bias := some ⟨3, fun i => 10 * i - 40⟩
  quant := some ⟨0, 0, some ⟨3, fun i => 2 ^ 30 + i⟩, some ⟨3, fun i => if i = 1 then 0 else -2⟩⟩
  channelDim := .row
  capacityRounding := 1
  clampMin := -100
  clampMax := 120

theorem exUser {kc : Nat} (hkc : kc = 8 ∨ kc = 16) (o : Mat.Order) {dt : ScalarType} (hd : dt ≠ .float) :
    UserOk kc ⟨.uint8, .int8⟩ dt exLhs exRhs (exDst o) exParams where
  types := ⟨Or.inr rfl, Or.inl rfl⟩
  typed := by
    refine ⟨⟨by decide, fun i j _ _ => ?_⟩, ⟨by decide, fun i j _ _ => ?_⟩⟩
    · show (0 : Int) ≤ ((_ * 37 % 256 : Nat) : Int) ∧ ((_ * 37 % 256 : Nat) : Int) ≤ 255
      omega
    · show (-128 : Int) ≤ ((_ * 29 % 256 : Nat) : Int) - 128 ∧ ((_ * 29 % 256 : Nat) : Int) - 128 ≤ 127
      omega
  valid := by cases o <;> cases dt <;> first | exact absurd rfl hd | decide
  depth := rfl
  rows := rfl
  cols := rfl
  lsize := by
    rcases hkc with rfl | rfl
    · exact ⟨⟨⟨2, rfl⟩, ⟨3, rfl⟩⟩, by decide, by decide, by decide, by decide, by decide⟩
    · exact ⟨⟨⟨2, rfl⟩, ⟨4, rfl⟩⟩, by decide, by decide, by decide, by decide, by decide⟩
  rsize := by
    rcases hkc with rfl | rfl
    · exact ⟨⟨⟨2, rfl⟩, ⟨3, rfl⟩⟩, by decide, by decide, by decide, by decide, by decide⟩
    · exact ⟨⟨⟨2, rfl⟩, ⟨4, rfl⟩⟩, by decide, by decide, by decide, by decide, by decide⟩
  small := by decide
  fits := by
    refine ⟨fun i j hi hj => ?_, fun i j hi hj => ?_, fun i j hi hj => ?_⟩
    · have hi : i < 3 := hi
      have hj : j < 5 := hj
      show i * 7 + j < 2 ^ 31 ∧ i * 7 + j < 21
      omega
    · have hi : i < 5 := hi
      have hj : j < 125 := hj
      show i * 125 + j < 2 ^ 31 ∧ i * 125 + j < 625
      omega
    · have hi : i < 3 := hi
      have hj : j < 125 := hj
      cases o
      · show i + j * 130 < 2 ^ 31 ∧ i + j * 130 < 130 * 125
        omega
      · show i * 130 + j < 2 ^ 31 ∧ i * 130 + j < 130 * 125
        omega
  dtype := hd
  stride := by cases o <;> (show _ ≤ 130; decide)
  block := by
    show kc * (Kern.sizeOf dt * 130) < _
    rcases hkc with rfl | rfl <;> cases dt <;> simp only [Kern.sizeOf] <;> omega
  zps := by decide +kernel
  buffers := by
    have hc : ∀ cap, SizeUtil.nRoundUpPot 3 1 = .ok cap → cap = 3 := by
      intro cap h
      have : SizeUtil.nRoundUpPot 3 1 = .ok 3 := by decide
      rw [this] at h; cases h; rfl
    refine ⟨⟨0, rfl⟩, (by show 3 + 1 < 2 ^ 31; decide), fun cap h => ?_, fun cap q h hq => ?_, fun cap q h hq => ?_⟩
    all_goals
      have h := hc cap h
      subst h
    · intro x hx; cases hx
      exact ⟨Nat.le_refl _, fun i h1 h2 => absurd h2 (Nat.not_lt.2 h1)⟩
    · cases hq; intro x hx; cases hx
      exact ⟨Nat.le_refl _, fun i h1 h2 => absurd h2 (Nat.not_lt.2 h1)⟩
    · cases hq; intro x hx; cases hx
      exact ⟨Nat.le_refl _, fun i h1 h2 => absurd h2 (Nat.not_lt.2 h1)⟩
  both := by intro q hq; cases hq; rfl
  bias32 := by
    intro b ch hb hc; cases hb
    have hc : ch < 3 := hc
    show -2 ^ 31 ≤ (10 * ch - 40 : Int) ∧ (10 * ch - 40 : Int) < 2 ^ 31
    omega

def exJunk : Junk Int := ⟨⟨fun _ => 9, fun _ => 9⟩, ⟨fun _ => 9, fun _ => 9⟩⟩

/-- Every path ends somewhere, for both orders of the destination. -/
theorem exEnds {P : Flow.Path} {ml : Int → Int → Int → Int} (hP : (P, ml) ∈ Flow.paths) (o : Mat.Order) {dt : ScalarType}
    (hd : dt ≠ .float) : ∃ d, Mul P ⟨.uint8, .int8⟩ dt exLhs exRhs (exDst o) exParams d := by
  obtain ⟨jb, m, e, ⟨m', e'⟩, _⟩ := c94_runs hP (exUser (Flow.kc_of (Flow.paths_ok hP)) o hd) exJunk
  exact ⟨_, exJunk, jb, m, _, e, .simple e', rfl⟩

/-- The hypotheses of `c94_runs` with several threads: the packed matrices are 8 and 128 columns wide. -/
example : ∃ jb m, setup 8 ⟨.uint8, .int8⟩ .int8 exLhs exRhs (exDst .colMajor) exParams exJunk = .ok (jb, m) ∧ MapFor m Flow.exMap :=
  ⟨_, _, rfl, ⟨8, 128, 8, 8, 8, 1, 1, 2, ⟨32768, 524288⟩⟩, by decide +kernel, rfl, rfl, rfl, rfl, by decide, by decide⟩

/-- The hypotheses of `c94_int32`, `c94_rest`. -/
example (o : Mat.Order) : ∃ d, Mul Flow.path512 ⟨.uint8, .int8⟩ .int32 exLhs exRhs (exDst o) exParams d ∧
    d.elem 2 99 = .ok (entry exLhs exRhs exParams 2 99) ∧ entry exLhs exRhs exParams 2 99 ≠ 0 ∧ d.data.val 129 = 55 := by
  obtain ⟨d, hd⟩ := exEnds (P := Flow.path512) (ml := lane512) (by simp [Flow.paths]) o (dt := .int32) (by decide)
  have h := exUser (kc := 16) (Or.inr rfl) o (dt := .int32) (by decide)
  refine ⟨d, hd, c94_int32 (P := Flow.path512) (ml := lane512) (by simp [Flow.paths]) h rfl hd (by show 2 < 3; decide)
    (by show 99 < 125; decide) (by unfold isI32; decide +kernel), by decide +kernel, ?_⟩
  refine (c94_rest (P := Flow.path512) (ml := lane512) (by simp [Flow.paths]) h hd).2 129 (fun i j hi hj => ?_)
  have hi : i < 3 := hi
  have hj : j < 125 := hj
  cases o
  · show 129 ≠ i + j * 130
    omega
  · show 129 ≠ i * 130 + j
    omega

/-- The hypotheses of `c94_quantized`; the exponent of channel 1 is 0. -/
example (o : Mat.Order) : ∃ d, Mul Flow.path2 ⟨.uint8, .int8⟩ .int8 exLhs exRhs (exDst o) exParams d ∧
    d.elem 1 99 = .ok (quantizedEntry exLhs exRhs exParams 0 1 99) := by
  obtain ⟨d, hd⟩ := exEnds (P := Flow.path2) (ml := lane) (by simp [Flow.paths]) o (dt := .int8) (by decide)
  refine ⟨d, hd, ?_⟩
  obtain ⟨v, h1, _, _, h2⟩ := c94_quantized (P := Flow.path2) (ml := lane) (by simp [Flow.paths])
    (exUser (kc := 8) (Or.inl rfl) o (by decide)) (by decide)
    ⟨fun h => (by cases h), fun _ => ⟨rfl, ⟨by decide, by decide⟩, ⟨by decide, by decide⟩⟩⟩ (by show -128 ≤ (0 : Int) ∧ (0 : Int) ≤ 127; decide) hd
    (i := 1) (j := 99) (by show 1 < 3; decide) (by show 99 < 125; decide)
    (by unfold isI32; decide +kernel) (by unfold MultOk isI32; decide +kernel)
    (by show isI32 (0 + _); unfold isI32; decide +kernel)
  rw [h1, h2 (by decide)]
  rfl

/-- The hypotheses of `c94_paths_int32`. -/
example (o : Mat.Order) : ∃ d, Mul Flow.pathAvx ⟨.uint8, .int8⟩ .int32 exLhs exRhs (exDst o) exParams d ∧
    Mul Flow.path512 ⟨.uint8, .int8⟩ .int32 exLhs exRhs (exDst o) exParams d := by
  obtain ⟨d, hd⟩ := exEnds (P := Flow.path512) (ml := lane512) (by simp [Flow.paths]) o (dt := .int32) (by decide)
  obtain ⟨d', hd'⟩ := exEnds (P := Flow.pathAvx) (ml := lane) (by simp [Flow.paths]) o (dt := .int32) (by decide)
  refine ⟨d, ?_, hd⟩
  rw [c94_paths_int32 (P := Flow.path512) (P' := Flow.pathAvx) (ml := lane512) (ml' := lane) (by simp [Flow.paths]) (by simp [Flow.paths])
    (exUser (kc := 16) (Or.inr rfl) o (by decide)) (exUser (kc := 8) (Or.inl rfl) o (by decide)) rfl hd hd' ?_]
  · exact hd'
  · intro i j hi hj
    have hi : i < 3 := hi
    have hj : j < 125 := hj
    have : ∀ i < 3, ∀ j < 125, -2 ^ 31 ≤ entry exLhs exRhs exParams i j ∧ entry exLhs exRhs exParams i j < 2 ^ 31 := by
      decide +kernel
    exact this i hi j hj

end Ruy.Simd.Top

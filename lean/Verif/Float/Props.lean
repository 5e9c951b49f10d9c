import Verif.Float.Lemmas
import Verif.Float.PackLemmas
import Mathlib.Tactic.IntervalCases
/-
Properties C44 (memcpy-based float packing) and C47 (float Mul against ReferenceMul).
-/
namespace Ruy.Float
open Ruy.Mat Ruy.Mul Ruy.Front

variable {A : Type}

/-! ### C47 -/

/-- C47, for any floating-point arithmetic satisfying `Laws` (equality up to `eqv` is respected by
the operations and removed by adding 0) and, when the destination is row-major, whose
multiplication commutes up to `eqv`: Mul on a portable path, whatever the kernel's block format, the
block decomposition, the number of threads and the schedule, stores bit for bit what ReferenceMul
stores.  The full claim (any arithmetic) is false: `c47_disagreement`. -/
theorem c47_equals_reference_partial (f : Ops A) (eqv : A → A → Prop) (hf : Laws f eqv)
    (isZero : A → Bool) (kern : SidePair KernelLayout) (lhs rhs dst d d' : Mul.Mat A)
    (mp : MulParams A) (hs : Shapes kern lhs rhs dst) (hq : mp.quant = none)
    (hcomm : dst.layout.order = .rowMajor → ∀ x y, eqv (f.mul x y) (f.mul y x))
    (h : Front.Mul (floatScalars f isZero) kern lhs rhs dst mp d)
    (h' : Front.referenceMul (floatScalars f isZero) lhs rhs dst mp = .ok d') : d = d' := by
  obtain ⟨depth, _, hd, hc⟩ := mul_computes hs h
  have hc' := referenceMul_computes hs.rows hs.cols hs.stride h'
  have hz : lhs.zp = 0 ∧ rhs.zp = 0 ∧ dst.zp = 0 := by
    obtain ⟨junk, tp, m, adv, d', hf, _⟩ := h
    unfold frontEnd at hf
    obtain ⟨_, hv, hf⟩ := C.bind_ok hf
    unfold validate at hv
    obtain ⟨_, h1, hv⟩ := C.bind_ok hv
    obtain ⟨_, h2, hv⟩ := C.bind_ok hv
    obtain ⟨_, h3, hv⟩ := C.bind_ok hv
    exact ⟨C.check_ok h1, C.check_ok h2, C.check_ok h3⟩
  refine hc.unique ⟨hc'.same, fun i j hi' hj' => ?_, hc'.frame⟩
  obtain ⟨v, _, h2⟩ := hc.done i j hi' hj'
  obtain ⟨w, h3, h4⟩ := hc'.done i j hi' hj'
  rw [hs.rows] at hi'
  rw [hs.cols] at hj'
  have := entry_eq hf hq hz.1 hz.2.1 hz.2.2 hcomm hs.depth hd hi' hj' h2 h4
  subst this
  exact ⟨v, h3, h2⟩

/-- C47 for IEEE-754 style arithmetic with any format, any rounding (including flushing results to
zero), any rounding direction and any NaN payload propagation that is symmetric or irrelevant
because the destination is column-major. -/
theorem c47_ieee_equals_reference (e : Env) (he : e.Ok) (isZero : Fl → Bool)
    (kern : SidePair KernelLayout) (lhs rhs dst d d' : Mul.Mat Fl) (mp : MulParams Fl)
    (hs : Shapes kern lhs rhs dst) (hq : mp.quant = none)
    (hcomm : dst.layout.order = .colMajor ∨ ∀ p q, e.nan2 p q = e.nan2 q p)
    (h : Front.Mul (floatScalars e.ops isZero) kern lhs rhs dst mp d)
    (h' : Front.referenceMul (floatScalars e.ops isZero) lhs rhs dst mp = .ok d') : d = d' := by
  refine c47_equals_reference_partial e.ops e.eqv he.laws isZero kern lhs rhs dst d d' mp hs hq
    (fun ho x y => .inl ?_) h h'
  rcases hcomm with hc | hc
  · rw [hc] at ho; cases ho
  · exact Env.mul_comm hc x y

/-- Exact arithmetic, NaN payloads taken from the first NaN operand (as on x86). -/
def x86Env : Env where
  rnd q := .fin q
  zsum := false
  nan1 p := p
  nan2 p _ := p
  dnan := 0

def one (x : Fl) (o : Order) : Mul.Mat Fl := ⟨⟨1, 1, 1, o⟩, ⟨1, fun _ => x⟩, 0⟩

def k11 : SidePair KernelLayout := ⟨⟨.colMajor, 1, 1⟩, ⟨.colMajor, 1, 1⟩⟩

def plainMp : MulParams Fl := ⟨none, none, .row, 1, .inf true, .inf false⟩

/-- C47 is false for arithmetics in which the payload of a product of two NaNs depends on the order
of the operands: with a row-major destination Mul multiplies in the other order than ReferenceMul.
Here lhs = [NaN 1], rhs = [NaN 2]: Mul stores NaN 2, ReferenceMul stores NaN 1. -/
theorem c47_disagreement :
    ∃ d d', Front.Mul (floatScalars x86Env.ops (fun _ => false)) k11 (one (.nan 1) .rowMajor)
        (one (.nan 2) .rowMajor) (one (.zero false) .rowMajor) plainMp d ∧
      Front.referenceMul (floatScalars x86Env.ops (fun _ => false)) (one (.nan 1) .rowMajor)
        (one (.nan 2) .rowMajor) (one (.zero false) .rowMajor) plainMp = .ok d' ∧
      d.elem 0 0 = .ok (.nan 2) ∧ d'.elem 0 0 = .ok (.nan 1) := by
  refine ⟨_, _, ⟨⟨⟨fun _ => .zero false, fun _ => .zero false⟩, ⟨fun _ => .zero false, fun _ => .zero false⟩⟩, _, _, _, _, rfl, .simple _ rfl rfl, rfl⟩,
    rfl, rfl, rfl⟩

/-! ### C44 -/

/-- The generic packing cell by cell. -/
theorem generic_cells {f : Ops A} {kcols lo hi : Nat} {src : Mul.Mat A} {p q : PMat A}
    (h : Fits kcols src p.layout lo hi) (hz : p.zp = 0)
    (h2 : runPack f.arith f.pack src lo hi p = .ok q) :
    q.layout = p.layout ∧ q.data.size = p.data.size ∧
      (∀ r c, r < src.layout.rows → lo ≤ c → c < hi → q.data.val (poff p.layout r c) =
        if c < src.layout.cols then f.pack (src.at r c) else f.zero) ∧
      (∀ o, (∀ r c, r < src.layout.rows → lo ≤ c → c < hi → o ≠ poff p.layout r c) →
        q.data.val o = p.data.val o) := by
  have hp := (createPackedLayout_ok h.layout).1
  have hrows := h.rows
  obtain ⟨a1, a2, a3⟩ := runPack_ok hp h.hic h2
  refine ⟨a1.layout, a1.size, fun r c hr hc1 hc2 => ?_, fun o ho => ?_⟩
  · obtain ⟨v, e1, e2⟩ := (a3 c hc1 hc2).data r (by rw [a1.layout]; omega)
    obtain ⟨o, ho, _, hv⟩ := elem_ok e1
    have := (poffset_ok ho).2
    rw [a1.layout] at this
    subst this
    rw [← hv, a1.zp, hz] at *
    unfold packedVal at e2
    by_cases hc : c < src.layout.cols
    · rw [if_pos ⟨hc, hr⟩] at e2
      obtain ⟨x, hx, e2⟩ := C.bind_ok e2
      cases e2
      rw [if_pos hc, elem_at hx]
    · rw [if_neg (fun h => hc h.1), ofInt_zero] at e2
      cases e2
      rw [if_neg hc]
  · exact a2.data o (fun r c hr hc => ho r c (by omega) hc.1 hc.2)

theorem buf_ext {b b' : Buf A} (h1 : b.size = b'.size) (h2 : ∀ o, b.val o = b'.val o) : b = b' := by
  obtain ⟨s, v⟩ := b
  obtain ⟨s', v'⟩ := b'
  cases h1
  have : v = v' := funext h2
  rw [this]

/-- C44: if the generic packing leaves every source element as it is (`x - 0 + 0` is `x`), the
memcpy-based packing of columns [lo, hi) yields the same packed data, for every shape, stride,
kernel width and range of kernel-width columns.  The full claim (without the hypothesis) is false:
`c44_disagreement`. -/
theorem c44_same_data_partial (f : Ops A) (kcols lo hi : Nat) (src : Mul.Mat A) (p q q' : PMat A)
    (h : Fits kcols src p.layout lo hi) (hz : p.zp = 0)
    (hpack : ∀ r c, r < src.layout.rows → c < src.layout.cols → f.pack (src.at r c) = src.at r c)
    (h1 : memcpyPack f.zero kcols src lo hi p = .ok q)
    (h2 : runPack f.arith f.pack src lo hi p = .ok q') :
    q.data = q'.data ∧ q.layout = q'.layout := by
  obtain ⟨a1, _, _, a2, a3, a4⟩ := memcpyPack_ok h h1
  obtain ⟨b1, b2, b3, b4⟩ := generic_cells h hz h2
  refine ⟨buf_ext (a2.trans b2.symm) (fun o => ?_), a1.trans b1.symm⟩
  by_cases ho : ∃ r c, r < src.layout.rows ∧ lo ≤ c ∧ c < hi ∧ o = poff p.layout r c
  · obtain ⟨r, c, hr, hc1, hc2, rfl⟩ := ho
    rw [a3 r c hr hc1 hc2, b3 r c hr hc1 hc2]
    unfold rowVal
    split
    · rename_i hc
      exact (hpack r c hr hc).symm
    · rfl
  · have ho' : ∀ r c, r < src.layout.rows → lo ≤ c → c < hi → o ≠ poff p.layout r c :=
      fun r c h1 h2 h3 e => ho ⟨r, c, h1, h2, h3, e⟩
    rw [a4 o ho', b4 o ho']

/-- C44 for IEEE-754 style arithmetic and source elements that are values of the type: the two
packings agree except possibly in the sign of zeros. -/
theorem c44_ieee_up_to_sign_of_zero (e : Env) (kcols lo hi : Nat) (src : Mul.Mat Fl)
    (p q q' : PMat Fl) (h : Fits kcols src p.layout lo hi) (hz : p.zp = 0)
    (hsrc : ∀ r c, r < src.layout.rows → c < src.layout.cols → e.Stable (src.at r c))
    (h1 : memcpyPack e.ops.zero kcols src lo hi p = .ok q)
    (h2 : runPack e.ops.arith e.ops.pack src lo hi p = .ok q') :
    q.data.size = q'.data.size ∧ ∀ o, q.data.val o = q'.data.val o ∨
      ∃ s t, q.data.val o = .zero s ∧ q'.data.val o = .zero t := by
  obtain ⟨a1, _, _, a2, a3, a4⟩ := memcpyPack_ok h h1
  obtain ⟨b1, b2, b3, b4⟩ := generic_cells h hz h2
  refine ⟨a2.trans b2.symm, fun o => ?_⟩
  by_cases ho : ∃ r c, r < src.layout.rows ∧ lo ≤ c ∧ c < hi ∧ o = poff p.layout r c
  · obtain ⟨r, c, hr, hc1, hc2, rfl⟩ := ho
    rw [a3 r c hr hc1 hc2, b3 r c hr hc1 hc2]
    unfold rowVal
    split
    · rename_i hc
      have hst := hsrc r c hr hc
      generalize src.at r c = x at hst ⊢
      cases x with
      | nan p =>
        left
        show Fl.nan p = .nan (e.nan1 (e.nan1 p))
        change e.nan1 p = p at hst
        rw [hst, hst]
      | inf s => left; rfl
      | fin v =>
        left
        change e.rnd v = .fin v at hst
        show Fl.fin v = e.add (e.rnd v) (.zero false)
        rw [hst]
        exact hst.symm
      | zero s =>
        right
        refine ⟨s, ?_⟩
        cases s
        · cases hz : e.zsum with
          | false => exact ⟨false, rfl, by simp [Ops.pack, Env.ops, Env.add, Fl.neg, hz]⟩
          | true => exact ⟨true, rfl, by simp [Ops.pack, Env.ops, Env.add, Fl.neg, hz]⟩
        · exact ⟨e.zsum, rfl, by simp [Ops.pack, Env.ops, Env.add, Fl.neg]⟩
    · exact .inl rfl
  · have ho' : ∀ r c, r < src.layout.rows → lo ≤ c → c < hi → o ≠ poff p.layout r c :=
      fun r c h1 h2 h3 e => ho ⟨r, c, h1, h2, h3, e⟩
    left
    rw [a4 o ho', b4 o ho']

/-- C44: neither packing faults, when the buffers are as large as the layouts say. -/
theorem c44_returns (f : Ops A) (kcols lo hi : Nat) (src : Mul.Mat A) (p : PMat A)
    (h : Fits kcols src p.layout lo hi) (hlohi : lo < hi) (hint : pflatSize p.layout < 2 ^ 31)
    (hp : PFits p) (hsrc : DFits src) :
    (∃ q, memcpyPack f.zero kcols src lo hi p = .ok q) ∧
      ∃ q', runPack f.arith f.pack src lo hi p = .ok q' := by
  refine ⟨memcpyPack_total h hlohi hint hp.data hsrc, ?_⟩
  obtain ⟨hpk, _, _, hk, _⟩ := createPackedLayout_ok h.layout
  refine runPack_total hpk hp h.hic (by rw [hk]; exact Nat.dvd_sub h.dhi h.dlo) (fun c _ _ => ?_)
  unfold colSum
  obtain ⟨s, hs, _⟩ := forUpTo_total (n := p.layout.rows) (s := f.arith.zero)
    (body := fun r acc => do
      let v ← packedVal f.arith f.pack src p.zp r c
      f.arith.add acc v) (fun _ _ => True) trivial
    (by
      intro r t _ _
      unfold packedVal
      split
      · rename_i hc
        have hl := hsrc r c hc.2 hc.1
        unfold Mul.Mat.elem
        rw [offset_eq, C.int_of hl.1, C.ok_bind, Buf.read_of hl.2]
        exact ⟨_, rfl, trivial⟩
      · exact ⟨_, rfl, trivial⟩)
  exact ⟨s, hs⟩

/-- A 1 × 3 source holding -0, to be packed for kernels of width 2. -/
def negZeroSrc : Mul.Mat Fl := ⟨⟨1, 3, 3, .rowMajor⟩, ⟨3, fun _ => .zero true⟩, 0⟩
def packed12 : PMat Fl :=
  ⟨⟨1, 4, 1, .colMajor, ⟨.rowMajor, 1, 2⟩⟩, ⟨4, fun _ => .nan 7⟩, none, 0⟩

/-- C44 is false for negative zeros: memcpy copies -0, the generic packing computes
-0 - 0 + 0 = +0. -/
theorem c44_disagreement :
    ∃ q q', memcpyPack x86Env.ops.zero 2 negZeroSrc 0 4 packed12 = .ok q ∧
      runPack x86Env.ops.arith x86Env.ops.pack negZeroSrc 0 4 packed12 = .ok q' ∧
      q.data.val 0 = .zero true ∧ q'.data.val 0 = .zero false :=
  ⟨_, _, rfl, rfl, rfl, rfl⟩

/-! ### Instances -/

/-- An environment as on real machines in this respect: multiples of 1/4 between -8 and 8 are
representable, other results overflow to infinity or are flushed to zero; NaN payload of the first
operand. -/
def toyEnv : Env where
  rnd q := if q.den ∣ 4 ∧ q ≠ 0 ∧ q.num.natAbs ≤ 8 * q.den then .fin q else if 1 < q.num.natAbs then .inf (decide (q < 0)) else .zero (decide (q < 0))
  zsum := false
  nan1 p := p
  nan2 p _ := p
  dnan := 0

theorem toy_ok : toyEnv.Ok where
  rnd q r h := by
    unfold toyEnv at h ⊢
    dsimp only at h ⊢
    split at h
    · rename_i hq
      cases h
      exact ⟨hq.2.1, if_pos hq⟩
    · split at h <;> cases h
  rndNan q p h := by
    unfold toyEnv at h
    dsimp only at h
    split at h
    · cases h
    · split at h <;> cases h
  nan1 _ := rfl
  nan2 _ _ := rfl
  dnan := rfl

/-- A 2 × 3 and a 3 × 2 matrix, column-major destination with a gap. -/
def fLhs : Mul.Mat Fl :=
  ⟨⟨2, 3, 3, .rowMajor⟩, ⟨6, fun i => [.fin 1, .zero true, .fin (-1/4), .nan 3, .inf true, .fin 2].getD i (.zero false)⟩, 0⟩
def fRhs : Mul.Mat Fl :=
  ⟨⟨3, 2, 3, .colMajor⟩, ⟨6, fun i => [.zero true, .fin 1, .fin (1/2), .fin 3, .fin 1, .fin 4].getD i (.zero false)⟩, 0⟩
def fDst : Mul.Mat Fl := ⟨⟨2, 2, 3, .colMajor⟩, ⟨6, fun _ => .nan 9⟩, 0⟩

/-- Variant 1 of the portable path pads the depth from 3 to 4. -/
def k44 : SidePair KernelLayout := ⟨⟨.rowMajor, 4, 4⟩, ⟨.rowMajor, 4, 4⟩⟩

-- Hypotheses of the C47 theorems: Mul and ReferenceMul return.
example : Shapes k44 fLhs fRhs fDst ∧ toyEnv.Ok ∧
    (∃ d, Front.Mul (floatScalars toyEnv.ops (fun _ => false)) k44 fLhs fRhs fDst plainMp d) ∧
    ∃ d', Front.referenceMul (floatScalars toyEnv.ops (fun _ => false)) fLhs fRhs fDst plainMp =
      .ok d' :=
  ⟨⟨rfl, rfl, rfl, by change 2 ≤ 3; decide, rfl⟩, toy_ok,
    ⟨_, ⟨⟨fun _ => .zero false, fun _ => .zero false⟩, ⟨fun _ => .zero false, fun _ => .zero false⟩⟩, _, _, _, _, rfl, .simple _ rfl rfl, rfl⟩, _, rfl⟩

-- Hypotheses of the C44 theorems.
example : Fits 2 negZeroSrc packed12.layout 0 4 ∧ PFits packed12 ∧ DFits negZeroSrc ∧
    pflatSize packed12.layout < 2 ^ 31 := by
  refine ⟨⟨rfl, rfl, ⟨0, rfl⟩, ⟨2, rfl⟩, Nat.le_refl _⟩,
    ⟨by decide, by decide, fun b hb => by cases hb⟩, fun i j hi hj => ?_, by decide⟩
  change i < 1 at hi
  change j < 3 at hj
  change i * 3 + j < 2 ^ 31 ∧ i * 3 + j < 3
  omega

example : ∀ r c, r < fLhs.layout.rows → c < fLhs.layout.cols → toyEnv.Stable (fLhs.at r c) := by
  intro r c hr hc
  change r < 2 at hr
  change c < 3 at hc
  have : toyEnv.rnd 1 = .fin 1 ∧ toyEnv.rnd (-1/4) = .fin (-1/4) ∧ toyEnv.rnd 2 = .fin 2 := by
    decide +kernel
  obtain ⟨h1, h2, h3⟩ := this
  interval_cases r <;> interval_cases c <;> first | exact h1 | exact h2 | exact h3 | trivial | rfl

end Ruy.Float

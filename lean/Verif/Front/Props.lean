import Verif.Front.Total
import Mathlib.Tactic.IntervalCases
/-
Properties of Mul as a whole: C01, C02, C03, C28, C29, C30, C31, C38.
Helper lemmas are in Lemmas, Values and Total.

Specification (Values.lean): `accumSpec` is bias + Σ_k (lhs(i,k) - lzp)(rhs(k,j) - rzp),
`entrySpec` is its scaling (by the rational rounding `Multiplier.scaled`), plus the destination's
zero point, clamped.
-/
namespace Ruy.Front
open Ruy.Mat Ruy.Mul Ruy.TrMul

variable {A : Type}

/-! ### C01 -/

/-- C01: whenever Mul returns for integer matrices, every entry is the documented product: for all
orders, strides, kernel layouts, packed types, numbers of threads and schedules. -/
theorem c01_entries (ty packed : SidePair ScalarType) (dstTy : ScalarType)
    (kern : SidePair KernelLayout) (lhs rhs dst d : Mul.Mat Int) (mp : MulParams Int)
    (hs : Shapes kern lhs rhs dst) (hi : IntOk ty packed dstTy lhs rhs mp)
    (h : Mul (intScalars Arith.int32 ty packed dstTy) kern lhs rhs dst mp d) (i j : Nat)
    (hr : i < dst.layout.rows) (hc : j < dst.layout.cols) :
    d.elem i j = .ok (entrySpec lhs rhs dst mp i j) := by
  obtain ⟨v, h1, h2⟩ := (mul_int_computes hs hi h).done i j hr hc
  cases h2; exact h1

/-- C01: ReferenceMul stores the same values. -/
theorem c01_reference_entries (ty packed : SidePair ScalarType) (dstTy : ScalarType)
    (lhs rhs dst d : Mul.Mat Int) (mp : MulParams Int) (hrow : dst.layout.rows = lhs.layout.rows)
    (hcol : dst.layout.cols = rhs.layout.cols) (hst : StrideOk dst.layout) (hcl : ClampOk dstTy mp)
    (h : referenceMul (intScalars Arith.int32 ty packed dstTy) lhs rhs dst mp = .ok d) (i j : Nat)
    (hr : i < dst.layout.rows) (hc : j < dst.layout.cols) :
    d.elem i j = .ok (entrySpec lhs rhs dst mp i j) := by
  obtain ⟨v, h1, h2⟩ := (ref_int_computes hrow hcol hst hcl h).done i j hr hc
  cases h2; exact h1

/-- C01: Mul and ReferenceMul end with identical destination memory. -/
theorem c01_equals_reference (ty packed : SidePair ScalarType) (dstTy : ScalarType)
    (kern : SidePair KernelLayout) (lhs rhs dst d d' : Mul.Mat Int) (mp : MulParams Int)
    (hs : Shapes kern lhs rhs dst) (hi : IntOk ty packed dstTy lhs rhs mp)
    (h : Mul (intScalars Arith.int32 ty packed dstTy) kern lhs rhs dst mp d)
    (h' : referenceMul (intScalars Arith.int32 ty packed dstTy) lhs rhs dst mp = .ok d') : d = d' :=
  (mul_int_computes hs hi h).unique (ref_int_computes hs.rows hs.cols hs.stride hi.clamp h')

/-- C01 with wrap-around accumulators (the behaviour of SIMD integer instructions, and of the
portable kernel compiled with -fwrapv): Mul and ReferenceMul agree even when intermediate sums
overflow. -/
theorem c01_equals_reference_wraparound (ty packed : SidePair ScalarType) (dstTy : ScalarType)
    (kern : SidePair KernelLayout) (lhs rhs dst d d' : Mul.Mat Int) (mp : MulParams Int)
    (hs : Shapes kern lhs rhs dst) (hi : IntOk ty packed dstTy lhs rhs mp)
    (h : Mul (intScalars wrap32 ty packed dstTy) kern lhs rhs dst mp d)
    (h' : referenceMul (intScalars wrap32 ty packed dstTy) lhs rhs dst mp = .ok d') : d = d' := by
  obtain ⟨depth, _, hd, hc⟩ := mul_computes hs h
  have hc' := referenceMul_computes hs.rows hs.cols hs.stride h'
  refine hc.unique ⟨hc'.same, fun i j hi' hj' => ?_, hc'.frame⟩
  obtain ⟨v, _, h2⟩ := hc.done i j hi' hj'
  obtain ⟨w, h3, h4⟩ := hc'.done i j hi' hj'
  rw [hs.rows] at hi'
  rw [hs.cols] at hj'
  have := wrap_entry hi.lpack hi.rpack hi.lty hi.rty hs.depth hd hi' hj' h2 h4
  subst this
  exact ⟨v, h3, h2⟩

/-- C01, totality: within the bounds of `MulOk`, the front-end returns whatever fresh memory
contains, and then so do the simple loop, the block loop and every schedule of any number of
threads. -/
theorem c01_returns (ty packed : SidePair ScalarType) (dstTy : ScalarType)
    (kern : SidePair KernelLayout) (lhs rhs dst : Mul.Mat Int) (mp : MulParams Int)
    (Ml Zl Mr Zr B : Int) (h : MulOk ty packed dstTy kern lhs rhs dst mp Ml Zl Mr Zr B)
    (junk : Junk Int) :
    ∃ tp m adv, frontEnd (intScalars Arith.int32 ty packed dstTy) kern lhs rhs dst mp junk =
      .ok (tp, m, adv) ∧ (∃ m', simpleLoop tp m = .ok m') ∧
      ∀ bm, MapFor m bm → (∃ m', seqRun tp bm m = .ok m') ∧
        ∀ threads sched, ∃ s,
          run ⟨tp, bm, threads⟩ sched (initState ⟨tp, bm, threads⟩ m) = .ok s := by
  obtain ⟨tp, m, adv, hf, hr, hs⟩ := frontEnd_total h junk
  exact ⟨tp, m, adv, hf, simpleLoop_total hr hs, fun bm hm => (c04_no_fault tp m bm hr hs hm).2⟩

/-- C01, totality: Mul has a result. -/
theorem c01_result_exists (ty packed : SidePair ScalarType) (dstTy : ScalarType)
    (kern : SidePair KernelLayout) (lhs rhs dst : Mul.Mat Int) (mp : MulParams Int)
    (Ml Zl Mr Zr B : Int) (h : MulOk ty packed dstTy kern lhs rhs dst mp Ml Zl Mr Zr B) :
    ∃ d, Mul (intScalars Arith.int32 ty packed dstTy) kern lhs rhs dst mp d := by
  obtain ⟨tp, m, adv, hf, ⟨m', h1⟩, _⟩ := c01_returns _ _ _ _ _ _ _ _ _ _ _ _ _ h
    ⟨⟨fun _ => 0, fun _ => 0⟩, ⟨fun _ => 0, fun _ => 0⟩⟩
  exact ⟨_, _, tp, m, adv, m'.dst, hf, .simple m' h1 rfl, rfl⟩

/-! ### C01: intermediate overflow (disagreement with ReferenceMul) -/

/-- A 1 × n row of 255. -/
def row255 (n : Nat) : Mul.Mat Int := ⟨⟨1, n, n, .rowMajor⟩, ⟨n, fun _ => 255⟩, 255⟩
/-- An n × 1 column of 255. -/
def col255 (n : Nat) : Mul.Mat Int := ⟨⟨n, 1, n, .colMajor⟩, ⟨n, fun _ => 255⟩, 255⟩
/-- A 1 × 1 int32 destination. -/
def dst1 : Mul.Mat Int := ⟨⟨1, 1, 1, .colMajor⟩, ⟨1, fun _ => 7⟩, 0⟩
/-- Parameters for raw int32 destinations. -/
def mp32 : MulParams Int := ⟨none, none, .row, 1, -2 ^ 31, 2 ^ 31 - 1⟩

theorem forUpTo_one {σ : Type} (b : Nat → σ → C σ) (s : σ) : forUpTo 1 b s = b 0 s := rfl

/-- ReferenceMul returns 0 for every depth. -/
theorem ref255 (n : Nat) (hn : n < 2 ^ 31) :
    ∃ d, referenceMul (intScalars Arith.int32 ⟨.uint8, .uint8⟩ ⟨.uint8, .uint8⟩ .int32)
      (row255 n) (col255 n) dst1 mp32 = .ok d ∧ d.elem 0 0 = .ok 0 := by
  have hdot : forUpTo n (refDotStep Arith.int32 (row255 n) (col255 n) 0 0)
      Arith.int32.zero = .ok 0 := by
    obtain ⟨s, h1, h2⟩ := forUpTo_total (n := n)
      (body := refDotStep Arith.int32 (row255 n) (col255 n) 0 0)
      (s := Arith.int32.zero) (fun _ (s : Int) => s = 0) rfl (by
        intro k t hk ht
        subst ht
        refine ⟨0, ?_, rfl⟩
        have e1 : (row255 n).elem 0 k = .ok 255 := by
          unfold Mat.elem
          rw [offset_eq]
          have : off (row255 n).layout 0 k = 0 * n + k := rfl
          rw [this, C.int_of (by omega), C.ok_bind]
          exact Buf.read_of (by show 0 * n + k < n; omega)
        have e2 : (col255 n).elem k 0 = .ok 255 := by
          unfold Mat.elem
          rw [offset_eq]
          have : off (col255 n).layout k 0 = k + 0 * n := rfl
          rw [this, C.int_of (by omega), C.ok_bind]
          exact Buf.read_of (by show k + 0 * n < n; omega)
        unfold refDotStep
        rw [e1, C.ok_bind, e2, C.ok_bind]
        rfl)
    rw [h1, h2]
  have hent : refEntry (intScalars Arith.int32 ⟨.uint8, .uint8⟩ ⟨.uint8, .uint8⟩ .int32).ar
      (kernelParams (intScalars Arith.int32 ⟨.uint8, .uint8⟩ ⟨.uint8, .uint8⟩ .int32) mp32)
      (row255 n) (col255 n) dst1.zp 0 0 = .ok 0 := by
    unfold refEntry
    have : (row255 n).layout.cols = n := rfl
    have e : (intScalars Arith.int32 ⟨.uint8, .uint8⟩ ⟨.uint8, .uint8⟩ .int32).ar = Arith.int32 := rfl
    rw [this, e, hdot]
    decide
  refine ⟨⟨dst1.layout, ⟨1, fun i => if i = 0 then 0 else 7⟩, 0⟩, ?_, rfl⟩
  have r1 : (row255 n).layout.rows = 1 := rfl
  have r2 : (col255 n).layout.cols = 1 := rfl
  unfold referenceMul Mul.referenceMul
  rw [r1, forUpTo_one, r2, forUpTo_one]
  unfold refStep
  rw [hent, C.ok_bind]
  rfl

/-- C01 does not hold without a bound on the depth: for uint8 matrices of depth 33026 all of whose
elements equal their zero point 255 the exact product is 0 and ReferenceMul returns 0, but on the
portable path Mul has no defined result (the dot product of the packed values overflows int). -/
theorem c01_overflow_disagreement :
    (∃ d, referenceMul (intScalars Arith.int32 ⟨.uint8, .uint8⟩ ⟨.uint8, .uint8⟩ .int32)
      (row255 33026) (col255 33026) dst1 mp32 = .ok d ∧ d.elem 0 0 = .ok 0) ∧
    ¬ ∃ d, Mul (intScalars Arith.int32 ⟨.uint8, .uint8⟩ ⟨.uint8, .uint8⟩ .int32) ⟨k11, k11⟩
      (row255 33026) (col255 33026) dst1 mp32 d := by
  refine ⟨ref255 33026 (by decide), ?_⟩
  · rintro ⟨d, h⟩
    obtain ⟨depth, h1, h2, h3⟩ := mul_computes (lhs := row255 33026)
      (rhs := col255 33026) (dst := dst1) (kern := ⟨k11, k11⟩) ⟨rfl, rfl, rfl, Nat.le_refl _, rfl⟩ h
    obtain ⟨v, _, h4⟩ := h3.done 0 0 (by decide) (by decide)
    rw [userEntry_eq] at h4
    obtain ⟨a, ha, _⟩ := C.bind_ok h4
    unfold userAccum at ha
    rw [if_pos (show dst1.layout.order = .colMajor from rfl)] at ha
    unfold opAccum at ha
    obtain ⟨a0, h0, _⟩ := C.bind_ok ha
    have hd : depth = 33026 := by
      have e : SizeUtil.nRoundUpPot 33026 1 = .ok 33026 := by decide
      have h1 : SizeUtil.nRoundUpPot 33026 1 = .ok depth := h1
      rw [e] at h1; cases h1; rfl
    subst hd
    obtain ⟨e, hb⟩ : a0 = 65025 * 33026 ∧ a0 < 2 ^ 31 := by
      refine forUpTo_inv (n := 33026) (P := fun n (s : Int) => s = 65025 * n ∧ s < 2 ^ 31)
        ⟨rfl, by decide⟩ ?_ h0
      intro k t t' hk ht hstep
      unfold opDotStep at hstep
      obtain ⟨x, hx, hstep⟩ := C.bind_ok hstep
      obtain ⟨y, hy, hstep⟩ := C.bind_ok hstep
      obtain ⟨z, hz, hstep⟩ := C.bind_ok hstep
      have ex : x = 255 := by
        rw [val_at hx]
        unfold Operand.at
        split <;> rfl
      have ey : y = 255 := by
        rw [val_at hy]
        unfold Operand.at
        split <;> rfl
      have hz : C.i32 (x * y) = .ok z := hz
      have hstep : C.i32 (t + z) = .ok t' := hstep
      obtain ⟨s1, _, s3⟩ := C.i32_ok hstep
      obtain ⟨z1, _, _⟩ := C.i32_ok hz
      subst ex; subst ey
      rw [s1, z1, ht.1]
      rw [z1, ht.1] at s3
      push_cast
      exact ⟨by ring, s3⟩
    omega

/-! ### C02 -/

/-- C02: the result does not depend on the kernel layouts, hence not on how much padding is added
in rows, columns or depth. -/
theorem c02_kernel_layout_irrelevant (ty packed : SidePair ScalarType) (dstTy : ScalarType)
    (kern kern' : SidePair KernelLayout) (lhs rhs dst d d' : Mul.Mat Int) (mp : MulParams Int)
    (hs : Shapes kern lhs rhs dst) (hs' : Shapes kern' lhs rhs dst)
    (hi : IntOk ty packed dstTy lhs rhs mp)
    (h : Mul (intScalars Arith.int32 ty packed dstTy) kern lhs rhs dst mp d)
    (h' : Mul (intScalars Arith.int32 ty packed dstTy) kern' lhs rhs dst mp d') : d = d' :=
  (mul_int_computes hs hi h).unique (mul_int_computes hs' hi h')

/-- C02, C03 (any scalar types, any arithmetic): no memory outside the user's rows × cols entries
changes. -/
theorem c02_nothing_outside (sc : Scalars A) (kern : SidePair KernelLayout)
    (lhs rhs dst d : Mul.Mat A) (mp : MulParams A) (hs : Shapes kern lhs rhs dst)
    (h : Mul sc kern lhs rhs dst mp d) :
    d.layout = dst.layout ∧ d.data.size = dst.data.size ∧ d.zp = dst.zp ∧
      ∀ o, (¬ ∃ i j, i < dst.layout.rows ∧ j < dst.layout.cols ∧ offset dst.layout i j = .ok o) →
        o < 2 ^ 31 → d.data.val o = dst.data.val o := by
  obtain ⟨depth, _, _, hc⟩ := mul_computes hs h
  refine ⟨hc.same.layout, hc.same.size, hc.same.zp, fun o ho hlt => hc.frame o (fun i j hij hoff => ?_)⟩
  exact ho ⟨i, j, hij.1, hij.2, by rw [offset_eq, ← hoff, C.int_of hlt]⟩

/-! ### C03 -/

/-- C03: every entry's cell is written: its new contents do not depend on the old contents of the
destination buffer (any scalar types, any arithmetic, any schedules). -/
theorem c03_overwritten (sc : Scalars A) (kern : SidePair KernelLayout)
    (lhs rhs dst dst' d d' : Mul.Mat A) (mp : MulParams A) (hs : Shapes kern lhs rhs dst)
    (hsame : dst'.layout = dst.layout ∧ dst'.zp = dst.zp)
    (h : Mul sc kern lhs rhs dst mp d) (h' : Mul sc kern lhs rhs dst' mp d') (i j : Nat)
    (hr : i < dst.layout.rows) (hc : j < dst.layout.cols) :
    ∃ v, d.elem i j = .ok v ∧ d'.elem i j = .ok v := by
  have hs' : Shapes kern lhs rhs dst' := by
    obtain ⟨a, b, c, e, f⟩ := hs
    refine ⟨a, ?_, ?_, ?_, f⟩ <;> rw [hsame.1] <;> assumption
  obtain ⟨depth, r1, _, c1⟩ := mul_computes hs h
  obtain ⟨depth', r2, _, c2⟩ := mul_computes hs' h'
  unfold RoundedDepth at r1 r2
  rw [r1] at r2
  cases r2
  obtain ⟨v, h1, h2⟩ := c1.done i j hr hc
  obtain ⟨w, h3, h4⟩ := c2.done i j (by rw [hsame.1]; exact hr) (by rw [hsame.1]; exact hc)
  have e : userEntry sc lhs rhs dst' mp depth i j = userEntry sc lhs rhs dst mp depth i j := by
    unfold userEntry
    rw [hsame.1, hsame.2]
  rw [e, h2] at h4
  cases h4
  exact ⟨v, h1, h3⟩

/-! ### C28 -/

/-- C28: the stored values lie between the clamp bounds. -/
theorem c28_in_clamp_range (ty packed : SidePair ScalarType) (dstTy : ScalarType)
    (kern : SidePair KernelLayout) (lhs rhs dst d : Mul.Mat Int) (mp : MulParams Int)
    (hs : Shapes kern lhs rhs dst) (hi : IntOk ty packed dstTy lhs rhs mp)
    (hcl : mp.clampMin ≤ mp.clampMax)
    (h : Mul (intScalars Arith.int32 ty packed dstTy) kern lhs rhs dst mp d) (i j : Nat)
    (hr : i < dst.layout.rows) (hc : j < dst.layout.cols) :
    ∃ v, d.elem i j = .ok v ∧ mp.clampMin ≤ v ∧ v ≤ mp.clampMax ∧ dstTy.lo ≤ v ∧ v ≤ dstTy.hi := by
  refine ⟨_, c01_entries _ _ _ _ _ _ _ _ _ hs hi h i j hr hc, ?_, ?_, ?_⟩
  · unfold entrySpec outSpec; omega
  · unfold entrySpec outSpec; omega
  · exact outSpec_range hi.clamp _ _ _

/-- C28: the narrowing conversion never changes the value: the same parameters with the conversion
left out give the same result. -/
theorem c28_narrowing_exact (ty packed : SidePair ScalarType) (dstTy : ScalarType)
    (mp : MulParams Int) (dzp : Int) (ch : Nat) (acc : Int) (hcl : ClampOk dstTy mp) :
    finish Arith.int32 (kernelParams (intScalars Arith.int32 ty packed dstTy) mp) dzp ch acc =
      finish Arith.int32 { kernelParams (intScalars Arith.int32 ty packed dstTy) mp with
        cast := fun x => x } dzp ch acc := by
  unfold finish
  show (applyMultiplier (intScalars Arith.int32 ty packed dstTy) mp.quant ch acc >>= _) =
    (applyMultiplier (intScalars Arith.int32 ty packed dstTy) mp.quant ch acc >>= _)
  cases applyMultiplier (intScalars Arith.int32 ty packed dstTy) mp.quant ch acc with
  | error f => rfl
  | ok a1 =>
    rw [C.ok_bind, C.ok_bind]
    cases Arith.int32.add a1 (Arith.int32.ofInt dzp) with
    | error f => rfl
    | ok a2 =>
      rw [C.ok_bind, C.ok_bind]
      dsimp only
      simp only [C.pure_eq, Except.ok.injEq]
      have h1 := hcl.min; have h2 := hcl.max
      show dstTy.wrap (if decide ((if decide (mp.clampMax < a2) = true then mp.clampMax else a2) <
          mp.clampMin) = true then mp.clampMin else
          if decide (mp.clampMax < a2) = true then mp.clampMax else a2) =
        if decide ((if decide (mp.clampMax < a2) = true then mp.clampMax else a2) <
          mp.clampMin) = true then mp.clampMin else
          if decide (mp.clampMax < a2) = true then mp.clampMax else a2
      refine wrap_of ?_ ?_ <;> simp only [decide_eq_true_eq] <;>
        split <;> split at * <;> omega

/-- C28 for any arithmetic (floating point included, NaN included): the value before narrowing is
not less than clamp_min and not greater than clamp_max. -/
theorem c28_clamp_any_arithmetic (ar : Arith A) (mp : Mul.Params A) (dzp : Int) (ch : Nat) (acc v : A)
    (hirr : ∀ x, ar.lt x x = false) (hcl : ar.lt mp.clampMax mp.clampMin = false)
    (h : finish ar mp dzp ch acc = .ok v) :
    ∃ x, v = mp.cast x ∧ ar.lt x mp.clampMin = false ∧ ar.lt mp.clampMax x = false := by
  unfold finish at h
  obtain ⟨a1, _, h⟩ := C.bind_ok h
  obtain ⟨a2, _, h⟩ := C.bind_ok h
  dsimp only at h
  cases h
  refine ⟨_, rfl, ?_⟩
  cases h1 : ar.lt mp.clampMax a2 with
  | true =>
    simp only [if_true]
    rw [hcl]
    exact ⟨hcl, hirr _⟩
  | false =>
    simp only [Bool.false_eq_true, if_false]
    cases h2 : ar.lt a2 mp.clampMin with
    | true => simp only [if_true]; exact ⟨hirr _, hcl⟩
    | false => simp only [Bool.false_eq_true, if_false]; exact ⟨h2, h1⟩

/-! ### C29 -/

/-- C29: the documented capacity suffices: no index at or beyond it is read, and the check of the
tail succeeds exactly when the tail is zero. -/
theorem c29_capacity_suffices (ar : Arith Int) (ty packed : SidePair ScalarType) (dst : ScalarType)
    (mp : MulParams Int) (n req : Nat) (h : BuffersOk mp n) :
    ∃ r, ensureBuffers (intScalars ar ty packed dst) mp n req = .ok r := ensureBuffers_total h

/-- One buffer before and after: kept, or replaced by the user's `n` values followed by zeros. -/
def Grown {α : Type} (zero : α) (n req : Nat) (b b' : Option (Buf α)) : Prop :=
  (b = none ∧ b' = none) ∨ ∃ x x', b = some x ∧ b' = some x' ∧ x'.size = req ∧
    (∀ c, c < n → x'.val c = x.val c) ∧ ∀ c, n ≤ c → x'.val c = zero

/-- C29: the advisory is raised exactly when the packed width exceeds the user's capacity; then
every buffer is replaced by the user's values followed by zeros, otherwise everything is left as it
is. -/
theorem c29_replacement (sc : Scalars A) (mp : MulParams A) (n req cap : Nat)
    (r : MulParams A × Bool) (h : ensureBuffers sc mp n req = .ok r)
    (hcap : SizeUtil.nRoundUpPot n mp.capacityRounding = .ok cap) :
    (r.2 = true ↔ cap < req) ∧ (r.2 = false → r.1 = mp) ∧
    (r.2 = true → Grown sc.ar.zero n req mp.bias r.1.bias ∧
      (∀ q, mp.quant = some q → ∃ q', r.1.quant = some q' ∧ q'.fixed = q.fixed ∧
        q'.exponent = q.exponent ∧ Grown 0 n req q.fixedPerChannel q'.fixedPerChannel ∧
        Grown 0 n req q.exponentPerChannel q'.exponentPerChannel) ∧
      r.1.channelDim = mp.channelDim ∧ r.1.clampMin = mp.clampMin ∧ r.1.clampMax = mp.clampMax) := by
  unfold ensureBuffers at h
  rw [hcap, C.ok_bind] at h
  obtain ⟨_, _, h⟩ := C.bind_ok h
  obtain ⟨_, _, h⟩ := C.bind_ok h
  have hn := (nRoundUpPot_ge hcap).2.1
  split at h
  · cases h
    refine ⟨⟨fun h => ?_, fun h => by omega⟩, fun _ => rfl, fun h => ?_⟩
    · cases h
    · cases h
  · rename_i hreq
    obtain ⟨b, hb, h⟩ := C.bind_ok h
    obtain ⟨q, hq, h⟩ := C.bind_ok h
    cases h
    have grown : ∀ {α : Type} {z : α} {b b' : Option (Buf α)}, growBuffer z b n req = .ok b' →
        Grown z n req b b' := by
      intro α z b b' hg
      rcases growBuffer_read hg (by omega) with h | ⟨x, x', h1, h2, _, h3, h4, h5, _⟩
      · exact .inl h
      · exact .inr ⟨x, x', h1, h2, h3, h4, h5⟩
    refine ⟨⟨fun _ => by omega, fun _ => rfl⟩, fun h => ?_, fun _ => ⟨grown hb, ?_, rfl, rfl, rfl⟩⟩
    · cases h
    intro q0 hq0
    unfold growQuant at hq
    rw [hq0] at hq
    obtain ⟨f, hf, hq⟩ := C.bind_ok hq
    obtain ⟨e, he, hq⟩ := C.bind_ok hq
    cases hq
    exact ⟨_, rfl, rfl, rfl, grown hf, grown he⟩

/-- C29: afterwards every buffer covers the whole packed width, so a kernel that reads whole
blocks of channels stays inside it. -/
theorem c29_covers_packed_width (ar : Arith Int) (ty packed : SidePair ScalarType)
    (dst : ScalarType) (mp : MulParams Int) (n req : Nat) (r : MulParams Int × Bool)
    (hb : BuffersOk mp n) (h : ensureBuffers (intScalars ar ty packed dst) mp n req = .ok r) :
    (∀ x, r.1.bias = some x → req ≤ x.size) ∧
    ∀ q, r.1.quant = some q → (∀ x, q.fixedPerChannel = some x → req ≤ x.size) ∧
      ∀ x, q.exponentPerChannel = some x → req ≤ x.size := by
  obtain ⟨k, hk⟩ := hb.rounding
  obtain ⟨cap, hcap⟩ : ∃ cap, SizeUtil.nRoundUpPot n mp.capacityRounding = .ok cap := by
    rw [hk]; exact nRoundUpPot_total (by rw [← hk]; exact hb.size)
  obtain ⟨h1, h2, h3⟩ := c29_replacement _ mp n req cap r h hcap
  have grown : ∀ {α : Type} {z : α} {b b' : Option (Buf α)}, Grown z n req b b' →
      ∀ x, b' = some x → req ≤ x.size := by
    intro α z b b' hg x hx
    rcases hg with ⟨_, h⟩ | ⟨y, y', _, h, h', _⟩
    · rw [h] at hx; cases hx
    · rw [h] at hx; cases hx; exact h'.ge
  cases hr : r.2 with
  | true =>
    obtain ⟨g1, g2, _⟩ := h3 hr
    refine ⟨grown g1, fun q hq => ?_⟩
    cases hmq : mp.quant with
    | none =>
      exfalso
      unfold ensureBuffers at h
      rw [hcap, C.ok_bind] at h
      obtain ⟨_, _, h⟩ := C.bind_ok h
      obtain ⟨_, _, h⟩ := C.bind_ok h
      split at h
      · cases h; cases hr
      · obtain ⟨_, _, h⟩ := C.bind_ok h
        obtain ⟨q', hq', h⟩ := C.bind_ok h
        cases h
        rw [hmq] at hq'
        cases hq'
        cases hq
    | some q0 =>
      obtain ⟨q', e, _, _, f1, f2⟩ := g2 q0 hmq
      rw [e] at hq; cases hq
      exact ⟨grown f1, grown f2⟩
  | false =>
    rw [h2 hr]
    have hle : req ≤ cap := by
      by_contra hc
      rw [h1.2 (by omega)] at hr; cases hr
    refine ⟨fun x hx => hle.trans (hb.bias cap hcap x hx).1, fun q hq => ⟨fun x hx => ?_, fun x hx => ?_⟩⟩
    · exact hle.trans (hb.fixed cap q hcap hq x hx).1
    · exact hle.trans (hb.exponent cap q hcap hq x hx).1

/-- C29: results are unchanged: two capacities (hence replacement or not) give the same
destination, for any arithmetic. -/
theorem c29_transparent (sc : Scalars A) (kern : SidePair KernelLayout)
    (lhs rhs dst d d' : Mul.Mat A) (mp : MulParams A) (rounding : Nat)
    (hs : Shapes kern lhs rhs dst) (h : Mul sc kern lhs rhs dst mp d)
    (h' : Mul sc kern lhs rhs dst { mp with capacityRounding := rounding } d') : d = d' := by
  obtain ⟨depth, r1, _, c1⟩ := mul_computes hs h
  obtain ⟨depth', r2, _, c2⟩ := mul_computes hs h'
  unfold RoundedDepth at r1 r2
  rw [r1] at r2
  cases r2
  exact c1.unique c2

/-! ### C30 -/

/-- C30: destinations that differ in order (and stride, and old contents) receive the same
values. -/
theorem c30_order_irrelevant (ty packed : SidePair ScalarType) (dstTy : ScalarType)
    (kern : SidePair KernelLayout) (lhs rhs dst dst' d d' : Mul.Mat Int) (mp : MulParams Int)
    (hs : Shapes kern lhs rhs dst) (hs' : Shapes kern lhs rhs dst') (hz : dst'.zp = dst.zp)
    (hi : IntOk ty packed dstTy lhs rhs mp)
    (h : Mul (intScalars Arith.int32 ty packed dstTy) kern lhs rhs dst mp d)
    (h' : Mul (intScalars Arith.int32 ty packed dstTy) kern lhs rhs dst' mp d') (i j : Nat)
    (hr : i < dst.layout.rows) (hc : j < dst.layout.cols) :
    ∃ v, d.elem i j = .ok v ∧ d'.elem i j = .ok v := by
  refine ⟨_, c01_entries _ _ _ _ _ _ _ _ _ hs hi h i j hr hc, ?_⟩
  have e : entrySpec lhs rhs dst mp i j = entrySpec lhs rhs dst' mp i j := by
    unfold entrySpec; rw [hz]
  rw [e]
  exact c01_entries _ _ _ _ _ _ _ _ _ hs' hi h' i j (by rw [hs'.rows, ← hs.rows]; exact hr)
    (by rw [hs'.cols, ← hs.cols]; exact hc)

/-- Two loops whose bodies agree whenever both return, agree when both return. -/
theorem forUpTo_agree {σ : Type} {n : Nat} {b1 b2 : Nat → σ → C σ} {s s1 s2 : σ}
    (hb : ∀ i t t1 t2, b1 i t = .ok t1 → b2 i t = .ok t2 → t1 = t2)
    (h1 : forUpTo n b1 s = .ok s1) (h2 : forUpTo n b2 s = .ok s2) : s1 = s2 := by
  induction n generalizing s1 s2 with
  | zero => cases h1; cases h2; rfl
  | succ n ih =>
    obtain ⟨t1, a1, a2⟩ := C.bind_ok h1
    obtain ⟨t2, b1', b2'⟩ := C.bind_ok h2
    have := ih a1 b1'
    subst this
    exact hb _ _ _ _ a2 b2'

/-- C30 for any arithmetic whose multiplication commutes (floating point): with zero zero points,
row-major and column-major destinations receive the same values. -/
theorem c30_order_irrelevant_float (sc : Scalars A) (kern : SidePair KernelLayout)
    (lhs rhs dst dst' d d' : Mul.Mat A) (mp : MulParams A)
    (hs : Shapes kern lhs rhs dst) (hs' : Shapes kern lhs rhs dst') (hz : dst'.zp = dst.zp)
    (hcomm : ∀ x y, sc.ar.mul x y = sc.ar.mul y x)
    (hzl : sc.packZp.lhs lhs.zp = 0) (hzr : sc.packZp.rhs rhs.zp = 0)
    (h : Mul sc kern lhs rhs dst mp d) (h' : Mul sc kern lhs rhs dst' mp d') (i j : Nat)
    (hr : i < dst.layout.rows) (hc : j < dst.layout.cols) :
    ∃ v, d.elem i j = .ok v ∧ d'.elem i j = .ok v := by
  obtain ⟨depth, r1, _, c1⟩ := mul_computes hs h
  obtain ⟨depth', r2, _, c2⟩ := mul_computes hs' h'
  unfold RoundedDepth at r1 r2
  rw [r1] at r2
  cases r2
  obtain ⟨v, h1, h2⟩ := c1.done i j hr hc
  obtain ⟨w, h3, h4⟩ := c2.done i j (by rw [hs'.rows, ← hs.rows]; exact hr)
    (by rw [hs'.cols, ← hs.cols]; exact hc)
  refine ⟨v, h1, ?_⟩
  rw [userEntry_eq] at h2 h4
  obtain ⟨a, ha, h2⟩ := C.bind_ok h2
  obtain ⟨b, hb, h4⟩ := C.bind_ok h4
  have nop : ∀ {zp : Int} {o : Operand A} {c : Nat} {x y : A}, zp = 0 →
      opSubSum sc.ar zp o c x = .ok y → y = x := by
    intro zp o c x y hz hy
    unfold opSubSum at hy
    rw [if_pos hz] at hy
    cases hy; rfl
  -- both accumulators, stripped of the zero-point terms
  have strip : ∀ {p : Mul.Params A} {l r : Operand A} {i j : Nat} {a : A}, l.zp = 0 → r.zp = 0 →
      opAccum sc.ar p l r i j = .ok a → ∃ a0, forUpTo l.depth (opDotStep sc.ar l r i j) sc.ar.zero =
        .ok a0 ∧ addBias sc.ar p.bias (channelOf p.channelDim i j) a0 = .ok a := by
    intro p l r i j a hl hr h
    unfold opAccum at h
    obtain ⟨a0, x0, h⟩ := C.bind_ok h
    obtain ⟨a1, x1, h⟩ := C.bind_ok h
    obtain ⟨a2, x2, h⟩ := C.bind_ok h
    obtain ⟨a3, x3, h⟩ := C.bind_ok h
    have e2 := nop hl x2
    have e3 := nop hr x3
    unfold addZpProduct at h
    rw [if_pos (.inl hl)] at h
    cases h
    subst e3; subst e2
    exact ⟨a0, x0, x1⟩
  have swapStep : ∀ (l r : Operand A) (i j k : Nat) (t t1 t2 : A),
      opDotStep sc.ar l r i j k t = .ok t1 → opDotStep sc.ar r l j i k t = .ok t2 → t1 = t2 := by
    intro l r i j k t t1 t2 s1 s2
    unfold opDotStep at s1 s2
    obtain ⟨x, hx, s1⟩ := C.bind_ok s1
    obtain ⟨y, hy, s1⟩ := C.bind_ok s1
    obtain ⟨z, hz, s1⟩ := C.bind_ok s1
    obtain ⟨y', hy', s2⟩ := C.bind_ok s2
    obtain ⟨x', hx', s2⟩ := C.bind_ok s2
    obtain ⟨z', hz', s2⟩ := C.bind_ok s2
    rw [hx] at hx'; cases hx'
    rw [hy] at hy'; cases hy'
    rw [hcomm, hz] at hz'; cases hz'
    rw [s1] at s2; cases s2; rfl
  have hab : a = b := by
    have key : ∀ {a b : A} {i' j' : Nat}, opAccum sc.ar (kernelParams sc mp)
        (sideOperand sc.pack.lhs sc.packZp.lhs lhs.transpose depth)
        (sideOperand sc.pack.rhs sc.packZp.rhs rhs depth) i' j' = .ok a →
        opAccum sc.ar (kernelParams sc { mp with channelDim := mp.channelDim.transpose })
        (sideOperand sc.pack.rhs sc.packZp.rhs rhs depth)
        (sideOperand sc.pack.lhs sc.packZp.lhs lhs.transpose depth) j' i' = .ok b → a = b := by
      intro a b i' j' ha hb
      obtain ⟨a0, p1, p2⟩ := strip hzl hzr ha
      obtain ⟨b0, q1, q2⟩ := strip hzr hzl hb
      have e := forUpTo_agree (fun k t t1 t2 => swapStep _ _ _ _ k t t1 t2) p1 q1
      subst e
      have q2 : addBias sc.ar mp.bias (channelOf mp.channelDim.transpose j' i') a0 = .ok b := q2
      rw [channelOf_transpose] at q2
      have p2 : addBias sc.ar mp.bias (channelOf mp.channelDim i' j') a0 = .ok a := p2
      rw [p2] at q2
      cases q2; rfl
    unfold userAccum at ha hb
    split at ha <;> split at hb
    · rw [ha] at hb; cases hb; rfl
    · exact key ha hb
    · exact (key hb ha).symm
    · rw [ha] at hb; cases hb; rfl
  subst hab
  rw [hz, h2] at h4
  cases h4
  exact h3

/-! ### C31 -/

/-- C31: the types used for packing do not matter. -/
theorem c31_packed_types_irrelevant (ty packed packed' : SidePair ScalarType) (dstTy : ScalarType)
    (kern : SidePair KernelLayout) (lhs rhs dst d d' : Mul.Mat Int) (mp : MulParams Int)
    (hs : Shapes kern lhs rhs dst) (hi : IntOk ty packed dstTy lhs rhs mp)
    (hi' : IntOk ty packed' dstTy lhs rhs mp)
    (h : Mul (intScalars Arith.int32 ty packed dstTy) kern lhs rhs dst mp d)
    (h' : Mul (intScalars Arith.int32 ty packed' dstTy) kern lhs rhs dst mp d') : d = d' :=
  (mul_int_computes hs hi h).unique (mul_int_computes hs hi' h')

/-- C31: packing uint8 as int8 subtracts 128, from data and zero point alike. -/
theorem c31_uint8_as_int8 (x : Int) (h : 0 ≤ x ∧ x ≤ 255) :
    packInt .uint8 .int8 x = x - 128 ∧ packInt .uint8 .uint8 x = x := by
  constructor
  · rw [packInt_of (by decide) h.1 h.2]; simp [ScalarType.symmetricZeroPoint]
  · rw [packInt_of (by decide) h.1 h.2]; simp [ScalarType.symmetricZeroPoint]

/-- C31: on bytes this is XOR with 0x80 (pack_common.h:60-75, pack_*.cc). -/
theorem c31_xor (x : BitVec 8) :
    x ^^^ 0x80#8 = x - 0x80#8 ∧ ((x ^^^ 0x80#8).toInt = packInt .uint8 .int8 x.toNat) := by
  have h : x ^^^ 0x80#8 = x - 0x80#8 ∧ ((x ^^^ 0x80#8).toInt = (x.toNat : Int) - 128) := by
    revert x; decide
  refine ⟨h.1, ?_⟩
  rw [h.2, (c31_uint8_as_int8 x.toNat ⟨by omega, by have := x.isLt; omega⟩).1]

/-! ### C38 -/

theorem roundUp_zero {k n : Nat} (h : SizeUtil.nRoundUpPot 0 k = .ok n) : n = 0 := by
  obtain ⟨_, _, h2, h3, _⟩ := nRoundUpPot_ge h
  exact Nat.eq_zero_of_dvd_of_lt h3 (by omega)

theorem newPacked_cases {f : Int → Int} {k : KernelLayout} {src : Mul.Mat A} {data sums : Nat → A}
    (hk : KernelOk k) (hr : src.layout.rows + k.rows < 2 ^ 31)
    (hc : src.layout.cols + k.cols < 2 ^ 31) :
    ((∃ p, newPacked f k src data sums = .ok p) ∧ src.layout.rows ≠ 0 ∧ src.layout.cols ≠ 0) ∨
      newPacked f k src data sums = .error .abort := by
  obtain ⟨a, ha⟩ := hk.rows
  obtain ⟨b, hb⟩ := hk.cols
  rw [ha] at hr
  rw [hb] at hc
  obtain ⟨r, hr'⟩ := nRoundUpPot_total hr
  obtain ⟨c, hc'⟩ := nRoundUpPot_total hc
  rw [← ha] at hr'
  rw [← hb] at hc'
  have hl : createPackedLayout src.layout k = .ok ⟨r, c, r, .colMajor, k⟩ := by
    unfold createPackedLayout
    rw [hr', C.ok_bind, hc']; rfl
  have e : pflatSize ⟨r, c, r, .colMajor, k⟩ = r * c := rfl
  unfold newPacked
  rw [hl, C.ok_bind, e]
  by_cases h0 : r * c = 0
  · right
    unfold C.check
    rw [if_neg (by omega)]; rfl
  · left
    have hc0 : c ≠ 0 := by rintro rfl; exact h0 (Nat.mul_zero _)
    have hr0 : r ≠ 0 := by rintro rfl; exact h0 (Nat.zero_mul _)
    refine ⟨⟨_, by rw [C.check_of h0, C.ok_bind, C.check_of hc0]; rfl⟩, ?_, ?_⟩
    · intro hz; rw [hz] at hr'; exact hr0 (roundUp_zero hr')
    · intro hz; rw [hz] at hc'; exact hc0 (roundUp_zero hc')

theorem check_cases (p : Prop) [Decidable p] : C.check p = .ok () ∨ C.check p = .error .abort := by
  unfold C.check
  split
  · exact .inl rfl
  · exact .inr rfl

theorem checkZeroPoint_cases (t : ScalarType) (zp : Int) :
    checkZeroPoint t zp = .ok () ∨ checkZeroPoint t zp = .error .abort := by
  unfold checkZeroPoint
  split
  · exact check_cases _
  · exact .inl rfl

theorem validate_cases (l r d : ScalarType) (a b c : Int) :
    validate l r d a b c = .ok () ∨ validate l r d a b c = .error .abort := by
  unfold validate
  rcases checkZeroPoint_cases l a with h | h <;> rw [h]
  · rw [C.ok_bind]
    rcases checkZeroPoint_cases r b with h | h <;> rw [h]
    · rw [C.ok_bind]
      rcases checkZeroPoint_cases d c with h | h <;> rw [h]
      · rw [C.ok_bind]
        rcases check_cases ((l = .int16 ∨ r = .int16) → a = 0 ∧ b = 0 ∧ c = 0) with h | h <;> rw [h]
        · rw [C.ok_bind]; exact check_cases _
        · exact .inr rfl
      · exact .inr rfl
    · exact .inr rfl
  · exact .inr rfl

theorem createColMajor_empty {sc : Scalars A} {kern : SidePair KernelLayout} {lhs rhs dst : Mul.Mat A}
    {mp : MulParams A} {ch : ChannelDim} {junk : Junk A} (hk : ∀ s, KernelOk (kern.get s))
    (h1 : lhs.layout.rows + kern.lhs.rows < 2 ^ 31) (h2 : lhs.layout.cols + kern.lhs.cols < 2 ^ 31)
    (h3 : rhs.layout.rows + kern.rhs.rows < 2 ^ 31) (h4 : rhs.layout.cols + kern.rhs.cols < 2 ^ 31)
    (h0 : lhs.layout.cols = 0 ∨ lhs.layout.rows = 0 ∨ rhs.layout.cols = 0) :
    createColMajor sc kern lhs rhs dst mp ch junk = .error .abort := by
  unfold createColMajor
  rcases check_cases (dst.layout.order = .colMajor) with h | h <;> rw [h]
  · rw [C.ok_bind]
    rcases newPacked_cases (f := sc.packZp.lhs) (k := kern.lhs) (data := junk.data.lhs) (sums := junk.sums.lhs)
      (hk .lhs) h1 h2 with ⟨⟨p, h⟩, n1, n2⟩ | h <;> rw [h]
    · rw [C.ok_bind]
      rcases newPacked_cases (f := sc.packZp.rhs) (k := kern.rhs) (data := junk.data.rhs) (sums := junk.sums.rhs)
        (hk .rhs) h3 h4 with ⟨⟨q, h⟩, m1, m2⟩ | h <;> rw [h]
      · exfalso; tauto
      · rfl
    · rfl
  · rfl

/-- C38 (matrices that are not cached): a multiplication with an empty dimension is stopped by a
check before anything is written, for any arithmetic; never undefined behaviour. -/
theorem c38_empty_stops (sc : Scalars A) (kern : SidePair KernelLayout) (lhs rhs dst : Mul.Mat A)
    (mp : MulParams A) (junk : Junk A) (hk : ∀ s, KernelOk (kern.get s))
    (hd : lhs.layout.cols = rhs.layout.rows)
    (hsize : ∀ s, lhs.layout.rows + (kern.get s).cols < 2 ^ 31 ∧
      lhs.layout.cols + (kern.get s).rows < 2 ^ 31 ∧ rhs.layout.cols + (kern.get s).cols < 2 ^ 31)
    (h0 : lhs.layout.rows = 0 ∨ lhs.layout.cols = 0 ∨ rhs.layout.cols = 0) :
    frontEnd sc kern lhs rhs dst mp junk = .error .abort := by
  unfold frontEnd
  rcases validate_cases sc.ty.lhs sc.ty.rhs sc.dstTy lhs.zp rhs.zp dst.zp with h | h <;> rw [h]
  · rw [C.ok_bind]
    unfold createTrMulParams
    have sl := hsize .lhs
    have sr := hsize .rhs
    split
    · exact createColMajor_empty (lhs := lhs.transpose) hk sl.2.1 sl.1
        (by rw [← hd]; exact sr.2.1) sr.2.2 h0
    · refine createColMajor_empty (lhs := rhs) (rhs := lhs.transpose) hk
        (by rw [← hd]; exact sl.2.1) sl.2.2 sr.2.1 sr.1 ?_
      show rhs.layout.cols = 0 ∨ rhs.layout.rows = 0 ∨ lhs.layout.rows = 0
      rw [← hd]; tauto
  · rfl

/-! ### A concrete multiplication meeting the hypotheses -/

/-- A kernel with 4 × 4 row-major blocks on both sides (internal variant 1, kernel.h:140-150). -/
def k44 : SidePair KernelLayout := ⟨⟨.rowMajor, 4, 4⟩, ⟨.rowMajor, 4, 4⟩⟩
/-- A 2 × 3 row-major uint8 matrix with stride 4. -/
def demoLhs : Mul.Mat Int :=
  ⟨⟨2, 3, 4, .rowMajor⟩, ⟨8, fun i => [200, 7, 128, 99, 1, 0, 255, 99].getD i 0⟩, 127⟩
/-- A 3 × 2 column-major uint8 matrix. -/
def demoRhs : Mul.Mat Int :=
  ⟨⟨3, 2, 3, .colMajor⟩, ⟨6, fun i => [5, 6, 7, 250, 251, 252].getD i 0⟩, 6⟩
/-- A 2 × 2 row-major uint8 destination with stride 3. -/
def demoDst : Mul.Mat Int := ⟨⟨2, 2, 3, .rowMajor⟩, ⟨6, fun _ => 77⟩, 10⟩
/-- Bias and multipliers per row, capacity rounded up to 2. -/
def demoMp : MulParams Int where
  bias := some ⟨2, fun i => [100, 20000].getD i 0⟩
  quant := some ⟨0, 0, some ⟨2, fun i => [2 ^ 30, 3 * 2 ^ 29].getD i 0⟩,
    some ⟨2, fun i => [-5, -7].getD i 0⟩⟩
  channelDim := .row
  capacityRounding := 2
  clampMin := 3
  clampMax := 250

/-- uint8 sources packed as int8, uint8 destination. -/
def demoSc : Scalars Int := intScalars Arith.int32 ⟨.uint8, .uint8⟩ ⟨.int8, .int8⟩ .uint8

/-- The destination buffer after the front-end and the simple loop. -/
def demoRun (sc : Scalars Int) (kern : SidePair KernelLayout) (dst : Mul.Mat Int) :
    Option (List Int × Bool) :=
  match frontEnd sc kern demoLhs demoRhs dst demoMp
      ⟨⟨fun _ => 55, fun _ => 66⟩, ⟨fun _ => 44, fun _ => 33⟩⟩ with
  | .ok (tp, m, adv) =>
    match simpleLoop tp m with
    | .ok m' => some ((List.range 6).map m'.dst.data.val, adv)
    | .error _ => none
  | .error _ => none

-- The result (the gap of the destination keeps 77); the per-channel buffers were reallocated.
example : demoRun demoSc k44 demoDst = some ([10, 3, 77, 129, 3, 77], true) := by decide +kernel
-- Column-major: the transposed layout of the same values.
example : demoRun demoSc k44 ⟨⟨2, 2, 3, .colMajor⟩, ⟨6, fun _ => 77⟩, 10⟩ =
    some ([10, 129, 77, 3, 3, 77], true) := by decide +kernel
-- A 1 × 1 kernel: no padding, no reallocation.
example : demoRun demoSc ⟨k11, k11⟩ demoDst = some ([10, 3, 77, 129, 3, 77], false) := by
  decide +kernel

theorem demo_shapes : Shapes k44 demoLhs demoRhs demoDst :=
  ⟨rfl, rfl, rfl, by change 2 ≤ 3; decide, rfl⟩

theorem demo_intOk : IntOk ⟨.uint8, .uint8⟩ ⟨.int8, .int8⟩ .uint8 demoLhs demoRhs demoMp where
  lpack := by decide
  rpack := by decide
  lty := ⟨by decide, fun i j hi hj => by
    change i < 2 at hi; change j < 3 at hj
    interval_cases i <;> interval_cases j <;> decide⟩
  rty := ⟨by decide, fun i j hi hj => by
    change i < 3 at hi; change j < 2 at hj
    interval_cases i <;> interval_cases j <;> decide⟩
  clamp := ⟨by decide, by decide⟩

theorem demo_mulOk : MulOk ⟨.uint8, .uint8⟩ ⟨.int8, .int8⟩ .uint8 k44 demoLhs demoRhs demoDst demoMp
    128 128 128 128 20000 where
  shapes := demo_shapes
  int := demo_intOk
  valid := by decide
  lsize s := by
    cases s <;> exact ⟨⟨⟨2, rfl⟩, ⟨2, rfl⟩⟩, by decide, by decide, by decide, by decide, by decide⟩
  rsize s := by
    cases s <;> exact ⟨⟨⟨2, rfl⟩, ⟨2, rfl⟩⟩, by decide, by decide, by decide, by decide, by decide⟩
  lfits i j hi hj := by
    change i < 2 at hi; change j < 3 at hj
    change i * 4 + j < 2 ^ 31 ∧ i * 4 + j < 8
    omega
  rfits i j hi hj := by
    change i < 3 at hi; change j < 2 at hj
    change i + j * 3 < 2 ^ 31 ∧ i + j * 3 < 6
    omega
  dfits i j hi hj := by
    change i < 2 at hi; change j < 2 at hj
    change i * 3 + j < 2 ^ 31 ∧ i * 3 + j < 6
    omega
  buffers := by
    have hcap : ∀ cap, SizeUtil.nRoundUpPot 2 2 = .ok cap → cap = 2 := by
      intro cap h
      have e : SizeUtil.nRoundUpPot 2 2 = .ok 2 := by decide
      rw [e] at h; cases h; rfl
    refine ⟨⟨1, rfl⟩, by decide, fun cap h x hx => ?_, fun cap q h hq x hx => ?_,
      fun cap q h hq x hx => ?_⟩ <;> have h := hcap cap h <;> subst h
    · cases hx; exact ⟨Nat.le_refl _, fun i h1 h2 => absurd h2 (Nat.not_lt.2 h1)⟩
    · cases hq; cases hx; exact ⟨Nat.le_refl _, fun i h1 h2 => absurd h2 (Nat.not_lt.2 h1)⟩
    · cases hq; cases hx; exact ⟨Nat.le_refl _, fun i h1 h2 => absurd h2 (Nat.not_lt.2 h1)⟩
  lvals i k hi hk := by
    change i < 2 at hi; change k < 3 at hk
    interval_cases i <;> interval_cases k <;> decide
  rvals k j hk hj := by
    change k < 3 at hk; change j < 2 at hj
    interval_cases k <;> interval_cases j <;> decide
  lzp := by decide
  rzp := by decide
  bias := ⟨by decide, fun c hc x hx => by
    change c < 2 at hc
    cases hx
    interval_cases c <;> decide⟩
  bound := by decide
  finish i j hi hj := by
    change i < 2 at hi; change j < 2 at hj
    have hsc : ∀ x m e : Int, e ≤ 30 → Multiplier.scaled x m e =
        (x * m + 2 ^ (31 - e - 1).toNat) / 2 ^ (31 - e).toNat :=
      fun x m e h => (Multiplier.ediv_eq_scaled x m e h).symm
    unfold FinishOk scaleSpec
    interval_cases i <;> interval_cases j <;>
      (refine ⟨fun q hq => ?_, ?_⟩
       · cases hq
         refine ⟨fun b hb => ?_, fun b hb => ?_, by decide, by decide, by decide, by decide, ?_⟩
         · cases hb; decide
         · cases hb; decide
         · dsimp only [demoMp]; rw [hsc _ _ _ (by decide)]; decide
       · dsimp only [demoMp]; rw [hsc _ _ _ (by decide)]; decide)

-- Hypotheses of c01_*, c02_*, c03_*, c28_*, c29_*, c30_*, c31_*: a returning Mul exists.
example : ∃ d, Mul demoSc k44 demoLhs demoRhs demoDst demoMp d :=
  c01_result_exists _ _ _ _ _ _ _ _ _ _ _ _ _ demo_mulOk

-- The value of one entry by the specification: ⌊(100 + acc)·2^30·2^(-5-31) + 1/2⌋ + 10.
example : accumSpec (fun x : Int => x) demoLhs demoRhs demoMp 0 0 = 100 + (73 * -1 + -120 * 0 + 1 * 1) := by
  decide

-- Empty matrices (c38): no rows.
example : frontEnd demoSc k44 ⟨⟨0, 3, 4, .rowMajor⟩, ⟨0, fun _ => 0⟩, 127⟩ demoRhs
    ⟨⟨0, 2, 3, .rowMajor⟩, ⟨0, fun _ => 0⟩, 10⟩ demoMp
    ⟨⟨fun _ => 0, fun _ => 0⟩, ⟨fun _ => 0, fun _ => 0⟩⟩ = .error .abort :=
  c38_empty_stops _ _ _ _ _ _ _ (fun s => by cases s <;> exact ⟨⟨2, rfl⟩, ⟨2, rfl⟩⟩) rfl
    (fun s => by cases s <;> decide) (.inl rfl)

-- A floating-point-like arithmetic for c28_clamp_any_arithmetic and c30_order_irrelevant_float.
example : (∀ x, Arith.int32.lt x x = false) ∧
    ∀ x y, Arith.int32.mul x y = Arith.int32.mul y x := by
  refine ⟨fun x => ?_, fun x y => ?_⟩
  · show decide (x < x) = false; simp
  · show C.i32 (x * y) = C.i32 (y * x); rw [Int.mul_comm]

end Ruy.Front

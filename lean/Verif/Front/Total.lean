import Verif.Front.Values
import Mathlib.Algebra.Order.Ring.Abs
/-
Forward direction: the front-end and the arithmetic of integer multiplication do not fault when
sizes, buffers and magnitudes are within bounds.
-/
namespace Ruy.Front
open Ruy.Mat Ruy.Mul Ruy.TrMul

/-! ### Arithmetic -/

theorem i32_abs {x : Int} (h : |x| < 2 ^ 31) : C.i32 x = .ok x := by
  have := abs_lt.1 h
  exact C.i32_of (by omega) (by omega)

theorem ab_add {x y a b : Int} (h1 : |x| ≤ a) (h2 : |y| ≤ b) : |x + y| ≤ a + b :=
  (abs_add_le x y).trans (add_le_add h1 h2)

theorem ab_sub {x y a b : Int} (h1 : |x| ≤ a) (h2 : |y| ≤ b) : |x - y| ≤ a + b := by
  rw [sub_eq_add_neg]
  exact ab_add h1 (by rw [abs_neg]; exact h2)

theorem ab_mul {x y a b : Int} (h1 : |x| ≤ a) (h2 : |y| ≤ b) : |x * y| ≤ a * b := by
  rw [abs_mul]
  exact mul_le_mul h1 h2 (abs_nonneg _) ((abs_nonneg _).trans h1)

/-- The packed values and the zero point of an operand are defined and bounded. -/
structure OBound (o : Operand Int) (M Z : Int) : Prop where
  vals : ∀ r c, ∃ v, o.val Arith.int32 r c = .ok v ∧ |v| ≤ M
  zp : |o.zp| ≤ Z

theorem colSum_total {o : Operand Int} {M Z : Int} (h : OBound o M Z) {n c : Nat}
    (hn : (n : Int) * M < 2 ^ 31) :
    ∃ s, colSum Arith.int32 o.pack o.src o.zp n c = .ok s ∧ |s| ≤ n * M := by
  have hM : 0 ≤ M := by
    obtain ⟨v, _, hv⟩ := h.vals 0 0
    exact (abs_nonneg _).trans hv
  unfold colSum
  refine forUpTo_total (fun n (s : Int) => |s| ≤ n * M) (by simp [Arith.int32]) ?_
  intro k t hk ht
  obtain ⟨v, hv, hb⟩ := h.vals k c
  have hb' := ab_add ht hb
  have hle : ((k : Int) + 1) * M ≤ n * M := mul_le_mul_of_nonneg_right (by omega) hM
  refine ⟨t + v, ?_, ?_⟩
  · unfold Operand.val at hv
    rw [hv, C.ok_bind]
    exact i32_abs (by nlinarith)
  · push_cast
    nlinarith

theorem dot_total {l r : Operand Int} {Ml Zl Mr Zr : Int} (hl : OBound l Ml Zl) (hr : OBound r Mr Zr)
    {n i j : Nat} (hn : (n : Int) * (Ml * Mr) < 2 ^ 31) :
    ∃ s, forUpTo n (opDotStep Arith.int32 l r i j) Arith.int32.zero = .ok s ∧
      |s| ≤ n * (Ml * Mr) := by
  have hM : 0 ≤ Ml * Mr := by
    obtain ⟨v, _, hv⟩ := hl.vals 0 0
    obtain ⟨w, _, hw⟩ := hr.vals 0 0
    exact mul_nonneg ((abs_nonneg _).trans hv) ((abs_nonneg _).trans hw)
  refine forUpTo_total (fun n (s : Int) => |s| ≤ n * (Ml * Mr)) (by simp [Arith.int32]) ?_
  intro k t hk ht
  obtain ⟨v, hv, hb⟩ := hl.vals k i
  obtain ⟨w, hw, hb2⟩ := hr.vals k j
  have hp := ab_mul hb hb2
  have hb' := ab_add ht hp
  have hle : ((k : Int) + 1) * (Ml * Mr) ≤ n * (Ml * Mr) :=
    mul_le_mul_of_nonneg_right (by omega) hM
  have h1 : (1 : Int) * (Ml * Mr) ≤ n * (Ml * Mr) := mul_le_mul_of_nonneg_right (by omega) hM
  refine ⟨t + v * w, ?_, ?_⟩
  · unfold opDotStep
    rw [hv, C.ok_bind, hw, C.ok_bind]
    show (C.i32 (v * w) >>= fun xy => C.i32 (t + xy)) = _
    rw [i32_abs (by linarith), C.ok_bind]
    exact i32_abs (by nlinarith)
  · push_cast
    nlinarith

theorem subSum_total {o : Operand Int} {M Z z X T a : Int} (h : OBound o M Z) {zp : Int} {c : Nat}
    (hz : |zp| ≤ z) (hn : (o.depth : Int) * M < 2 ^ 31) (ha : |a| ≤ X)
    (hT : X + z * (o.depth * M) ≤ T) (hT2 : T < 2 ^ 31) :
    ∃ a', opSubSum Arith.int32 zp o c a = .ok a' ∧ |a'| ≤ X + z * (o.depth * M) := by
  unfold opSubSum
  obtain ⟨s, hs, hb⟩ := colSum_total h (c := c) hn
  have hz0 : 0 ≤ z := (abs_nonneg _).trans hz
  have hm0 : 0 ≤ (o.depth : Int) * M := (abs_nonneg _).trans hb
  have hX0 : 0 ≤ X := (abs_nonneg _).trans ha
  have hnn : 0 ≤ z * (o.depth * M) := mul_nonneg hz0 hm0
  by_cases h0 : zp = 0
  · rw [if_pos h0]
    exact ⟨a, rfl, by linarith⟩
  · rw [if_neg h0]
    have hp := ab_mul hz hb
    refine ⟨a - zp * s, ?_, ab_sub ha hp⟩
    unfold Operand.sum
    rw [hs, C.ok_bind]
    show (C.i32 (zp * s) >>= fun t => C.i32 (a - t)) = _
    rw [i32_abs (by linarith), C.ok_bind]
    have := ab_sub ha hp
    exact i32_abs (by linarith)

/-- The bias of channel `ch`, if any, can be read and is bounded. -/
def BiasOk (b : Option (Buf Int)) (ch : Nat) (B : Int) : Prop :=
  ∀ x, b = some x → ch < x.size ∧ |x.val ch| ≤ B

theorem opAccum_total {mp : Mul.Params Int} {l r : Operand Int} {Ml Zl Mr Zr B : Int} {i j : Nat}
    (hl : OBound l Ml Zl) (hr : OBound r Mr Zr) (hd : l.depth = r.depth) (hpos : 0 < l.depth) (hB0 : 0 ≤ B)
    (hML : 1 ≤ Ml) (hMR : 1 ≤ Mr)
    (hb : BiasOk mp.bias (channelOf mp.channelDim i j) B)
    (hT : (l.depth : Int) * ((Ml + Zl) * (Mr + Zr)) + B < 2 ^ 31) :
    ∃ a, opAccum Arith.int32 mp l r i j = .ok a := by
  have zl0 : 0 ≤ Zl := (abs_nonneg _).trans hl.zp
  have zr0 : 0 ≤ Zr := (abs_nonneg _).trans hr.zp
  generalize hD : (l.depth : Int) = D at hT
  have hD0 : 0 ≤ D := by omega
  have e : D * ((Ml + Zl) * (Mr + Zr)) =
      D * (Ml * Mr) + Zl * (D * Mr) + Zr * (D * Ml) + Zl * Zr * D := by ring
  rw [e] at hT
  have p1 : 0 ≤ D * (Ml * Mr) := by positivity
  have p2 : 0 ≤ Zl * (D * Mr) := by positivity
  have p3 : 0 ≤ Zr * (D * Ml) := by positivity
  have p4 : 0 ≤ Zl * Zr * D := by positivity
  have q1 : D * Mr ≤ D * (Ml * Mr) := mul_le_mul_of_nonneg_left (by nlinarith) hD0
  have q2 : D * Ml ≤ D * (Ml * Mr) := mul_le_mul_of_nonneg_left (by nlinarith) hD0
  unfold opAccum
  obtain ⟨a0, h0, b0⟩ := dot_total hl hr (n := l.depth) (i := i) (j := j) (by rw [hD]; linarith)
  rw [hD] at b0
  rw [h0, C.ok_bind]
  have h1 : ∃ a1, addBias Arith.int32 mp.bias (channelOf mp.channelDim i j) a0 = .ok a1 ∧
      |a1| ≤ D * (Ml * Mr) + B := by
    unfold addBias
    cases hbb : mp.bias with
    | none => exact ⟨a0, rfl, by linarith⟩
    | some x =>
      obtain ⟨u1, u2⟩ := hb x hbb
      dsimp only
      rw [Buf.read_of u1, C.ok_bind]
      exact ⟨_, i32_abs (by have := ab_add b0 u2; linarith), ab_add b0 u2⟩
  obtain ⟨a1, h1, b1⟩ := h1
  rw [h1, C.ok_bind]
  obtain ⟨a2, h2, b2⟩ := subSum_total hr (c := j) (T := D * (Ml * Mr) + B + Zl * (D * Mr)) hl.zp
    (by rw [← hd, hD]; linarith) b1 (by rw [← hd, hD]) (by linarith)
  rw [← hd, hD] at b2
  rw [h2, C.ok_bind]
  obtain ⟨a3, h3, b3⟩ := subSum_total hl (c := i)
    (T := D * (Ml * Mr) + B + Zl * (D * Mr) + Zr * (D * Ml)) hr.zp
    (by rw [hD]; linarith) b2 (by rw [hD]) (by linarith)
  rw [hD] at b3
  rw [h3, C.ok_bind]
  unfold addZpProduct
  split
  · exact ⟨_, rfl⟩
  · rename_i hz
    have hz' : l.zp ≠ 0 ∧ r.zp ≠ 0 := by tauto
    have m1 := ab_mul hl.zp hr.zp
    have m2 : |(l.depth : Int)| ≤ D := by rw [hD]; exact (abs_of_nonneg hD0).le
    have m3 := ab_mul m1 m2
    have m4 := ab_add b3 m3
    show ∃ a, (C.i32 (l.zp * r.zp) >>= fun t => C.i32 (t * (l.depth : Int)) >>= fun u =>
      C.i32 (a3 + u)) = .ok a
    have hzz : Zl * Zr < 2 ^ 31 := by
      have : 1 ≤ D := by omega
      nlinarith [mul_nonneg zl0 zr0]
    rw [i32_abs (by linarith), C.ok_bind, i32_abs (by linarith), C.ok_bind, i32_abs (by linarith)]
    exact ⟨_, rfl⟩

/-- The packed form of a matrix is bounded if its source buffer is complete and the re-encoded
values and zero point are bounded. -/
theorem sideOperand_bound {pack : Int → Int} {packZp : Int → Int} {src : Mul.Mat Int} {depth : Nat}
    {M Z : Int} (hf : DFits src) (hz : |packZp src.zp| ≤ Z) (hzm : Z ≤ M)
    (hv : ∀ i j, i < src.layout.rows → j < src.layout.cols → |pack (src.at i j)| ≤ M) :
    OBound (sideOperand pack packZp src depth) M Z := by
  refine ⟨fun r c => ?_, hz⟩
  unfold Operand.val packedVal
  split
  · rename_i h
    have h1 : c < src.layout.cols := h.1
    have h2 : r < src.layout.rows := h.2
    obtain ⟨f1, f2⟩ := hf r c h2 h1
    refine ⟨pack (src.at r c), ?_, hv r c h2 h1⟩
    show (src.elem r c >>= fun x => pure (pack x)) = _
    unfold Mat.elem
    rw [offset_eq, C.int_of f1, C.ok_bind, Buf.read_of f2]
    rfl
  · exact ⟨packZp src.zp, rfl, hz.trans hzm⟩

/-- Scaling and zero-point addition stay in range for accumulator `acc` on channel `ch`. -/
def FinishOk (mp : MulParams Int) (dzp : Int) (ch : Nat) (acc : Int) : Prop :=
  (∀ q, mp.quant = some q →
    (∀ b, q.fixedPerChannel = some b → ch < b.size) ∧
    (∀ b, q.exponentPerChannel = some b → ch < b.size) ∧
    Multiplier.isI32 acc ∧ Multiplier.isI32 (valueAt q.fixedPerChannel q.fixed ch) ∧
    -31 ≤ valueAt q.exponentPerChannel q.exponent ch ∧
    valueAt q.exponentPerChannel q.exponent ch ≤ 30 ∧
    Multiplier.isI32 (scaleSpec mp.quant ch acc)) ∧
  Multiplier.isI32 (scaleSpec mp.quant ch acc + dzp)

theorem perChannel_of {b : Option (Buf Int)} {v : Int} {ch : Nat}
    (h : ∀ x, b = some x → ch < x.size) : perChannel b v ch = .ok (valueAt b v ch) := by
  unfold perChannel valueAt
  cases b with
  | none => rfl
  | some x => exact Buf.read_of (h x rfl)

theorem finish_total {ty packed : SidePair ScalarType} {dst : ScalarType} {mp : MulParams Int}
    {dzp : Int} {ch : Nat} {acc : Int} (h : FinishOk mp dzp ch acc) :
    ∃ v, finish Arith.int32 (kernelParams (intScalars Arith.int32 ty packed dst) mp) dzp ch acc =
      .ok v := by
  unfold finish
  have hs : (kernelParams (intScalars Arith.int32 ty packed dst) mp).scale ch acc =
      .ok (scaleSpec mp.quant ch acc) := by
    show applyMultiplier _ mp.quant ch acc = _
    unfold applyMultiplier scaleSpec
    cases hq : mp.quant with
    | none => rfl
    | some q =>
      obtain ⟨h1, h2, h3, h4, h5, h6, h7⟩ := h.1 q hq
      dsimp only
      rw [perChannel_of h1, C.ok_bind, perChannel_of h2, C.ok_bind]
      unfold scaleSpec at h7
      rw [hq] at h7
      exact Multiplier.c24_single_rounding _ _ _ h3 h4 h5 h6 h7
  rw [hs, C.ok_bind]
  have h2 := h.2
  unfold Multiplier.isI32 at h2
  show ∃ v, (C.i32 (scaleSpec mp.quant ch acc + dzp) >>= _) = .ok v
  rw [C.i32_of h2.1 h2.2, C.ok_bind]
  exact ⟨_, rfl⟩

/-! ### Buffers -/

/-- A user-provided per-channel buffer has the documented capacity, zero beyond the user's values
(mul_params.h:155-166). -/
def TailOk (b : Option (Buf Int)) (userSize capacity : Nat) : Prop :=
  ∀ x, b = some x → capacity ≤ x.size ∧ ∀ i, userSize ≤ i → i < capacity → x.val i = 0

theorem assertZeroTail_total {b : Option (Buf Int)} {n cap : Nat} (h : TailOk b n cap) :
    assertZeroTail (fun x : Int => x == 0) b n cap = .ok () := by
  unfold assertZeroTail
  cases b with
  | none => rfl
  | some x =>
    obtain ⟨h1, h2⟩ := h x rfl
    dsimp only
    unfold forRange
    obtain ⟨u, hu, _⟩ := forUpTo_total (n := cap - n) (s := ())
      (body := fun i _ => do
        let y ← x.read (n + i)
        C.check ((y == 0) = true)) (fun _ _ => True) trivial
      (by
        intro i t hi _
        refine ⟨(), ?_, trivial⟩
        rw [Buf.read_of (by omega), C.ok_bind, h2 (n + i) (by omega) (by omega)]
        rfl)
    exact hu

theorem growBuffer_total {b : Option (Buf Int)} {z : Int} {n cap req : Nat} (h : TailOk b n cap)
    (hn : n ≤ cap) : ∃ b', growBuffer z b n req = .ok b' := by
  unfold growBuffer
  cases b with
  | none => exact ⟨_, rfl⟩
  | some x =>
    dsimp only
    rw [C.require_of (hn.trans (h x rfl).1)]
    exact ⟨_, rfl⟩

/-- All per-channel buffers have the documented capacity. -/
structure BuffersOk (mp : MulParams Int) (userSize : Nat) : Prop where
  rounding : ∃ k, mp.capacityRounding = 2 ^ k
  size : userSize + mp.capacityRounding < 2 ^ 31
  bias : ∀ cap, SizeUtil.nRoundUpPot userSize mp.capacityRounding = .ok cap →
    TailOk mp.bias userSize cap
  fixed : ∀ cap q, SizeUtil.nRoundUpPot userSize mp.capacityRounding = .ok cap →
    mp.quant = some q → TailOk q.fixedPerChannel userSize cap
  exponent : ∀ cap q, SizeUtil.nRoundUpPot userSize mp.capacityRounding = .ok cap →
    mp.quant = some q → TailOk q.exponentPerChannel userSize cap

theorem ensureBuffers_total {ar : Arith Int} {ty packed : SidePair ScalarType} {dst : ScalarType}
    {mp : MulParams Int} {n req : Nat} (h : BuffersOk mp n) :
    ∃ r, ensureBuffers (intScalars ar ty packed dst) mp n req = .ok r := by
  obtain ⟨k, hk⟩ := h.rounding
  obtain ⟨cap, hcap⟩ : ∃ cap, SizeUtil.nRoundUpPot n mp.capacityRounding = .ok cap := by
    rw [hk]; exact nRoundUpPot_total (by rw [← hk]; exact h.size)
  have hn := (nRoundUpPot_ge hcap).2.1
  unfold ensureBuffers
  rw [hcap, C.ok_bind]
  have h1 : assertZeroTail (intScalars ar ty packed dst).isZero mp.bias n cap = .ok () :=
    assertZeroTail_total (h.bias cap hcap)
  rw [h1, C.ok_bind]
  have h2 : assertQuantTail mp.quant n cap = .ok () := by
    unfold assertQuantTail
    cases hq : mp.quant with
    | none => rfl
    | some q =>
      dsimp only
      rw [assertZeroTail_total (h.fixed cap q hcap hq), C.ok_bind,
        assertZeroTail_total (h.exponent cap q hcap hq)]
  rw [h2, C.ok_bind]
  split
  · exact ⟨_, rfl⟩
  · obtain ⟨b, hb⟩ := growBuffer_total (z := (intScalars ar ty packed dst).ar.zero) (req := req)
      (h.bias cap hcap) hn
    rw [hb, C.ok_bind]
    have hg : ∃ q, growQuant mp.quant n req = .ok q := by
      unfold growQuant
      cases hq : mp.quant with
      | none => exact ⟨_, rfl⟩
      | some q =>
        obtain ⟨f, hf⟩ := growBuffer_total (z := 0) (req := req) (h.fixed cap q hcap hq) hn
        obtain ⟨e, he⟩ := growBuffer_total (z := 0) (req := req) (h.exponent cap q hcap hq) hn
        dsimp only
        rw [hf, C.ok_bind, he]
        exact ⟨_, rfl⟩
    obtain ⟨q, hq⟩ := hg
    rw [hq]
    exact ⟨_, rfl⟩

/-! ### Packed matrices -/

/-- The packed form of an `r` × `c` source exists and its offsets are ints. -/
structure PackSizes (k : KernelLayout) (r c : Nat) : Prop where
  kernel : KernelOk k
  rows_pos : 0 < r
  cols_pos : 0 < c
  rows : r + k.rows < 2 ^ 31
  cols : c + k.cols < 2 ^ 31
  flat : (r + k.rows - 1) * (c + k.cols - 1) ≤ 2 ^ 31

theorem newPacked_total {A : Type} {f : Int → Int} {k : KernelLayout} {src : Mul.Mat A}
    {data sums : Nat → A} (h : PackSizes k src.layout.rows src.layout.cols) :
    ∃ p, newPacked f k src data sums = .ok p ∧ pflatSize p.layout ≤ 2 ^ 31 := by
  obtain ⟨a, ha⟩ := h.kernel.rows
  obtain ⟨b, hb⟩ := h.kernel.cols
  have hr := h.rows
  have hc := h.cols
  rw [ha] at hr
  rw [hb] at hc
  obtain ⟨r, hr'⟩ := nRoundUpPot_total hr
  obtain ⟨c, hc'⟩ := nRoundUpPot_total hc
  rw [← ha] at hr'
  rw [← hb] at hc'
  have hl : createPackedLayout src.layout k = .ok ⟨r, c, r, .colMajor, k⟩ := by
    unfold createPackedLayout
    rw [hr', C.ok_bind, hc']; rfl
  have gr := nRoundUpPot_ge hr'
  have gc := nRoundUpPot_ge hc'
  have hrp := h.rows_pos
  have hcp := h.cols_pos
  unfold newPacked
  rw [hl, C.ok_bind]
  have e : pflatSize ⟨r, c, r, .colMajor, k⟩ = r * c := rfl
  rw [e]
  have hpos : 0 < r * c := Nat.mul_pos (by omega) (by omega)
  rw [C.check_of (by omega), C.ok_bind, C.check_of (show c ≠ 0 by omega), C.ok_bind]
  refine ⟨_, rfl, ?_⟩
  rw [e]
  exact (Nat.mul_le_mul (by omega) (by omega)).trans h.flat

theorem createColMajor_total {ty packed : SidePair ScalarType} {dstTy : ScalarType}
    {kern : SidePair KernelLayout} {lhs rhs dst : Mul.Mat Int} {mp : MulParams Int} {ch : ChannelDim}
    {Ml Zl Mr Zr B : Int} (junk : Junk Int) (ho : dst.layout.order = .colMajor)
    (pl : PackSizes kern.lhs lhs.layout.rows lhs.layout.cols)
    (pr : PackSizes kern.rhs rhs.layout.rows rhs.layout.cols)
    (hbuf : BuffersOk mp ((SidePair.mk lhs rhs).get (channelSide ch)).layout.cols)
    (hd : lhs.layout.rows = rhs.layout.rows) (hk : kern.lhs.rows = kern.rhs.rows)
    (hr : dst.layout.rows = lhs.layout.cols) (hc : dst.layout.cols = rhs.layout.cols)
    (hs : StrideOk dst.layout) (hdf : DFits dst)
    (ol : ∀ d, OBound (sideOperand (packInt ty.lhs packed.lhs) (packInt ty.lhs packed.lhs) lhs d) Ml Zl)
    (or : ∀ d, OBound (sideOperand (packInt ty.rhs packed.rhs) (packInt ty.rhs packed.rhs) rhs d) Mr Zr)
    (hB0 : 0 ≤ B) (hML : 1 ≤ Ml) (hMR : 1 ≤ Mr) (zl0 : 0 ≤ Zl) (zr0 : 0 ≤ Zr)
    (hb : ∀ c, c < ((SidePair.mk lhs rhs).get (channelSide ch)).layout.cols → BiasOk mp.bias c B)
    (hT : ((lhs.layout.rows + kern.lhs.rows - 1 : Nat) : Int) * ((Ml + Zl) * (Mr + Zr)) + B < 2 ^ 31)
    (hfin : ∀ i j d a, lhs.layout.rows ≤ d → i < lhs.layout.cols → j < rhs.layout.cols →
      opAccum Arith.int32 (kernelParams (intScalars Arith.int32 ty packed dstTy)
          { mp with channelDim := ch })
        (sideOperand (packInt ty.lhs packed.lhs) (packInt ty.lhs packed.lhs) lhs d)
        (sideOperand (packInt ty.rhs packed.rhs) (packInt ty.rhs packed.rhs) rhs d) i j = .ok a →
      FinishOk mp dst.zp (channelOf ch i j) a) :
    ∃ tp m adv, createColMajor (intScalars Arith.int32 ty packed dstTy) kern lhs rhs dst mp ch junk =
      .ok (tp, m, adv) ∧ Ready tp m ∧ Safe tp m := by
  obtain ⟨p1, h1, f1⟩ := newPacked_total (f := (intScalars Arith.int32 ty packed dstTy).packZp.lhs)
    (data := junk.data.lhs) (sums := junk.sums.lhs) pl
  obtain ⟨p2, h2, f2⟩ := newPacked_total (f := (intScalars Arith.int32 ty packed dstTy).packZp.rhs)
    (data := junk.data.rhs) (sums := junk.sums.rhs) pr
  have hbuf' : BuffersOk { mp with channelDim := ch }
      ((SidePair.mk lhs rhs).get (channelSide ch)).layout.cols :=
    ⟨hbuf.rounding, hbuf.size, hbuf.bias, hbuf.fixed, hbuf.exponent⟩
  obtain ⟨e, he⟩ := ensureBuffers_total (ar := Arith.int32) (ty := ty) (packed := packed)
    (dst := dstTy) (req := ((SidePair.mk p1 p2).get (channelSide ch)).layout.cols) hbuf'
  have hcr : ∃ tp m adv, createColMajor (intScalars Arith.int32 ty packed dstTy) kern lhs rhs dst mp
      ch junk = .ok (tp, m, adv) ∧ m.packed = ⟨p1, p2⟩ := by
    unfold createColMajor
    rw [C.check_of ho, C.ok_bind, h1, C.ok_bind, h2, C.ok_bind]
    dsimp only
    rw [he]
    exact ⟨_, _, _, rfl, rfl⟩
  obtain ⟨tp, m, adv, hcr, hm⟩ := hcr
  have cr := createColMajor_ok hcr
  have hready : Ready tp m := cr.ready hd hk hr hc hs
  have kl := createPackedLayout_ok cr.lpk.layout
  have kr := createPackedLayout_ok cr.rpk.layout
  have hdep := createPackedLayout_rows cr.lpk.layout cr.rpk.layout hd hk
  have hDle : (m.packed.lhs.layout.rows : Int) ≤ ((lhs.layout.rows + kern.lhs.rows - 1 : Nat) : Int) := by
    have := kl.2.2.2.2.2.1
    omega
  have hnn : 0 ≤ (Ml + Zl) * (Mr + Zr) := mul_nonneg (by omega) (by omega)
  have hT' : (m.packed.lhs.layout.rows : Int) * ((Ml + Zl) * (Mr + Zr)) + B < 2 ^ 31 := by
    have := mul_le_mul_of_nonneg_right hDle hnn
    linarith
  have hD0 : (0 : Int) ≤ m.packed.lhs.layout.rows := by omega
  have q1 : (m.packed.lhs.layout.rows : Int) * Ml < 2 ^ 31 := by
    have : (m.packed.lhs.layout.rows : Int) * Ml ≤
        (m.packed.lhs.layout.rows : Int) * ((Ml + Zl) * (Mr + Zr)) :=
      mul_le_mul_of_nonneg_left (by nlinarith) hD0
    linarith
  have q2 : (m.packed.lhs.layout.rows : Int) * Mr < 2 ^ 31 := by
    have : (m.packed.lhs.layout.rows : Int) * Mr ≤
        (m.packed.lhs.layout.rows : Int) * ((Ml + Zl) * (Mr + Zr)) :=
      mul_le_mul_of_nonneg_left (by nlinarith) hD0
    linarith
  refine ⟨tp, m, adv, hcr, hready, ?_, ?_, ?_, ?_, ?_, ?_⟩
  · intro s
    cases s
    · refine ⟨?_, ?_, fun b hb => ?_⟩
      · show pflatSize m.packed.lhs.layout ≤ _
        rw [hm]; exact f1
      · exact cr.lpk.data.ge
      · exact (cr.lpk.sumsSize b hb).ge
    · refine ⟨?_, ?_, fun b hb => ?_⟩
      · show pflatSize m.packed.rhs.layout ≤ _
        rw [hm]; exact f2
      · exact cr.rpk.data.ge
      · exact (cr.rpk.sumsSize b hb).ge
  · rw [cr.dst]; exact hdf
  · intro s _ c _
    unfold TrMul.operand Operand.sum
    rw [cr.ar, cr.pack, cr.src]
    cases s
    · obtain ⟨x, hx, _⟩ := colSum_total (ol m.packed.lhs.layout.rows) (c := c)
        (n := m.packed.lhs.layout.rows) q1
      refine ⟨x, ?_⟩
      simp only [SidePair.get_lhs]
      rw [cr.lpk.zp]
      exact hx
    · obtain ⟨x, hx, _⟩ := colSum_total (or m.packed.lhs.layout.rows) (c := c)
        (n := m.packed.lhs.layout.rows) q2
      refine ⟨x, ?_⟩
      simp only [SidePair.get_rhs]
      rw [cr.rpk.zp, ← hdep]
      exact hx
  · intro i j hi hj
    rw [cr.dst, hr] at hi
    rw [cr.dst, hc] at hj
    rw [cr.target hd hk hi hj]
    unfold trEntry opEntry
    have hch : channelOf ch i j < ((SidePair.mk lhs rhs).get (channelSide ch)).layout.cols := by
      cases ch <;> assumption
    obtain ⟨a, ha⟩ := opAccum_total (mp := kernelParams (intScalars Arith.int32 ty packed dstTy)
        { mp with channelDim := ch }) (i := i) (j := j)
      (ol m.packed.lhs.layout.rows) (or m.packed.lhs.layout.rows) rfl
      (by have := kl.2.2.2.2.1; have := pl.rows_pos; show 0 < m.packed.lhs.layout.rows; omega)
      hB0 hML hMR (hb _ hch) hT'
    have hf := hfin i j m.packed.lhs.layout.rows a kl.2.2.2.2.1 hi hj ha
    have ha' : opAccum (intScalars Arith.int32 ty packed dstTy).ar
        (kernelParams (intScalars Arith.int32 ty packed dstTy) { mp with channelDim := ch })
        (sideOperand (intScalars Arith.int32 ty packed dstTy).pack.lhs
          (intScalars Arith.int32 ty packed dstTy).packZp.lhs lhs m.packed.lhs.layout.rows)
        (sideOperand (intScalars Arith.int32 ty packed dstTy).pack.rhs
          (intScalars Arith.int32 ty packed dstTy).packZp.rhs rhs m.packed.lhs.layout.rows) i j =
        .ok a := ha
    rw [ha', C.ok_bind]
    exact finish_total (mp := { mp with channelDim := ch }) hf
  · rw [cr.dst, hr]
    have := kl.2.2.2.2.2.2.2
    rw [kl.2.2.2.1]; exact this
  · rw [cr.dst, hc]
    have := kr.2.2.2.2.2.2.2
    rw [kr.2.2.2.1]; exact this

/-- The number of channels, as the user sees it. -/
def channels (dst : Mul.Mat Int) (d : ChannelDim) : Nat :=
  match d with
  | .row => dst.layout.rows
  | .col => dst.layout.cols

/-- Sufficient conditions for Mul to return: buffers are complete, sizes and magnitudes bounded.
`Ml`, `Mr` bound the packed values, `Zl`, `Zr` the packed zero points and `B` the bias. -/
structure MulOk (ty packed : SidePair ScalarType) (dstTy : ScalarType) (kern : SidePair KernelLayout)
    (lhs rhs dst : Mul.Mat Int) (mp : MulParams Int) (Ml Zl Mr Zr B : Int) : Prop where
  shapes : Shapes kern lhs rhs dst
  int : IntOk ty packed dstTy lhs rhs mp
  valid : validate ty.lhs ty.rhs dstTy lhs.zp rhs.zp dst.zp = .ok ()
  lsize : ∀ s, PackSizes (kern.get s) lhs.layout.cols lhs.layout.rows
  rsize : ∀ s, PackSizes (kern.get s) rhs.layout.rows rhs.layout.cols
  lfits : DFits lhs
  rfits : DFits rhs
  dfits : DFits dst
  buffers : BuffersOk mp (channels dst mp.channelDim)
  lvals : ∀ i k, i < lhs.layout.rows → k < lhs.layout.cols →
    |packInt ty.lhs packed.lhs (lhs.at i k)| ≤ Ml
  rvals : ∀ k j, k < rhs.layout.rows → j < rhs.layout.cols →
    |packInt ty.rhs packed.rhs (rhs.at k j)| ≤ Mr
  lzp : |packInt ty.lhs packed.lhs lhs.zp| ≤ Zl ∧ Zl ≤ Ml ∧ 1 ≤ Ml
  rzp : |packInt ty.rhs packed.rhs rhs.zp| ≤ Zr ∧ Zr ≤ Mr ∧ 1 ≤ Mr
  bias : 0 ≤ B ∧ ∀ c, c < channels dst mp.channelDim → BiasOk mp.bias c B
  bound : ((lhs.layout.cols + kern.lhs.rows - 1 : Nat) : Int) * ((Ml + Zl) * (Mr + Zr)) + B < 2 ^ 31
  finish : ∀ i j, i < dst.layout.rows → j < dst.layout.cols →
    FinishOk mp dst.zp (channelOf mp.channelDim i j) (accumSpec (fun x : Int => x) lhs rhs mp i j)

theorem dfits_transpose {A : Type} {m : Mul.Mat A} (h : DFits m) : DFits m.transpose := by
  intro i j hi hj
  show off m.layout.transpose i j < _ ∧ off m.layout.transpose i j < _
  rw [off_transpose]
  exact h j i hj hi

theorem frontEnd_total {ty packed : SidePair ScalarType} {dstTy : ScalarType}
    {kern : SidePair KernelLayout} {lhs rhs dst : Mul.Mat Int} {mp : MulParams Int}
    {Ml Zl Mr Zr B : Int} (h : MulOk ty packed dstTy kern lhs rhs dst mp Ml Zl Mr Zr B)
    (junk : Junk Int) :
    ∃ tp m adv, frontEnd (intScalars Arith.int32 ty packed dstTy) kern lhs rhs dst mp junk =
      .ok (tp, m, adv) ∧ Ready tp m ∧ Safe tp m := by
  have hsh := h.shapes
  have ol : ∀ d, OBound (sideOperand (packInt ty.lhs packed.lhs) (packInt ty.lhs packed.lhs)
      lhs.transpose d) Ml Zl := fun d =>
    sideOperand_bound (dfits_transpose h.lfits) h.lzp.1 h.lzp.2.1
      (fun i j hi hj => by rw [at_transpose]; exact h.lvals j i hj hi)
  have or : ∀ d, OBound (sideOperand (packInt ty.rhs packed.rhs) (packInt ty.rhs packed.rhs)
      rhs d) Mr Zr := fun d =>
    sideOperand_bound h.rfits h.rzp.1 h.rzp.2.1 h.rvals
  have zl0 : 0 ≤ Zl := (abs_nonneg _).trans h.lzp.1
  have zr0 : 0 ≤ Zr := (abs_nonneg _).trans h.rzp.1
  have hf := faithful_int (ar := Arith.int32) (dst := dstTy) (R := Int) h.int.lpack h.int.rpack
    h.int.lty h.int.rty
  have hacc : ∀ i j d a, lhs.layout.cols ≤ d → i < lhs.layout.rows → j < rhs.layout.cols →
      userAccum (intScalars Arith.int32 ty packed dstTy) lhs rhs dst mp d i j = .ok a →
      FinishOk mp dst.zp (channelOf mp.channelDim i j) a := by
    intro i j d a hd hi hj ha
    have e := userAccum_value (φ := fun x : Int => x)
      (sc := intScalars Arith.int32 ty packed dstTy) int32_hom hf hsh.depth hd hi hj ha
    have e : a = accumSpec (fun x : Int => x) lhs rhs mp i j := e
    rw [e]
    exact h.finish i j (by rw [hsh.rows]; exact hi) (by rw [hsh.cols]; exact hj)
  unfold frontEnd
  have hv : validate (intScalars Arith.int32 ty packed dstTy).ty.lhs
      (intScalars Arith.int32 ty packed dstTy).ty.rhs
      (intScalars Arith.int32 ty packed dstTy).dstTy lhs.zp rhs.zp dst.zp = .ok () := h.valid
  rw [hv, C.ok_bind]
  unfold createTrMulParams
  unfold userAccum at hacc
  by_cases ho : dst.layout.order = .colMajor
  · rw [if_pos ho]
    simp only [if_pos ho] at hacc
    have hch : ((SidePair.mk lhs.transpose rhs).get (channelSide mp.channelDim)).layout.cols =
        channels dst mp.channelDim := by
      cases mp.channelDim
      · exact hsh.rows.symm
      · exact hsh.cols.symm
    exact createColMajor_total (lhs := lhs.transpose) junk ho (h.lsize .lhs) (h.rsize .rhs)
      (by rw [hch]; exact h.buffers) hsh.depth hsh.kernel hsh.rows hsh.cols hsh.stride h.dfits ol or
      h.bias.1 h.lzp.2.2 h.rzp.2.2 zl0 zr0 (by rw [hch]; exact h.bias.2) h.bound
      (fun i j d a hd hi hj ha => hacc i j d a hd hi hj ha)
  · rw [if_neg ho]
    simp only [if_neg ho] at hacc
    have ho' : dst.transpose.layout.order = .colMajor := by
      cases hd : dst.layout.order with
      | colMajor => exact absurd hd ho
      | rowMajor => show dst.layout.order.transpose = _; rw [hd]; rfl
    have hch : ((SidePair.mk rhs lhs.transpose).get (channelSide mp.channelDim.transpose)).layout.cols =
        channels dst mp.channelDim := by
      cases mp.channelDim
      · exact hsh.rows.symm
      · exact hsh.cols.symm
    have hbd : ((rhs.layout.rows + kern.lhs.rows - 1 : Nat) : Int) * ((Mr + Zr) * (Ml + Zl)) + B <
        2 ^ 31 := by
      rw [← hsh.depth, mul_comm (Mr + Zr)]; exact h.bound
    exact createColMajor_total (ty := ⟨ty.rhs, ty.lhs⟩) (packed := ⟨packed.rhs, packed.lhs⟩)
      (lhs := rhs) (rhs := lhs.transpose) (dst := dst.transpose) junk ho' (h.rsize .lhs)
      (h.lsize .rhs) (by rw [hch]; exact h.buffers) hsh.depth.symm hsh.kernel hsh.cols hsh.rows
      (strideOk_transpose.2 hsh.stride) (dfits_transpose h.dfits) or ol
      h.bias.1 h.rzp.2.2 h.lzp.2.2 zr0 zl0 (by rw [hch]; exact h.bias.2) hbd
      (fun i j d a hd hi hj ha => by
        rw [channelOf_transpose]
        exact hacc j i d a (by rw [hsh.depth]; exact hd) hj hi ha)

end Ruy.Front

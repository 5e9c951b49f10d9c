import Verif.FloatErr.Binary32
import Verif.FloatErr.Ref
import Mathlib.Tactic.IntervalCases
/-
Property C62: how far float results are from the exact ones.

  c62_fused       x86 paths with fused multiply-adds (AVX2+FMA, AVX-512)
  c62_unfused     x86 path without (AVX)
  c62_reference   ReferenceMul
  c62_portable    Mul on the portable path
  c62_gamma       the factors of these bounds against `n u / (1 - n u)`
  c62_binary32    for binary32, rounded to nearest: a simple bound for the x86 paths, and for their distance to ReferenceMul
  c62_binary32_integers   integers up to 2^24 (products and partial sums included): exact on the x86 paths
  c62_differ      the two are not equal in general
-/
namespace Ruy.FloatErr
open Ruy.Mat Ruy.Mul Ruy.Float Ruy.XFloat
open Ruy.TrMul (Mem)
open Ruy.Front (MulParams kernelParams applyMultiplier Shapes)

/-- The values that entry (i, j) is computed from: `n` numbers `a` of the LHS and `c` of the RHS, the bias `b`, and bounds. -/
structure Inputs (f g : Nat → Fl) (bias lo hi : Fl) (n : Nat) (a c : Nat → ℚ) (b : ℚ) : Prop where
  lhs : ∀ d, d < n → IsVal (f d) (a d)
  rhs : ∀ d, d < n → IsVal (g d) (c d)
  bias : IsVal bias b
  lo : IsLower lo
  hi : IsUpper hi

/-- The inputs of entry (i, j) of a multiplication on an x86 path (the LHS is already transposed). -/
def JobInputs (jb : Job Fl) (i j : Nat) (a c : Nat → ℚ) (b : ℚ) : Prop :=
  Inputs (fun d => jb.src.lhs.at d i) (fun d => jb.src.rhs.at d j) (biasAt (.zero false) jb.mp (channelOf jb.mp.channelDim i j))
    jb.mp.clampMin jb.mp.clampMax jb.src.lhs.layout.rows a c b

/-- The inputs of entry (i, j) of Mul or ReferenceMul. -/
def MulInputs (lhs rhs : Mul.Mat Fl) (mp : MulParams Fl) (i j : Nat) (a c : Nat → ℚ) (b : ℚ) : Prop :=
  Inputs (fun d => lhs.at i d) (fun d => rhs.at d j) (biasAt (.zero false) mp (channelOf mp.channelDim i j))
    mp.clampMin mp.clampMax lhs.layout.cols a c b

/-- Entry (i, j) is a finite number at distance at most `bound` from `q`. -/
def Within (d : Mul.Mat Fl) (i j : Nat) (q bound : ℚ) : Prop :=
  ∃ x r, d.elem i j = .ok x ∧ IsVal x r ∧ |r - q| ≤ bound

theorem Within.mono {d : Mul.Mat Fl} {i j : Nat} {q b b' : ℚ} (h : Within d i j q b) (hb : b ≤ b') : Within d i j q b' := by
  obtain ⟨x, r, h1, h2, h3⟩ := h
  exact ⟨x, r, h1, h2, h3.trans hb⟩

section
variable {e : Env} {u η M : ℚ} {a c : Nat → ℚ} {b : ℚ} {i j : Nat}

/-- C62: fused multiply-adds. -/
theorem c62_fused (hr : Rounding e u η M) {jb : Job Fl} {m m' : Mem Fl} (h : Multiplied (VOps.fused e.ops (fma e)) jb m m')
    (hi : i < m.dst.layout.rows) (hj : j < m.dst.layout.cols) (hin : JobInputs jb i j a c b) {n : Nat}
    (hn : n = jb.src.lhs.layout.rows) (hM : (1 + u) ^ n * (mag b a c n + n * η) ≤ M) :
    Within m'.dst i j (clampQ jb.mp.clampMin jb.mp.clampMax (sum b a c n))
      (((1 + u) ^ n - 1) * mag b a c n + n * (1 + u) ^ n * η) := by
  subst hn
  obtain ⟨r, h1, h2⟩ := fused_near hr hin.bias hin.lhs hin.rhs hM
  exact ⟨_, _, h.entries i j hi hj trivial, clamped_val rfl hin.lo hin.hi h1, (clampQ_near hin.lo hin.hi _ _).trans h2⟩

/-- C62: multiplications and additions each rounded. -/
theorem c62_unfused (hr : Rounding e u η M) {jb : Job Fl} {m m' : Mem Fl} (h : Multiplied (VOps.unfused e.ops) jb m m')
    (hi : i < m.dst.layout.rows) (hj : j < m.dst.layout.cols) (hin : JobInputs jb i j a c b) {n : Nat}
    (hn : n = jb.src.lhs.layout.rows) (hM : (1 + u) ^ (n + 1) * (mag b a c n + 2 * n * η) ≤ M) :
    Within m'.dst i j (clampQ jb.mp.clampMin jb.mp.clampMax (sum b a c n))
      (((1 + u) ^ (n + 1) - 1) * mag b a c n + 2 * n * (1 + u) ^ n * η) := by
  subst hn
  obtain ⟨r, h1, h2⟩ := unfused_near hr (madd := (VOps.unfused e.ops).madd) (fun _ _ _ => .inl rfl) hin.bias hin.lhs hin.rhs hM
  exact ⟨_, _, h.entries i j hi hj trivial, clamped_val rfl hin.lo hin.hi h1, (clampQ_near hin.lo hin.hi _ _).trans h2⟩

/-- C62: ReferenceMul, on inputs that are representable. -/
theorem c62_reference (he : e.Ok) (hr : Rounding e u η M) {isZero : Fl → Bool} {lhs rhs dst d : Mul.Mat Fl} {mp : MulParams Fl}
    (hrows : dst.layout.rows = lhs.layout.rows) (hcols : dst.layout.cols = rhs.layout.cols) (hs : StrideOk dst.layout)
    (hzl : lhs.zp = 0) (hzr : rhs.zp = 0) (hzd : dst.zp = 0) (hq : mp.quant = none)
    (h : Front.referenceMul (floatScalars e.ops isZero) lhs rhs dst mp = .ok d)
    (hi : i < dst.layout.rows) (hj : j < dst.layout.cols) (hin : MulInputs lhs rhs mp i j a c b) {n : Nat}
    (hn : n = lhs.layout.cols) (hls : ∀ d, d < n → e.Stable (lhs.at i d)) (hrs : ∀ d, d < n → e.Stable (rhs.at d j))
    (hM : (1 + u) ^ (n + 2) * (mag b a c n + (2 * n + 1) * η) ≤ M) :
    Within d i j (clampQ mp.clampMin mp.clampMax (sum b a c n))
      (((1 + u) ^ (n + 2) - 1) * mag b a c n + (2 * n + 1) * (1 + u) ^ (n + 1) * η) := by
  subst hn
  obtain ⟨v, hv, hv'⟩ := (Front.referenceMul_computes hrows hcols hs h).done i j hi hj
  unfold refEntry at hv'
  obtain ⟨a0, h0, hv'⟩ := C.bind_ok hv'
  obtain ⟨a1, h1, hv'⟩ := C.bind_ok hv'
  have hd := ref_dot hzl hzr h0
  have hbias : IsVal ((mp.bias.map (fun b => b.val (channelOf mp.channelDim i j))).getD (.zero false)) b := by
    have := hin.bias
    unfold biasAt at this
    cases hb : mp.bias with
    | none => rw [hb] at this; exact this
    | some x => rw [hb] at this; exact this
  obtain ⟨r, hr1, hr2⟩ := ref_sum he hr hin.lhs hin.rhs hls hrs hbias hM
  have h1' : addBias e.ops.arith mp.bias (channelOf mp.channelDim i j) a0 = .ok a1 := h1
  have key : IsVal (e.add a1 (.zero false)) r := by
    unfold addBias at h1'
    cases hb : mp.bias with
    | none =>
      rw [hb] at h1' hr1
      cases h1'
      rw [hd]
      exact hr1
    | some x =>
      rw [hb] at h1' hr1
      obtain ⟨y, hy, h1'⟩ := C.bind_ok h1'
      cases h1'
      rw [hd]
      rw [(Buf.read_ok hy).2]
      exact hr1
  unfold finish at hv'
  obtain ⟨a2, h2, hv'⟩ := C.bind_ok hv'
  obtain ⟨a3, h3, hv'⟩ := C.bind_ok hv'
  have h2' : applyMultiplier (floatScalars e.ops isZero) mp.quant (channelOf mp.channelDim i j) a1 = .ok a2 := h2
  rw [hq] at h2'
  cases h2'
  rw [hzd] at h3
  cases h3
  have hv3 : v = _ := (Except.ok.inj hv').symm
  exact ⟨v, _, hv, by rw [hv3]; exact ref_clamp_val hin.lo hin.hi key, (clampQ_near hin.lo hin.hi _ _).trans hr2⟩

/-- C62: Mul on the portable path (of a call for which ReferenceMul returns). -/
theorem c62_portable (he : e.Ok) (hr : Rounding e u η M) {isZero : Fl → Bool} {kern : SidePair KernelLayout}
    {lhs rhs dst d d' : Mul.Mat Fl} {mp : MulParams Fl} (hs : Shapes kern lhs rhs dst)
    (hzl : lhs.zp = 0) (hzr : rhs.zp = 0) (hzd : dst.zp = 0) (hq : mp.quant = none)
    (hcomm : dst.layout.order = .colMajor ∨ ∀ p q, e.nan2 p q = e.nan2 q p)
    (hmul : Front.Mul (floatScalars e.ops isZero) kern lhs rhs dst mp d)
    (h : Front.referenceMul (floatScalars e.ops isZero) lhs rhs dst mp = .ok d')
    (hi : i < dst.layout.rows) (hj : j < dst.layout.cols) (hin : MulInputs lhs rhs mp i j a c b) {n : Nat}
    (hn : n = lhs.layout.cols) (hls : ∀ d, d < n → e.Stable (lhs.at i d)) (hrs : ∀ d, d < n → e.Stable (rhs.at d j))
    (hM : (1 + u) ^ (n + 2) * (mag b a c n + (2 * n + 1) * η) ≤ M) :
    Within d i j (clampQ mp.clampMin mp.clampMax (sum b a c n))
      (((1 + u) ^ (n + 2) - 1) * mag b a c n + (2 * n + 1) * (1 + u) ^ (n + 1) * η) := by
  have hd := c47_ieee_equals_reference e he isZero kern lhs rhs dst d d' mp hs hq hcomm hmul h
  rw [hd]
  exact c62_reference he hr hs.rows hs.cols hs.stride hzl hzr hzd hq h hi hj hin hn hls hrs hM

end

/-! ### Binary32 -/

/-- C62: the factor of the sum of magnitudes. -/
theorem c62_gamma {u : ℚ} (hu : 0 ≤ u) (n : Nat) (hn : n * u < 1) : (1 + u) ^ n - 1 ≤ n * u / (1 - n * u) := by
  have key : ∀ k : Nat, k ≤ n → (1 + u) ^ k * (1 - k * u) ≤ 1 := by
    intro k hk
    induction k with
    | zero => simp
    | succ k ih =>
      have ih := ih (by omega)
      have hp : (0 : ℚ) ≤ (1 + u) ^ k := pow_nonneg (by linarith) _
      rw [pow_succ]
      push_cast
      have : (1 + u) ^ k * (1 + u) * (1 - (k + 1) * u) = (1 + u) ^ k * (1 - k * u) - (1 + u) ^ k * ((k + 1) * (u * u)) := by ring
      rw [this]
      have h2 : (0 : ℚ) ≤ (1 + u) ^ k * ((k + 1) * (u * u)) := by positivity
      linarith
  have h1 := key n (le_refl n)
  have hpos : 0 < 1 - n * u := by linarith
  rw [le_div_iff₀ hpos]
  linarith

theorem half_pow {n : Nat} (h : n ≤ 2 ^ 23) :
    ((1 + (2 : ℚ) ^ (-24 : ℤ)) ^ n - 1) ≤ n * 2 ^ (-23 : ℤ) ∧ (1 + (2 : ℚ) ^ (-24 : ℤ)) ^ n ≤ 2 := by
  have hn : (n : ℚ) ≤ 2 ^ 23 := by exact_mod_cast h
  have hn0 : (0 : ℚ) ≤ n := Nat.cast_nonneg n
  have hu : (2 : ℚ) ^ (-24 : ℤ) = 1 / 2 ^ 24 := by norm_num
  have hv : (2 : ℚ) ^ (-23 : ℤ) = 1 / 2 ^ 23 := by norm_num
  rw [hu, hv]
  have hle : (n : ℚ) * (1 / 2 ^ 24) ≤ 1 / 2 := by
    have := mul_le_mul_of_nonneg_right hn (show (0 : ℚ) ≤ 1 / 2 ^ 24 by norm_num)
    refine this.trans ?_
    norm_num
  have h1 := c62_gamma (u := 1 / 2 ^ 24) (by norm_num) n (by linarith)
  have h2 : (n : ℚ) * (1 / 2 ^ 24) / (1 - n * (1 / 2 ^ 24)) ≤ n * (1 / 2 ^ 23) := by
    rw [div_le_iff₀ (by linarith)]
    have : (n : ℚ) * (1 / 2 ^ 23) * (1 - n * (1 / 2 ^ 24)) = n * (1 / 2 ^ 24) * (2 * (1 - n * (1 / 2 ^ 24))) := by ring
    rw [this]
    have hx : (0 : ℚ) ≤ n * (1 / 2 ^ 24) := by positivity
    nlinarith
  refine ⟨h1.trans h2, ?_⟩
  have : (n : ℚ) * (1 / 2 ^ 23) ≤ 1 := by linarith
  linarith

/-- The two multiply-adds of the x86 paths, on binary32. -/
inductive IsMadd32 (ftz : Bool) : VOps Fl → Prop
  | avx : IsMadd32 ftz (VOps.unfused (binary32 ftz).ops)
  | fma : IsMadd32 ftz (VOps.fused (binary32 ftz).ops (fma (binary32 ftz)))

theorem tiny_pos (ftz : Bool) : 0 ≤ tiny ftz := (binary32_rounding ftz).epos
theorem tiny_le (ftz : Bool) : tiny ftz ≤ 2 ^ (-126 : ℤ) := by
  unfold tiny
  split
  · exact le_refl _
  · exact zpow_mono (by norm_num)

/-- C62: binary32, rounding to nearest, depth below 2^23, sum of magnitudes at most 2^126.  A complete multiplication on an
x86 path gives numbers within (n + 1) * 2^-23 of the sum of magnitudes, plus 4n times the underflow threshold, of the exact
clamped result. -/
theorem c62_binary32 {ftz : Bool} {o : VOps Fl} (ho : IsMadd32 ftz o) {jb : Job Fl} {m m' : Mem Fl} (h : Multiplied o jb m m')
    {i j : Nat} (hi : i < m.dst.layout.rows) (hj : j < m.dst.layout.cols) {a c : Nat → ℚ} {b : ℚ} (hin : JobInputs jb i j a c b)
    {n : Nat} (hn : n = jb.src.lhs.layout.rows) (hdepth : n < 2 ^ 23) (hmag : mag b a c n ≤ 2 ^ (126 : ℤ)) :
    Within m'.dst i j (clampQ jb.mp.clampMin jb.mp.clampMax (sum b a c n))
      ((n + 1) * 2 ^ (-23 : ℤ) * mag b a c n + 4 * n * tiny ftz) := by
  have hm := mag_nonneg b a c n
  have ht := tiny_pos ftz
  have ht' := tiny_le ftz
  have hn0 : (0 : ℚ) ≤ n := Nat.cast_nonneg n
  have hnt : (0 : ℚ) ≤ n * tiny ftz := mul_nonneg hn0 ht
  obtain ⟨p1, p2⟩ := half_pow (n := n) (by omega)
  obtain ⟨q1, q2⟩ := half_pow (n := n + 1) (by omega)
  push_cast at q1
  have hbig : 2 * (mag b a c n + 2 * n * tiny ftz) ≤ maxFloat := by
    have hn1 : (n : ℚ) ≤ 2 ^ 23 := by exact_mod_cast hdepth.le
    have h1 : (n : ℚ) * tiny ftz ≤ 2 ^ 23 * 2 ^ (-126 : ℤ) := mul_le_mul hn1 ht' ht (by norm_num)
    have h2 : 2 * ((2 : ℚ) ^ (126 : ℤ) + 2 * (2 ^ 23 * 2 ^ (-126 : ℤ))) ≤ maxFloat := by unfold maxFloat; norm_num
    refine le_trans ?_ h2
    linarith
  cases ho with
  | avx =>
    refine (c62_unfused (binary32_rounding ftz) h hi hj hin hn ?_).mono ?_
    · refine le_trans (mul_le_mul_of_nonneg_right q2 (by linarith)) hbig
    · have t1 := mul_le_mul_of_nonneg_right q1 hm
      have t2 := mul_le_mul_of_nonneg_right p2 hnt
      linarith
  | fma =>
    refine (c62_fused (binary32_rounding ftz) h hi hj hin hn ?_).mono ?_
    · refine le_trans (mul_le_mul_of_nonneg_right p2 (by linarith)) (le_trans ?_ hbig)
      linarith
    · have t1 := mul_le_mul_of_nonneg_right p1 hm
      have t2 := mul_le_mul_of_nonneg_right p2 hnt
      have t3 : 0 ≤ (2 : ℚ) ^ (-23 : ℤ) * mag b a c n := mul_nonneg (two_pow_pos _).le hm
      linarith

/-- A value of type float, not denormal if results are flushed to zero. -/
def IsFloat (ftz : Bool) : Fl → Prop
  | .fin q => q ≠ 0 ∧ Representable ftz q
  | _ => True

theorem IsFloat.stable {ftz : Bool} {x : Fl} (h : IsFloat ftz x) : (binary32 ftz).Stable x := by
  cases x with
  | nan p => rfl
  | inf s => trivial
  | zero s => trivial
  | fin q => exact rnd32_representable h.2 h.1

/-- C62: and ReferenceMul within (n + 2) * 2^-23 of the sum of magnitudes plus 4n + 2 times the underflow threshold. -/
theorem c62_binary32_reference {ftz : Bool} {isZero : Fl → Bool} {lhs rhs dst d : Mul.Mat Fl} {mp : MulParams Fl}
    (hrows : dst.layout.rows = lhs.layout.rows) (hcols : dst.layout.cols = rhs.layout.cols) (hs : StrideOk dst.layout)
    (hzl : lhs.zp = 0) (hzr : rhs.zp = 0) (hzd : dst.zp = 0) (hq : mp.quant = none)
    (h : Front.referenceMul (floatScalars (binary32 ftz).ops isZero) lhs rhs dst mp = .ok d) {i j : Nat}
    (hi : i < dst.layout.rows) (hj : j < dst.layout.cols) {a c : Nat → ℚ} {b : ℚ} (hin : MulInputs lhs rhs mp i j a c b) {n : Nat}
    (hn : n = lhs.layout.cols) (hls : ∀ d, d < n → IsFloat ftz (lhs.at i d)) (hrs : ∀ d, d < n → IsFloat ftz (rhs.at d j))
    (hdepth : n + 1 < 2 ^ 23) (hmag : mag b a c n ≤ 2 ^ (126 : ℤ)) :
    Within d i j (clampQ mp.clampMin mp.clampMax (sum b a c n))
      ((n + 2) * 2 ^ (-23 : ℤ) * mag b a c n + (4 * n + 2) * tiny ftz) := by
  have hm := mag_nonneg b a c n
  have ht := tiny_pos ftz
  have ht' := tiny_le ftz
  have hn0 : (0 : ℚ) ≤ n := Nat.cast_nonneg n
  have hnt : (0 : ℚ) ≤ n * tiny ftz := mul_nonneg hn0 ht
  obtain ⟨p1, p2⟩ := half_pow (n := n + 1) (by omega)
  obtain ⟨q1, q2⟩ := half_pow (n := n + 2) (by omega)
  push_cast at q1
  have hbig : 2 * (mag b a c n + (2 * n + 1) * tiny ftz) ≤ maxFloat := by
    have hn1 : (n : ℚ) ≤ 2 ^ 23 := by exact_mod_cast (by omega : n ≤ 2 ^ 23)
    have h1 : (n : ℚ) * tiny ftz ≤ 2 ^ 23 * 2 ^ (-126 : ℤ) := mul_le_mul hn1 ht' ht (by norm_num)
    have h2 : 2 * ((2 : ℚ) ^ (126 : ℤ) + 2 * (2 ^ 23 * 2 ^ (-126 : ℤ)) + 2 ^ (-126 : ℤ)) ≤ maxFloat := by unfold maxFloat; norm_num
    refine le_trans ?_ h2
    linarith
  refine (c62_reference (binary32_ok ftz) (binary32_rounding ftz) hrows hcols hs hzl hzr hzd hq h hi hj hin hn
    (fun d hd => (hls d hd).stable) (fun d hd => (hrs d hd).stable) ?_).mono ?_
  · exact le_trans (mul_le_mul_of_nonneg_right q2 (by linarith)) hbig
  · have t1 := mul_le_mul_of_nonneg_right q1 hm
    have t2 := mul_le_mul_of_nonneg_right p2 hnt
    have t3 := mul_le_mul_of_nonneg_right p2 ht
    linarith

/-- C62: the distance between what a multiplication on an x86 path and what ReferenceMul stores. -/
theorem c62_close {ftz : Bool} {o : VOps Fl} (ho : IsMadd32 ftz o) {jb : Job Fl} {m m' : Mem Fl} (h : Multiplied o jb m m')
    {isZero : Fl → Bool} {lhs d : Mul.Mat Fl} (hl : jb.src.lhs = lhs.transpose)
    (hrows : m.dst.layout.rows = lhs.layout.rows) (hcols : m.dst.layout.cols = jb.src.rhs.layout.cols) (hs : StrideOk m.dst.layout)
    (hzl : lhs.zp = 0) (hzr : jb.src.rhs.zp = 0) (hzd : m.dst.zp = 0) (hq : jb.mp.quant = none)
    (h' : Front.referenceMul (floatScalars (binary32 ftz).ops isZero) lhs jb.src.rhs m.dst jb.mp = .ok d) {i j : Nat}
    (hi : i < m.dst.layout.rows) (hj : j < m.dst.layout.cols) {a c : Nat → ℚ} {b : ℚ}
    (hin : MulInputs lhs jb.src.rhs jb.mp i j a c b) {n : Nat} (hn : n = lhs.layout.cols)
    (hls : ∀ d, d < n → IsFloat ftz (lhs.at i d)) (hrs : ∀ d, d < n → IsFloat ftz (jb.src.rhs.at d j))
    (hdepth : n + 1 < 2 ^ 23) (hmag : mag b a c n ≤ 2 ^ (126 : ℤ)) :
    ∃ x x' r r', m'.dst.elem i j = .ok x ∧ d.elem i j = .ok x' ∧ IsVal x r ∧ IsVal x' r' ∧
      |r - r'| ≤ (2 * n + 3) * 2 ^ (-23 : ℤ) * mag b a c n + (8 * n + 2) * tiny ftz := by
  have hrw : jb.src.lhs.layout.rows = lhs.layout.cols := by rw [hl]; exact (by cases ho : lhs.layout.order <;> rfl)
  have hin' : JobInputs jb i j a c b := by
    refine ⟨fun d hd => ?_, fun d hd => hin.rhs d (by omega), hin.bias, hin.lo, hin.hi⟩
    have := hin.lhs d (by omega)
    show IsVal (jb.src.lhs.at d i) (a d)
    rw [hl, Front.at_transpose]
    exact this
  obtain ⟨x, r, h1, h2, h3⟩ := c62_binary32 ho h hi hj hin' (n := n) (by omega) (by omega) hmag
  obtain ⟨x', r', h1', h2', h3'⟩ := c62_binary32_reference hrows hcols hs hzl hzr hzd hq h' hi hj hin hn hls hrs hdepth hmag
  refine ⟨x, x', r, r', h1, h1', h2, h2', ?_⟩
  have t : |r - r'| ≤ |r - clampQ jb.mp.clampMin jb.mp.clampMax (sum b a c n)| +
      |r' - clampQ jb.mp.clampMin jb.mp.clampMax (sum b a c n)| := by
    rw [abs_sub_comm r' _]
    exact abs_sub_le _ _ _
  linarith

/-! ### Integers -/

theorem add_int (ftz : Bool) {a b : ℤ} (h : |a + b| ≤ 2 ^ 24) (ha : |a| ≤ 2 ^ 24) (hb : |b| ≤ 2 ^ 24) (s : Bool) {x : Fl}
    (hx : x = ofInt a ∨ a = 0 ∧ x = .zero s) : (binary32 ftz).add x (ofInt b) = ofInt (a + b) := by
  have hz : ∀ t, (binary32 ftz).add (.zero t) (ofInt b) = ofInt b := by
    intro t
    by_cases h0 : b = 0
    · subst h0
      cases t <;> rfl
    · have e : ofInt b = .fin b := if_neg h0
      have := rnd32_int ftz hb h0
      rw [e] at this ⊢
      exact this
  by_cases h0 : a = 0
  · subst h0
    rw [zero_add]
    rcases hx with rfl | ⟨_, rfl⟩
    · exact hz false
    · exact hz s
  · have hx : x = .fin a := by
      rcases hx with rfl | ⟨h1, _⟩
      · exact if_neg h0
      · exact absurd h1 h0
    subst hx
    by_cases h1 : b = 0
    · subst h1
      rw [add_zero]
      exact rnd32_int ftz ha h0
    · have e : ofInt b = .fin b := if_neg h1
      rw [e]
      show (if ((a : ℚ) + b = 0) then Fl.zero false else rnd32 ftz ((a : ℚ) + b)) = ofInt (a + b)
      by_cases h2 : a + b = 0
      · rw [if_pos (by exact_mod_cast h2), h2]
        rfl
      · rw [if_neg (by exact_mod_cast h2)]
        have := rnd32_int ftz h h2
        push_cast at this
        exact this

theorem mul_int {e : Env} {a b : ℤ} (hr : a * b ≠ 0 → e.rnd ((a : ℚ) * b) = .fin ((a : ℚ) * b)) :
    ∃ s, e.mul (ofInt a) (ofInt b) = ofInt (a * b) ∨ a * b = 0 ∧ e.mul (ofInt a) (ofInt b) = .zero s := by
  by_cases ha : a = 0
  · subst ha
    by_cases hb : b = 0
    · subst hb; exact ⟨false, .inr ⟨by simp, rfl⟩⟩
    · have : ofInt b = .fin b := if_neg hb
      rw [this]
      exact ⟨_, .inr ⟨by simp, rfl⟩⟩
  · have ea : ofInt a = .fin a := if_neg ha
    rw [ea]
    by_cases hb : b = 0
    · subst hb; exact ⟨_, .inr ⟨by simp, rfl⟩⟩
    · have eb : ofInt b = .fin b := if_neg hb
      rw [eb]
      have hab : a * b ≠ 0 := mul_ne_zero ha hb
      refine ⟨false, .inl ?_⟩
      show e.rnd ((a : ℚ) * b) = ofInt (a * b)
      rw [hr hab]
      unfold ofInt
      rw [if_neg hab]
      push_cast
      rfl

theorem lt_int (a b : ℤ) : Fl.lt (ofInt a) (ofInt b) = decide (a < b) := by
  have val : ∀ n : ℤ, IsVal (ofInt n) n := by
    intro n
    unfold ofInt
    split
    · rename_i h; subst h; exact Int.cast_zero
    · rfl
  rw [lt_val (val a) (val b)]
  simp

/-- C62: the multiply-adds of both kinds are exact on integers up to 2^24 in magnitude. -/
theorem c62_exactOn {ftz : Bool} {o : VOps Fl} (ho : IsMadd32 ftz o) : ExactOn o ofInt (fun n => |n| ≤ 2 ^ 24) := by
  cases ho with
  | avx =>
    refine ⟨rfl, fun a b c ga gb gc gab g => ?_, fun a b _ _ => lt_int a b⟩
    obtain ⟨s, hs⟩ := mul_int (e := binary32 ftz) (a := a) (b := b) (fun h => by
      have := rnd32_int ftz gab h
      push_cast at this
      refine this.trans ?_
      unfold ofInt
      rw [if_neg h]
      push_cast
      rfl)
    exact add_int ftz g gab gc s hs
  | fma =>
    refine ⟨rfl, fun a b c ga gb gc gab g => ?_, fun a b _ _ => lt_int a b⟩
    obtain ⟨s, hs⟩ := mul_int (e := ({ binary32 ftz with rnd := .fin } : Env)) (a := a) (b := b) (fun _ => rfl)
    exact add_int ftz g gab gc s hs

/-- C62: integer matrices, with products and partial sums up to 2^24 in magnitude, are multiplied exactly on the x86 paths. -/
theorem c62_binary32_integers {ftz : Bool} {o : VOps Fl} (ho : IsMadd32 ftz o) {jb : Job Fl} {m m' : Mem Fl}
    (hM : Multiplied o jb m m') {L R : Nat → ℤ} {b lo hi : ℤ} {i j : Nat} (hi' : i < m.dst.layout.rows)
    (hj : j < m.dst.layout.cols) (hl : ∀ d, d < jb.src.lhs.layout.rows → jb.src.lhs.at d i = ofInt (L d) ∧ |L d| ≤ 2 ^ 24)
    (hr : ∀ d, d < jb.src.lhs.layout.rows → jb.src.rhs.at d j = ofInt (R d) ∧ |R d| ≤ 2 ^ 24)
    (hb : biasAt (.zero false) jb.mp (channelOf jb.mp.channelDim i j) = ofInt b)
    (hmin : jb.mp.clampMin = ofInt lo ∧ |lo| ≤ 2 ^ 24) (hmax : jb.mp.clampMax = ofInt hi ∧ |hi| ≤ 2 ^ 24)
    (hp : ∀ d, d < jb.src.lhs.layout.rows → |L d * R d| ≤ 2 ^ 24)
    (hsum : ∀ n, n ≤ jb.src.lhs.layout.rows → |isum b L R n| ≤ 2 ^ 24) :
    m'.dst.elem i j = .ok (ofInt (max (min (isum b L R jb.src.lhs.layout.rows) hi) lo)) :=
  c61_integers hM (c62_exactOn ho) hi' hj hl hr (by cases ho <;> exact hb) hmin hmax hp hsum

/-! ### Examples and witnesses -/

/-- LHS 1x2: -(1 + 2^-22), 1 + 2^-23; RHS 2x1: 1, 1 + 2^-23. -/
def exLhs : Mul.Mat Fl := ⟨⟨1, 2, 2, .rowMajor⟩, ⟨2, fun i => .fin (if i = 0 then -(1 + 1 / 2 ^ 22) else 1 + 1 / 2 ^ 23)⟩, 0⟩
def exRhs : Mul.Mat Fl := ⟨⟨2, 1, 2, .colMajor⟩, ⟨2, fun i => .fin (if i = 0 then 1 else 1 + 1 / 2 ^ 23)⟩, 0⟩
def exFMp : MulParams Fl := ⟨none, none, .row, 128, .fin (-3), .inf false⟩
def exFJob : Job Fl := ⟨⟨exLhs.transpose, exRhs⟩, exFMp, fun _ _ _ => .nan 7⟩
def exFPacked : PMat Fl := ⟨⟨2, 8, 2, .colMajor, ⟨.rowMajor, 1, 8⟩⟩, ⟨16, fun _ => .nan 5⟩, none, 0⟩
def exDst : Mul.Mat Fl := ⟨⟨1, 1, 1, .colMajor⟩, ⟨1, fun _ => .nan 3⟩, 0⟩
def exFMem : Mem Fl := ⟨⟨exFPacked, exFPacked⟩, exDst⟩

theorem jobOk_of {jb : Job Fl} (hl : jb.src.lhs.layout = ⟨2, 1, 2, .colMajor⟩ ∧ jb.src.lhs.data.size = 2)
    (hr : jb.src.rhs.layout = ⟨2, 1, 2, .colMajor⟩ ∧ jb.src.rhs.data.size = 2) (hb : jb.mp.bias = none) : JobOk 8 jb exFMem where
  side s := by
    have h : ∀ m : Mul.Mat Fl, m.layout = ⟨2, 1, 2, .colMajor⟩ → m.data.size = 2 → SideOk 8 m exFPacked := by
      intro m hm hs
      refine ⟨?_, by decide +kernel, by decide +kernel, fun i j hi hj => ?_, fun _ c hc => ?_⟩
      · rw [hm]; decide +kernel
      · rw [hm] at hi hj ⊢
        rw [hs]
        have hi : i < 2 := hi
        have hj : j < 1 := hj
        show i + j * 2 < 2 ^ 31 ∧ i + j * 2 < 2
        omega
      · rw [hm] at hc ⊢
        have hc : c < 1 := hc
        show 2 * c < 2 ^ 31
        omega
    cases s
    · exact h _ hl.1 hl.2
    · exact h _ hr.1 hr.2
  depth := by rw [hl.1, hr.1]
  drows := by rw [hl.1]; rfl
  dcols := by rw [hr.1]; rfl
  dorder := rfl
  dstride := by show 1 ≤ 1; decide
  dfits i j hi hj := by
    have hi : i < 1 := hi
    have hj : j < 1 := hj
    show i + j * 1 < 2 ^ 31 ∧ i + j * 1 < 1
    omega
  bias b h := by rw [hb] at h; cases h
  depth4 := by rw [hl.1]; decide
  stride4 := by show 4 * 1 < _; decide
  deep h := by cases h

theorem exFJob_ok : JobOk 8 exFJob exFMem := jobOk_of ⟨rfl, rfl⟩ ⟨rfl, rfl⟩ rfl

def exA (d : Nat) : ℚ := if d = 0 then -(1 + 1 / 2 ^ 22) else 1 + 1 / 2 ^ 23
def exC (d : Nat) : ℚ := if d = 0 then 1 else 1 + 1 / 2 ^ 23

theorem exInputs : MulInputs exLhs exRhs exFMp 0 0 exA exC 0 := by
  refine ⟨fun d hd => ?_, fun d hd => ?_, rfl, trivial, rfl⟩
  · have hd : d < 2 := hd
    interval_cases d <;> rfl
  · have hd : d < 2 := hd
    interval_cases d <;> rfl

theorem exJobInputs : JobInputs exFJob 0 0 exA exC 0 := by
  refine ⟨fun d hd => ?_, fun d hd => ?_, rfl, trivial, rfl⟩
  · have hd : d < 2 := hd
    interval_cases d <;> rfl
  · have hd : d < 2 := hd
    interval_cases d <;> rfl

theorem exFloat {ftz : Bool} {q : ℚ} {k : ℤ} (h : q = k * 2 ^ (-23 : ℤ)) (h1 : 2 ^ 23 ≤ |k|) (h2 : |k| ≤ 2 ^ 24) :
    IsFloat ftz (.fin q) := by
  have hk1 : (2 ^ 23 : ℚ) ≤ |(k : ℚ)| := by exact_mod_cast h1
  have hk2 : |(k : ℚ)| ≤ 2 ^ 24 := by exact_mod_cast h2
  have hq : |q| = |(k : ℚ)| * 2 ^ (-23 : ℤ) := by rw [h, abs_mul, abs_of_pos (two_pow_pos (-23))]
  have hp := two_pow_pos (-23)
  have low : (1 : ℚ) ≤ |q| := by
    rw [hq]
    refine le_trans (le_of_eq ?_) (mul_le_mul_of_nonneg_right hk1 hp.le)
    norm_num
  refine ⟨fun h0 => ?_, ?_, k, -23, h, h2, ?_⟩
  · rw [h0, abs_zero] at low
    norm_num at low
  · rw [hq]
    refine (mul_le_mul_of_nonneg_right hk2 hp.le).trans ?_
    unfold maxFloat
    norm_num
  · split
    · refine le_trans ?_ low
      norm_num
    · norm_num

theorem exFloats (ftz : Bool) : (∀ d, d < 2 → IsFloat ftz (exLhs.at 0 d)) ∧ ∀ d, d < 2 → IsFloat ftz (exRhs.at d 0) := by
  constructor
  · intro d hd
    interval_cases d
    · exact exFloat (k := -(2 ^ 23 + 2)) (by decide +kernel) (by norm_num) (by norm_num)
    · exact exFloat (k := 2 ^ 23 + 1) (by decide +kernel) (by norm_num) (by norm_num)
  · intro d hd
    interval_cases d
    · exact exFloat (k := 2 ^ 23) (by decide +kernel) (by norm_num) (by norm_num)
    · exact exFloat (k := 2 ^ 23 + 1) (by decide +kernel) (by norm_num) (by norm_num)

def avx2Ops : VOps Fl := VOps.fused (binary32 false).ops (fma (binary32 false))
def avxOps : VOps Fl := VOps.unfused (binary32 false).ops

/-- C62: the results of the paths, and of ReferenceMul, are not always equal.  Here the AVX2 path stores 2^-46, which is exact;
the AVX path and ReferenceMul store 0. -/
theorem c62_differ :
    ∃ m m' d, simpleLoop (pathAvx2 avx2Ops) exFJob exFMem = .ok m ∧ simpleLoop (pathAvx avxOps) exFJob exFMem = .ok m' ∧
      Front.referenceMul (floatScalars (binary32 false).ops (fun _ => false)) exLhs exRhs exDst exFMp = .ok d ∧
      m.dst.elem 0 0 = .ok (.fin (1 / 2 ^ 46)) ∧ m'.dst.elem 0 0 = .ok (.zero false) ∧ d.elem 0 0 = .ok (.zero false) ∧
      sum 0 exA exC 2 = 1 / 2 ^ 46 := by
  obtain ⟨m, h1, h2⟩ := c61_simple_loop (P := pathAvx2 avx2Ops) .avx2 exFJob_ok (by decide) (by decide)
  obtain ⟨m', h1', h2'⟩ := c61_simple_loop (P := pathAvx avxOps) .avx exFJob_ok (by decide) (by decide)
  refine ⟨m, m', _, h1, h1', rfl, ?_, ?_, ?_, by decide +kernel⟩
  · rw [h2.entries 0 0 (by decide) (by decide) trivial]
    exact congrArg _ (by decide +kernel)
  · rw [h2'.entries 0 0 (by decide) (by decide) trivial]
    exact congrArg _ (by decide +kernel)
  · exact congrArg _ (by decide +kernel : _ = Fl.zero false)

theorem exStride : StrideOk exDst.layout := by show 1 ≤ 1; decide

theorem exMag : mag 0 exA exC 2 ≤ 3 := by decide +kernel

/-- The hypotheses of `c62_fused`, `c62_unfused`, `c62_binary32`, `c62_binary32_reference` and `c62_close`. -/
example : ∃ m m' d, Multiplied avx2Ops exFJob exFMem m ∧ Multiplied avxOps exFJob exFMem m' ∧
    Within m.dst 0 0 (1 / 2 ^ 46) (((1 + (2 : ℚ) ^ (-24 : ℤ)) ^ 2 - 1) * mag 0 exA exC 2 + 2 * (1 + (2 : ℚ) ^ (-24 : ℤ)) ^ 2 * tiny false) ∧
    Within m'.dst 0 0 (1 / 2 ^ 46) (((1 + (2 : ℚ) ^ (-24 : ℤ)) ^ 3 - 1) * mag 0 exA exC 2 + 2 * 2 * (1 + (2 : ℚ) ^ (-24 : ℤ)) ^ 2 * tiny false) ∧
    Within d 0 0 (1 / 2 ^ 46) ((2 + 2) * 2 ^ (-23 : ℤ) * mag 0 exA exC 2 + (4 * 2 + 2) * tiny false) ∧
    ∃ x x' r r', m.dst.elem 0 0 = .ok x ∧ d.elem 0 0 = .ok x' ∧ IsVal x r ∧ IsVal x' r' ∧
      |r - r'| ≤ (2 * 2 + 3) * 2 ^ (-23 : ℤ) * mag 0 exA exC 2 + (8 * 2 + 2) * tiny false := by
  obtain ⟨m, _, h⟩ := c61_simple_loop (P := pathAvx2 avx2Ops) .avx2 exFJob_ok (by decide) (by decide)
  obtain ⟨m', _, h'⟩ := c61_simple_loop (P := pathAvx avxOps) .avx exFJob_ok (by decide) (by decide)
  have ec : clampQ exFMp.clampMin exFMp.clampMax (sum 0 exA exC 2) = 1 / 2 ^ 46 := by decide +kernel
  have hm : mag 0 exA exC 2 ≤ 2 ^ (126 : ℤ) := exMag.trans (by norm_num)
  obtain ⟨d, hd⟩ : ∃ d, Front.referenceMul (floatScalars (binary32 false).ops (fun _ => false)) exLhs exRhs exDst exFMp = .ok d :=
    ⟨_, rfl⟩
  refine ⟨m, m', d, h, h', ?_, ?_, ?_, ?_⟩
  · rw [← ec]
    exact c62_fused (binary32_rounding false) h (by decide) (by decide) exJobInputs (n := 2) rfl (by decide +kernel)
  · rw [← ec]
    exact c62_unfused (binary32_rounding false) h' (by decide) (by decide) exJobInputs (n := 2) rfl (by decide +kernel)
  · rw [← ec]
    exact c62_binary32_reference (lhs := exLhs) (rhs := exRhs) (dst := exDst) rfl rfl exStride rfl rfl rfl rfl hd (by decide) (by decide) exInputs (n := 2) rfl
      (exFloats false).1 (exFloats false).2 (by decide) hm
  · exact c62_close .fma h (lhs := exLhs) rfl rfl rfl exStride rfl rfl rfl rfl hd (by decide) (by decide) exInputs (n := 2) rfl
      (exFloats false).1 (exFloats false).2 (by decide) hm

/-- The hypotheses of `c62_portable`: a kernel of 2 columns and depth 1. -/
example : ∃ d, Within d 0 0 (1 / 2 ^ 46)
    (((1 + (2 : ℚ) ^ (-24 : ℤ)) ^ 4 - 1) * mag 0 exA exC 2 + (2 * 2 + 1) * (1 + (2 : ℚ) ^ (-24 : ℤ)) ^ 3 * tiny true) := by
  have ec : clampQ exFMp.clampMin exFMp.clampMax (sum 0 exA exC 2) = 1 / 2 ^ 46 := by decide +kernel
  obtain ⟨d', hd'⟩ : ∃ d', Front.referenceMul (floatScalars (binary32 true).ops (fun _ => false)) exLhs exRhs exDst exFMp = .ok d' :=
    ⟨_, rfl⟩
  obtain ⟨d, hd⟩ : ∃ d, Front.Mul (floatScalars (binary32 true).ops (fun _ => false)) k11 exLhs exRhs exDst exFMp d :=
    ⟨_, ⟨⟨fun _ => .zero false, fun _ => .zero false⟩, ⟨fun _ => .zero false, fun _ => .zero false⟩⟩, _, _, _, _, rfl, .simple _ rfl rfl, rfl⟩
  refine ⟨d, ?_⟩
  rw [← ec]
  exact c62_portable (binary32_ok true) (binary32_rounding true) (isZero := fun _ => false) (kern := k11) (lhs := exLhs) (rhs := exRhs)
    (dst := exDst)
    ⟨rfl, rfl, rfl, exStride, rfl⟩ rfl rfl rfl rfl (.inl rfl) hd hd'
    (by decide) (by decide) exInputs (n := 2) rfl (fun d hd => ((exFloats true).1 d hd).stable)
    (fun d hd => ((exFloats true).2 d hd).stable) (by decide +kernel)

/-- The hypotheses of `c62_gamma`. -/
example : (1 + (1 / 2 ^ 24 : ℚ)) ^ 1000 - 1 ≤ (1000 : Nat) * (1 / 2 ^ 24) / (1 - (1000 : Nat) * (1 / 2 ^ 24)) :=
  c62_gamma (by norm_num) 1000 (by norm_num)

/-- The hypotheses of `c62_binary32_integers`: 4095 * 4096 + 7 * -2. -/
def exIJob : Job Fl := ⟨⟨⟨⟨2, 1, 2, .colMajor⟩, ⟨2, fun i => ofInt (if i = 0 then 4095 else 7)⟩, 0⟩,
  ⟨⟨2, 1, 2, .colMajor⟩, ⟨2, fun i => ofInt (if i = 0 then 4096 else -2)⟩, 0⟩⟩,
  ⟨none, none, .row, 128, ofInt (-1000), ofInt (2 ^ 24)⟩, fun _ _ _ => .nan 7⟩

example : ∃ m', simpleLoop (pathAvx2 avx2Ops) exIJob exFMem = .ok m' ∧ m'.dst.elem 0 0 = .ok (ofInt 16773106) := by
  obtain ⟨m', h0, h⟩ := c61_simple_loop (P := pathAvx2 avx2Ops) .avx2 (jobOk_of (jb := exIJob) ⟨rfl, rfl⟩ ⟨rfl, rfl⟩ rfl) (by decide)
    (by decide)
  refine ⟨m', h0, ?_⟩
  refine c62_binary32_integers (ftz := false) .fma h (L := fun d => if d = 0 then 4095 else 7) (R := fun d => if d = 0 then 4096 else -2)
    (b := 0) (lo := -1000) (hi := 2 ^ 24) (i := 0) (j := 0) (by decide) (by decide) ?_ ?_ rfl ⟨rfl, by decide⟩ ⟨rfl, by decide⟩ ?_ ?_
  · intro d hd
    have hd : d < 2 := hd
    interval_cases d <;> exact ⟨rfl, by decide⟩
  · intro d hd
    have hd : d < 2 := hd
    interval_cases d <;> exact ⟨rfl, by decide⟩
  · intro d hd
    have hd : d < 2 := hd
    interval_cases d <;> decide
  · intro n hn
    have hn : n ≤ 2 := hn
    interval_cases n <;> decide

end Ruy.FloatErr

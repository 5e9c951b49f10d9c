import Verif.FloatErr.Props
import Verif.XFloat.TopProps
/-
Property C97: how far the binary32 results of ruy::Mul on the x86 paths are from the exact ones, in terms of its arguments.

  c97_error      every entry is a finite number within (n + 1) * 2^-23 of the sum of magnitudes (plus underflow) of the exact one
  c97_reference  and within (2n + 3) * 2^-23 of the sum of magnitudes of what ReferenceMul stores
  c97_paths      two paths, of which only one may fuse multiplications and additions, differ by at most (2n + 2) * 2^-23
  c97_integers   integers up to 2^24 (products and partial sums included): exact
  c97_differ     the paths do not store the same in general
-/
namespace Ruy.FloatErr
open Ruy.Mat Ruy.Mul Ruy.Float Ruy.XFloat
open Ruy.TrMul (Mem)
open Ruy.Front (MulParams Scalars Junk)

theorem sum_comm (b : ℚ) (a c : Nat → ℚ) (n : Nat) : sum b c a n = sum b a c n := by
  induction n with
  | zero => rfl
  | succ n ih => unfold sum; rw [ih, mul_comm]

theorem mag_comm (b : ℚ) (a c : Nat → ℚ) (n : Nat) : mag b c a n = mag b a c n := by
  induction n with
  | zero => rfl
  | succ n ih => unfold mag; rw [ih, mul_comm]

theorem Inputs.swap {f g : Nat → Fl} {bias lo hi : Fl} {n : Nat} {a c : Nat → ℚ} {b : ℚ} (h : Inputs f g bias lo hi n a c b) :
    Inputs g f bias lo hi n c a b := ⟨h.rhs, h.lhs, h.bias, h.lo, h.hi⟩

/-- One entry, as computed by either multiply-add. -/
theorem dot_near {ftz : Bool} {o : VOps Fl} (ho : IsMadd32 ftz o) {f g : Nat → Fl} {bias lo hi : Fl} {n : Nat} {a c : Nat → ℚ} {b : ℚ}
    (hin : Inputs f g bias lo hi n a c b) (hdepth : n < 2 ^ 23) (hmag : mag b a c n ≤ 2 ^ (126 : ℤ)) :
    ∃ r, IsVal (clamped o lo hi (dot o.madd bias f g n)) r ∧
      |r - clampQ lo hi (sum b a c n)| ≤ (n + 1) * 2 ^ (-23 : ℤ) * mag b a c n + 4 * n * tiny ftz := by
  have hm := mag_nonneg b a c n
  have ht := tiny_pos ftz
  have ht' := tiny_le ftz
  have hn0 : (0 : ℚ) ≤ n := Nat.cast_nonneg n
  have hnt : (0 : ℚ) ≤ n * tiny ftz := mul_nonneg hn0 ht
  obtain ⟨p1, p2⟩ := half_pow (n := n) (by omega)
  obtain ⟨q1, q2⟩ := half_pow (n := n + 1) (by omega)
  push_cast at q1
  have hbig : 2 * (mag b a c n + 2 * n * tiny ftz) ≤ maxFloat := by
    have hn1 : (n : ℚ) ≤ 2 ^ 23 := by exact_mod_cast hdepth.le
    have h1 : (n : ℚ) * tiny ftz ≤ 2 ^ 23 * 2 ^ (-126 : ℤ) := mul_le_mul hn1 ht' ht (by norm_num)
    have h2 : 2 * ((2 : ℚ) ^ (126 : ℤ) + 2 * (2 ^ 23 * 2 ^ (-126 : ℤ))) ≤ maxFloat := by unfold maxFloat; norm_num
    refine le_trans ?_ h2
    linarith
  cases ho with
  | avx =>
    obtain ⟨r, h1, h2⟩ := unfused_near (binary32_rounding ftz) (madd := (VOps.unfused (binary32 ftz).ops).madd)
      (fun _ _ _ => .inl rfl) hin.bias hin.lhs hin.rhs (le_trans (mul_le_mul_of_nonneg_right q2 (by linarith)) hbig)
    refine ⟨_, clamped_val rfl hin.lo hin.hi h1, ((clampQ_near hin.lo hin.hi _ _).trans h2).trans ?_⟩
    have t1 := mul_le_mul_of_nonneg_right q1 hm
    have t2 := mul_le_mul_of_nonneg_right p2 hnt
    linarith
  | fma =>
    obtain ⟨r, h1, h2⟩ := fused_near (binary32_rounding ftz) hin.bias hin.lhs hin.rhs
      (le_trans (mul_le_mul_of_nonneg_right p2 (by linarith)) (le_trans (by linarith) hbig))
    refine ⟨_, clamped_val rfl hin.lo hin.hi h1, ((clampQ_near hin.lo hin.hi _ _).trans h2).trans ?_⟩
    have t1 := mul_le_mul_of_nonneg_right p1 hm
    have t2 := mul_le_mul_of_nonneg_right p2 hnt
    have t3 : 0 ≤ (2 : ℚ) ^ (-23 : ℤ) * mag b a c n := mul_nonneg (two_pow_pos _).le hm
    linarith

theorem zero_of {ftz : Bool} {o : VOps Fl} (ho : IsMadd32 ftz o) : o.zero = .zero false := by cases ho <;> rfl

section
variable {ftz : Bool} {o o' : VOps Fl} {P P' : Path Fl} {sc sc' : Scalars Fl} {lhs rhs dst d d' : Mul.Mat Fl} {mp : MulParams Fl}
  {i j n : Nat} {a c : Nat → ℚ} {b : ℚ}

/-- C97: the distance to the exact, clamped result. -/
theorem c97_error (ho : IsMadd32 ftz o) (hP : IsPath o P) (h : Top.UserOk sc P.isa.kc lhs rhs dst mp)
    (hd : Top.Mul sc P lhs rhs dst mp d) (hi : i < dst.layout.rows) (hj : j < dst.layout.cols)
    (hin : MulInputs lhs rhs mp i j a c b) (hn : n = lhs.layout.cols) (hdepth : n < 2 ^ 23) (hmag : mag b a c n ≤ 2 ^ (126 : ℤ)) :
    Within d i j (clampQ mp.clampMin mp.clampMax (sum b a c n)) ((n + 1) * 2 ^ (-23 : ℤ) * mag b a c n + 4 * n * tiny ftz) := by
  subst hn
  have e := Top.c96_entries hP h hd hi hj
  unfold Top.entry at e
  rw [zero_of ho] at e
  cases hord : dst.layout.order with
  | colMajor =>
    rw [hord] at e
    obtain ⟨r, h1, h2⟩ := dot_near ho hin hdepth hmag
    exact ⟨_, r, e, h1, h2⟩
  | rowMajor =>
    rw [hord] at e
    obtain ⟨r, h1, h2⟩ := dot_near ho hin.swap hdepth (by rw [mag_comm]; exact hmag)
    rw [mag_comm, sum_comm] at h2
    exact ⟨_, r, e, h1, h2⟩

theorem Within.close {q x y : ℚ} (h : Within d i j q x) (h' : Within d' i j q y) :
    ∃ v v' r r', d.elem i j = .ok v ∧ d'.elem i j = .ok v' ∧ IsVal v r ∧ IsVal v' r' ∧ |r - r'| ≤ x + y := by
  obtain ⟨v, r, h1, h2, h3⟩ := h
  obtain ⟨v', r', h1', h2', h3'⟩ := h'
  refine ⟨v, v', r, r', h1, h1', h2, h2', (abs_sub_le r q r').trans ?_⟩
  rw [abs_sub_comm q r']
  linarith

/-- C97: the distance to the result of ReferenceMul, called with the same arguments. -/
theorem c97_reference (ho : IsMadd32 ftz o) (hP : IsPath o P) (h : Top.UserOk sc P.isa.kc lhs rhs dst mp)
    (hd : Top.Mul sc P lhs rhs dst mp d) {isZero : Fl → Bool}
    (hr : Front.referenceMul (floatScalars (binary32 ftz).ops isZero) lhs rhs dst mp = .ok d')
    (hi : i < dst.layout.rows) (hj : j < dst.layout.cols) (hin : MulInputs lhs rhs mp i j a c b) (hn : n = lhs.layout.cols)
    (hls : ∀ k, k < n → IsFloat ftz (lhs.at i k)) (hrs : ∀ k, k < n → IsFloat ftz (rhs.at k j))
    (hdepth : n + 1 < 2 ^ 23) (hmag : mag b a c n ≤ 2 ^ (126 : ℤ)) :
    ∃ x x' r r', d.elem i j = .ok x ∧ d'.elem i j = .ok x' ∧ IsVal x r ∧ IsVal x' r' ∧
      |r - r'| ≤ (2 * n + 3) * 2 ^ (-23 : ℤ) * mag b a c n + (8 * n + 2) * tiny ftz := by
  obtain ⟨x, x', r, r', h1, h2, h3, h4, h5⟩ := (c97_error ho hP h hd hi hj hin hn (by omega) hmag).close
    (c62_binary32_reference h.rows h.cols h.stride h.valid.1 h.valid.2.1 h.valid.2.2 h.bias.quant hr hi hj hin hn hls hrs hdepth hmag)
  exact ⟨x, x', r, r', h1, h2, h3, h4, h5.trans (by linarith)⟩

/-- C97: the distance between two paths, with any block maps, threads and schedules. -/
theorem c97_paths (ho : IsMadd32 ftz o) (hP : IsPath o P) (h : Top.UserOk sc P.isa.kc lhs rhs dst mp)
    (hd : Top.Mul sc P lhs rhs dst mp d) (ho' : IsMadd32 ftz o') (hP' : IsPath o' P') (h' : Top.UserOk sc' P'.isa.kc lhs rhs dst mp)
    (hd' : Top.Mul sc' P' lhs rhs dst mp d') (hi : i < dst.layout.rows) (hj : j < dst.layout.cols)
    (hin : MulInputs lhs rhs mp i j a c b) (hn : n = lhs.layout.cols) (hdepth : n < 2 ^ 23) (hmag : mag b a c n ≤ 2 ^ (126 : ℤ)) :
    ∃ x x' r r', d.elem i j = .ok x ∧ d'.elem i j = .ok x' ∧ IsVal x r ∧ IsVal x' r' ∧
      |r - r'| ≤ (2 * n + 2) * 2 ^ (-23 : ℤ) * mag b a c n + 8 * n * tiny ftz := by
  obtain ⟨x, x', r, r', h1, h2, h3, h4, h5⟩ := (c97_error ho hP h hd hi hj hin hn hdepth hmag).close
    (c97_error ho' hP' h' hd' hi hj hin hn hdepth hmag)
  exact ⟨x, x', r, r', h1, h2, h3, h4, h5.trans (by linarith)⟩

/-- C97: integer matrices with products and partial sums up to 2^24 in magnitude are multiplied exactly. -/
theorem c97_integers (ho : IsMadd32 ftz o) (hP : IsPath o P) (h : Top.UserOk sc P.isa.kc lhs rhs dst mp)
    (hd : Top.Mul sc P lhs rhs dst mp d) (hi : i < dst.layout.rows) (hj : j < dst.layout.cols) {L R : Nat → ℤ} {b lo hi' : ℤ}
    (hl : ∀ k, k < lhs.layout.cols → lhs.at i k = ofInt (L k) ∧ |L k| ≤ 2 ^ 24)
    (hr : ∀ k, k < lhs.layout.cols → rhs.at k j = ofInt (R k) ∧ |R k| ≤ 2 ^ 24)
    (hb : biasAt (.zero false) mp (channelOf mp.channelDim i j) = ofInt b)
    (hmin : mp.clampMin = ofInt lo ∧ |lo| ≤ 2 ^ 24) (hmax : mp.clampMax = ofInt hi' ∧ |hi'| ≤ 2 ^ 24)
    (hp : ∀ k, k < lhs.layout.cols → |L k * R k| ≤ 2 ^ 24) (hs : ∀ k, k ≤ lhs.layout.cols → |isum b L R k| ≤ 2 ^ 24) :
    d.elem i j = .ok (ofInt (max (min (isum b L R lhs.layout.cols) hi') lo)) :=
  Top.c96_integers hP h hd hi hj (c62_exactOn ho) hl hr (by rw [zero_of ho]; exact hb) hmin hmax hp hs

end

/-! ### Examples and witnesses -/

theorem exUser (kc : Nat) (hkc : kc = 8 ∨ kc = 16) (isZero : Fl → Bool) :
    Top.UserOk (floatScalars (binary32 false).ops isZero) kc exLhs exRhs exDst exFMp where
  valid := ⟨rfl, rfl, rfl⟩
  depth := rfl
  rows := rfl
  cols := rfl
  lsize := by
    rcases hkc with rfl | rfl
    · exact ⟨⟨⟨⟨0, rfl⟩, ⟨3, rfl⟩⟩, by decide, by decide, by decide, by decide, by decide⟩, by decide⟩
    · exact ⟨⟨⟨⟨0, rfl⟩, ⟨4, rfl⟩⟩, by decide, by decide, by decide, by decide, by decide⟩, by decide⟩
  rsize := by
    rcases hkc with rfl | rfl
    · exact ⟨⟨⟨⟨0, rfl⟩, ⟨3, rfl⟩⟩, by decide, by decide, by decide, by decide, by decide⟩, by decide⟩
    · exact ⟨⟨⟨⟨0, rfl⟩, ⟨4, rfl⟩⟩, by decide, by decide, by decide, by decide, by decide⟩, by decide⟩
  depth4 := by decide
  fits := by
    refine ⟨fun i j hi hj => ?_, fun i j hi hj => ?_, fun i j hi hj => ?_⟩
    · have hi : i < 1 := hi
      have hj : j < 2 := hj
      show i * 2 + j < 2 ^ 31 ∧ i * 2 + j < 2
      omega
    · have hi : i < 2 := hi
      have hj : j < 1 := hj
      show i + j * 2 < 2 ^ 31 ∧ i + j * 2 < 2
      omega
    · have hi : i < 1 := hi
      have hj : j < 1 := hj
      show i + j * 1 < 2 ^ 31 ∧ i + j * 1 < 1
      omega
  stride := by show 1 ≤ 1; decide
  stride4 := by show 4 * 1 < _; decide
  bias := ⟨⟨7, rfl⟩, by show 1 + 128 < 2 ^ 31; decide, rfl, fun _ _ _ hb => by cases hb⟩

abbrev exScalars : Scalars Fl := floatScalars (binary32 false).ops (fun _ => false)

theorem exTop {o : VOps Fl} {P : Path Fl} (hP : IsPath o P) : ∃ d, Top.Mul exScalars P exLhs exRhs exDst exFMp d := by
  obtain ⟨jb, m, e, ⟨m', e'⟩, _⟩ := Top.c96_runs hP (exUser _ (Top.kc_of hP) (fun _ => false))
    ⟨⟨fun _ => .nan 1, fun _ => .nan 1⟩, ⟨fun _ => .nan 1, fun _ => .nan 1⟩⟩ (fun _ _ _ => .nan 7)
  exact ⟨_, _, _, jb, m, _, e, .simple e', rfl⟩

theorem exTopMag : mag 0 exA exC 2 ≤ 2 ^ (126 : ℤ) := by decide +kernel

/-- C97: the distance of `c97_paths` is not 0 in general: AVX-512 stores 2^-46, AVX stores 0, whatever fresh memory contains and
however they run. -/
theorem c97_differ {d d' : Mul.Mat Fl} (hd : Top.Mul exScalars (pathAvx512 avx2Ops) exLhs exRhs exDst exFMp d)
    (hd' : Top.Mul exScalars (pathAvx avxOps) exLhs exRhs exDst exFMp d') :
    d.elem 0 0 = .ok (.fin (1 / 2 ^ 46)) ∧ d'.elem 0 0 = .ok (.zero false) := by
  constructor
  · rw [Top.c96_entries (o := avx2Ops) .avx512 (exUser 16 (.inr rfl) _) hd (by decide) (by decide)]
    exact congrArg _ (by decide +kernel)
  · rw [Top.c96_entries (o := avxOps) .avx (exUser 8 (.inl rfl) _) hd' (by decide) (by decide)]
    exact congrArg _ (by decide +kernel)

/-- The hypotheses of `c97_differ`. -/
example : (∃ d, Top.Mul exScalars (pathAvx512 avx2Ops) exLhs exRhs exDst exFMp d) ∧
    ∃ d, Top.Mul exScalars (pathAvx avxOps) exLhs exRhs exDst exFMp d :=
  ⟨exTop (o := avx2Ops) .avx512, exTop (o := avxOps) .avx⟩

/-- The hypotheses of `c97_error` and `c97_paths`. -/
example : ∃ d d' : Mul.Mat Fl, Within d 0 0 (clampQ exFMp.clampMin exFMp.clampMax (sum 0 exA exC 2))
      (((2 : Nat) + 1) * 2 ^ (-23 : ℤ) * mag 0 exA exC 2 + 4 * (2 : Nat) * tiny false) ∧
    ∃ x x' r r', d.elem 0 0 = .ok x ∧ d'.elem 0 0 = .ok x' ∧ IsVal x r ∧ IsVal x' r' ∧
      |r - r'| ≤ (2 * (2 : Nat) + 2) * 2 ^ (-23 : ℤ) * mag 0 exA exC 2 + 8 * (2 : Nat) * tiny false := by
  have h1 : IsPath avx2Ops (pathAvx512 avx2Ops) := .avx512
  have h2 : IsPath avxOps (pathAvx avxOps) := .avx
  obtain ⟨d, hd⟩ := exTop h1
  obtain ⟨d', hd'⟩ := exTop h2
  exact ⟨d, d', c97_error .fma h1 (exUser _ (Top.kc_of h1) _) hd (by decide) (by decide) exInputs rfl (by decide) exTopMag,
    c97_paths .fma h1 (exUser _ (Top.kc_of h1) _) hd .avx h2 (exUser _ (Top.kc_of h2) _) hd' (by decide) (by decide) exInputs rfl
      (by decide) exTopMag⟩

/-- The hypotheses of `c97_reference`. -/
example : ∃ d d' x x' r r', Top.Mul exScalars (pathAvx512 avx2Ops) exLhs exRhs exDst exFMp d ∧
    Front.referenceMul exScalars exLhs exRhs exDst exFMp = .ok d' ∧
    d.elem 0 0 = .ok x ∧ d'.elem 0 0 = .ok x' ∧ IsVal x r ∧ IsVal x' r' ∧
      |r - r'| ≤ (2 * (2 : Nat) + 3) * 2 ^ (-23 : ℤ) * mag 0 exA exC 2 + (8 * (2 : Nat) + 2) * tiny false := by
  have h1 : IsPath avx2Ops (pathAvx512 avx2Ops) := .avx512
  obtain ⟨d, hd⟩ := exTop h1
  obtain ⟨d', hr⟩ : ∃ d', Front.referenceMul exScalars exLhs exRhs exDst exFMp = .ok d' := ⟨_, rfl⟩
  obtain ⟨x, x', r, r', h⟩ := c97_reference .fma h1 (exUser _ (Top.kc_of h1) _) hd hr (by decide) (by decide) exInputs rfl
    (exFloats false).1 (exFloats false).2 (by decide) exTopMag
  exact ⟨d, d', x, x', r, r', hd, hr, h⟩

/-! Integers as floats, with the matrices of the examples of C96. -/

def exI (m : Mul.Mat Int) : Mul.Mat Fl := ⟨m.layout, ⟨m.data.size, fun x => ofInt (m.data.val x)⟩, m.zp⟩
def exIMp : MulParams Fl := ⟨some ⟨10, fun c => ofInt ((c : Int) - 3)⟩, none, .row, 1, ofInt (-60), ofInt 90⟩

theorem exIUser {kc : Nat} (hkc : kc = 8 ∨ kc = 16) (o : Mat.Order) :
    Top.UserOk exScalars kc (exI Top.exLhs) (exI Top.exRhs) (exI (Top.exDst o)) exIMp where
  valid := (Top.exUser hkc o).valid
  depth := (Top.exUser hkc o).depth
  rows := (Top.exUser hkc o).rows
  cols := (Top.exUser hkc o).cols
  lsize := (Top.exUser hkc o).lsize
  rsize := (Top.exUser hkc o).rsize
  depth4 := (Top.exUser hkc o).depth4
  fits := (Top.exUser hkc o).fits
  stride := (Top.exUser hkc o).stride
  stride4 := (Top.exUser hkc o).stride4
  bias := by
    refine ⟨⟨0, rfl⟩, (by show 10 + 1 < 2 ^ 31; decide), rfl, fun cap h b hb => ?_⟩
    have : SizeUtil.nRoundUpPot 10 1 = .ok 10 := by decide
    change SizeUtil.nRoundUpPot 10 1 = .ok cap at h
    rw [this] at h
    cases h
    cases hb
    exact ⟨Nat.le_refl _, fun i h1 h2 => absurd h2 (Nat.not_lt.2 h1)⟩

/-- The hypotheses of `c97_integers`, for both orders of the destination. -/
example (o : Mat.Order) : ∃ d, Top.Mul exScalars (pathAvx2 avx2Ops) (exI Top.exLhs) (exI Top.exRhs) (exI (Top.exDst o)) exIMp d ∧
    d.elem 9 99 = .ok (ofInt (max (min (isum 6 (fun k => Top.exLhs.at 9 k) (fun k => Top.exRhs.at k 99) 3) 90) (-60))) := by
  have hP : IsPath avx2Ops (pathAvx2 avx2Ops) := .avx2
  have h := exIUser (Top.kc_of hP) o
  obtain ⟨jb, m, e, ⟨m', e'⟩, _⟩ := Top.c96_runs hP h
    ⟨⟨fun _ => .nan 1, fun _ => .nan 1⟩, ⟨fun _ => .nan 1, fun _ => .nan 1⟩⟩ (fun _ _ _ => .nan 7)
  refine ⟨_, ⟨_, _, jb, m, _, e, .simple e', rfl⟩, ?_⟩
  refine c97_integers .fma hP h ⟨_, _, jb, m, _, e, .simple e', rfl⟩ (by show 9 < 10; decide) (by show 99 < 125; decide)
    (fun k hk => ⟨rfl, ?_⟩) (fun k hk => ⟨rfl, ?_⟩) rfl ⟨rfl, by decide⟩ ⟨rfl, by decide⟩ (fun k hk => ?_) (fun k hk => ?_)
  · have hk : k < 3 := hk
    interval_cases k <;> decide +kernel
  · have hk : k < 3 := hk
    interval_cases k <;> decide +kernel
  · have hk : k < 3 := hk
    interval_cases k <;> decide +kernel
  · have hk : k ≤ 3 := hk
    interval_cases k <;> decide +kernel

end Ruy.FloatErr

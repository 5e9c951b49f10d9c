import Verif.Arm32.TopProps
/-
Property C100: ruy::Mul with the same float matrices on x86 (C96, C97), AArch64 (C98), 32-bit ARM (C99) and ReferenceMul.

  c100_x86_aarch64         the distance of destinations on x86 and on AArch64
  c100_x86_arm32           the distance of destinations on x86 and on 32-bit ARM
  c100_aarch64_reference   the distance of a destination on AArch64 to the one of ReferenceMul
  c100_arm32_reference     the distance of a destination on 32-bit ARM to the one of ReferenceMul
  c100_integers            small integers: the same entries on all three architectures
  c100_bounds              which is false if the lower clamp bound exceeds the upper one: x86 stores the lower one, ARM the upper one

x86 applies the upper bound first, ARM the lower one; hence the hypothesis that the bounds are in order.
-/
namespace Ruy.Arm32.Cross
open Ruy.Mat Ruy.Mul
open Ruy.Front (Scalars MulParams)
open Ruy.Tune (Tuning)
open Ruy.NeonF (armOps)
open Ruy.Arm32.Flow (neonOps)
open Ruy.Arm32.Top (NormalInputs)
open Ruy.Float Ruy.FloatErr
open Ruy.XFloat (VOps Path IsPath isum)

/-- The lower bound is not above the upper bound; infinite bounds do not matter. -/
def InOrder (lo hi : Fl) : Prop := ∀ p q, IsVal lo p → IsVal hi q → p ≤ q

theorem clamp_comm {lo hi : Fl} (h : InOrder lo hi) (q : ℚ) : clampQ lo hi q = upper hi (FloatErr.lower lo q) := by
  have key : ∀ {l u : ℚ}, l ≤ u → max (min q u) l = min (max q l) u := by
    intro l u hlu
    rcases le_total q l with h1 | h1
    · rw [min_eq_left (h1.trans hlu), max_eq_right h1, min_eq_left hlu]
    · rw [max_eq_left h1, max_eq_left (le_min h1 hlu)]
  unfold clampQ upper FloatErr.lower
  cases lo <;> cases hi <;> first | rfl | exact key (h _ _ rfl rfl)

section
variable {U : Tuning → Prop} {dot ftz ftz' : Bool} {sc sc' : Scalars Fl} {o : VOps Fl} {P : Path Fl} {lhs rhs dst d d' : Mul.Mat Fl}
  {mp : MulParams Fl} {i j n : Nat} {a c : Nat → ℚ} {b : ℚ}

/-- C100: x86, any path, and AArch64, either path, any tunings. -/
theorem c100_x86_aarch64 (ho : IsMadd32 ftz o) (hP : IsPath o P) (h : XFloat.Top.UserOk sc P.isa.kc lhs rhs dst mp)
    (hd : XFloat.Top.Mul sc P lhs rhs dst mp d) (h' : NeonF.Top.ArmOk sc' lhs rhs dst mp) (hU : ∃ u, U u)
    (hd' : NeonF.Top.Mul U sc' dot (armOps (binary32 ftz')) lhs rhs dst mp d') (hi : i < dst.layout.rows) (hj : j < dst.layout.cols)
    (hin : MulInputs lhs rhs mp i j a c b) (hc : InOrder mp.clampMin mp.clampMax) (hn : n = lhs.layout.cols)
    (hdepth : n + 1 < 2 ^ 23) (hmag : mag b a c n ≤ 2 ^ (126 : ℤ)) :
    ∃ x x' r r', d.elem i j = .ok x ∧ d'.elem i j = .ok x' ∧ IsVal x r ∧ IsVal x' r' ∧
      |r - r'| ≤ (2 * n + 2) * 2 ^ (-23 : ℤ) * mag b a c n + 4 * n * tiny ftz + 2 * (n + 1) * tiny ftz' := by
  have k := c97_error ho hP h hd hi hj hin hn (by omega) hmag
  rw [clamp_comm hc] at k
  obtain ⟨x, x', r, r', h1, h2, h3, h4, h5⟩ := k.close (NeonF.Top.c98_binary32 h' hU hd' hi hj hin hn hdepth hmag)
  exact ⟨x, x', r, r', h1, h2, h3, h4, h5.trans (by linarith)⟩

/-- C100: x86, any path, and 32-bit ARM. -/
theorem c100_x86_arm32 (ho : IsMadd32 ftz o) (hP : IsPath o P) (h : XFloat.Top.UserOk sc P.isa.kc lhs rhs dst mp)
    (hd : XFloat.Top.Mul sc P lhs rhs dst mp d) (h' : Arm32.Top.ArmOk sc' lhs rhs dst mp)
    (hd' : Arm32.Top.Mul sc' neonOps lhs rhs dst mp d') (hi : i < dst.layout.rows) (hj : j < dst.layout.cols)
    (hin : MulInputs lhs rhs mp i j a c b) (hN : NormalInputs lhs rhs mp i j) (hc : InOrder mp.clampMin mp.clampMax)
    (hn : n = lhs.layout.cols) (hdepth : n + 2 < 2 ^ 23) (hmag : mag b a c n ≤ 2 ^ (126 : ℤ)) :
    ∃ x x' r r', d.elem i j = .ok x ∧ d'.elem i j = .ok x' ∧ IsVal x r ∧ IsVal x' r' ∧
      |r - r'| ≤ (2 * n + 3) * 2 ^ (-23 : ℤ) * mag b a c n + 4 * n * tiny ftz + 2 * (2 * n + 1) * 2 ^ (-126 : ℤ) := by
  have k := c97_error ho hP h hd hi hj hin hn (by omega) hmag
  rw [clamp_comm hc] at k
  obtain ⟨x, x', r, r', h1, h2, h3, h4, h5⟩ := k.close (Arm32.Top.c99_binary32 h' hd' hi hj hin hN hn hdepth hmag)
  exact ⟨x, x', r, r', h1, h2, h3, h4, h5.trans (by linarith)⟩

/-- C100: AArch64 and ReferenceMul. -/
theorem c100_aarch64_reference (h : NeonF.Top.ArmOk sc lhs rhs dst mp) (hU : ∃ u, U u)
    (hd : NeonF.Top.Mul U sc dot (armOps (binary32 ftz)) lhs rhs dst mp d) {isZero : Fl → Bool}
    (hr : Front.referenceMul (floatScalars (binary32 ftz').ops isZero) lhs rhs dst mp = .ok d')
    (hi : i < dst.layout.rows) (hj : j < dst.layout.cols) (hin : MulInputs lhs rhs mp i j a c b)
    (hc : InOrder mp.clampMin mp.clampMax) (hn : n = lhs.layout.cols)
    (hls : ∀ k, k < n → IsFloat ftz' (lhs.at i k)) (hrs : ∀ k, k < n → IsFloat ftz' (rhs.at k j))
    (hdepth : n + 1 < 2 ^ 23) (hmag : mag b a c n ≤ 2 ^ (126 : ℤ)) :
    ∃ x x' r r', d.elem i j = .ok x ∧ d'.elem i j = .ok x' ∧ IsVal x r ∧ IsVal x' r' ∧
      |r - r'| ≤ (2 * n + 3) * 2 ^ (-23 : ℤ) * mag b a c n + 2 * (n + 1) * tiny ftz + (4 * n + 2) * tiny ftz' := by
  have k := c62_binary32_reference h.user.rows h.user.cols h.user.stride h.user.valid.1 h.user.valid.2.1 h.user.valid.2.2
    h.user.bias.quant hr hi hj hin hn hls hrs hdepth hmag
  rw [clamp_comm hc] at k
  obtain ⟨x, x', r, r', h1, h2, h3, h4, h5⟩ := (NeonF.Top.c98_binary32 h hU hd hi hj hin hn hdepth hmag).close k
  exact ⟨x, x', r, r', h1, h2, h3, h4, h5.trans (by linarith)⟩

/-- C100: 32-bit ARM and ReferenceMul. -/
theorem c100_arm32_reference (h : Arm32.Top.ArmOk sc lhs rhs dst mp) (hd : Arm32.Top.Mul sc neonOps lhs rhs dst mp d)
    {isZero : Fl → Bool} (hr : Front.referenceMul (floatScalars (binary32 ftz').ops isZero) lhs rhs dst mp = .ok d')
    (hi : i < dst.layout.rows) (hj : j < dst.layout.cols) (hin : MulInputs lhs rhs mp i j a c b) (hN : NormalInputs lhs rhs mp i j)
    (hc : InOrder mp.clampMin mp.clampMax) (hn : n = lhs.layout.cols)
    (hls : ∀ k, k < n → IsFloat ftz' (lhs.at i k)) (hrs : ∀ k, k < n → IsFloat ftz' (rhs.at k j))
    (hdepth : n + 2 < 2 ^ 23) (hmag : mag b a c n ≤ 2 ^ (126 : ℤ)) :
    ∃ x x' r r', d.elem i j = .ok x ∧ d'.elem i j = .ok x' ∧ IsVal x r ∧ IsVal x' r' ∧
      |r - r'| ≤ (2 * n + 4) * 2 ^ (-23 : ℤ) * mag b a c n + 2 * (2 * n + 1) * 2 ^ (-126 : ℤ) + (4 * n + 2) * tiny ftz' := by
  have k := c62_binary32_reference h.user.rows h.user.cols h.user.stride h.user.valid.1 h.user.valid.2.1 h.user.valid.2.2
    h.user.bias.quant hr hi hj hin hn hls hrs (by omega) hmag
  rw [clamp_comm hc] at k
  obtain ⟨x, x', r, r', h1, h2, h3, h4, h5⟩ := (Arm32.Top.c99_binary32 h hd hi hj hin hN hn hdepth hmag).close k
  exact ⟨x, x', r, r', h1, h2, h3, h4, h5.trans (by linarith)⟩

end

/-- Entry (i, j) is computed from integers: operands and bounds up to 2^24, and products whose magnitudes add up, with the bias, to
at most 2^24. -/
structure Ints (lhs rhs : Mul.Mat Fl) (mp : MulParams Fl) (i j : Nat) (L R : Nat → ℤ) (b lo hi : ℤ) : Prop where
  left : ∀ k, k < lhs.layout.cols → lhs.at i k = ofInt (L k) ∧ |L k| ≤ 2 ^ 24
  right : ∀ k, k < lhs.layout.cols → rhs.at k j = ofInt (R k) ∧ |R k| ≤ 2 ^ 24
  bias : XFloat.biasAt (.zero false) mp (channelOf mp.channelDim i j) = ofInt b
  min : mp.clampMin = ofInt lo ∧ |lo| ≤ 2 ^ 24
  max : mp.clampMax = ofInt hi ∧ |hi| ≤ 2 ^ 24
  sum : |b| + ∑ k ∈ Finset.range lhs.layout.cols, |L k * R k| ≤ 2 ^ 24

theorem sum_bound {L R : Nat → ℤ} {b M : ℤ} {n : Nat} (h : |b| + ∑ k ∈ Finset.range n, |L k * R k| ≤ M) :
    (∀ k, k < n → |L k * R k| ≤ M) ∧ ∀ k, k ≤ n → |isum b L R k| ≤ M := by
  have hb := abs_nonneg b
  have part : ∀ k, k ≤ n → ∑ x ∈ Finset.range k, |L x * R x| ≤ ∑ x ∈ Finset.range n, |L x * R x| := fun k hk =>
    Finset.sum_le_sum_of_subset_of_nonneg (Finset.range_subset_range.2 hk) (fun _ _ _ => abs_nonneg _)
  have key : ∀ k, |isum b L R k| ≤ |b| + ∑ x ∈ Finset.range k, |L x * R x| := by
    intro k
    induction k with
    | zero => simp [isum]
    | succ k ih =>
      rw [Finset.sum_range_succ]
      have := abs_add_le (isum b L R k) (L k * R k)
      unfold isum
      omega
  refine ⟨fun k hk => ?_, fun k hk => (key k).trans (by have := part k hk; omega)⟩
  have := Finset.single_le_sum (f := fun x => |L x * R x|) (fun _ _ => abs_nonneg _) (Finset.mem_range.2 hk)
  have e : ∀ x, x ≤ ∑ x ∈ Finset.range n, |L x * R x| → x ≤ M := fun x hx => by omega
  exact e _ this

section
variable {U : Tuning → Prop} {dot ftz ftz' : Bool} {sc sc' sc'' : Scalars Fl} {o : VOps Fl} {P : Path Fl}
  {lhs rhs dst d d' d'' : Mul.Mat Fl} {mp : MulParams Fl} {i j : Nat} {L R : Nat → ℤ} {b lo hi' : ℤ}

/-- C100: integers, bounds in order: the same entry everywhere. -/
theorem c100_integers (ho : IsMadd32 ftz o) (hP : IsPath o P) (h : XFloat.Top.UserOk sc P.isa.kc lhs rhs dst mp)
    (hd : XFloat.Top.Mul sc P lhs rhs dst mp d) (h' : NeonF.Top.ArmOk sc' lhs rhs dst mp) (hU : ∃ u, U u)
    (hd' : NeonF.Top.Mul U sc' dot (armOps (binary32 ftz')) lhs rhs dst mp d') (h'' : Arm32.Top.ArmOk sc'' lhs rhs dst mp)
    (hd'' : Arm32.Top.Mul sc'' neonOps lhs rhs dst mp d'') (hi : i < dst.layout.rows) (hj : j < dst.layout.cols)
    (hv : Ints lhs rhs mp i j L R b lo hi') (hlh : lo ≤ hi') :
    d.elem i j = d'.elem i j ∧ d.elem i j = d''.elem i j := by
  obtain ⟨s1, s2⟩ := sum_bound hv.sum
  rw [c97_integers ho hP h hd hi hj hv.left hv.right hv.bias hv.min hv.max s1 s2,
    NeonF.Top.c98_integers h' hU hd' hi hj (fun k hk => (hv.left k hk).1) (fun k hk => (hv.right k hk).1) hv.bias hv.min.1 hv.max.1 hv.sum,
    Arm32.Top.c99_integers h'' hd'' hi hj (fun k hk => (hv.left k hk).1) (fun k hk => (hv.right k hk).1) hv.bias hv.min.1 hv.max.1 hv.sum]
  have : max (min (isum b L R lhs.layout.cols) hi') lo = min (max (isum b L R lhs.layout.cols) lo) hi' := by omega
  rw [this]
  exact ⟨rfl, rfl⟩

/-- C100: if the lower bound exceeds the upper one, x86 stores the lower bound, ARM the upper bound. -/
theorem c100_bounds (ho : IsMadd32 ftz o) (hP : IsPath o P) (h : XFloat.Top.UserOk sc P.isa.kc lhs rhs dst mp)
    (hd : XFloat.Top.Mul sc P lhs rhs dst mp d) (h' : NeonF.Top.ArmOk sc' lhs rhs dst mp) (hU : ∃ u, U u)
    (hd' : NeonF.Top.Mul U sc' dot (armOps (binary32 ftz')) lhs rhs dst mp d') (h'' : Arm32.Top.ArmOk sc'' lhs rhs dst mp)
    (hd'' : Arm32.Top.Mul sc'' neonOps lhs rhs dst mp d'') (hi : i < dst.layout.rows) (hj : j < dst.layout.cols)
    (hv : Ints lhs rhs mp i j L R b lo hi') (hlh : hi' < lo) :
    d.elem i j = .ok (ofInt lo) ∧ d'.elem i j = .ok (ofInt hi') ∧ d''.elem i j = .ok (ofInt hi') := by
  obtain ⟨s1, s2⟩ := sum_bound hv.sum
  rw [c97_integers ho hP h hd hi hj hv.left hv.right hv.bias hv.min hv.max s1 s2,
    NeonF.Top.c98_integers h' hU hd' hi hj (fun k hk => (hv.left k hk).1) (fun k hk => (hv.right k hk).1) hv.bias hv.min.1 hv.max.1 hv.sum,
    Arm32.Top.c99_integers h'' hd'' hi hj (fun k hk => (hv.left k hk).1) (fun k hk => (hv.right k hk).1) hv.bias hv.min.1 hv.max.1 hv.sum]
  have e1 : max (min (isum b L R lhs.layout.cols) hi') lo = lo := by omega
  have e2 : min (max (isum b L R lhs.layout.cols) lo) hi' = hi' := by omega
  rw [e1, e2]
  exact ⟨rfl, rfl, rfl⟩

end

/-! ### Examples -/

theorem exBounds : InOrder exFMp.clampMin exFMp.clampMax := fun _ _ _ h => h.elim

theorem exAarch64 {lhs rhs dst : Mul.Mat Fl} {mp : MulParams Fl} (h : NeonF.Top.ArmOk exScalars lhs rhs dst mp) (dot : Bool) :
    ∃ d, NeonF.Top.Mul (fun _ => True) exScalars dot (armOps (binary32 false)) lhs rhs dst mp d := by
  obtain ⟨t, m, e, h1, _⟩ := NeonF.Top.c98_runs (U := fun _ => True) h ⟨.auto, trivial⟩ dot (armOps (binary32 false)) NeonF.Top.exJunk
  obtain ⟨⟨r, hr⟩, h2⟩ := h1 .auto
  obtain ⟨m', rfl⟩ := h2 r hr
  exact ⟨_, NeonF.Top.exJunk, t, m, m', e, .simple .auto trivial hr, rfl⟩

theorem exX86 {lhs rhs dst : Mul.Mat Fl} {mp : MulParams Fl} (h : XFloat.Top.UserOk exScalars 8 lhs rhs dst mp) :
    ∃ d, XFloat.Top.Mul exScalars (XFloat.pathAvx2 avx2Ops) lhs rhs dst mp d := by
  obtain ⟨jb, m, e, ⟨m', e'⟩, _⟩ := XFloat.Top.c96_runs (o := avx2Ops) .avx2 h NeonF.Top.exJunk (fun _ _ _ => .nan 7)
  exact ⟨_, _, _, jb, m, _, e, .simple e', rfl⟩

/-- The hypotheses of `c100_x86_aarch64`, `c100_x86_arm32`, `c100_aarch64_reference` and `c100_arm32_reference`. -/
example : ∃ d d' d'' e : Mul.Mat Fl, (∃ x x' r r', d.elem 0 0 = .ok x ∧ d'.elem 0 0 = .ok x' ∧ IsVal x r ∧ IsVal x' r' ∧
      |r - r'| ≤ (2 * (2 : Nat) + 2) * 2 ^ (-23 : ℤ) * mag 0 exA exC 2 + 4 * (2 : Nat) * tiny false + 2 * ((2 : Nat) + 1) * tiny false) ∧
    (∃ x x' r r', d.elem 0 0 = .ok x ∧ d''.elem 0 0 = .ok x' ∧ IsVal x r ∧ IsVal x' r' ∧
      |r - r'| ≤ (2 * (2 : Nat) + 3) * 2 ^ (-23 : ℤ) * mag 0 exA exC 2 + 4 * (2 : Nat) * tiny false +
        2 * (2 * (2 : Nat) + 1) * 2 ^ (-126 : ℤ)) ∧
    (∃ x x' r r', d'.elem 0 0 = .ok x ∧ e.elem 0 0 = .ok x' ∧ IsVal x r ∧ IsVal x' r' ∧
      |r - r'| ≤ (2 * (2 : Nat) + 3) * 2 ^ (-23 : ℤ) * mag 0 exA exC 2 + 2 * ((2 : Nat) + 1) * tiny false + (4 * (2 : Nat) + 2) * tiny false) ∧
    ∃ x x' r r', d''.elem 0 0 = .ok x ∧ e.elem 0 0 = .ok x' ∧ IsVal x r ∧ IsVal x' r' ∧
      |r - r'| ≤ (2 * (2 : Nat) + 4) * 2 ^ (-23 : ℤ) * mag 0 exA exC 2 + 2 * (2 * (2 : Nat) + 1) * 2 ^ (-126 : ℤ) +
        (4 * (2 : Nat) + 2) * tiny false := by
  have f := Arm32.Top.exFine
  have h' : NeonF.Top.ArmOk exScalars exLhs exRhs exDst exFMp := ⟨f.user, f.lcols, f.rcols⟩
  have hU : ∃ u : Tuning, True := ⟨.auto, trivial⟩
  obtain ⟨d, hd⟩ := exX86 f.user
  obtain ⟨d', hd'⟩ := exAarch64 h' true
  obtain ⟨d'', hd''⟩ := Arm32.Top.mul_exists f
  obtain ⟨e, hr⟩ : ∃ e, Front.referenceMul exScalars exLhs exRhs exDst exFMp = .ok e := ⟨_, rfl⟩
  exact ⟨d, d', d'', e,
    c100_x86_aarch64 (o := avx2Ops) .fma .avx2 f.user hd h' hU hd' (by decide) (by decide) exInputs exBounds rfl (by decide) exTopMag,
    c100_x86_arm32 (o := avx2Ops) .fma .avx2 f.user hd f hd'' (by decide) (by decide) exInputs Arm32.Top.exNormal exBounds rfl (by decide) exTopMag,
    c100_aarch64_reference h' hU hd' hr (by decide) (by decide) exInputs exBounds rfl (exFloats false).1 (exFloats false).2 (by decide)
      exTopMag,
    c100_arm32_reference f hd'' hr (by decide) (by decide) exInputs Arm32.Top.exNormal exBounds rfl (exFloats false).1 (exFloats false).2
      (by decide) exTopMag⟩

/-- Bounds of the examples, in order and exchanged. -/
def exMp (lo hi : ℤ) : MulParams Fl := { exIMp with clampMin := ofInt lo, clampMax := ofInt hi }

theorem exOk (o : Mat.Order) (lo hi : ℤ) :
    Arm32.Top.ArmOk exScalars (exI XFloat.Top.exLhs) (exI XFloat.Top.exRhs) (exI (XFloat.Top.exDst o)) (exMp lo hi) := by
  have h := Arm32.Top.exArm o
  have hb := h.user.bias
  exact ⟨{ h.user with bias := ⟨hb.rounding, hb.size, hb.quant, hb.tail⟩ }, h.lroom, h.rroom, h.droom, h.broom, h.lcols, h.rcols⟩

theorem exInts {lo hi : ℤ} (hlo : |lo| ≤ 2 ^ 24) (hhi : |hi| ≤ 2 ^ 24) :
    Ints (exI XFloat.Top.exLhs) (exI XFloat.Top.exRhs) (exMp lo hi) 9 99 (fun k => XFloat.Top.exLhs.at 9 k)
      (fun k => XFloat.Top.exRhs.at k 99) 6 lo hi := by
  refine ⟨fun k hk => ⟨rfl, ?_⟩, fun k hk => ⟨rfl, ?_⟩, rfl, ⟨rfl, hlo⟩, ⟨rfl, hhi⟩, by decide +kernel⟩
  · have hk : k < 3 := hk
    interval_cases k <;> decide +kernel
  · have hk : k < 3 := hk
    interval_cases k <;> decide +kernel

/-- The hypotheses of `c100_integers` and `c100_bounds`, for both orders of the destination. -/
example (o : Mat.Order) : (∃ d d' d'' : Mul.Mat Fl, d.elem 9 99 = d'.elem 9 99 ∧ d.elem 9 99 = d''.elem 9 99) ∧
    ∃ d d' d'' : Mul.Mat Fl, d.elem 9 99 = .ok (ofInt 90) ∧ d'.elem 9 99 = .ok (ofInt (-60)) ∧ d''.elem 9 99 = .ok (ofInt (-60)) := by
  have hU : ∃ u : Tuning, True := ⟨.auto, trivial⟩
  have all : ∀ lo hi : ℤ, ∃ d d' d'',
      XFloat.Top.Mul exScalars (XFloat.pathAvx2 avx2Ops) (exI XFloat.Top.exLhs) (exI XFloat.Top.exRhs) (exI (XFloat.Top.exDst o)) (exMp lo hi) d ∧
      NeonF.Top.Mul (fun _ => True) exScalars true (armOps (binary32 false)) (exI XFloat.Top.exLhs) (exI XFloat.Top.exRhs)
        (exI (XFloat.Top.exDst o)) (exMp lo hi) d' ∧
      Arm32.Top.Mul exScalars neonOps (exI XFloat.Top.exLhs) (exI XFloat.Top.exRhs) (exI (XFloat.Top.exDst o)) (exMp lo hi) d'' := by
    intro lo hi
    have f := exOk o lo hi
    obtain ⟨d, hd⟩ := exX86 f.user
    obtain ⟨d', hd'⟩ := exAarch64 ⟨f.user, f.lcols, f.rcols⟩ true
    obtain ⟨d'', hd''⟩ := Arm32.Top.mul_exists f
    exact ⟨d, d', d'', hd, hd', hd''⟩
  refine ⟨?_, ?_⟩
  · obtain ⟨d, d', d'', hd, hd', hd''⟩ := all (-60) 90
    have f := exOk o (-60) 90
    exact ⟨d, d', d'', c100_integers (o := avx2Ops) .fma .avx2 f.user hd ⟨f.user, f.lcols, f.rcols⟩ hU hd' f hd'' (by show 9 < 10; decide)
      (by show 99 < 125; decide) (exInts (by decide) (by decide)) (by decide)⟩
  · obtain ⟨d, d', d'', hd, hd', hd''⟩ := all 90 (-60)
    have f := exOk o 90 (-60)
    exact ⟨d, d', d'', c100_bounds (o := avx2Ops) .fma .avx2 f.user hd ⟨f.user, f.lcols, f.rcols⟩ hU hd' f hd'' (by show 9 < 10; decide)
      (by show 99 < 125; decide) (exInts (by decide) (by decide)) (by decide)⟩

end Ruy.Arm32.Cross

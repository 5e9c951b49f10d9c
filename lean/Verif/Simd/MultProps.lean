import Verif.Simd.MultLemmas
import Verif.Simd.Narrow
/-
Properties C25, C26 and C48: the fixed-point multiplier and the narrowing
sequences of the SIMD kernels.

The reference is `Multiplier.multiplyByQuantizedMultiplier`
(apply_multiplier.cc), the specification `Multiplier.scaled`, the product rounded
once, to nearest, ties upwards.
-/
namespace Ruy.Simd

open Ruy.Multiplier (scaled isI32 multiplyByQuantizedMultiplier mul_bound)

/-- Specification of clamping. -/
def clampTo (lo hi v : Int) : Int := if v < lo then lo else if hi < v then hi else v

/-! ### C25: NEON -/

theorem sqdmulh_of {a m : Int} (ha : isI32 a) (hm : isI32 m)
    (h : ¬ (a = -2 ^ 31 ∧ m = -2 ^ 31)) : sqdmulh32 a m = a * m / 2 ^ 31 := by
  unfold isI32 at ha hm
  have hb : -2 ^ 62 ≤ a * m ∧ a * m < 2 ^ 62 := by
    constructor
    · nlinarith [ha.1, ha.2, hm.1, hm.2]
    · by_cases h1 : a = -2 ^ 31
      · have : -2 ^ 31 < m := by
          rcases Int.lt_or_eq_of_le hm.1 with h2 | h2
          · exact h2
          · exact absurd ⟨h1, h2.symm⟩ h
        subst h1
        nlinarith
      · have : -2 ^ 31 < a := by omega
        nlinarith [ha.2, hm.1, hm.2]
  have e : 2 * a * m / 2 ^ 32 = a * m / 2 ^ 31 := by
    rw [Int.mul_assoc]; omega
  unfold sqdmulh32 satS32 sat
  rw [e]
  have h1 : -2147483648 ≤ a * m / 2 ^ 31 := by omega
  have h2 : a * m / 2 ^ 31 ≤ 2147483647 := by omega
  rw [if_neg (by omega), if_neg (by omega)]

/-- The rounding shift after the saturating multiplication is one rounding, also
when the multiplication saturates. -/
theorem neon_round (a m : Int) (ha : isI32 a) (hm : isI32 m) (j : Nat) (hj : j ≤ 30) :
    (sqdmulh32 a m + 2 ^ j) / 2 ^ (j + 1) = scaled a m (-(j + 1 : Nat)) := by
  rw [← trunc_round_scaled]
  by_cases h : a = -2 ^ 31 ∧ m = -2 ^ 31
  · obtain ⟨rfl, rfl⟩ := h
    obtain ⟨p1, p2, p3⟩ := pow_facts j hj
    have e1 : sqdmulh32 (-2 ^ 31) (-2 ^ 31) = 2147483647 := by decide
    have e2 : ((-2 ^ 31) * (-2 ^ 31) / 2 ^ 31 : Int) = 2147483648 := by decide
    have hq : (2 : Int) ^ (j + 1) = 2 * 2 ^ j := by rw [pow_succ]; ring
    rw [e1, e2, overflow_value 2147483647 j (by omega) hj (by omega)]
    symm
    apply le_antisymm
    · apply Int.le_of_lt_add_one
      rw [hq, Int.ediv_lt_iff_lt_mul (by omega)]
      nlinarith
    · rw [hq, Int.le_ediv_iff_mul_le (by omega)]
      nlinarith
  · rw [sqdmulh_of ha hm h]

theorem scaled_neg_i32 (a m : Int) (ha : isI32 a) (hm : isI32 m) (j : Nat) (hj : j ≤ 30) :
    isI32 (scaled a m (-(j + 1 : Nat))) := by
  rw [← trunc_round_scaled]
  have hb := mul_bound ha hm
  have h1 : -2 ^ 31 ≤ a * m / 2 ^ 31 := by omega
  have h2 : a * m / 2 ^ 31 ≤ 2 ^ 31 := by omega
  obtain ⟨p1, p2, p3⟩ := pow_facts j hj
  have hq : (2 : Int) ^ (j + 1) = 2 * 2 ^ j := by rw [pow_succ]; ring
  unfold isI32
  rw [hq]
  constructor
  · rw [Int.le_ediv_iff_mul_le (by omega)]; nlinarith
  · rw [Int.ediv_lt_iff_lt_mul (by omega)]; nlinarith

theorem srshl_of (r : Int) (j : Nat) (hj : j ≤ 30) :
    srshl32 r (-(j + 1 : Nat)) = wrap32 ((r + 2 ^ j) / 2 ^ (j + 1)) := by
  have h : wrap8 (-(j + 1 : Nat)) = -(j + 1 : Nat) := wrap8_small (by omega) (by omega)
  unfold srshl32
  rw [h, if_neg (by omega), show (- -((j + 1 : Nat) : Int)).toNat = j + 1 by omega,
    Nat.add_sub_cancel]

/-- C25 (partial): the NEON sequence equals the reference for all accumulators and
multipliers whenever the left shift by max(0, exponent + 1) loses no bits.
Missing from the full statement: accumulators so large that this shift overflows
(`c25_overflow`). -/
theorem c25_neon_partial (x m e : Int) (hm : isI32 m) (h1 : -31 ≤ e)
    (h2 : e ≤ 30) (hfit : isI32 (x * 2 ^ (e + 1).toNat)) :
    Neon.apply x m e = scaled x m e ∧
    multiplyByQuantizedMultiplier x m e = .ok (Neon.apply x m e) := by
  have hx : isI32 x := by
    obtain ⟨a, b⟩ := hfit
    have hp : (1 : Int) ≤ 2 ^ (e + 1).toNat := by exact_mod_cast Nat.one_le_two_pow
    constructor <;> nlinarith
  -- the amount of the final right shift is j + 1
  obtain ⟨j, hj, hj30⟩ : ∃ j : Nat, min (-1) e = -(j + 1 : Nat) ∧ j ≤ 30 :=
    ⟨(-1 - min (-1) e).toNat, by omega, by omega⟩
  have hl : wrap32 (e - min (-1) e) = ((e + 1).toNat : Int) := by
    rw [wrap32_of (by omega) (by omega)]; omega
  have hs : sshl32 x (((e + 1).toNat : Nat) : Int) = x * 2 ^ (e + 1).toNat := by
    unfold sshl32
    rw [wrap8_small (by omega) (by omega), if_pos (by omega), Int.toNat_natCast]
    have := hfit.1; have := hfit.2
    exact wrap32_of (by omega) (by omega)
  have hv : Neon.apply x m e = scaled x m e := by
    unfold Neon.apply
    simp only []
    rw [hl, hs, hj, srshl_of _ _ hj30, neon_round _ _ hfit hm _ hj30]
    have hi := scaled_neg_i32 _ m hfit hm j hj30
    have := hi.1; have := hi.2
    rw [wrap32_of (by omega) (by omega), scaled_mul_pow]
    congr 1
    omega
  have hi : isI32 (scaled x m e) := by
    have hi := scaled_neg_i32 _ m hfit hm j hj30
    rw [scaled_mul_pow, show (-(j + 1 : Nat) : Int) + ((e + 1).toNat : Nat) = e by omega] at hi
    exact hi
  exact ⟨hv, by rw [hv]; exact Ruy.Multiplier.c24_single_rounding x m e hx hm h1 h2 hi⟩

/-- C25 for negative exponents (multipliers below one half): no condition on the
accumulator. -/
theorem c25_negative_exponent (x m e : Int) (hx : isI32 x) (hm : isI32 m) (h1 : -31 ≤ e)
    (h2 : e < 0) : multiplyByQuantizedMultiplier x m e = .ok (Neon.apply x m e) :=
  (c25_neon_partial x m e hm h1 (by omega) (by
    rw [show (e + 1).toNat = 0 by omega, pow_zero, Int.mul_one]; exact hx)).2

/-- C25 fails as stated: with exponent 0 and an accumulator of 2^30 the reference
returns 2^29, the NEON sequence -2^29. -/
theorem c25_overflow : isI32 (2 ^ 30) ∧
    multiplyByQuantizedMultiplier (2 ^ 30) (2 ^ 30) 0 = .ok (2 ^ 29) ∧
    Neon.apply (2 ^ 30) (2 ^ 30) 0 = -2 ^ 29 := by decide

/-- The hypotheses are met by non-trivial values, on both sides of exponent 0. -/
example : isI32 1518500250 ∧ isI32 (123456 * 2 ^ (3 + 1 : Int).toNat) ∧
    Neon.apply 123456 1518500250 3 = 698373 ∧ Neon.apply (-3) (2 ^ 30) (-1) = -1 ∧
    Neon.apply (-2 ^ 31) (-2 ^ 31) (-1) = 2 ^ 30 ∧
    multiplyByQuantizedMultiplier (-2 ^ 31) (-2 ^ 31) (-1) = .ok (2 ^ 30) := by decide

/-! ### C26: AVX, AVX2 and AVX-512 -/

/-- C26 (agreement): the three sequences compute the same value from the same
accumulator, multiplier (≥ 0), exponent (≥ -31) and zero point, in every lane, and
so does the per-column variant of AVX-512; also when shifts overflow. -/
theorem c26_same (acc m e acc' m' e' : Reg) (zp : Int) (i j : Nat) (hi : i < 8) (hj : j < 16)
    (ha : acc' j = acc i) (hm : m' j = m i) (he : e' j = e i)
    (hm0 : 0 ≤ m i) (hm1 : isI32 (m i)) (he0 : -31 ≤ e i) (he1 : isI32 (e i)) :
    Avx.apply acc m e zp i = Avx2.apply acc m e zp i ∧
    Avx512.apply acc' m' e' zp j = Avx2.apply acc m e zp i := by
  rw [avx_lane _ _ _ _ _ hi, avx2_lane _ _ _ _ _ hi, avx512_lane _ _ _ _ _ hj, ha, hm, he,
    (lane_value _ _ _ hm0 hm1 he0 he1).2]
  exact ⟨rfl, rfl⟩

theorem c26_same_column (acc acc' m' e' m e : Reg) (zp : Int) (i j col : Nat) (hi : i < 8)
    (hj : j < 16) (hc : col < 16) (ha : acc' j = acc i) (hm : m' col = m i) (he : e' col = e i)
    (hm0 : 0 ≤ m i) (hm1 : isI32 (m i)) (he0 : -31 ≤ e i) (he1 : isI32 (e i)) :
    Avx512.applyCol acc' m' e' zp col j = Avx2.apply acc m e zp i := by
  rw [avx2_lane _ _ _ _ _ hi, avx512_col _ _ _ _ _ _ hc hj, ha, hm, he,
    (lane_value _ _ _ hm0 hm1 he0 he1).2]

/-- C26 (agreement needs m ≥ 0): for the most negative multiplier AVX2 and AVX-512
disagree. -/
theorem c26_negative_multiplier :
    Avx2.apply (set1 (-2 ^ 31)) (set1 (-2 ^ 31)) (set1 (-1)) 0 0 = -2 ^ 30 ∧
    Avx512.apply (set1 (-2 ^ 31)) (set1 (-2 ^ 31)) (set1 (-1)) 0 0 = 2 ^ 30 := by decide

/-- C26 (accuracy, partial): if the left shift by the exponent loses no bits, each
lane holds the zero point plus the reference value or, for negative exponents,
possibly one more.  Missing from the full statement: left shifts that overflow
(`c26_overflow`). -/
theorem c26_within_one_partial (acc m e : Reg) (zp : Int) (i : Nat) (hi : i < 8)
    (hm0 : 0 ≤ m i) (hm1 : isI32 (m i)) (he0 : -31 ≤ e i) (he1 : e i ≤ 30)
    (hfit : isI32 (acc i * 2 ^ (e i).toNat)) :
    ∃ r, (r = scaled (acc i) (m i) (e i) ∨
        (e i < 0 ∧ r = scaled (acc i) (m i) (e i) + 1)) ∧
      multiplyByQuantizedMultiplier (acc i) (m i) (e i) = .ok (scaled (acc i) (m i) (e i)) ∧
      Avx2.apply acc m e zp i = wrap32 (r + zp) := by
  generalize hx : acc i = x at *
  generalize hmv : m i = mi at *
  generalize hev : e i = ei at *
  have hx' : isI32 x := by
    obtain ⟨a, b⟩ := hfit
    have hp : (1 : Int) ≤ 2 ^ ei.toNat := by exact_mod_cast Nat.one_le_two_pow
    constructor <;> nlinarith
  have hsh : sllv32 x (max ei 0) = x * 2 ^ ei.toNat := by
    unfold sllv32
    rw [cnt32_of (by omega) (by omega), show (max ei 0).toNat = ei.toNat by omega,
      if_pos (by omega)]
    have := hfit.1; have := hfit.2
    exact wrap32_of (by omega) (by omega)
  have hval := (lane_value x mi ei hm0 hm1 he0 (by unfold isI32; omega)).1
  rw [hsh] at hval
  refine ⟨lane x mi ei, ?_, ?_, ?_⟩
  · rw [hval]
    unfold roundShift
    split
    · left
      rw [scaled_mul_pow]; congr 1; omega
    · rename_i hk
      obtain ⟨k, hk'⟩ : ∃ k : Nat, (-ei).toNat = k + 1 := ⟨(-ei).toNat - 1, by omega⟩
      have h0 : ei.toNat = 0 := by omega
      rw [hk', h0, pow_zero, Int.mul_one, Nat.add_sub_cancel, ← scaled_zero]
      have hd := double_round (x * mi) k
      simp only [] at hd
      rw [trunc_round_scaled x mi k, show (-(k + 1 : Nat) : Int) = ei by omega] at hd
      by_cases hh : ((x * mi + 2 ^ 30) / 2 ^ 31 + 2 ^ k) / 2 ^ (k + 1) = scaled x mi ei
      · left; exact hh
      · right
        refine ⟨by omega, ?_⟩
        have h1 := hd.1
        have h2 := hd.2
        omega
  · apply Ruy.Multiplier.c24_single_rounding x mi ei hx' hm1 he0 he1
    rcases Int.lt_or_le ei 0 with hneg | hpos
    · exact Ruy.Multiplier.c24_fits x mi ei hx' hm1 hm0 (by omega)
    · have := scaled_zero_i32 _ mi hfit hm0 hm1
      rw [scaled_mul_pow, show (0 : Int) + (ei.toNat : Nat) = ei by omega] at this
      exact this
  · rw [avx2_lane _ _ _ _ _ hi, hx, hmv, hev]
    rfl

/-- C26 (non-negative exponents): equal to the reference, unless the left shift
overflows. -/
theorem c26_equal_nonneg (acc m e : Reg) (i : Nat) (hi : i < 8)
    (hm0 : 0 ≤ m i) (hm1 : isI32 (m i)) (he0 : 0 ≤ e i) (he1 : e i ≤ 30)
    (hfit : isI32 (acc i * 2 ^ (e i).toNat)) :
    multiplyByQuantizedMultiplier (acc i) (m i) (e i) = .ok (Avx2.apply acc m e 0 i) := by
  obtain ⟨r, hr, href, hv⟩ := c26_within_one_partial acc m e 0 i hi hm0 hm1 (by omega) he1 hfit
  have hr' : r = scaled (acc i) (m i) (e i) := by
    rcases hr with h | ⟨h, -⟩
    · exact h
    · omega
  have hx : isI32 (acc i) := by
    obtain ⟨a, b⟩ := hfit
    have hp : (1 : Int) ≤ 2 ^ (e i).toNat := by exact_mod_cast Nat.one_le_two_pow
    constructor <;> nlinarith
  have hi32 : isI32 (scaled (acc i) (m i) (e i)) := by
    have := scaled_zero_i32 _ (m i) hfit hm0 hm1
    rw [scaled_mul_pow, show (0 : Int) + ((e i).toNat : Nat) = e i by omega] at this
    exact this
  rw [href, hv, hr', Int.add_zero, wrap32_of (by have := hi32.1; omega) (by have := hi32.2; omega)]

/-- C26: the difference of one does occur:
x = 3, multiplier 1/4, exponent -1: the exact value 0.375 is rounded to 1. -/
theorem c26_double_rounding :
    multiplyByQuantizedMultiplier 3 (2 ^ 29) (-1) = .ok 0 ∧
    Avx2.apply (set1 3) (set1 (2 ^ 29)) (set1 (-1)) 0 0 = 1 ∧
    Neon.apply 3 (2 ^ 29) (-1) = 0 := by decide

/-- C26 fails as stated: with exponent 1 and an accumulator of 2^30 the left shift
overflows; the reference returns 2^30, AVX2 returns -2^30. -/
theorem c26_overflow :
    multiplyByQuantizedMultiplier (2 ^ 30) (2 ^ 30) 1 = .ok (2 ^ 30) ∧
    Avx2.apply (set1 (2 ^ 30)) (set1 (2 ^ 30)) (set1 1) 0 0 = -2 ^ 30 := by decide

/-- The hypotheses are met, with different values in the lanes. -/
example : Avx2.apply (setr [1, -1, 100, -100, 2 ^ 31 - 1, -2 ^ 31, 12345, -54321])
      (set1 1518500250) (setr [0, 0, -3, -3, -8, -8, 2, 2]) 10 5 = -5931632 ∧
    Avx512.apply (setr [1, -1, 100, -100, 2 ^ 31 - 1, -2 ^ 31, 12345, -54321])
      (set1 1518500250) (setr [0, 0, -3, -3, -8, -8, 2, 2]) 10 5 = -5931632 ∧
    Avx.apply (setr [1, -1, 100, -100, 2 ^ 31 - 1, -2 ^ 31, 12345, -54321])
      (set1 1518500250) (setr [0, 0, -3, -3, -8, -8, 2, 2]) 10 5 = -5931632 ∧
    isI32 (12345 * 2 ^ (2 : Int).toNat) := by decide

/-! ### C48: narrowing -/

/-- C48 for uint8. -/
theorem c48_u8 (x zp lo hi : Int) (hz : 0 ≤ zp ∧ zp ≤ 255) (hlo : 0 ≤ lo) (hle : lo ≤ hi)
    (hhi : hi ≤ 255) : Neon.storeU8 x zp lo hi = clampTo lo hi (x + zp) := by
  unfold Neon.storeU8 clampTo sqxtun8 sqadd16 sqxtn16 satU8 satS16 sat wrap16
  split_ifs <;> omega

/-- C48 for int8. -/
theorem c48_s8 (x zp lo hi : Int) (hz : -128 ≤ zp ∧ zp ≤ 127) (hlo : -128 ≤ lo) (hle : lo ≤ hi)
    (hhi : hi ≤ 127) : Neon.storeS8 x zp lo hi = clampTo lo hi (x + zp) := by
  unfold Neon.storeS8 clampTo sqxtn8 sqadd16 sqxtn16 satS8 satS16 sat wrap16 wrap8
  split_ifs <;> omega

/-- The analogue for int16 destinations holds if adding the zero point does not
overflow 32 bits … -/
theorem c48_s16_partial (x zp lo hi : Int) (hz : -32768 ≤ zp ∧ zp ≤ 32767) (hlo : -32768 ≤ lo)
    (hle : lo ≤ hi) (hhi : hi ≤ 32767) (hfit : isI32 (x + zp)) :
    Neon.storeS16 x zp lo hi = clampTo lo hi (x + zp) := by
  unfold isI32 at hfit
  unfold Neon.storeS16 clampTo saddw sqxtn16 satS16 sat wrap16 wrap32
  norm_num at hfit
  split_ifs <;> omega

/-- … and fails otherwise: the largest accumulator is stored as the smallest value. -/
theorem c48_s16_overflow : isI32 (2 ^ 31 - 1) ∧
    Neon.storeS16 (2 ^ 31 - 1) 1 (-32768) 32767 = -32768 ∧
    clampTo (-32768) 32767 (2 ^ 31 - 1 + 1) = 32767 := by decide

/-- The x86 kernels add the zero point modulo 2^32 before clamping: right if the
sum is an int32 … -/
theorem c48_x86_partial (x zp lo hi : Int) (hle : lo ≤ hi) (hfit : isI32 (x + zp)) :
    (0 ≤ lo → hi ≤ 255 → X86.storeU8 (wrap32 (x + zp)) lo hi = clampTo lo hi (x + zp)) ∧
    (-128 ≤ lo → hi ≤ 127 → X86.storeS8 (wrap32 (x + zp)) lo hi = clampTo lo hi (x + zp)) ∧
    (-32768 ≤ lo → hi ≤ 32767 → X86.storeS16 (wrap32 (x + zp)) lo hi = clampTo lo hi (x + zp)) := by
  unfold isI32 at hfit
  norm_num at hfit
  rw [wrap32_of (by omega) (by omega)]
  unfold X86.storeU8 X86.storeS8 X86.storeS16 X86.clamp32 clampTo wrap8 wrap16
  refine ⟨fun h1 h2 => ?_, fun h1 h2 => ?_, fun h1 h2 => ?_⟩ <;> split_ifs <;> omega

/-- … and the opposite end of the range otherwise, where NEON saturates. -/
theorem c48_x86_overflow :
    X86.storeU8 (wrap32 (2 ^ 31 - 1 + 128)) 0 255 = 0 ∧ Neon.storeU8 (2 ^ 31 - 1) 128 0 255 = 255 := by
  decide

example : Neon.storeU8 300 (-(-7)) 10 250 = 250 ∧ Neon.storeU8 (-40000) 100 3 250 = 3 ∧
    Neon.storeS8 100000 (-128) (-100) 90 = 90 ∧ Neon.storeS8 (-5) 3 (-100) 90 = -2 := by decide

end Ruy.Simd

import Verif.Simd.Mult
import Verif.Multiplier.Props
import Mathlib.Tactic.IntervalCases
/-
Lemmas for the SIMD multiplier sequences: single-lane forms, and the relation of
shifts to the rational rounding `scaled`.
-/
namespace Ruy.Simd

open Ruy.Multiplier (scaled isI32 ediv_eq_scaled)

theorem two_pow_pos (n : Nat) : (0 : Int) < 2 ^ n := by positivity

/-- A power of two moved from the exponent into the accumulator. -/
theorem scaled_mul_pow (x m e : Int) (l : Nat) : scaled (x * 2 ^ l) m e = scaled x m (e + l) := by
  unfold scaled
  congr 2
  have h : (2 : ℚ) ^ (e + (l : Int) - 31) = 2 ^ l * 2 ^ (e - 31) := by
    rw [show e + (l : Int) - 31 = (l : Int) + (e - 31) by ring, zpow_add₀ (by norm_num), zpow_natCast]
  rw [h]
  push_cast
  ring

/-- Truncation by 31 bits followed by a rounding shift is one rounding. -/
theorem trunc_round (p : Int) (k : Nat) :
    (p / 2 ^ 31 + 2 ^ k) / 2 ^ (k + 1) = (p + 2 ^ (k + 31)) / 2 ^ (k + 32) := by
  have h1 : (2 : Int) ^ (k + 31) = 2 ^ k * 2 ^ 31 := by rw [pow_add]
  have h2 : (2 : Int) ^ (k + 32) = 2 ^ 31 * 2 ^ (k + 1) := by
    rw [← pow_add]; congr 1; omega
  rw [h1, h2, ← Int.ediv_ediv_of_nonneg (by positivity), Int.add_mul_ediv_right _ _ (by positivity)]

theorem trunc_round_scaled (a m : Int) (k : Nat) :
    (a * m / 2 ^ 31 + 2 ^ k) / 2 ^ (k + 1) = scaled a m (-(k + 1 : Nat)) := by
  rw [trunc_round, ← ediv_eq_scaled a m _ (by omega),
    show (31 - -((k + 1 : Nat) : Int) - 1).toNat = k + 31 by omega,
    show (31 - -((k + 1 : Nat) : Int)).toNat = k + 32 by omega]

theorem scaled_zero (a m : Int) : (a * m + 2 ^ 30) / 2 ^ 31 = scaled a m 0 := by
  rw [← ediv_eq_scaled a m 0 (by omega)]; rfl

theorem wrap8_small {x : Int} (h1 : -128 ≤ x) (h2 : x < 128) : wrap8 x = x := by
  unfold wrap8; omega

theorem cnt32_of {x : Int} (h1 : 0 ≤ x) (h2 : x < 4294967296) : cnt32 x = x.toNat := by
  unfold cnt32; congr 1; omega

theorem cnt64_of {x : Int} (h1 : 0 ≤ x) (h2 : x < 18446744073709551616) :
    cnt64 x = x.toNat := by
  unfold cnt64; congr 1; omega

/-- Rounding to the nearest multiple, of an already rounded value, is the
rounding of the exact value or one more. -/
theorem double_round (p : Int) (k : Nat) :
    let once := (p / 2 ^ 31 + 2 ^ k) / 2 ^ (k + 1)
    let twice := ((p + 2 ^ 30) / 2 ^ 31 + 2 ^ k) / 2 ^ (k + 1)
    once ≤ twice ∧ twice ≤ once + 1 := by
  intro once twice
  have hq := two_pow_pos (k + 1)
  have h1 : p / 2 ^ 31 ≤ (p + 2 ^ 30) / 2 ^ 31 := by omega
  have h2 : (p + 2 ^ 30) / 2 ^ 31 ≤ p / 2 ^ 31 + 1 := by omega
  constructor
  · exact Int.ediv_le_ediv hq (by omega)
  · have : once + 1 = (p / 2 ^ 31 + 2 ^ k + 1 * 2 ^ (k + 1)) / 2 ^ (k + 1) := by
      rw [Int.add_mul_ediv_right _ _ (by positivity)]
    rw [this]
    exact Int.ediv_le_ediv hq (by omega)

/-! ### The x86 sequences, one lane -/

/-- The `rounding_right_shift` of the 256-bit kernels in one lane. -/
def rrsLane (r e : Int) : Int :=
  let nudge := blendv 0 (sllv32 1 (sub32 e 1)) (cmpgt e 0)
  blendv (srav32 (add32 r nudge) e) (sllv32 1 (sub32 31 e))
    (cmpgt r (sub32 0x7fffffff nudge))

/-- What a lane of the 256-bit kernels computes. -/
def lane (x m e : Int) : Int :=
  rrsLane (wrap32 ((sllv32 x (max e 0) * wrap32 m + 2 ^ 30) / 2 ^ 31)) (max (sub32 0 e) 0)

theorem srl_low (y : Int) :
    wrap32 (srlv64 (add64 y (add64 (wrap64 (1 * 2 ^ 30)) (-9223372036854775808))) 31) =
      wrap32 ((y + 2 ^ 30) / 2 ^ 31) := by
  have h31 : cnt64 31 = 31 := rfl
  simp only [srlv64, h31, add64, wrap64, wrap32]
  norm_num
  omega

theorem sllv32_range (x n : Int) : -2147483648 ≤ sllv32 x n ∧ sllv32 x n < 2147483648 := by
  unfold sllv32
  split
  · exact wrap32_range _
  · omega

theorem wrap32_sllv32 (x n : Int) : wrap32 (sllv32 x n) = sllv32 x n :=
  wrap32_of (sllv32_range x n).1 (sllv32_range x n).2

theorem as32_even (r : Reg) (i : Nat) (h : i % 2 = 0) : as32 r i = wrap32 (r (i / 2)) := by
  unfold as32; rw [if_pos h]

theorem as32_slli (r : Reg) (i : Nat) (h : i % 2 = 1) :
    as32 (slli64 r 32) i = wrap32 (r (i / 2)) := by
  unfold as32 slli64
  rw [if_neg (by omega)]
  unfold wrap32 wrap64
  norm_num
  omega

/-- Repacking: 32-bit lane i is the low half of 64-bit lane i of the two registers. -/
theorem repack_lane (low high : Reg) (i : Nat) (hi : i < 8) :
    permvar8 (blend (as32 low) (as32 (slli64 high 32)) 0xaa) (setr [0, 2, 4, 6, 1, 3, 5, 7]) i =
      wrap32 (join 4 high low i) := by
  have h : ∀ j, j < 8 → permvar8 (blend (as32 low) (as32 (slli64 high 32)) 0xaa)
      (setr [0, 2, 4, 6, 1, 3, 5, 7]) j = if j < 4 then as32 low (2 * j)
        else as32 (slli64 high 32) (2 * (j - 4) + 1) := by
    intro j hj
    interval_cases j <;> rfl
  rw [h i hi]
  unfold join
  split
  · rw [as32_even _ _ (by omega)]; congr 2; omega
  · rw [as32_slli _ _ (by omega)]; congr 2; omega

theorem avx2_lane (accum m e : Reg) (zp : Int) (i : Nat) (hi : i < 8) :
    Avx2.apply accum m e zp i = add32 (lane (accum i) (m i) (e i)) zp := by
  have hz : (if zp ≠ 0 then set1 zp else set1 0) i = zp := by
    by_cases h : zp = 0
    · subst h; rfl
    · rw [if_pos h]; rfl
  have hr : ∀ R E : Reg, Avx2.roundingRightShift R E i = rrsLane (R i) (E i) := fun _ _ => rfl
  unfold Avx2.apply
  rw [show ∀ a b : Reg, map2 add32 a b i = add32 (a i) (b i) from fun _ _ => rfl, hz, hr,
    repack_lane _ _ _ hi]
  unfold lane
  congr 2
  unfold join
  have key : ∀ y : Int, wrap32 (srlv64 (add64 (muldq (sllv32 y (max (e i) 0)) (m i))
      (Avx2.offsetVector i)) 31) = wrap32 ((sllv32 y (max (e i) 0) * wrap32 (m i) + 2 ^ 30) / 2 ^ 31) := by
    intro y
    have := srl_low (muldq (sllv32 y (max (e i) 0)) (m i))
    rw [show muldq (sllv32 y (max (e i) 0)) (m i) = sllv32 y (max (e i) 0) * wrap32 (m i) by
      unfold muldq; rw [wrap32_sllv32]] at this ⊢
    exact this
  rw [← key]
  split
  · rename_i h
    simp only [map2, cvt32to64, ext, Nat.mul_zero, Nat.zero_add, set1]
  · rename_i h
    have : 4 * 1 + (i - 4) = i := by omega
    simp only [map2, cvt32to64, ext, this, set1]
    rfl

/-! ### The AVX emulations -/

theorem halves_map2 (n : Nat) (f : Int → Int → Int) (a b : Reg) (i : Nat) (hi : i < 2 * n) :
    Avx.halves n (map2 f) a b i = f (a i) (b i) := by
  unfold Avx.halves join map2 ext
  split
  · simp
  · rename_i h
    rw [show n * 1 + (i - n) = i by omega]

theorem sll32_at (a c : Reg) (i : Nat) (h : c 1 = 0) : sll32 a c i = sllv32 (a i) (c 0) := by
  unfold sll32 sllv32
  simp only [h, show cnt32 0 = 0 from rfl, Nat.mul_zero, Nat.add_zero]

theorem mmSllv32_eq (a b : Reg) (i : Nat) (hi : i < 4) : Avx.mmSllv32 a b i = sllv32 (a i) (b i) := by
  unfold Avx.mmSllv32
  have h : ∀ c : Reg, blend (set1 0) c 1 1 = 0 := fun _ => rfl
  interval_cases i
  · show sll32 a (blend (set1 0) b 1) 0 = _
    rw [sll32_at _ _ _ (h _)]; rfl
  · show sll32 (shuf32 a 1) (blend (set1 0) (shuf32 b 1) 1) 0 = _
    rw [sll32_at _ _ _ (h _)]; rfl
  · show sll32 a (blend (set1 0) (shuf32 b 2) 1) 2 = _
    rw [sll32_at _ _ _ (h _)]; rfl
  · show sll32 (shuf32 a 48) (blend (set1 0) (shuf32 b 3) 1) 2 = _
    rw [sll32_at _ _ _ (h _)]; rfl

theorem halves_at (n : Nat) (f : Reg → Reg → Reg) (g : Int → Int → Int)
    (hf : ∀ a b i, i < n → f a b i = g (a i) (b i)) (a b : Reg) (i : Nat) (hi : i < 2 * n) :
    Avx.halves n f a b i = g (a i) (b i) := by
  unfold Avx.halves join
  split
  · rename_i h
    rw [hf _ _ _ h]; simp [ext]
  · rename_i h
    rw [hf _ _ _ (by omega)]
    simp only [ext, show n * 1 + (i - n) = i by omega]

theorem sllv32R_eq (a b : Reg) (i : Nat) (hi : i < 8) : Avx.sllv32R a b i = sllv32 (a i) (b i) :=
  halves_at 4 _ _ mmSllv32_eq a b i hi

theorem mmSrlv64_eq (a b : Reg) (i : Nat) (hi : i < 2) : Avx.mmSrlv64 a b i = srlv64 (a i) (b i) := by
  interval_cases i <;> rfl

theorem srlv64R_eq (a b : Reg) (i : Nat) (hi : i < 4) : Avx.srlv64R a b i = srlv64 (a i) (b i) :=
  halves_at 2 _ _ mmSrlv64_eq a b i hi

theorem cvt_eq (a : Reg) (i : Nat) (hi : i < 4) : Avx.cvt a i = a i := by
  interval_cases i <;> rfl

theorem srav32R_eq (a b : Reg) (i : Nat) (hi : i < 8) : Avx.srav32R a b i = srav32 (a i) (b i) := by
  interval_cases i <;> rfl

theorem slli64R_eq (a : Reg) (n i : Nat) (hi : i < 4) : Avx.slli64R a n i = slli64 a n i := by
  interval_cases i <;> rfl

theorem repackAvx_lane (low high high' : Reg) (hh : ∀ j, j < 4 → high' j = slli64 high 32 j)
    (i : Nat) (hi : i < 8) :
    Avx.permEvenOdds (Avx.blendR (as32 low) (as32 high') 0xaa) i = wrap32 (join 4 high low i) := by
  have h : ∀ j, j < 8 → Avx.permEvenOdds (Avx.blendR (as32 low) (as32 high') 0xaa) j =
      if j < 4 then as32 low (2 * j) else as32 high' (2 * (j - 4) + 1) := by
    intro j hj
    interval_cases j <;> rfl
  rw [h i hi]
  unfold join
  split
  · rw [as32_even _ _ (by omega)]; congr 2; omega
  · have : as32 high' (2 * (i - 4) + 1) = as32 (slli64 high 32) (2 * (i - 4) + 1) := by
      unfold as32
      rw [hh _ (by omega)]
    rw [this, as32_slli _ _ (by omega)]; congr 2; omega

theorem avx_rrs (R E : Reg) (i : Nat) (hi : i < 8) :
    Avx.roundingRightShift R E i = rrsLane (R i) (E i) := by
  have hsub : ∀ a b : Reg, Avx.sub32R a b i = sub32 (a i) (b i) := fun a b =>
    halves_map2 4 sub32 a b i hi
  have hadd : ∀ a b : Reg, Avx.add32R a b i = add32 (a i) (b i) := fun a b =>
    halves_map2 4 add32 a b i hi
  have hcmp : ∀ a b : Reg, Avx.cmpgtR a b i = cmpgt (a i) (b i) := fun a b =>
    halves_map2 4 cmpgt a b i hi
  unfold Avx.roundingRightShift rrsLane
  simp only [map3, sllv32R_eq _ _ i hi, srav32R_eq _ _ i hi, hsub, hadd, hcmp, set1]

theorem avx_lane (accum m e : Reg) (zp : Int) (i : Nat) (hi : i < 8) :
    Avx.apply accum m e zp i = add32 (lane (accum i) (m i) (e i)) zp := by
  have hz : (if zp ≠ 0 then set1 zp else set1 0) i = zp := by
    by_cases h : zp = 0
    · subst h; rfl
    · rw [if_pos h]; rfl
  have hmax : ∀ (a b : Reg) j, j < 8 → Avx.max32R a b j = max (a j) (b j) := fun a b j hj =>
    halves_map2 4 max a b j hj
  have hmul : ∀ (a b : Reg) j, j < 4 → Avx.muldqR a b j = muldq (a j) (b j) := fun a b j hj =>
    halves_map2 2 muldq a b j hj
  have hadd : ∀ (a b : Reg) j, j < 4 → Avx.add64R a b j = add64 (a j) (b j) := fun a b j hj =>
    halves_map2 2 add64 a b j hj
  have hoff : ∀ j, j < 4 → Avx.offsetVector j = Avx2.offsetVector 0 := by
    intro j hj
    interval_cases j <;> rfl
  unfold Avx.apply
  rw [show ∀ a b : Reg, Avx.add32R a b i = add32 (a i) (b i) from fun a b =>
    halves_map2 4 add32 a b i hi, hz, avx_rrs _ _ _ hi,
    repackAvx_lane _ _ _ (fun j hj => slli64R_eq _ _ _ hj) _ hi]
  unfold lane
  congr 2
  · have key : ∀ y : Int, wrap32 (srlv64 (add64 (muldq (sllv32 y (max (e i) 0)) (m i))
        (Avx2.offsetVector 0)) 31) =
        wrap32 ((sllv32 y (max (e i) 0) * wrap32 (m i) + 2 ^ 30) / 2 ^ 31) := by
      intro y
      have := srl_low (muldq (sllv32 y (max (e i) 0)) (m i))
      rw [show muldq (sllv32 y (max (e i) 0)) (m i) = sllv32 y (max (e i) 0) * wrap32 (m i) by
        unfold muldq; rw [wrap32_sllv32]] at this ⊢
      exact this
    rw [← key]
    unfold join
    split
    · rename_i h
      rw [srlv64R_eq _ _ _ h, hadd _ _ _ h, hmul _ _ _ h, hoff _ h, cvt_eq _ _ h, cvt_eq _ _ h,
        cvt_eq _ _ h]
      simp only [ext, Nat.mul_zero, Nat.zero_add, set1]
      rw [sllv32R_eq _ _ _ hi, hmax _ _ _ hi]; rfl
    · rename_i h
      have h4 : i - 4 < 4 := by omega
      rw [srlv64R_eq _ _ _ h4, hadd _ _ _ h4, hmul _ _ _ h4, hoff _ h4, cvt_eq _ _ h4,
        cvt_eq _ _ h4, cvt_eq _ _ h4]
      simp only [ext, show 4 * 1 + (i - 4) = i by omega, set1]
      rw [sllv32R_eq _ _ _ hi, hmax _ _ _ hi]; rfl
  · rw [hmax _ _ _ hi]
    congr 1
    exact halves_map2 4 sub32 _ _ i hi

/-! ### AVX-512 -/

/-- One 64-bit lane of the AVX-512 sequence. -/
def rrsLane64 (r e : Int) : Int :=
  let nudge := if 0 < e then sllv64 1 (sub64 e 1) else 0
  if sub64 0x7fffffff nudge < r then sllv64 1 (sub64 31 e) else srav64 (add64 r nudge) e

def lane512 (x m e : Int) : Int :=
  wrap32 (rrsLane64 (srav64 (add64 (sllv32 x (max e 0) * wrap32 m) (2 ^ 30)) 31)
    (max (sub32 0 e) 0))

theorem half_at (shifted m offset final right : Reg) (i : Nat) :
    Avx512.half shifted m offset final right i =
      rrsLane64 (srav64 (add64 (muldq (shifted i) (m i)) (offset i)) (final i)) (right i) := rfl

theorem addZeroPoint_at (a : Reg) (zp : Int) (i : Nat) (h : wrap32 (a i) = a i) :
    Avx512.addZeroPoint a zp i = add32 (a i) zp := by
  unfold Avx512.addZeroPoint
  by_cases hz : zp = 0
  · subst hz
    rw [if_neg (by simp)]
    unfold add32; rw [Int.add_zero, h]
  · rw [if_pos hz]; rfl

theorem avx512_lane (accum m e : Reg) (zp : Int) (i : Nat) (hi : i < 16) :
    Avx512.apply accum m e zp i = add32 (lane512 (accum i) (m i) (e i)) zp := by
  have hoff : ∀ j, slli64 (set1 1) 30 j = 2 ^ 30 := fun j => rfl
  have hv : ∀ low high : Reg, join 8 (cvt64to32 high) (cvt64to32 low) i =
      wrap32 (if i < 8 then low i else high (i - 8)) := by
    intro low high
    unfold join cvt64to32
    split <;> rfl
  unfold Avx512.apply
  rw [addZeroPoint_at _ _ _ (by rw [hv, wrap32_wrap32]), hv]
  unfold lane512
  congr 2
  split
  · rename_i h
    simp only [half_at, hoff, ext, cvt32to64, map2, Nat.mul_zero, Nat.zero_add, set1]
    unfold muldq
    rw [wrap32_sllv32]
  · rename_i h
    have : 8 * 1 + (i - 8) = i := by omega
    simp only [half_at, hoff, ext, cvt32to64, map2, this, set1]
    unfold muldq
    rw [wrap32_sllv32]

theorem avx512_col (accum m e : Reg) (zp : Int) (col i : Nat) (hc : col < 16) (hi : i < 16) :
    Avx512.applyCol accum m e zp col i = add32 (lane512 (accum i) (m col) (e col)) zp := by
  have hoff : ∀ j, slli64 (set1 1) 30 j = 2 ^ 30 := fun j => rfl
  have hv : ∀ low high : Reg, join 8 (cvt64to32 high) (cvt64to32 low) i =
      wrap32 (if i < 8 then low i else high (i - 8)) := by
    intro low high
    unfold join cvt64to32
    split <;> rfl
  have hp : ((col % 8 : Nat) : Int) % 8 = ((col % 8 : Nat) : Int) := by omega
  have hp16 : (col : Int) % 16 = (col : Int) := by omega
  have hsel : ∀ a b : Reg, (if col < 8 then a else b) (col % 8) =
      if col < 8 then a col else b (col - 8) := by
    intro a b
    split
    · rw [Nat.mod_eq_of_lt (by assumption)]
    · congr 1; omega
  unfold Avx512.applyCol
  rw [addZeroPoint_at _ _ _ (by rw [hv, wrap32_wrap32]), hv]
  unfold lane512
  congr 2
  have hcol : ¬ col < 8 → 8 * 1 + (col - 8) = col := by omega
  have hi8 : ¬ i < 8 → 8 * 1 + (i - 8) = i := by omega
  split
  · simp only [half_at, permvar8q, permvar16, set1, hp, hp16, Int.toNat_natCast, hsel, ext,
      cvt32to64, map2, Nat.mul_zero, Nat.zero_add, hoff]
    split
    · unfold muldq; rw [wrap32_sllv32]
    · rename_i h; rw [hcol h]; unfold muldq; rw [wrap32_sllv32]
  · rename_i h8
    simp only [half_at, permvar8q, permvar16, set1, hp, hp16, Int.toNat_natCast, hsel, ext,
      cvt32to64, map2, Nat.mul_zero, Nat.zero_add, hoff, hi8 h8]
    split
    · unfold muldq; rw [wrap32_sllv32]
    · rename_i h; rw [hcol h]; unfold muldq; rw [wrap32_sllv32]

/-! ### Values of the single-lane forms -/

/-- Rounding division by 2^k. -/
def roundShift (r : Int) (k : Nat) : Int := if k = 0 then r else (r + 2 ^ (k - 1)) / 2 ^ k

theorem pow_facts (j : Nat) (hj : j ≤ 30) :
    (1 : Int) ≤ 2 ^ j ∧ (2 : Int) ^ j ≤ 1073741824 ∧ (2 : Int) ^ (30 - j) * 2 ^ j = 1073741824 := by
  refine ⟨by exact_mod_cast Nat.one_le_two_pow, ?_, ?_⟩
  · calc (2 : Int) ^ j ≤ 2 ^ 30 := by exact_mod_cast Nat.pow_le_pow_right (by omega) hj
      _ = 1073741824 := by norm_num
  · rw [← pow_add, show 30 - j + j = 30 by omega]; norm_num

/-- (r + 2^j) / 2^(j+1) is 2^(30-j) when r + 2^j overflows 32 bits. -/
theorem overflow_value (r : Int) (j : Nat) (hr : r < 2147483648) (hj : j ≤ 30)
    (h : 0x7fffffff - 2 ^ j < r) : (r + 2 ^ j) / 2 ^ (j + 1) = 2 ^ (30 - j) := by
  obtain ⟨h1, h2, h3⟩ := pow_facts j hj
  have hq : (2 : Int) ^ (j + 1) = 2 * 2 ^ j := by rw [pow_succ]; ring
  have hlo : (2 : Int) ^ (30 - j) ≤ (r + 2 ^ j) / 2 ^ (j + 1) := by
    rw [hq, Int.le_ediv_iff_mul_le (by omega)]
    nlinarith
  have hhi : (r + 2 ^ j) / 2 ^ (j + 1) < 2 ^ (30 - j) + 1 := by
    rw [hq, Int.ediv_lt_iff_lt_mul (by omega)]
    nlinarith
  omega

theorem rrsLane_value (r : Int) (k : Nat) (hr : isI32 r) (hk : k ≤ 31) :
    rrsLane r k = roundShift r k := by
  obtain ⟨h1, h2⟩ := hr
  norm_num at h1 h2
  rcases Nat.eq_zero_or_pos k with rfl | hpos
  · have hz : sub32 2147483647 0 = 2147483647 := rfl
    have h0 : cnt32 0 = 0 := rfl
    simp only [rrsLane, roundShift, blendv, cmpgt, Nat.cast_zero, lt_irrefl, if_false, if_true, hz]
    rw [if_neg (by split <;> omega)]
    unfold srav32 add32
    rw [h0, if_pos (by omega), Int.add_zero, wrap32_of (by omega) (by omega)]
    simp
  · obtain ⟨j, rfl⟩ : ∃ j, k = j + 1 := ⟨k - 1, by omega⟩
    obtain ⟨p1, p2, p3⟩ := pow_facts j (by omega)
    obtain ⟨q1, q2, -⟩ := pow_facts (30 - j) (by omega)
    have e1 : sub32 ((j + 1 : Nat) : Int) 1 = (j : Int) := by
      unfold sub32; rw [wrap32_of (by omega) (by omega)]; omega
    have e2 : sllv32 1 (j : Int) = 2 ^ j := by
      unfold sllv32
      rw [cnt32_of (by omega) (by omega), Int.toNat_natCast, if_pos (by omega), Int.one_mul,
        wrap32_of (by omega) (by omega)]
    have e3 : sub32 31 ((j + 1 : Nat) : Int) = ((30 - j : Nat) : Int) := by
      unfold sub32; rw [wrap32_of (by omega) (by omega)]; omega
    have e4 : sllv32 1 ((30 - j : Nat) : Int) = 2 ^ (30 - j) := by
      unfold sllv32
      rw [cnt32_of (by omega) (by omega), Int.toNat_natCast, if_pos (by omega), Int.one_mul,
        wrap32_of (by omega) (by omega)]
    have e5 : cmpgt ((j + 1 : Nat) : Int) 0 = -1 := by
      unfold cmpgt; rw [if_pos (by omega)]
    have e6 : sub32 0x7fffffff (2 ^ j) = 0x7fffffff - 2 ^ j := by
      unfold sub32; rw [wrap32_of (by omega) (by omega)]
    unfold rrsLane
    simp only [e1, e2, e3, e4, e5]
    have e7 : blendv 0 (2 ^ j) (-1) = 2 ^ j := rfl
    rw [e7, e6]
    unfold roundShift
    rw [if_neg (by omega), Nat.add_sub_cancel]
    by_cases ho : 0x7fffffff - 2 ^ j < r
    · rw [overflow_value r j h2 (by omega) ho]
      unfold blendv cmpgt
      rw [if_pos ho, if_pos (by omega)]
    · unfold blendv cmpgt
      rw [if_neg ho, if_neg (by omega)]
      unfold srav32 add32
      rw [cnt32_of (by omega) (by omega), Int.toNat_natCast, if_pos (by omega),
        wrap32_of (by omega) (by omega)]

theorem rrsLane64_value (r : Int) (k : Nat) (hr : isI32 r) (hk : k ≤ 31) :
    rrsLane64 r k = roundShift r k := by
  obtain ⟨h1, h2⟩ := hr
  norm_num at h1 h2
  rcases Nat.eq_zero_or_pos k with rfl | hpos
  · have hz : sub64 2147483647 0 = 2147483647 := rfl
    have h0 : cnt64 0 = 0 := rfl
    simp only [rrsLane64, roundShift, Nat.cast_zero, lt_irrefl, if_false, if_true, hz]
    rw [if_neg (by omega)]
    unfold srav64 add64
    rw [h0, if_pos (by omega), Int.add_zero, wrap64_of (by omega) (by omega)]
    simp
  · obtain ⟨j, rfl⟩ : ∃ j, k = j + 1 := ⟨k - 1, by omega⟩
    obtain ⟨p1, p2, p3⟩ := pow_facts j (by omega)
    obtain ⟨q1, q2, -⟩ := pow_facts (30 - j) (by omega)
    have e1 : sub64 ((j + 1 : Nat) : Int) 1 = (j : Int) := by
      unfold sub64; rw [wrap64_of (by omega) (by omega)]; omega
    have e2 : sllv64 1 (j : Int) = 2 ^ j := by
      unfold sllv64
      rw [cnt64_of (by omega) (by omega), Int.toNat_natCast, if_pos (by omega), Int.one_mul,
        wrap64_of (by omega) (by omega)]
    have e3 : sub64 31 ((j + 1 : Nat) : Int) = ((30 - j : Nat) : Int) := by
      unfold sub64; rw [wrap64_of (by omega) (by omega)]; omega
    have e4 : sllv64 1 ((30 - j : Nat) : Int) = 2 ^ (30 - j) := by
      unfold sllv64
      rw [cnt64_of (by omega) (by omega), Int.toNat_natCast, if_pos (by omega), Int.one_mul,
        wrap64_of (by omega) (by omega)]
    have e5 : (0 : Int) < ((j + 1 : Nat) : Int) := by omega
    have e6 : sub64 0x7fffffff (2 ^ j) = 0x7fffffff - 2 ^ j := by
      unfold sub64; rw [wrap64_of (by omega) (by omega)]
    unfold rrsLane64
    simp only [e1, e2, e3, e4, if_pos e5]
    rw [e6, show roundShift r (j + 1) = (r + 2 ^ j) / 2 ^ (j + 1) by
      unfold roundShift; rw [if_neg (by omega), Nat.add_sub_cancel]]
    by_cases ho : 0x7fffffff - 2 ^ j < r
    · rw [overflow_value r j h2 (by omega) ho, if_pos ho]
    · rw [if_neg ho]
      unfold srav64 add64
      rw [cnt64_of (by omega) (by omega), Int.toNat_natCast, if_pos (by omega),
        wrap64_of (by omega) (by omega)]

theorem roundShift_i32 (r : Int) (k : Nat) (hr : isI32 r) : isI32 (roundShift r k) := by
  unfold roundShift
  split
  · exact hr
  · rename_i hk
    obtain ⟨j, rfl⟩ : ∃ j, k = j + 1 := ⟨k - 1, by omega⟩
    unfold isI32 at *
    have hp := two_pow_pos j
    have hq : (2 : Int) ^ (j + 1) = 2 * 2 ^ j := by rw [pow_succ]; ring
    rw [Nat.add_sub_cancel, hq]
    constructor
    · rw [Int.le_ediv_iff_mul_le (by omega)]; nlinarith
    · rw [Int.ediv_lt_iff_lt_mul (by omega)]; nlinarith

theorem scaled_zero_i32 (a m : Int) (ha : isI32 a) (hm : 0 ≤ m) (hm' : isI32 m) :
    isI32 (scaled a m 0) := Ruy.Multiplier.c24_fits a m 0 ha hm' hm (by omega)

/-- For multipliers ≥ 0 the two forms agree, and are a double rounding. -/
theorem lane_value (x m e : Int) (hm : 0 ≤ m) (hm' : isI32 m) (he : -31 ≤ e) (he' : isI32 e) :
    lane x m e = roundShift (scaled (sllv32 x (max e 0)) m 0) (-e).toNat ∧
    lane512 x m e = lane x m e := by
  have ha : isI32 (sllv32 x (max e 0)) := by
    have := sllv32_range x (max e 0)
    unfold isI32; norm_num; exact this
  have hr := scaled_zero_i32 _ m ha hm hm'
  have hb := Ruy.Multiplier.mul_bound ha hm'
  have hmw : wrap32 m = m := wrap32_of (by unfold isI32 at hm'; omega) (by unfold isI32 at hm'; omega)
  have hk : max (sub32 0 e) 0 = ((-e).toNat : Int) := by
    unfold sub32 wrap32
    unfold isI32 at he'
    norm_num at he'
    omega
  have hl : lane x m e = roundShift (scaled (sllv32 x (max e 0)) m 0) (-e).toNat := by
    unfold lane
    rw [hmw, scaled_zero, hk, wrap32_of (by have := hr.1; norm_num at this; exact this)
      (by have := hr.2; norm_num at this; exact this), rrsLane_value _ _ hr (by omega)]
  refine ⟨hl, ?_⟩
  rw [hl]
  unfold lane512
  have hs := roundShift_i32 _ (-e).toNat hr
  have h64 : srav64 (add64 (sllv32 x (max e 0) * m) (2 ^ 30)) 31 =
      scaled (sllv32 x (max e 0)) m 0 := by
    rw [← scaled_zero]
    unfold srav64 add64
    rw [if_pos (by decide), show cnt64 31 = 31 from rfl, wrap64_of (by omega) (by omega)]
  rw [hmw, h64, hk, rrsLane64_value _ _ hr (by omega),
    wrap32_of (by have := hs.1; norm_num at this; exact this)
      (by have := hs.2; norm_num at this; exact this)]

end Ruy.Simd

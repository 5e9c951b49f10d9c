import Verif.Simd.Regs
/-
The fixed-point multiplier as applied by the SIMD kernels.

* `Neon.apply`     kernel_arm64.cc:404, 525-592 (identical in the other 8-bit
                   kernels of kernel_arm64.cc and in kernel_arm32.cc:1020-1081,
                   1965-1996)
* `Avx2.apply`     kernel_avx2_fma.cc:356-391, 465-517
* `Avx.apply`      kernel_avx.cc:245-429 (emulated intrinsics), 728-905
* `Avx512.apply`   kernel_avx512.cc:327-384, 441-465, `applyCol` 386-424
-/
namespace Ruy.Simd

namespace Neon
/-- One lane: `v8` = ~0 = -1 (`mvni v8.4s, #0`), `v11 = smin(v8, exponent)`,
`v12 = exponent - v11`, then SSHL by v12, SQDMULH by the multiplier, SRSHL by
v11. -/
def apply (x m e : Int) : Int :=
  let v8 : Int := -1
  let v11 := min v8 e
  let v12 := wrap32 (e - v11)
  srshl32 (sqdmulh32 (sshl32 x v12) m) v11
end Neon

namespace Avx2
/-- kernel_avx2_fma.cc:465-491 (`rounding_right_shift`). -/
def roundingRightShift (results exponent : Reg) : Reg :=
  let zeros := set1 0
  let maskGtz := map2 cmpgt exponent zeros
  let oneShiftExpMinus1 := map2 sllv32 (set1 1) (map2 sub32 exponent (set1 1))
  let nudge := map3 blendv zeros oneShiftExpMinus1 maskGtz
  let rPlusNudge := map2 add32 results nudge
  let shiftedSum := map2 srav32 rPlusNudge exponent
  let oneShift31MinusExp := map2 sllv32 (set1 1) (map2 sub32 (set1 31) exponent)
  let maskOverflow := map2 cmpgt results (map2 sub32 (set1 0x7fffffff) nudge)
  map3 blendv shiftedSum oneShift31MinusExp maskOverflow

/-- kernel_avx2_fma.cc:383-385: 2^30 + 2^63 in a 64-bit lane. -/
def offsetVector : Reg := map2 add64 (slli64 (set1 1) 30) (set1 (-9223372036854775808))

/-- kernel_avx2_fma.cc:356-391 and 493-517 (`apply_multiplier`) on one
accumulator register: `m`, `e` are `m_vector`, `e_vector`. -/
def apply (accum m e : Reg) (dstZeroPoint : Int) : Reg :=
  let m64low := cvt32to64 (ext 4 m 0)
  let m64high := cvt32to64 (ext 4 m 1)
  let zero := set1 0
  let leftShift := map2 max e zero
  let negE := map2 sub32 zero e
  let rightShift := map2 max negE zero
  let final := set1 31
  let finalLow := cvt32to64 (ext 4 final 0)
  let finalHigh := cvt32to64 (ext 4 final 1)
  let post := if dstZeroPoint ≠ 0 then set1 dstZeroPoint else set1 0
  let repack := setr [0, 2, 4, 6, 1, 3, 5, 7]
  let shifted := map2 sllv32 accum leftShift
  let low := map2 muldq (cvt32to64 (ext 4 shifted 0)) m64low
  let high := map2 muldq (cvt32to64 (ext 4 shifted 1)) m64high
  let low := map2 add64 low offsetVector
  let high := map2 add64 high offsetVector
  let low := map2 srlv64 low finalLow
  let high := map2 srlv64 high finalHigh
  let high := slli64 high 32
  let results := blend (as32 low) (as32 high) 0xaa
  let results := permvar8 results repack
  let results := roundingRightShift results rightShift
  map2 add32 results post
end Avx2

namespace Avx
/-- kernel_avx.cc:285-323 (`mm_sllv_epi32`). -/
def mmSllv32 (a b : Reg) : Reg :=
  let res0 := sll32 a (blend (set1 0) b 1)
  let tmp1 := shuf32 b 1
  let a1 := shuf32 a 1
  let res1 := sll32 a1 (blend (set1 0) tmp1 1)
  let tmp2 := shuf32 b 2
  let res2 := sll32 a (blend (set1 0) tmp2 1)
  let tmp3 := shuf32 b 3
  let a3 := shuf32 a 48
  let res3 := sll32 a3 (blend (set1 0) tmp3 1)
  let f01 := unpacklo32 res0 res1
  let f23 := unpackhi32 res2 res3
  unpacklo64 f01 f23

/-- Lane-wise 128-bit operations applied to both halves
(kernel_avx.cc:132-194, 336-356, 391-400): `n` lanes per half. -/
def halves (n : Nat) (f : Reg → Reg → Reg) (a b : Reg) : Reg :=
  join n (f (ext n a 1) (ext n b 1)) (f (ext n a 0) (ext n b 0))

/-- kernel_avx.cc:325-334. -/
def sllv32R : Reg → Reg → Reg := halves 4 mmSllv32

/-- kernel_avx.cc:96-102 (`mm256_cvtepi32_epi64`): `_mm_cvtepi32_epi64` extends
the two low 32-bit lanes, the upper two come through `_mm_unpackhi_epi64`. -/
def cvt (a : Reg) : Reg := join 2 (cvt32to64 (unpackhi64 a (set1 0))) (cvt32to64 a)

/-- kernel_avx.cc:231-243 (`mm_srlv_epi64`). -/
def mmSrlv64 (a b : Reg) : Reg :=
  let resLo := srl64 a b
  let hiCount := unpackhiQ b (set1 0)
  let resHi := srl64 a hiCount
  let tmpHi := permPd resHi 1
  unpackloQ resLo tmpHi

/-- kernel_avx.cc:245-254. -/
def srlv64R : Reg → Reg → Reg := halves 2 mmSrlv64

/-- kernel_avx.cc:205-212 (macro `mm256_blend_epi32`). -/
def blendR (a b : Reg) (imm : Nat) : Reg :=
  join 4 (blend (ext 4 a 1) (ext 4 b 1) (imm / 16)) (blend (ext 4 a 0) (ext 4 b 0) (imm &&& 0xe))

/-- kernel_avx.cc:360-375 (`PermuteEpi32EvenOdds`). -/
def permEvenOdds (a : Reg) : Reg :=
  let aLo := ext 4 a 0
  let aHi := ext 4 a 1
  let tmpLo := shuf32 aLo 0xd8
  let tmpHi := shuf32 aHi 0xd8
  join 4 (unpackhi64 tmpLo tmpHi) (unpacklo64 tmpLo tmpHi)

/-- `BlendM128_epi64` on 32-bit lanes (kernel_avx.cc:200-202): bit k selects lanes
2k and 2k+1. -/
def blend64 (a b : Reg) (imm : Nat) : Reg := fun i => if imm.testBit (i / 2) then b i else a i

/-- kernel_avx.cc:402-429 (`mm256_srav_epi32`). -/
def srav32R (a b : Reg) : Reg :=
  let aLo := ext 4 a 0
  let aHi := ext 4 a 1
  let r0 := srai32 aLo (b 0)
  let r1 := srai32 aLo (b 1)
  let r2 := srai32 aLo (b 2)
  let r3 := srai32 aLo (b 3)
  let r4 := srai32 aHi (b 4)
  let r5 := srai32 aHi (b 5)
  let r6 := srai32 aHi (b 6)
  let r7 := srai32 aHi (b 7)
  let r01 := blend r0 r1 2
  let r23 := blend r2 r3 8
  let r45 := blend r4 r5 2
  let r67 := blend r6 r7 8
  join 4 (blend64 r45 r67 2) (blend64 r01 r23 2)

def max32R : Reg → Reg → Reg := halves 4 (map2 max)
def add32R : Reg → Reg → Reg := halves 4 (map2 add32)
def sub32R : Reg → Reg → Reg := halves 4 (map2 sub32)
def cmpgtR : Reg → Reg → Reg := halves 4 (map2 cmpgt)
def muldqR : Reg → Reg → Reg := halves 2 (map2 muldq)
def add64R : Reg → Reg → Reg := halves 2 (map2 add64)
def slli64R (a : Reg) (n : Nat) : Reg := join 2 (slli64 (ext 2 a 1) n) (slli64 (ext 2 a 0) n)

/-- kernel_avx.cc:835-867 (`rounding_right_shift`). -/
def roundingRightShift (results exponent : Reg) : Reg :=
  let zeros := set1 0
  let maskGtz := cmpgtR exponent zeros
  let oneShiftExpMinus1 := sllv32R (set1 1) (sub32R exponent (set1 1))
  let nudge := map3 blendv zeros oneShiftExpMinus1 maskGtz
  let rPlusNudge := add32R results nudge
  let shiftedSum := srav32R rPlusNudge exponent
  let oneShift31MinusExp := sllv32R (set1 1) (sub32R (set1 31) exponent)
  let maskOverflow := cmpgtR results (sub32R (set1 0x7fffffff) nudge)
  map3 blendv shiftedSum oneShift31MinusExp maskOverflow

/-- kernel_avx.cc:754-756. -/
def offsetVector : Reg := add64R (slli64R (set1 1) 30) (set1 (-9223372036854775808))

/-- kernel_avx.cc:719-762 and 871-905 (`apply_multiplier`). -/
def apply (accum m e : Reg) (dstZeroPoint : Int) : Reg :=
  let m64low := cvt (ext 4 m 0)
  let m64high := cvt (ext 4 m 1)
  let zero := set1 0
  let leftShift := max32R e zero
  let negE := sub32R zero e
  let rightShift := max32R negE zero
  let final := set1 31
  let finalLow := cvt (ext 4 final 0)
  let finalHigh := cvt (ext 4 final 1)
  let post := if dstZeroPoint ≠ 0 then set1 dstZeroPoint else set1 0
  let shifted := sllv32R accum leftShift
  let low := muldqR (cvt (ext 4 shifted 0)) m64low
  let high := muldqR (cvt (ext 4 shifted 1)) m64high
  let low := add64R low offsetVector
  let high := add64R high offsetVector
  let low := srlv64R low finalLow
  let high := srlv64R high finalHigh
  let high := slli64R high 32
  let results := blendR (as32 low) (as32 high) 0xaa
  let results := permEvenOdds results
  let results := roundingRightShift results rightShift
  add32R results post
end Avx

namespace Avx512
/-- kernel_avx512.cc:358-384 (`rounding_right_shift`), 64-bit lanes; the mask
registers are Booleans per lane. -/
def roundingRightShift (results exponent : Reg) : Reg :=
  let zeros := set1 0
  let oneShiftExpMinus1 := map2 sllv64 (set1 1) (map2 sub64 exponent (set1 1))
  let nudge : Reg := fun i => if zeros i < exponent i then oneShiftExpMinus1 i else zeros i
  let rPlusNudge := map2 add64 results nudge
  let shiftedSum := map2 srav64 rPlusNudge exponent
  let oneShift31MinusExp := map2 sllv64 (set1 1) (map2 sub64 (set1 31) exponent)
  let limit := map2 sub64 (set1 0x7fffffff) nudge
  fun i => if limit i < results i then oneShift31MinusExp i else shiftedSum i

/-- The part shared by the two variants: one half (8 lanes) of an accumulator. -/
def half (shifted m offset final right : Reg) : Reg :=
  let scaled := map2 muldq (cvt32to64 shifted) m
  let scaled := map2 add64 scaled offset
  let scaled := map2 srav64 scaled final
  roundingRightShift scaled right

/-- kernel_avx512.cc:484-502: the zero point is added afterwards, if not 0. -/
def addZeroPoint (accum : Reg) (dstZeroPoint : Int) : Reg :=
  if dstZeroPoint ≠ 0 then map2 add32 accum (set1 dstZeroPoint) else accum

/-- kernel_avx512.cc:327-356 and 441-465 (per row). -/
def apply (accum m e : Reg) (dstZeroPoint : Int) : Reg :=
  let m64low := cvt32to64 (ext 8 m 0)
  let m64high := cvt32to64 (ext 8 m 1)
  let zero := set1 0
  let leftShift := map2 max e zero
  let negE := map2 sub32 zero e
  let rightShift := map2 max negE zero
  let final := set1 31
  let rightLow := cvt32to64 (ext 8 rightShift 0)
  let rightHigh := cvt32to64 (ext 8 rightShift 1)
  let finalLow := cvt32to64 (ext 8 final 0)
  let finalHigh := cvt32to64 (ext 8 final 1)
  let offset := slli64 (set1 1) 30
  let shifted := map2 sllv32 accum leftShift
  let low := half (ext 8 shifted 0) m64low offset finalLow rightLow
  let high := half (ext 8 shifted 1) m64high offset finalHigh rightHigh
  addZeroPoint (join 8 (cvt64to32 high) (cvt64to32 low)) dstZeroPoint

/-- kernel_avx512.cc:386-424 (per column): the constants of column `col` are
broadcast to all lanes. -/
def applyCol (accum m e : Reg) (dstZeroPoint : Int) (col : Nat) : Reg :=
  let m64low := cvt32to64 (ext 8 m 0)
  let m64high := cvt32to64 (ext 8 m 1)
  let zero := set1 0
  let leftShift := map2 max e zero
  let negE := map2 sub32 zero e
  let rightShift := map2 max negE zero
  let final := set1 31
  let rightLow := cvt32to64 (ext 8 rightShift 0)
  let rightHigh := cvt32to64 (ext 8 rightShift 1)
  let finalLow := cvt32to64 (ext 8 final 0)
  let finalHigh := cvt32to64 (ext 8 final 1)
  let offset := slli64 (set1 1) 30
  let perm := set1 ((col % 8 : Nat) : Int)
  let leftVal := permvar16 (set1 (col : Int)) leftShift
  let mVal := permvar8q perm (if col < 8 then m64low else m64high)
  let offsetVal := permvar8q perm offset
  let finalVal := permvar8q perm (if col < 8 then finalLow else finalHigh)
  let rightVal := permvar8q perm (if col < 8 then rightLow else rightHigh)
  let shifted := map2 sllv32 accum leftVal
  let low := half (ext 8 shifted 0) mVal offsetVal finalVal rightVal
  let high := half (ext 8 shifted 1) mVal offsetVal finalVal rightVal
  addZeroPoint (join 8 (cvt64to32 high) (cvt64to32 low)) dstZeroPoint
end Avx512

end Ruy.Simd

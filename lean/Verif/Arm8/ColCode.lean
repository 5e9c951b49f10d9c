import Verif.Arm8.Code
/-
The `asm` statement of `Kernel8bitNeon1Col` for ARM32 (kernel_arm32.cc:1674-2490) as basic blocks.  Registers, stack
slots and conventions are those of `Arm8/Code.lean`.
-/
namespace Ruy.Arm8.One
open Ruy.Arm8 Instr

/-- Start: lines 1680-1724. -/
def k0 : Block := ⟨[
  ldq 0 34 16, ldq 1 34 16, ldq 2 34 16, ldq 3 34 16, ldq 4 35 16, addPI 35 35 16, subSp 96, ldp 1 .dstBasePtr,
  sts 1 0, ldp 2 .dstBasePtr, sts 2 16, ldp 1 .startRow, sts 1 32, ldp 3 .startCol, sts 3 48, ldp 1 .lhsBasePtr,
  sts 1 64, ldp 2 .rhsBasePtr, sts 2 80, zero 6, zero 7, zero 8, zero 9, zero 10, zero 11, zero 12, zero 13, zero 14,
  zero 15, movI 1 16], .jmp 1⟩

/-- Label 1: lines 1728-1734. -/
def k1 : Block := ⟨[ldp 10 .depth, cmp 1 10], .br .eq 3 2⟩

/-- Label 2: lines 1736-1776. -/
def k2 : Block := ⟨[
  mull 14 0 8, mull 15 2 8, mlal 14 1 9, mlal 15 3 9, padal 6 14, padal 7 15, mull 14 4 8, mull 15 6 8, mlal 14 5 9,
  mlal 15 7 9, padal 8 14, padal 9 15, ldq 0 34 16, ldq 1 34 16, ldq 2 34 16, ldq 3 34 16, ldq 4 35 16,
  addPI 35 35 16, addI 1 1 16, cmp 1 10], .br .lt 2 3⟩

/-- Label 79: lines 1778-1834. -/
def k3 : Block := ⟨[
  mull 14 0 8, mull 15 2 8, mlal 14 1 9, mlal 15 3 9, padal 6 14, padal 7 15, mull 14 4 8, mull 15 6 8, mlal 14 5 9,
  mlal 15 7 9, padal 8 14, padal 9 15, padd 0 12 13, padd 1 14 15, padd 2 16 17, padd 3 18 19, padd 28 0 1,
  padd 29 2 3, ldp 3 .lastRow, lds 1 32, cmp 1 3], .br .ge 5 4⟩

/-- Lines 1835-1840. -/
def k4 : Block := ⟨[ldp 1 .lhsStride, lds 4 64, addP 4 4 1 2, sts 4 64], .jmp 7⟩

/-- Label 4: lines 1841-1857. -/
def k5 : Block := ⟨[ldp 5 .lhsBasePtr, sts 5 64, ldp 4 .lastCol, lds 8 48, cmp 8 4], .br .ge 7 6⟩

/-- Lines 1858-1862. -/
def k6 : Block := ⟨[ldp 1 .rhsStride, lds 10 80, addP 10 10 1 1, sts 10 80], .jmp 7⟩

/-- Label 5: lines 1863-1882. -/
def k7 : Block := ⟨[
  lds 4 64, mov 34 4, lds 5 80, mov 35 5, ldpB 4 .flags, ldp 1 .bias, lds 8 32, tst 4 1], .br .eq 9 8⟩

/-- Line 1883. -/
def k8 : Block := ⟨[addP 1 1 8 2], .jmp 9⟩

/-- Label 1000: lines 1884-1919. -/
def k9 : Block := ⟨[
  ldq 12 1 0, ldq 0 34 16, ldq 1 34 16, ldq 2 34 16, ldq 3 34 16, ldq 4 35 16, addPI 35 35 16, ldp 3 .prodZpDepth,
  dupS 9 3, v3 .add 12 12 9, v3 .add 14 14 12, ldpB 6 .flags, tst 6 4], .br .eq 11 10⟩

/-- Lines 1920-1929. -/
def k10 : Block := ⟨[
  ldp 3 .rhsSums, lds 4 48, addP 3 3 4 2, ldd 12 3 0, ldp 5 .lhsZeroPoint, dupS 10 5, ve .mls 14 10 12 0], .jmp 11⟩

/-- Label 401: lines 1930-1935. -/
def k11 : Block := ⟨[ldpB 6 .flags, tst 6 2], .br .eq 13 12⟩

/-- Lines 1936-1956. -/
def k12 : Block := ⟨[
  ldp 2 .lhsSums, lds 4 32, addP 2 2 4 2, ldp 5 .rhsZeroPoint, ldq 11 2 0, dupSd 13 5, ve .mul 11 11 13 1,
  v3 .sub 14 14 11, ldpB 10 .dstTypeId, cmpI 10 4], .br .eq 34 13⟩

/-- Label 402: lines 1958-1971. -/
def k13 : Block := ⟨[ldp 1 .mulExp, tst 6 8, lds 4 32], .br .eq 15 14⟩

/-- Line 1972. -/
def k14 : Block := ⟨[addP 1 1 4 2], .jmp 15⟩

/-- Label 1001: lines 1973-1988. -/
def k15 : Block := ⟨[
  ldq 10 1 0, ones 8, v3 .smin 13 10 8, v3 .sub 12 10 13, v3 .sshl 14 14 12, ldp 1 .mulFix, tst 6 8], .br .eq 17 16⟩

/-- Line 1989. -/
def k16 : Block := ⟨[addP 1 1 4 2], .jmp 17⟩

/-- Label 1002: lines 1990-2001. -/
def k17 : Block := ⟨[
  ldq 10 1 0, v3 .sqdmulh 14 14 10, v3 .srshl 14 14 13, ldpB 10 .dstTypeId, cmpI 10 3], .br .eq 29 18⟩

/-- Lines 2002-2003. -/
def k18 : Block := ⟨[cmpI 10 2], .br .eq 24 19⟩

/-- `STORE_UINT8`: lines 2006-2076. -/
def k19 : Block := ⟨[
  vn .qmovnS 28 14, zero 6, zero 7, zero 8, zero 9, zero 10, zero 11, zero 12, zero 13, zero 15,
  ldp 4 .dstZeroPoint, dupH 13 4, v3 .sqaddH 14 14 13, vn .qmovun 30 14, ldpB 2 .clampMin, ldpB 3 .clampMax,
  dupBd 28 2, dupBd 29 3, vd .umaxB 30 30 28, vd .uminB 30 30 29, ldp 1 .dstRows, lds 8 32, sub 1 1 8,
  ldp 2 .dstCols, lds 4 48, sub 2 2 4, movI 3 4, movI 5 2, cmpI 1 4, movGt 1 3, cmp 1 3, lds 4 16,
  ldp 5 .dstStride], .br .eq 22 20⟩

/-- Lines 2077-2085. -/
def k20 : Block := ⟨[mov 3 42, std 30 3, movI 8 0], .jmp 21⟩

/-- Label 51: lines 2086-2092. -/
def k21 : Block := ⟨[ldrB 10 3 8, strB 10 4 8, addI 8 8 1, cmp 8 1], .br .lt 21 23⟩

/-- Label 30: lines 2093-2103. -/
def k22 : Block := ⟨[
  lds 3 16, mov 4 3, movI 6 1, stB 30 0 3 6, stB 30 1 3 6, stB 30 2 3 6, stB 30 3 3 6], .jmp 23⟩

/-- Label 31: lines 2104-2115. -/
def k23 : Block := ⟨[lds 4 16, addPI 4 4 4, sts 4 16, zero 13, zero 14, zero 15], .jmp 41⟩

/-- `STORE_INT8`: lines 2118-2187. -/
def k24 : Block := ⟨[
  vn .qmovnS 28 14, zero 6, zero 7, zero 8, zero 9, zero 10, zero 11, zero 12, zero 13, zero 15,
  ldp 4 .dstZeroPoint, dupH 13 4, v3 .sqaddH 14 14 13, vn .qmovnH 30 14, ldpB 2 .clampMin, ldpB 3 .clampMax,
  dupBd 28 2, dupBd 29 3, vd .smaxB 30 30 28, vd .sminB 30 30 29, ldp 1 .dstRows, lds 8 32, sub 1 1 8,
  ldp 2 .dstCols, lds 4 48, sub 2 2 4, movI 3 4, movI 5 2, cmpI 1 4, movGt 1 3, cmp 1 3, lds 4 16,
  ldp 5 .dstStride], .br .eq 27 25⟩

/-- Lines 2188-2196. -/
def k25 : Block := ⟨[mov 3 42, std 30 3, movI 8 0], .jmp 26⟩

/-- Label 51: lines 2197-2203. -/
def k26 : Block := ⟨[ldrB 10 3 8, strB 10 4 8, addI 8 8 1, cmp 8 1], .br .lt 26 28⟩

/-- Label 30: lines 2204-2214. -/
def k27 : Block := ⟨[
  lds 3 16, mov 4 3, movI 6 1, stB 30 0 3 6, stB 30 1 3 6, stB 30 2 3 6, stB 30 3 3 6], .jmp 28⟩

/-- Label 31: lines 2215-2226. -/
def k28 : Block := ⟨[lds 4 16, addPI 4 4 4, sts 4 16, zero 13, zero 14, zero 15], .jmp 41⟩

/-- `STORE_INT16`: lines 2228-2293. -/
def k29 : Block := ⟨[
  ldpSH 4 .dstZeroPoint, dupS 13 4, v3 .add 14 14 13, vn .qmovnS 28 14, zero 6, zero 7, zero 8, zero 9, zero 10,
  zero 11, zero 15, ldpH 2 .clampMin, ldpH 3 .clampMax, dupHd 24 2, dupHd 26 3, vd .smaxH 28 28 24,
  vd .sminH 28 28 26, zero 12, zero 13, ldp 1 .dstRows, lds 8 32, sub 1 1 8, ldp 2 .dstCols, lds 4 48, sub 2 2 4,
  movI 3 4, movI 5 2, cmpI 1 4, movGt 1 3, cmp 1 3, lds 4 16, ldp 5 .dstStride], .br .eq 32 30⟩

/-- Lines 2294-2302. -/
def k30 : Block := ⟨[mov 3 42, std 28 3, movI 8 0], .jmp 31⟩

/-- Label 51: lines 2303-2313. -/
def k31 : Block := ⟨[lsl1 8 8, ldrH 10 3 8, strH 10 4 8, lsr1 8 8, addI 8 8 1, cmp 8 1], .br .lt 31 33⟩

/-- Label 30: lines 2314-2324. -/
def k32 : Block := ⟨[
  lds 3 16, mov 4 3, movI 6 2, stH 28 0 3 6, stH 28 1 3 6, stH 28 2 3 6, stH 28 3 3 6], .jmp 33⟩

/-- Label 31: lines 2325-2334. -/
def k33 : Block := ⟨[lds 4 16, addPI 4 4 8, sts 4 16, zero 14], .jmp 41⟩

/-- `STORE_INT32`: lines 2336-2378. -/
def k34 : Block := ⟨[
  zero 6, zero 7, zero 8, zero 9, zero 10, zero 11, zero 12, zero 13, ldp 1 .dstRows, lds 8 32, sub 1 1 8,
  ldp 2 .dstCols, lds 4 48, sub 2 2 4, movI 3 4, movI 5 2, cmpI 1 4, movGt 1 3, cmp 1 3], .br .eq 36 35⟩

/-- Lines 2379-2383. -/
def k35 : Block := ⟨[mov 3 42, movI 4 16], .jmp 37⟩

/-- Label 30: lines 2385-2390. -/
def k36 : Block := ⟨[ldp 5 .dstStride, lds 3 16, mov 4 5], .jmp 37⟩

/-- Label 31: lines 2392-2398. -/
def k37 : Block := ⟨[stq 14 3], .br .eq 40 38⟩

/-- Lines 2399-2406. -/
def k38 : Block := ⟨[ldp 8 .dstStride, mov 3 42, lds 4 16, movI 5 0], .jmp 39⟩

/-- Label 51: lines 2407-2412. -/
def k39 : Block := ⟨[ldrS 10 3 5, strS 10 4 5, addI 5 5 1, cmp 5 1], .br .lt 39 40⟩

/-- Label 41: lines 2414-2423. -/
def k40 : Block := ⟨[lds 4 16, addPI 4 4 16, sts 4 16, zero 10, zero 11], .jmp 41⟩

/-- `AFTER_STORE`: lines 2425-2440. -/
def k41 : Block := ⟨[ldp 5 .lhsBasePtr, ldp 6 .startRow, ldp 3 .lastRow, lds 8 32, cmp 8 3], .br .eq 43 42⟩

/-- Lines 2441-2446. -/
def k42 : Block := ⟨[addI 8 8 4, sts 8 32], .jmp 44⟩

/-- Label 20: lines 2447-2463. -/
def k43 : Block := ⟨[
  sts 6 32, lds 4 48, addI 4 4 2, sts 4 48, ldp 8 .dstStride, lds 1 0, addP 1 1 8 0, sts 1 0, sts 1 16], .jmp 44⟩

/-- Label 21: lines 2464-2476. -/
def k44 : Block := ⟨[ldp 4 .lastCol, lds 8 48, cmp 8 4, movI 1 16], .br .le 1 45⟩

/-- Line 2479. -/
def k45 : Block := ⟨[addSp 96], .jmp 46⟩

/-- The kernel; it ends at position 46. -/
def kernel : List Block := [
  k0, k1, k2, k3, k4, k5, k6, k7, k8, k9, k10, k11, k12, k13, k14, k15,
  k16, k17, k18, k19, k20, k21, k22, k23, k24, k25, k26, k27, k28, k29, k30, k31,
  k32, k33, k34, k35, k36, k37, k38, k39, k40, k41, k42, k43, k44, k45]

end Ruy.Arm8.One

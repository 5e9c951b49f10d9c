import Verif.Arm8.Isa
/-
The `asm` statement of `Kernel8bitNeon` for ARM32 (kernel_arm32.cc:653-1633) as basic blocks.

Registers of the model: `r0`, …, `r10` are 0, …, 10; `lhs_ptr`, `rhs_ptr`, `dst_tmp_buf` are 34, 35, 42.
Stack slots: `dst_col_ptr` 0, `dst_ptr` 16, `row` 32, `col` 48, `lhs_col_ptr` 64, `rhs_col_ptr` 80
(kernel_arm32.cc:48-54).  A conditional branch ends a block; its second target is the next block, or where an
unconditional branch that follows it goes.  Prefetches (`pld`) have no effect and are left out, as are the `it`
prefixes.
-/
namespace Ruy.Arm8
open Instr

def lp : Nat := 34
def rp : Nat := 35
def tmp : Nat := 42

/-- Start: lines 670-714. -/
def k0 : Block := ⟨[
  ldq 0 34 16, zero 6, zero 7, ldq 1 34 16, zero 8, zero 9, zero 10, ldq 4 35 16, zero 11, ldq 5 35 16, subSp 96,
  ldp 1 .dstBasePtr, zero 12, sts 1 0, ldp 2 .dstBasePtr, zero 13, sts 2 16, ldp 1 .startRow, zero 14, sts 1 32,
  ldp 3 .startCol, zero 15, sts 3 48, ldp 1 .lhsBasePtr, sts 1 64, ldp 2 .rhsBasePtr, sts 2 80, movI 1 16],
  .jmp 1⟩

/-- Label 1: lines 715-721. -/
def k1 : Block := ⟨[ldp 10 .depth, cmp 1 10], .br .eq 3 2⟩

/-- Label 2: lines 723-774. -/
def k2 : Block := ⟨[
  mull 14 0 8, mull 2 0 10, mull 15 2 8, mull 3 2 10, mlal 14 1 9, mlal 2 1 11, mlal 15 3 9, mlal 3 3 11,
  ldq 0 34 16, ldq 1 34 16, padal 6 14, padal 7 15, padal 10 2, padal 11 3, mull 14 0 8, mull 2 0 10, mull 15 2 8,
  mull 3 2 10, mlal 14 1 9, mlal 2 1 11, mlal 15 3 9, mlal 3 3 11, ldq 0 34 16, ldq 1 34 16, padal 8 14,
  ldq 4 35 16, ldq 5 35 16, padal 9 15, padal 12 2, padal 13 3, addI 1 1 16, cmp 1 10], .br .lt 2 3⟩

/-- Label 79: lines 776-855. -/
def k3 : Block := ⟨[
  mull 14 0 8, mull 2 0 10, mull 15 2 8, mull 3 2 10, mlal 14 1 9, mlal 2 1 11, mlal 15 3 9, mlal 3 3 11,
  ldq 0 34 16, ldq 1 34 16, padal 6 14, padal 7 15, padal 10 2, padal 11 3, mull 14 0 8, mull 2 0 10, mull 15 2 8,
  mull 3 2 10, mlal 14 1 9, mlal 2 1 11, mlal 15 3 9, mlal 3 3 11, padal 8 14, padal 9 15, padal 12 2, padal 13 3,
  padd 0 12 13, padd 1 14 15, padd 2 16 17, padd 3 18 19, padd 4 20 21, padd 5 22 23, padd 6 24 25, padd 7 26 27,
  padd 28 0 1, padd 29 2 3, padd 30 4 5, padd 31 6 7, ldp 3 .lastRow, lds 1 32, cmp 1 3], .br .ge 5 4⟩

/-- Lines 857-862. -/
def k4 : Block := ⟨[ldp 1 .lhsStride, lds 4 64, addP 4 4 1 2, sts 4 64], .jmp 7⟩

/-- Label 4: lines 863-878. -/
def k5 : Block := ⟨[ldp 5 .lhsBasePtr, sts 5 64, ldp 4 .lastCol, lds 8 48, cmp 8 4], .br .ge 7 6⟩

/-- Lines 879-884. -/
def k6 : Block := ⟨[ldp 1 .rhsStride, lds 10 80, addP 10 10 1 1, sts 10 80], .jmp 7⟩

/-- Label 5: lines 885-903. -/
def k7 : Block := ⟨[lds 4 64, mov 34 4, lds 5 80, mov 35 5, ldpB 4 .flags, ldp 1 .bias, tst 4 32], .br .ne 9 8⟩

/-- Lines 904-905. -/
def k8 : Block := ⟨[movI 8 32], .jmp 10⟩

/-- Label 1000: line 907. -/
def k9 : Block := ⟨[movI 8 48], .jmp 10⟩

/-- Label 1001: lines 908-915. -/
def k10 : Block := ⟨[ldsR 8 8, tst 4 1], .br .eq 12 11⟩

/-- Line 916. -/
def k11 : Block := ⟨[addP 1 1 8 2], .jmp 12⟩

/-- Label 1002: lines 917-943. -/
def k12 : Block := ⟨[
  ldd 24 1 8, ldq 0 34 16, ldq 1 34 16, ldq 4 35 16, ldq 5 35 16, ldp 3 .prodZpDepth, dupS 9 3, vd .add 24 24 18,
  tst 4 32], .br .ne 14 13⟩

/-- Lines 944-953. -/
def k13 : Block := ⟨[ldd 25 1 0, vd .add 25 25 19, v3 .add 14 14 12, v3 .add 15 15 12], .jmp 15⟩

/-- Label 6: lines 955-960. -/
def k14 : Block := ⟨[dupL 10 24 0, dupL 11 24 1, v3 .add 14 14 10, v3 .add 15 15 11], .jmp 15⟩

/-- Label 7: lines 961-966. -/
def k15 : Block := ⟨[ldpB 6 .flags, tst 6 4], .br .eq 17 16⟩

/-- Lines 967-978. -/
def k16 : Block := ⟨[
  ldp 3 .rhsSums, lds 4 48, addP 3 3 4 2, ldd 12 3 0, ldp 5 .lhsZeroPoint, dupS 10 5, ve .mls 14 10 12 0,
  ve .mls 15 10 12 1], .jmp 17⟩

/-- Label 401: lines 979-983. -/
def k17 : Block := ⟨[ldpB 6 .flags, tst 6 2], .br .eq 19 18⟩

/-- Lines 984-1006. -/
def k18 : Block := ⟨[
  ldp 2 .lhsSums, lds 4 32, addP 2 2 4 2, ldp 5 .rhsZeroPoint, ldq 11 2 0, dupSd 13 5, ve .mul 11 11 13 1,
  v3 .sub 14 14 11, v3 .sub 15 15 11, ldpB 10 .dstTypeId, cmpI 10 4], .br .eq 47 19⟩

/-- Label 402: lines 1008-1022. -/
def k19 : Block := ⟨[ldp 1 .mulExp, ldp 2 .mulFix, tst 6 8], .br .eq 21 20⟩

/-- Lines 1023-1026. -/
def k20 : Block := ⟨[addP 1 1 8 2, addP 2 2 8 2], .jmp 21⟩

/-- Label 1003: lines 1027-1038. -/
def k21 : Block := ⟨[ldd 20 1 8, ldd 12 2 8, tst 6 32, ones 8], .br .ne 23 22⟩

/-- Lines 1039-1057. -/
def k22 : Block := ⟨[
  ldd 21 1 0, ldd 13 2 0, v3 .smin 11 10 8, v3 .sub 10 10 11, v3 .sshl 14 14 10, v3 .sshl 15 15 10,
  v3 .sqdmulh 14 14 6, v3 .sqdmulh 15 15 6, v3 .srshl 14 14 11, v3 .srshl 15 15 11], .jmp 24⟩

/-- Label 8: lines 1059-1078. -/
def k23 : Block := ⟨[
  vd .smin 22 20 16, vd .sub 20 20 22, dupL 12 20 0, dupL 13 20 1, v3 .sshl 14 14 12, v3 .sshl 15 15 13,
  ve .sqdmulh 14 14 12 0, ve .sqdmulh 15 15 12 1, dupL 12 22 0, dupL 13 22 1, v3 .srshl 14 14 12,
  v3 .srshl 15 15 13], .jmp 24⟩

/-- Label 9: lines 1080-1083. -/
def k24 : Block := ⟨[ldpB 10 .dstTypeId, cmpI 10 3], .br .eq 40 25⟩

/-- Lines 1084-1085. -/
def k25 : Block := ⟨[cmpI 10 2], .br .eq 33 26⟩

/-- `STORE_UINT8`: lines 1089-1164. -/
def k26 : Block := ⟨[
  vn .qmovnS 28 14, vn .qmovnS 29 15, zero 6, zero 7, zero 8, zero 9, zero 10, zero 11, zero 12, zero 13, zero 15,
  ldp 4 .dstZeroPoint, dupH 13 4, v3 .sqaddH 14 14 13, vn .qmovun 30 14, ldpB 2 .clampMin, ldpB 3 .clampMax,
  dupBd 28 2, dupBd 29 3, vd .umaxB 30 30 28, vd .uminB 30 30 29, ldp 1 .dstRows, lds 8 32, sub 1 1 8,
  ldp 2 .dstCols, lds 4 48, sub 2 2 4, movI 3 4, movI 5 2, cmpI 1 4, movGt 1 3, cmpI 2 2, movGt 2 5, cmp 1 3,
  cmpEq 2 5, lds 4 16, ldp 5 .dstStride], .br .eq 31 27⟩

/-- Lines 1165-1172. -/
def k27 : Block := ⟨[mov 3 42, std 30 3, movI 6 0], .jmp 28⟩

/-- Label 50: lines 1173-1174. -/
def k28 : Block := ⟨[movI 8 0], .jmp 29⟩

/-- Label 51: lines 1175-1180. -/
def k29 : Block := ⟨[ldrB 10 3 8, strB 10 4 8, addI 8 8 1, cmp 8 1], .br .lt 29 30⟩

/-- Lines 1181-1186. -/
def k30 : Block := ⟨[addI 6 6 1, addPI 3 3 4, addP 4 4 5 0, cmp 6 2], .br .lt 28 32⟩

/-- Label 30: lines 1187-1197. -/
def k31 : Block := ⟨[lds 3 16, mov 4 3, movI 6 1, stS 30 0 3, addP 4 4 5 0, mov 3 4, stS 30 1 3], .jmp 32⟩

/-- Label 31: lines 1199-1210. -/
def k32 : Block := ⟨[lds 4 16, addPI 4 4 4, sts 4 16, zero 13, zero 14, zero 15], .jmp 56⟩

/-- `STORE_INT8`: lines 1213-1288. -/
def k33 : Block := ⟨[
  vn .qmovnS 28 14, vn .qmovnS 29 15, zero 6, zero 7, zero 8, zero 9, zero 10, zero 11, zero 12, zero 13, zero 15,
  ldp 4 .dstZeroPoint, dupH 13 4, v3 .sqaddH 14 14 13, vn .qmovnH 30 14, ldpB 2 .clampMin, ldpB 3 .clampMax,
  dupBd 28 2, dupBd 29 3, vd .smaxB 30 30 28, vd .sminB 30 30 29, ldp 1 .dstRows, lds 8 32, sub 1 1 8,
  ldp 2 .dstCols, lds 4 48, sub 2 2 4, movI 3 4, movI 5 2, cmpI 1 4, movGt 1 3, cmpI 2 2, movGt 2 5, cmp 1 3,
  cmpEq 2 5, lds 4 16, ldp 5 .dstStride], .br .eq 38 34⟩

/-- Lines 1289-1296. -/
def k34 : Block := ⟨[mov 3 42, std 30 3, movI 6 0], .jmp 35⟩

/-- Label 50: lines 1297-1298. -/
def k35 : Block := ⟨[movI 8 0], .jmp 36⟩

/-- Label 51: lines 1299-1304. -/
def k36 : Block := ⟨[ldrB 10 3 8, strB 10 4 8, addI 8 8 1, cmp 8 1], .br .lt 36 37⟩

/-- Lines 1305-1310. -/
def k37 : Block := ⟨[addI 6 6 1, addPI 3 3 4, addP 4 4 5 0, cmp 6 2], .br .lt 35 39⟩

/-- Label 30: lines 1311-1321. -/
def k38 : Block := ⟨[lds 3 16, mov 4 3, movI 6 1, stS 30 0 3, addP 4 4 5 0, mov 3 4, stS 30 1 3], .jmp 39⟩

/-- Label 31: lines 1323-1334. -/
def k39 : Block := ⟨[lds 4 16, addPI 4 4 4, sts 4 16, zero 13, zero 14, zero 15], .jmp 56⟩

/-- `STORE_INT16`: lines 1336-1408. -/
def k40 : Block := ⟨[
  ldpSH 4 .dstZeroPoint, dupS 13 4, v3 .add 14 14 13, v3 .add 15 15 13, vn .qmovnS 28 14, vn .qmovnS 29 15,
  zero 6, zero 7, zero 8, zero 9, zero 10, zero 11, zero 15, ldpH 2 .clampMin, ldpH 3 .clampMax, dupH 12 2,
  dupH 13 3, v3 .smaxH 14 14 12, v3 .sminH 14 14 13, zero 12, zero 13, ldp 1 .dstRows, lds 8 32, sub 1 1 8,
  ldp 2 .dstCols, lds 4 48, sub 2 2 4, movI 3 4, movI 5 2, cmpI 1 4, movGt 1 3, cmpI 2 2, movGt 2 5, cmp 1 3,
  cmpEq 2 5, lds 4 16, ldp 5 .dstStride], .br .eq 45 41⟩

/-- Lines 1409-1416. -/
def k41 : Block := ⟨[mov 3 42, stq 14 3, movI 6 0], .jmp 42⟩

/-- Label 50: lines 1417-1418. -/
def k42 : Block := ⟨[movI 8 0], .jmp 43⟩

/-- Label 51: lines 1419-1428. -/
def k43 : Block := ⟨[lsl1 8 8, ldrH 10 3 8, strH 10 4 8, lsr1 8 8, addI 8 8 1, cmp 8 1], .br .lt 43 44⟩

/-- Lines 1429-1434. -/
def k44 : Block := ⟨[addI 6 6 1, addPI 3 3 8, addP 4 4 5 0, cmp 6 2], .br .lt 42 46⟩

/-- Label 30: lines 1435-1451. -/
def k45 : Block := ⟨[
  lds 3 16, mov 4 3, movI 6 2, stH 28 0 3 6, addP 4 4 5 0, stH 28 1 3 6, stH 28 2 3 6, stH 28 3 3 6, mov 3 4,
  stH 29 0 3 6, stH 29 1 3 6, stH 29 2 3 6, stH 29 3 3 6], .jmp 46⟩

/-- Label 31: lines 1452-1461. -/
def k46 : Block := ⟨[lds 4 16, addPI 4 4 8, sts 4 16, zero 14], .jmp 56⟩

/-- `STORE_INT32`: lines 1463-1511. -/
def k47 : Block := ⟨[
  zero 6, zero 7, zero 8, zero 9, zero 10, zero 11, zero 12, zero 13, ldp 1 .dstRows, lds 8 32, sub 1 1 8,
  ldp 2 .dstCols, lds 4 48, sub 2 2 4, movI 3 4, movI 5 2, cmpI 1 4, movGt 1 3, cmpI 2 2, movGt 2 5, cmp 1 3,
  cmpEq 2 5], .br .eq 49 48⟩

/-- Lines 1512-1516. -/
def k48 : Block := ⟨[mov 3 42, movI 4 16], .jmp 50⟩

/-- Label 30: lines 1518-1523. -/
def k49 : Block := ⟨[ldp 5 .dstStride, lds 3 16, mov 4 5], .jmp 50⟩

/-- Label 31: lines 1525-1533. -/
def k50 : Block := ⟨[stq 14 3, addP 3 3 4 0, stq 15 3], .br .eq 55 51⟩

/-- Lines 1534-1540. -/
def k51 : Block := ⟨[ldp 8 .dstStride, mov 3 42, lds 4 16, movI 6 0], .jmp 52⟩

/-- Label 50: lines 1541-1542. -/
def k52 : Block := ⟨[movI 5 0], .jmp 53⟩

/-- Label 51: lines 1543-1548. -/
def k53 : Block := ⟨[ldrS 10 3 5, strS 10 4 5, addI 5 5 1, cmp 5 1], .br .lt 53 54⟩

/-- Lines 1549-1554. -/
def k54 : Block := ⟨[addI 6 6 1, addPI 3 3 16, addP 4 4 8 0, cmp 6 2], .br .lt 52 55⟩

/-- Label 41: lines 1556-1565. -/
def k55 : Block := ⟨[lds 4 16, addPI 4 4 16, sts 4 16, zero 10, zero 11], .jmp 56⟩

/-- `AFTER_STORE`: lines 1567-1582. -/
def k56 : Block := ⟨[ldp 5 .lhsBasePtr, ldp 6 .startRow, ldp 3 .lastRow, lds 8 32, cmp 8 3], .br .eq 58 57⟩

/-- Lines 1583-1588. -/
def k57 : Block := ⟨[addI 8 8 4, sts 8 32], .jmp 59⟩

/-- Label 20: lines 1589-1605. -/
def k58 : Block := ⟨[
  sts 6 32, lds 4 48, addI 4 4 2, sts 4 48, ldp 8 .dstStride, lds 1 0, addP 1 1 8 1, sts 1 0, sts 1 16], .jmp 59⟩

/-- Label 21: lines 1606-1616. -/
def k59 : Block := ⟨[ldp 4 .lastCol, lds 8 48, cmp 8 4, movI 1 16], .br .le 1 60⟩

/-- Line 1619. -/
def k60 : Block := ⟨[addSp 96], .jmp 61⟩

/-- The kernel; it ends at position 61. -/
def kernel : List Block := [
  k0, k1, k2, k3, k4, k5, k6, k7, k8, k9, k10, k11, k12, k13, k14, k15,
  k16, k17, k18, k19, k20, k21, k22, k23, k24, k25, k26, k27, k28, k29, k30, k31,
  k32, k33, k34, k35, k36, k37, k38, k39, k40, k41, k42, k43, k44, k45, k46, k47,
  k48, k49, k50, k51, k52, k53, k54, k55, k56, k57, k58, k59, k60]

end Ruy.Arm8

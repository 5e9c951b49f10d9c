import Verif.Neon.Isa
import Verif.Neon.Code
/-
The AArch64 kernel `Kernel8bitNeon1Col`, kernel_arm64.cc:1160-1816, as a program for the
machine of `Isa.lean`: every instruction of the `asm` statement, in order.  The operands of the
`asm` statement have the same numbers as those of `Kernel8bitNeon`.
-/
namespace Ruy.Neon

/-- kernel_arm64.cc:1204-1246. -/
def col0 : Block := ⟨[
    .ldpX 5 .lhsBasePtr, .ldpW 6 .startRow, .ldpW 7 .lastRow, .ldpW 8 .lastCol,
    .ldpW 9 .lhsStride, .ldpW 10 .rhsStride, .ldpW 11 .dstStride, .ldpW 12 .depth,
    .ldq 0 lhsPtr 0 16, .ldq 1 lhsPtr 0 16, .ldq 2 lhsPtr 0 16, .ldq 3 lhsPtr 0 16,
    .ldq 4 rhsPtr 0 16, .addXI rhsPtr rhsPtr 48, .movi 16, .movi 17, .movi 18, .movi 19,
    .movI 1 16, .v3 .smull 8 0 4, .v3 .smull 9 1 4, .v3 .smull 10 2 4, .v3 .smull 11 3 4,
    .v3 .smlal2 8 0 4, .v3 .smlal2 9 1 4, .v3 .smlal2 10 2 4, .v3 .smlal2 11 3 4],
  .jmp 1⟩

/-- kernel_arm64.cc:1254-1255 (label 1). -/
def col1 : Block := ⟨[
    .cmpW 1 12],
  .br .eq 3 2⟩

/-- kernel_arm64.cc:1261-1293 (label 2). -/
def col2 : Block := ⟨[
    .v3 .sadalp 16 8 8, .ldq 4 rhsPtr 0 16, .addXI rhsPtr rhsPtr 48, .v3 .sadalp 17 9 9,
    .v3 .sadalp 18 10 10, .v3 .sadalp 19 11 11, .ldq 0 lhsPtr 0 16, .ldq 1 lhsPtr 0 16,
    .ldq 2 lhsPtr 0 16, .ldq 3 lhsPtr 0 16, .v3 .smull 8 0 4, .v3 .smull 9 1 4, .v3 .smull 10 2 4,
    .v3 .smull 11 3 4, .v3 .smlal2 8 0 4, .v3 .smlal2 9 1 4, .v3 .smlal2 10 2 4,
    .v3 .smlal2 11 3 4, .addWI 1 1 16, .cmpW 1 12],
  .br .lt 2 3⟩

/-- kernel_arm64.cc:1297-1327 (label 79). -/
def col3 : Block := ⟨[
    .v3 .sadalp 16 8 8, .v3 .sadalp 17 9 9, .v3 .sadalp 18 10 10, .v3 .sadalp 19 11 11,
    .v3 .addp 16 16 17, .v3 .addp 18 18 19, .v3 .addp 16 16 18, .cmpW rRow 7],
  .br .ge 5 4⟩

/-- kernel_arm64.cc:1329-1330. -/
def col4 : Block := ⟨[
    .addX lhsColPtr lhsColPtr 9 2],
  .jmp 7⟩

/-- kernel_arm64.cc:1332-1341 (label 4). -/
def col5 : Block := ⟨[
    .movX lhsColPtr 5, .cmpW rCol 8],
  .br .ge 7 6⟩

/-- kernel_arm64.cc:1344-1344. -/
def col6 : Block := ⟨[
    .addX rhsColPtr rhsColPtr 10 2],
  .jmp 7⟩

/-- kernel_arm64.cc:1349-1399 (label 5). -/
def col7 : Block := ⟨[
    .movX lhsPtr lhsColPtr, .movX rhsPtr rhsColPtr, .mvni 8, .ldpW 4 .dstZeroPoint,
    .ldpW 3 .prodZpDepth, .insH 13 4 4, .ldpX 4 .mulFix, .ldpB 6 .flags, .dupS 9 3,
    .addX 5 4 rRow 2, .tst 6 8, .cselX 4 4 5 .eq, .ldq 15 4 0 0, .ldpX 1 .bias, .addX 5 1 rRow 2,
    .tst 6 1, .cselX 1 1 5 .eq, .ldq 14 1 0 0, .ldq 0 lhsPtr 0 16, .ldq 1 lhsPtr 0 16,
    .ldq 2 lhsPtr 0 16, .ldq 3 lhsPtr 0 16, .ldq 4 rhsPtr 0 16, .addXI rhsPtr rhsPtr 48,
    .v3 .add 14 14 9, .v3 .add 16 16 14, .tst 6 4],
  .br .eq 9 8⟩

/-- kernel_arm64.cc:1400-1407. -/
def col8 : Block := ⟨[
    .ldpX 3 .rhsSums, .addX 3 3 rCol 2, .ldq 14 3 0 0, .ldpW 5 .lhsZeroPoint, .dupS 10 5,
    .ve .mls 16 10 14 0],
  .jmp 9⟩

/-- kernel_arm64.cc:1410-1411 (label 401). -/
def col9 : Block := ⟨[
    .tst 6 2],
  .br .eq 11 10⟩

/-- kernel_arm64.cc:1412-1427. -/
def col10 : Block := ⟨[
    .ldpX 2 .lhsSums, .addX 2 2 rRow 2, .ldpW 5 .rhsZeroPoint, .ldq 11 2 0 0, .insS 13 1 5,
    .ve .mul 11 11 13 1, .v3 .sub 16 16 11, .cmpI dstTypeId 4],
  .br .eq 35 11⟩

/-- kernel_arm64.cc:1439-1459 (label 402). -/
def col11 : Block := ⟨[
    .ldpX 1 .mulExp, .tst 6 8, .addX 5 1 rRow 2, .cselX 1 1 5 .eq, .ldq 14 1 0 0,
    .v3 .smin 11 8 14, .v3 .sub 12 14 11, .v3 .sshl 16 16 12, .v3 .sqdmulh 16 16 15,
    .v3 .srshl 16 16 11, .cmpI dstTypeId 3],
  .br .eq 27 12⟩

/-- kernel_arm64.cc:1460-1461. -/
def col12 : Block := ⟨[
    .cmpI dstTypeId 2],
  .br .eq 20 13⟩

/-- kernel_arm64.cc:1467-1510 (label RUY_ASM_LABEL_STORE_UINT8). -/
def col13 : Block := ⟨[
    .v3 .sqxtnS 16 16 16, .movi 18, .movi 19, .dupEH 14 13 4, .v3 .sqaddH 16 16 14,
    .v3 .sqxtun 16 16 16, .ldpB 2 .clampMin, .ldpB 3 .clampMax, .dupB 14 2, .dupB 15 3,
    .v3 .umaxB 16 16 14, .v3 .uminB 16 16 15, .subW 1 rDstRows rRow, .movI 3 4, .cmpI 1 4,
    .cselW 1 1 3 .le, .cmpW 1 3, .movX 4 dstPtr],
  .br .eq 18 14⟩

/-- kernel_arm64.cc:1513-1516. -/
def col14 : Block := ⟨[
    .stq 16 tmpBuf 0, .movX 3 tmpBuf, .movI 6 0],
  .jmp 15⟩

/-- kernel_arm64.cc:1519-1519 (label 50). -/
def col15 : Block := ⟨[
    .movI 5 0],
  .jmp 16⟩

/-- kernel_arm64.cc:1521-1525 (label 51). -/
def col16 : Block := ⟨[
    .ldrB 7 3 5, .strB 7 4 5, .addWI 5 5 1, .cmpW 5 1],
  .br .lt 16 17⟩

/-- kernel_arm64.cc:1526-1526. -/
def col17 : Block := ⟨[
   ],
  .jmp 19⟩

/-- kernel_arm64.cc:1530-1534 (label 30). -/
def col18 : Block := ⟨[
    .movX 3 4, .stB 16 0 3, .stB 16 1 3, .stB 16 2 3, .stB 16 3 3],
  .jmp 19⟩

/-- kernel_arm64.cc:1537-1542 (label 31). -/
def col19 : Block := ⟨[
    .addXI dstPtr dstPtr 4, .movi 16, .movi 17],
  .jmp 42⟩

/-- kernel_arm64.cc:1548-1593 (label RUY_ASM_LABEL_STORE_INT8). -/
def col20 : Block := ⟨[
    .v3 .sqxtnS 16 16 16, .movi 18, .movi 19, .dupEH 14 13 4, .v3 .sqaddH 16 16 14,
    .v3 .sqxtnH 16 16 16, .ldpB 2 .clampMin, .ldpB 3 .clampMax, .dupB 14 2, .dupB 15 3,
    .v3 .smaxB 16 16 14, .v3 .sminB 16 16 15, .subW 1 rDstRows rRow, .subW 2 rDstCols rCol,
    .movI 3 4, .cmpI 1 4, .cselW 1 1 3 .le, .cmpI 2 4, .cmpW 1 3, .ccmpEq 2 3, .movX 4 dstPtr],
  .br .eq 25 21⟩

/-- kernel_arm64.cc:1596-1599. -/
def col21 : Block := ⟨[
    .stq 16 tmpBuf 0, .movX 3 tmpBuf, .movI 6 0],
  .jmp 22⟩

/-- kernel_arm64.cc:1602-1602 (label 50). -/
def col22 : Block := ⟨[
    .movI 5 0],
  .jmp 23⟩

/-- kernel_arm64.cc:1604-1608 (label 51). -/
def col23 : Block := ⟨[
    .ldrB 7 3 5, .strB 7 4 5, .addWI 5 5 1, .cmpW 5 1],
  .br .lt 23 24⟩

/-- kernel_arm64.cc:1609-1609. -/
def col24 : Block := ⟨[
   ],
  .jmp 26⟩

/-- kernel_arm64.cc:1613-1617 (label 30). -/
def col25 : Block := ⟨[
    .movX 3 4, .stB 16 0 3, .stB 16 1 3, .stB 16 2 3, .stB 16 3 3],
  .jmp 26⟩

/-- kernel_arm64.cc:1620-1625 (label 31). -/
def col26 : Block := ⟨[
    .addXI dstPtr dstPtr 4, .movi 16, .movi 17],
  .jmp 42⟩

/-- kernel_arm64.cc:1630-1671 (label RUY_ASM_LABEL_STORE_INT16). -/
def col27 : Block := ⟨[
    .dupEH4 14 13 4, .v3 .saddw 16 16 14, .v3 .sqxtnS 16 16 16, .movi 18, .movi 19,
    .ldpH 2 .clampMin, .ldpH 3 .clampMax, .dupH 14 2, .dupH 15 3, .v3 .smaxH 16 16 14,
    .v3 .sminH 16 16 15, .subW 1 rDstRows rRow, .subW 2 rDstCols rCol, .movI 3 4, .cmpI 1 4,
    .cselW 1 1 3 .le, .cmpI 2 4, .cmpW 1 3, .movX 4 dstPtr],
  .br .eq 33 28⟩

/-- kernel_arm64.cc:1674-1677. -/
def col28 : Block := ⟨[
    .stq 16 tmpBuf 0, .movX 3 tmpBuf, .movI 6 0],
  .jmp 29⟩

/-- kernel_arm64.cc:1680-1680 (label 50). -/
def col29 : Block := ⟨[
    .movI 5 0],
  .jmp 30⟩

/-- kernel_arm64.cc:1682-1686 (label 51). -/
def col30 : Block := ⟨[
    .ldrH 7 3 5, .strH 7 4 5, .addWI 5 5 1, .cmpW 5 1],
  .br .lt 30 31⟩

/-- kernel_arm64.cc:1687-1687. -/
def col31 : Block := ⟨[
   ],
  .br .lt 29 32⟩

/-- kernel_arm64.cc:1688-1688. -/
def col32 : Block := ⟨[
   ],
  .jmp 34⟩

/-- kernel_arm64.cc:1692-1696 (label 30). -/
def col33 : Block := ⟨[
    .movX 3 4, .stH 16 0 3, .stH 16 1 3, .stH 16 2 3, .stH 16 3 3],
  .jmp 34⟩

/-- kernel_arm64.cc:1699-1704 (label 31). -/
def col34 : Block := ⟨[
    .addXI dstPtr dstPtr 8, .movi 16, .movi 17],
  .jmp 42⟩

/-- kernel_arm64.cc:1716-1729 (label RUY_ASM_LABEL_STORE_INT32). -/
def col35 : Block := ⟨[
    .subW 1 rDstRows rRow, .subW 2 rDstCols rCol, .movI 3 4, .cmpI 1 4, .cselW 1 1 3 .le,
    .cmpI 2 4, .cmpW 1 3, .ccmpEq 2 3, .movX 4 dstPtr],
  .br .eq 40 36⟩

/-- kernel_arm64.cc:1732-1735. -/
def col36 : Block := ⟨[
    .stq 16 tmpBuf 0, .movX 3 tmpBuf, .movI 6 0],
  .jmp 37⟩

/-- kernel_arm64.cc:1738-1738 (label 50). -/
def col37 : Block := ⟨[
    .movI 5 0],
  .jmp 38⟩

/-- kernel_arm64.cc:1740-1744 (label 51). -/
def col38 : Block := ⟨[
    .ldrS 7 3 5, .strS 7 4 5, .addWI 5 5 1, .cmpW 5 1],
  .br .lt 38 39⟩

/-- kernel_arm64.cc:1745-1745. -/
def col39 : Block := ⟨[
   ],
  .jmp 41⟩

/-- kernel_arm64.cc:1749-1753 (label 30). -/
def col40 : Block := ⟨[
    .movX 3 4, .stS 16 0 3, .stS 16 1 3, .stS 16 2 3, .stS 16 3 3],
  .jmp 41⟩

/-- kernel_arm64.cc:1756-1761 (label 31). -/
def col41 : Block := ⟨[
    .addXI dstPtr dstPtr 16, .movi 16, .movi 17, .movi 18, .movi 19],
  .jmp 42⟩

/-- kernel_arm64.cc:1767-1787 (label RUY_ASM_LABEL_AFTER_STORE). -/
def col42 : Block := ⟨[
    .v3 .smull 8 0 4, .v3 .smull 9 1 4, .v3 .smull 10 2 4, .v3 .smull 11 3 4, .v3 .smlal2 8 0 4,
    .v3 .smlal2 9 1 4, .v3 .smlal2 10 2 4, .v3 .smlal2 11 3 4, .ldpX 5 .lhsBasePtr,
    .ldpW 6 .startRow, .ldpW 7 .lastRow, .cmpW rRow 7],
  .br .eq 44 43⟩

/-- kernel_arm64.cc:1789-1790. -/
def col43 : Block := ⟨[
    .addWI rRow rRow 4],
  .jmp 45⟩

/-- kernel_arm64.cc:1793-1796 (label 20). -/
def col44 : Block := ⟨[
    .movW rRow 6, .addWI rCol rCol 4, .addX dstColPtr dstColPtr 11 2, .movX dstPtr dstColPtr],
  .jmp 45⟩

/-- kernel_arm64.cc:1800-1807 (label 21). -/
def col45 : Block := ⟨[
    .cmpW rCol 8, .movI 1 16],
  .br .le 1 46⟩

/-- The whole `asm` statement of `Kernel8bitNeon1Col`. -/
def colCode : List Block := [
  col0, col1, col2, col3, col4, col5, col6, col7, col8, col9, col10, col11, col12, col13, col14,
  col15, col16, col17, col18, col19, col20, col21, col22, col23, col24, col25, col26, col27, col28,
  col29, col30, col31, col32, col33, col34, col35, col36, col37, col38, col39, col40, col41, col42,
  col43, col44, col45]

end Ruy.Neon

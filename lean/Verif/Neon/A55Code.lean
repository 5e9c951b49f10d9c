import Verif.Neon.Code
/-
The AArch64 kernel `Kernel8bitNeonA55ish`, kernel_arm64.cc:1825-2973, as a program for the
machine of `Isa.lean`: every instruction of the `asm` statement, in order.  The operands of the
`asm` statement have the same numbers as those of `Kernel8bitNeon`.
-/
namespace Ruy.Neon

/-- kernel_arm64.cc:1872-1935. -/
def a55_0 : Block := ⟨[
    .ldpX 5 .lhsBasePtr, .movi 16, .ldpW 6 .startRow, .movi 17, .ldpW 7 .lastRow, .movi 18,
    .ldpW 8 .lastCol, .movi 19, .ldpW 9 .lhsStride, .movi 20, .ldpW 10 .rhsStride, .movi 21,
    .ldpW 11 .dstStride, .movi 22, .ldpW 12 .depth, .movi 23, .ldq 0 lhsPtr 0 16, .movi 24,
    .ldq 1 lhsPtr 0 16, .movi 25, .ldq 2 lhsPtr 0 16, .movi 26, .ldq 3 lhsPtr 0 16, .movi 27,
    .ldq 4 rhsPtr 0 16, .movi 28, .ldq 5 rhsPtr 0 16, .movi 29, .ldq 6 rhsPtr 0 16, .movi 30,
    .ldq 7 rhsPtr 0 16, .movi 31, .movI 1 16, .v3 .smull 8 0 4, .v3 .smull 9 1 4,
    .v3 .smull 10 2 4, .v3 .smull 11 3 4, .v3 .smull 12 0 5, .v3 .smull 13 1 5, .v3 .smull 14 2 5,
    .v3 .smull 15 3 5, .v3 .smlal2 8 0 4, .v3 .smlal2 9 1 4, .v3 .smlal2 10 2 4,
    .v3 .smlal2 11 3 4, .v3 .smlal2 12 0 5, .v3 .smlal2 13 1 5, .v3 .smlal2 14 2 5,
    .v3 .smlal2 15 3 5],
  .jmp 1⟩

/-- kernel_arm64.cc:1944-1945 (label 1). -/
def a55_1 : Block := ⟨[
    .cmpW 1 12],
  .br .eq 3 2⟩

/-- kernel_arm64.cc:1951-2042 (label 2). -/
def a55_2 : Block := ⟨[
    .v3 .sadalp 16 8 8, .ldd 4 rhsPtr 0 0, .v3 .smull 8 0 6, .ldx 7 rhsPtr 8, .v3 .sadalp 17 9 9,
    .ldd 5 rhsPtr 16 0, .v3 .smull 9 1 6, .ldx 8 rhsPtr 24, .v3 .sadalp 18 10 10,
    .v3 .smull 10 2 6, .v3 .sadalp 19 11 11, .addXI lhsPtr lhsPtr 64, .v3 .smull 11 3 6,
    .addXI rhsPtr rhsPtr 64, .v3 .sadalp 20 12 12, .addWI 1 1 16, .v3 .smull 12 0 7, .cmpW 1 12,
    .v3 .sadalp 21 13 13, .ldxN 3 lhsPtr 56, .v3 .smull 13 1 7, .ldxN 4 lhsPtr 40,
    .v3 .sadalp 22 14 14, .ldxN 5 lhsPtr 24, .v3 .smull 14 2 7, .ldxN 6 lhsPtr 8,
    .v3 .sadalp 23 15 15, .v3 .smull 15 3 7, .v3 .smlal2 8 0 6, .v3 .smlal2 9 1 6,
    .v3 .smlal2 10 2 6, .ldxN 9 rhsPtr 24, .v3 .smlal2 11 3 6, .lddN 6 rhsPtr 32,
    .v3 .smlal2 12 0 7, .lddN 0 lhsPtr 64, .v3 .smlal2 13 1 7, .lddN 1 lhsPtr 48,
    .v3 .smlal2 14 2 7, .insD 4 1 7, .v3 .smlal2 15 3 7, .insD 5 1 8, .lddN 2 lhsPtr 32,
    .insD 0 1 3, .v3 .sadalp 24 8 8, .lddN 3 lhsPtr 16, .insD 1 1 4, .v3 .smull 8 0 4,
    .insD 2 1 5, .v3 .sadalp 25 9 9, .insD 3 1 6, .v3 .smull 9 1 4, .lddN 7 rhsPtr 16,
    .v3 .sadalp 26 10 10, .ldxN 10 rhsPtr 8, .v3 .smull 10 2 4, .v3 .sadalp 27 11 11,
    .v3 .smull 11 3 4, .v3 .sadalp 28 12 12, .v3 .smull 12 0 5, .v3 .sadalp 29 13 13,
    .v3 .smull 13 1 5, .v3 .sadalp 30 14 14, .v3 .smull 14 2 5, .v3 .sadalp 31 15 15,
    .v3 .smull 15 3 5, .v3 .smlal2 8 0 4, .v3 .smlal2 9 1 4, .v3 .smlal2 10 2 4,
    .v3 .smlal2 11 3 4, .v3 .smlal2 12 0 5, .v3 .smlal2 13 1 5, .insD 6 1 9, .v3 .smlal2 14 2 5,
    .insD 7 1 10, .v3 .smlal2 15 3 5],
  .br .lt 2 3⟩

/-- kernel_arm64.cc:2046-2126 (label 79). -/
def a55_3 : Block := ⟨[
    .v3 .sadalp 16 8 8, .v3 .smull 8 0 6, .v3 .sadalp 17 9 9, .v3 .smull 9 1 6,
    .v3 .sadalp 18 10 10, .v3 .smull 10 2 6, .v3 .sadalp 19 11 11, .v3 .smull 11 3 6,
    .v3 .sadalp 20 12 12, .v3 .smull 12 0 7, .v3 .sadalp 21 13 13, .v3 .smull 13 1 7,
    .v3 .sadalp 22 14 14, .v3 .smull 14 2 7, .v3 .sadalp 23 15 15, .v3 .smull 15 3 7,
    .v3 .smlal2 8 0 6, .v3 .smlal2 9 1 6, .v3 .smlal2 10 2 6, .v3 .smlal2 11 3 6,
    .v3 .smlal2 12 0 7, .v3 .smlal2 13 1 7, .v3 .smlal2 14 2 7, .v3 .smlal2 15 3 7,
    .v3 .sadalp 24 8 8, .ldpX 5 .lhsBasePtr, .v3 .sadalp 25 9 9, .ldpW 6 .startRow,
    .v3 .sadalp 26 10 10, .ldpW 7 .lastRow, .v3 .sadalp 27 11 11, .ldpW 8 .lastCol,
    .v3 .sadalp 28 12 12, .ldpW 9 .lhsStride, .v3 .sadalp 29 13 13, .ldpW 10 .rhsStride,
    .v3 .sadalp 30 14 14, .v3 .sadalp 31 15 15, .v3 .addp 16 16 17, .v3 .addp 18 18 19,
    .v3 .addp 20 20 21, .v3 .addp 22 22 23, .v3 .addp 24 24 25, .v3 .addp 26 26 27,
    .v3 .addp 28 28 29, .v3 .addp 30 30 31, .v3 .addp 16 16 18, .v3 .addp 17 20 22,
    .v3 .addp 18 24 26, .v3 .addp 19 28 30, .cmpW rRow 7],
  .br .ge 5 4⟩

/-- kernel_arm64.cc:2128-2129. -/
def a55_4 : Block := ⟨[
    .addX lhsColPtr lhsColPtr 9 2],
  .jmp 7⟩

/-- kernel_arm64.cc:2131-2140 (label 4). -/
def a55_5 : Block := ⟨[
    .movX lhsColPtr 5, .cmpW rCol 8],
  .br .ge 7 6⟩

/-- kernel_arm64.cc:2142-2142. -/
def a55_6 : Block := ⟨[
    .addX rhsColPtr rhsColPtr 10 2],
  .jmp 7⟩

/-- kernel_arm64.cc:2147-2196 (label 5). -/
def a55_7 : Block := ⟨[
    .movX lhsPtr lhsColPtr, .movX rhsPtr rhsColPtr, .mvni 8, .ldpW 4 .dstZeroPoint,
    .ldpW 3 .prodZpDepth, .insH 13 4 4, .ldpX 4 .mulFix, .ldpB 6 .flags, .dupS 9 3, .ldpX 1 .bias,
    .tst 6 32, .cselW 3 rRow rCol .eq, .addX 5 1 3 2, .tst 6 1, .cselX 1 1 5 .eq, .ldq 14 1 0 0,
    .addX 5 4 3 2, .tst 6 8, .cselX 4 4 5 .eq, .ldq 15 4 0 0, .v3 .add 14 14 9, .ldd 0 lhsPtr 0 0,
    .tst 6 32],
  .br .ne 9 8⟩

/-- kernel_arm64.cc:2199-2211. -/
def a55_8 : Block := ⟨[
    .v3 .add 16 16 14, .ldd 1 lhsPtr 16 0, .v3 .add 17 17 14, .ldd 2 lhsPtr 32 0,
    .v3 .add 18 18 14, .ldd 3 lhsPtr 48 0, .v3 .add 19 19 14, .ldd 4 rhsPtr 0 0,
    .ldd 5 rhsPtr 16 0, .ldd 6 rhsPtr 32 0, .ldd 7 rhsPtr 48 0],
  .jmp 10⟩

/-- kernel_arm64.cc:2215-2229 (label 6). -/
def a55_9 : Block := ⟨[
    .dupES 20 14 0, .ldd 1 lhsPtr 16 0, .dupES 21 14 1, .ldd 2 lhsPtr 32 0, .dupES 22 14 2,
    .ldd 3 lhsPtr 48 0, .dupES 23 14 3, .ldd 4 rhsPtr 0 0, .v3 .add 16 16 20, .ldd 5 rhsPtr 16 0,
    .v3 .add 17 17 21, .ldd 6 rhsPtr 32 0, .v3 .add 18 18 22, .ldd 7 rhsPtr 48 0,
    .v3 .add 19 19 23],
  .jmp 10⟩

/-- kernel_arm64.cc:2232-2233 (label 7). -/
def a55_10 : Block := ⟨[
    .tst 6 4],
  .br .eq 12 11⟩

/-- kernel_arm64.cc:2234-2244. -/
def a55_11 : Block := ⟨[
    .ldpX 3 .rhsSums, .addX 3 3 rCol 2, .ldq 14 3 0 0, .ldpW 5 .lhsZeroPoint, .dupS 10 5,
    .ve .mls 16 10 14 0, .ve .mls 17 10 14 1, .ve .mls 18 10 14 2, .ve .mls 19 10 14 3],
  .jmp 12⟩

/-- kernel_arm64.cc:2247-2248 (label 401). -/
def a55_12 : Block := ⟨[
    .tst 6 2],
  .br .eq 14 13⟩

/-- kernel_arm64.cc:2249-2267. -/
def a55_13 : Block := ⟨[
    .ldpX 2 .lhsSums, .addX 2 2 rRow 2, .ldpW 5 .rhsZeroPoint, .ldq 11 2 0 0, .insS 13 1 5,
    .ve .mul 11 11 13 1, .v3 .sub 16 16 11, .v3 .sub 17 17 11, .v3 .sub 18 18 11,
    .v3 .sub 19 19 11, .cmpI dstTypeId 4],
  .br .eq 43 14⟩

/-- kernel_arm64.cc:2279-2295 (label 402). -/
def a55_14 : Block := ⟨[
    .tst 6 32, .cselW 3 rRow rCol .eq, .ldpX 1 .mulExp, .tst 6 8, .addX 5 1 3 2, .cselX 1 1 5 .eq,
    .ldq 14 1 0 0, .v3 .smin 11 8 14, .ldx 1 lhsPtr 8, .v3 .sub 12 14 11, .tst 6 32],
  .br .ne 16 15⟩

/-- kernel_arm64.cc:2300-2329. -/
def a55_15 : Block := ⟨[
    .v3 .sshl 16 16 12, .ldx 2 lhsPtr 24, .v3 .sshl 17 17 12, .ldx 3 lhsPtr 40,
    .v3 .sshl 18 18 12, .ldx 4 lhsPtr 56, .v3 .sshl 19 19 12, .insD 0 1 1, .ldx 1 rhsPtr 8,
    .v3 .sqdmulh 16 16 15, .insD 1 1 2, .ldx 2 rhsPtr 24, .v3 .sqdmulh 17 17 15, .insD 2 1 3,
    .ldx 3 rhsPtr 40, .v3 .sqdmulh 18 18 15, .insD 3 1 4, .ldx 4 rhsPtr 56, .v3 .sqdmulh 19 19 15,
    .v3 .srshl 16 16 11, .v3 .srshl 17 17 11, .v3 .srshl 18 18 11, .v3 .srshl 19 19 11],
  .jmp 17⟩

/-- kernel_arm64.cc:2335-2369 (label 8). -/
def a55_16 : Block := ⟨[
    .dupES 20 12 0, .ldx 2 lhsPtr 24, .ldx 3 lhsPtr 40, .dupES 21 12 1, .ldx 4 lhsPtr 56,
    .dupES 22 12 2, .insD 0 1 1, .dupES 23 12 3, .ldx 1 rhsPtr 8, .v3 .sshl 16 16 20, .insD 1 1 2,
    .v3 .sshl 17 17 21, .ldx 2 rhsPtr 24, .v3 .sshl 18 18 22, .insD 2 1 3, .v3 .sshl 19 19 23,
    .ldx 3 rhsPtr 40, .ve .sqdmulh 16 16 15 0, .insD 3 1 4, .ve .sqdmulh 17 17 15 1,
    .ldx 4 rhsPtr 56, .ve .sqdmulh 18 18 15 2, .dupES 20 11 0, .ve .sqdmulh 19 19 15 3,
    .dupES 21 11 1, .v3 .srshl 16 16 20, .dupES 22 11 2, .v3 .srshl 17 17 21, .dupES 23 11 3,
    .v3 .srshl 18 18 22, .v3 .srshl 19 19 23],
  .jmp 17⟩

/-- kernel_arm64.cc:2373-2374 (label 9). -/
def a55_17 : Block := ⟨[
    .cmpI dstTypeId 3],
  .br .eq 35 18⟩

/-- kernel_arm64.cc:2375-2376. -/
def a55_18 : Block := ⟨[
    .cmpI dstTypeId 2],
  .br .eq 27 19⟩

/-- kernel_arm64.cc:2380-2449 (label RUY_ASM_LABEL_STORE_UINT8). -/
def a55_19 : Block := ⟨[
    .insD 4 1 1, .v3 .sqxtnS 16 16 16, .insD 5 1 2, .v3 .sqxtnS2 16 17 17, .insD 6 1 3,
    .v3 .sqxtnS 17 18 18, .insD 7 1 4, .movi 18, .v3 .sqxtnS2 17 19 19, .movi 19,
    .addXI lhsPtr lhsPtr 64, .dupEH 14 13 4, .movi 20, .addXI rhsPtr rhsPtr 64,
    .v3 .sqaddH 16 16 14, .movi 21, .v3 .sqaddH 17 17 14, .movi 22, .v3 .sqxtun 16 16 16,
    .movi 23, .v3 .sqxtun2 16 17 17, .movi 24, .ldpB 2 .clampMin, .movi 25, .ldpB 3 .clampMax,
    .movi 26, .dupB 14 2, .movi 27, .dupB 15 3, .movi 28, .v3 .umaxB 16 16 14, .movi 29,
    .v3 .uminB 16 16 15, .movi 30, .subW 1 rDstRows rRow, .movi 31, .subW 2 rDstCols rCol,
    .movI 3 4, .cmpI 1 4, .cselW 1 1 3 .le, .cmpI 2 4, .cselW 2 2 3 .le, .cmpW 1 3, .ccmpEq 2 3,
    .movX 4 dstPtr],
  .br .eq 25 20⟩

/-- kernel_arm64.cc:2452-2455. -/
def a55_20 : Block := ⟨[
    .stq 16 tmpBuf 0, .movX 3 tmpBuf, .movI 6 0],
  .jmp 21⟩

/-- kernel_arm64.cc:2458-2458 (label 50). -/
def a55_21 : Block := ⟨[
    .movI 5 0],
  .jmp 22⟩

/-- kernel_arm64.cc:2460-2464 (label 51). -/
def a55_22 : Block := ⟨[
    .ldrB 7 3 5, .strB 7 4 5, .addWI 5 5 1, .cmpW 5 1],
  .br .lt 22 23⟩

/-- kernel_arm64.cc:2465-2469. -/
def a55_23 : Block := ⟨[
    .addWI 6 6 1, .addXI 3 3 4, .addX 4 4 11 0, .cmpW 6 2],
  .br .lt 21 24⟩

/-- kernel_arm64.cc:2470-2470. -/
def a55_24 : Block := ⟨[
   ],
  .jmp 26⟩

/-- kernel_arm64.cc:2474-2500 (label 30). -/
def a55_25 : Block := ⟨[
    .movX 3 4, .stB 16 0 3, .addX 4 4 11 0, .stB 16 1 3, .stB 16 2 3, .stB 16 3 3, .movX 3 4,
    .stB 16 4 3, .addX 4 4 11 0, .stB 16 5 3, .stB 16 6 3, .stB 16 7 3, .movX 3 4, .stB 16 8 3,
    .addX 4 4 11 0, .stB 16 9 3, .stB 16 10 3, .stB 16 11 3, .movX 3 4, .stB 16 12 3,
    .addX 4 4 11 0, .stB 16 13 3, .stB 16 14 3, .stB 16 15 3],
  .jmp 26⟩

/-- kernel_arm64.cc:2503-2508 (label 31). -/
def a55_26 : Block := ⟨[
    .addXI dstPtr dstPtr 4, .movi 16, .movi 17],
  .jmp 51⟩

/-- kernel_arm64.cc:2512-2581 (label RUY_ASM_LABEL_STORE_INT8). -/
def a55_27 : Block := ⟨[
    .insD 4 1 1, .v3 .sqxtnS 16 16 16, .insD 5 1 2, .v3 .sqxtnS2 16 17 17, .insD 6 1 3,
    .v3 .sqxtnS 17 18 18, .insD 7 1 4, .movi 18, .v3 .sqxtnS2 17 19 19, .movi 19,
    .addXI lhsPtr lhsPtr 64, .dupEH 14 13 4, .movi 20, .addXI rhsPtr rhsPtr 64,
    .v3 .sqaddH 16 16 14, .movi 21, .v3 .sqaddH 17 17 14, .movi 22, .v3 .sqxtnH 16 16 16,
    .movi 23, .v3 .sqxtnH2 16 17 17, .movi 24, .ldpB 2 .clampMin, .movi 25, .ldpB 3 .clampMax,
    .movi 26, .dupB 14 2, .movi 27, .dupB 15 3, .movi 28, .v3 .smaxB 16 16 14, .movi 29,
    .v3 .sminB 16 16 15, .movi 30, .subW 1 rDstRows rRow, .movi 31, .subW 2 rDstCols rCol,
    .movI 3 4, .cmpI 1 4, .cselW 1 1 3 .le, .cmpI 2 4, .cselW 2 2 3 .le, .cmpW 1 3, .ccmpEq 2 3,
    .movX 4 dstPtr],
  .br .eq 33 28⟩

/-- kernel_arm64.cc:2584-2587. -/
def a55_28 : Block := ⟨[
    .stq 16 tmpBuf 0, .movX 3 tmpBuf, .movI 6 0],
  .jmp 29⟩

/-- kernel_arm64.cc:2590-2590 (label 50). -/
def a55_29 : Block := ⟨[
    .movI 5 0],
  .jmp 30⟩

/-- kernel_arm64.cc:2592-2596 (label 51). -/
def a55_30 : Block := ⟨[
    .ldrB 7 3 5, .strB 7 4 5, .addWI 5 5 1, .cmpW 5 1],
  .br .lt 30 31⟩

/-- kernel_arm64.cc:2597-2601. -/
def a55_31 : Block := ⟨[
    .addWI 6 6 1, .addXI 3 3 4, .addX 4 4 11 0, .cmpW 6 2],
  .br .lt 29 32⟩

/-- kernel_arm64.cc:2602-2602. -/
def a55_32 : Block := ⟨[
   ],
  .jmp 34⟩

/-- kernel_arm64.cc:2606-2632 (label 30). -/
def a55_33 : Block := ⟨[
    .movX 3 4, .stB 16 0 3, .addX 4 4 11 0, .stB 16 1 3, .stB 16 2 3, .stB 16 3 3, .movX 3 4,
    .stB 16 4 3, .addX 4 4 11 0, .stB 16 5 3, .stB 16 6 3, .stB 16 7 3, .movX 3 4, .stB 16 8 3,
    .addX 4 4 11 0, .stB 16 9 3, .stB 16 10 3, .stB 16 11 3, .movX 3 4, .stB 16 12 3,
    .addX 4 4 11 0, .stB 16 13 3, .stB 16 14 3, .stB 16 15 3],
  .jmp 34⟩

/-- kernel_arm64.cc:2635-2640 (label 31). -/
def a55_34 : Block := ⟨[
    .addXI dstPtr dstPtr 4, .movi 16, .movi 17],
  .jmp 51⟩

/-- kernel_arm64.cc:2645-2716 (label RUY_ASM_LABEL_STORE_INT16). -/
def a55_35 : Block := ⟨[
    .dupEH4 14 13 4, .v3 .saddw 16 16 14, .v3 .saddw 17 17 14, .v3 .saddw 18 18 14,
    .v3 .saddw 19 19 14, .insD 4 1 1, .v3 .sqxtnS 16 16 16, .insD 5 1 2, .v3 .sqxtnS2 16 17 17,
    .insD 6 1 3, .v3 .sqxtnS 17 18 18, .insD 7 1 4, .movi 18, .v3 .sqxtnS2 17 19 19, .movi 19,
    .addXI lhsPtr lhsPtr 64, .movi 20, .addXI rhsPtr rhsPtr 64, .movi 21, .movi 22, .movi 23,
    .movi 24, .ldpH 2 .clampMin, .movi 25, .ldpH 3 .clampMax, .movi 26, .dupH 14 2, .movi 27,
    .dupH 15 3, .movi 28, .v3 .smaxH 16 16 14, .v3 .smaxH 17 17 14, .movi 29, .v3 .sminH 16 16 15,
    .v3 .sminH 17 17 15, .movi 30, .subW 1 rDstRows rRow, .movi 31, .subW 2 rDstCols rCol,
    .movI 3 4, .cmpI 1 4, .cselW 1 1 3 .le, .cmpI 2 4, .cselW 2 2 3 .le, .cmpW 1 3, .ccmpEq 2 3,
    .movX 4 dstPtr],
  .br .eq 41 36⟩

/-- kernel_arm64.cc:2719-2723. -/
def a55_36 : Block := ⟨[
    .stq 16 tmpBuf 0, .stq 17 tmpBuf 16, .movX 3 tmpBuf, .movI 6 0],
  .jmp 37⟩

/-- kernel_arm64.cc:2726-2726 (label 50). -/
def a55_37 : Block := ⟨[
    .movI 5 0],
  .jmp 38⟩

/-- kernel_arm64.cc:2728-2732 (label 51). -/
def a55_38 : Block := ⟨[
    .ldrH 7 3 5, .strH 7 4 5, .addWI 5 5 1, .cmpW 5 1],
  .br .lt 38 39⟩

/-- kernel_arm64.cc:2733-2737. -/
def a55_39 : Block := ⟨[
    .addWI 6 6 1, .addXI 3 3 8, .addX 4 4 11 0, .cmpW 6 2],
  .br .lt 37 40⟩

/-- kernel_arm64.cc:2738-2738. -/
def a55_40 : Block := ⟨[
   ],
  .jmp 42⟩

/-- kernel_arm64.cc:2742-2768 (label 30). -/
def a55_41 : Block := ⟨[
    .movX 3 4, .stH 16 0 3, .addX 4 4 11 0, .stH 16 1 3, .stH 16 2 3, .stH 16 3 3, .movX 3 4,
    .stH 16 4 3, .addX 4 4 11 0, .stH 16 5 3, .stH 16 6 3, .stH 16 7 3, .movX 3 4, .stH 17 0 3,
    .addX 4 4 11 0, .stH 17 1 3, .stH 17 2 3, .stH 17 3 3, .movX 3 4, .stH 17 4 3, .addX 4 4 11 0,
    .stH 17 5 3, .stH 17 6 3, .stH 17 7 3],
  .jmp 42⟩

/-- kernel_arm64.cc:2771-2776 (label 31). -/
def a55_42 : Block := ⟨[
    .addXI dstPtr dstPtr 8, .movi 16, .movi 17],
  .jmp 51⟩

/-- kernel_arm64.cc:2780-2841 (label RUY_ASM_LABEL_STORE_INT32). -/
def a55_43 : Block := ⟨[
    .ldx 1 lhsPtr 8, .ldx 2 lhsPtr 24, .ldx 3 lhsPtr 40, .ldx 4 lhsPtr 56, .insD 0 1 1,
    .ldx 1 rhsPtr 8, .insD 1 1 2, .ldx 2 rhsPtr 24, .insD 2 1 3, .ldx 3 rhsPtr 40, .insD 3 1 4,
    .ldx 4 rhsPtr 56, .insD 4 1 1, .insD 5 1 2, .insD 6 1 3, .insD 7 1 4, .movi 20,
    .addXI lhsPtr lhsPtr 64, .movi 21, .addXI rhsPtr rhsPtr 64, .movi 22, .movi 23, .movi 24,
    .movi 25, .movi 26, .movi 27, .movi 28, .movi 29, .movi 30, .subW 1 rDstRows rRow, .movi 31,
    .subW 2 rDstCols rCol, .movI 3 4, .cmpI 1 4, .cselW 1 1 3 .le, .cmpI 2 4, .cselW 2 2 3 .le,
    .cmpW 1 3, .ccmpEq 2 3, .movX 4 dstPtr],
  .br .eq 49 44⟩

/-- kernel_arm64.cc:2844-2850. -/
def a55_44 : Block := ⟨[
    .stq 16 tmpBuf 0, .stq 17 tmpBuf 16, .stq 18 tmpBuf 32, .stq 19 tmpBuf 48, .movX 3 tmpBuf,
    .movI 6 0],
  .jmp 45⟩

/-- kernel_arm64.cc:2853-2853 (label 50). -/
def a55_45 : Block := ⟨[
    .movI 5 0],
  .jmp 46⟩

/-- kernel_arm64.cc:2855-2859 (label 51). -/
def a55_46 : Block := ⟨[
    .ldrS 7 3 5, .strS 7 4 5, .addWI 5 5 1, .cmpW 5 1],
  .br .lt 46 47⟩

/-- kernel_arm64.cc:2860-2864. -/
def a55_47 : Block := ⟨[
    .addWI 6 6 1, .addXI 3 3 16, .addX 4 4 11 0, .cmpW 6 2],
  .br .lt 45 48⟩

/-- kernel_arm64.cc:2865-2865. -/
def a55_48 : Block := ⟨[
   ],
  .jmp 50⟩

/-- kernel_arm64.cc:2869-2895 (label 30). -/
def a55_49 : Block := ⟨[
    .movX 3 4, .stS 16 0 3, .addX 4 4 11 0, .stS 16 1 3, .stS 16 2 3, .stS 16 3 3, .movX 3 4,
    .stS 17 0 3, .addX 4 4 11 0, .stS 17 1 3, .stS 17 2 3, .stS 17 3 3, .movX 3 4, .stS 18 0 3,
    .addX 4 4 11 0, .stS 18 1 3, .stS 18 2 3, .stS 18 3 3, .movX 3 4, .stS 19 0 3, .addX 4 4 11 0,
    .stS 19 1 3, .stS 19 2 3, .stS 19 3 3],
  .jmp 50⟩

/-- kernel_arm64.cc:2898-2903 (label 31). -/
def a55_50 : Block := ⟨[
    .addXI dstPtr dstPtr 16, .movi 16, .movi 17, .movi 18, .movi 19],
  .jmp 51⟩

/-- kernel_arm64.cc:2909-2937 (label RUY_ASM_LABEL_AFTER_STORE). -/
def a55_51 : Block := ⟨[
    .v3 .smull 8 0 4, .v3 .smull 9 1 4, .v3 .smull 10 2 4, .ldpX 5 .lhsBasePtr, .v3 .smull 11 3 4,
    .ldpW 6 .startRow, .v3 .smull 12 0 5, .ldpW 7 .lastRow, .v3 .smull 13 1 5, .v3 .smull 14 2 5,
    .v3 .smull 15 3 5, .cmpW rRow 7, .v3 .smlal2 8 0 4, .v3 .smlal2 9 1 4, .v3 .smlal2 10 2 4,
    .v3 .smlal2 11 3 4, .v3 .smlal2 12 0 5, .v3 .smlal2 13 1 5, .v3 .smlal2 14 2 5,
    .v3 .smlal2 15 3 5],
  .br .eq 53 52⟩

/-- kernel_arm64.cc:2939-2940. -/
def a55_52 : Block := ⟨[
    .addWI rRow rRow 4],
  .jmp 54⟩

/-- kernel_arm64.cc:2943-2946 (label 20). -/
def a55_53 : Block := ⟨[
    .movW rRow 6, .addWI rCol rCol 4, .addX dstColPtr dstColPtr 11 2, .movX dstPtr dstColPtr],
  .jmp 54⟩

/-- kernel_arm64.cc:2950-2957 (label 21). -/
def a55_54 : Block := ⟨[
    .cmpW rCol 8, .movI 1 16],
  .br .le 1 55⟩

/-- The whole `asm` statement of `Kernel8bitNeonA55ish`. -/
def a55Code : List Block := [
  a55_0, a55_1, a55_2, a55_3, a55_4, a55_5, a55_6, a55_7, a55_8, a55_9, a55_10, a55_11, a55_12,
  a55_13, a55_14, a55_15, a55_16, a55_17, a55_18, a55_19, a55_20, a55_21, a55_22, a55_23, a55_24,
  a55_25, a55_26, a55_27, a55_28, a55_29, a55_30, a55_31, a55_32, a55_33, a55_34, a55_35, a55_36,
  a55_37, a55_38, a55_39, a55_40, a55_41, a55_42, a55_43, a55_44, a55_45, a55_46, a55_47, a55_48,
  a55_49, a55_50, a55_51, a55_52, a55_53, a55_54]

end Ruy.Neon

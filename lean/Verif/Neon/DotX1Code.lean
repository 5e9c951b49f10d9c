import Verif.Neon.DotCode
/-
The AArch64 kernel `Kernel8bitNeonDotprodX1`, kernel_arm64.cc:4414-5665, as a program for the
machine of `Isa.lean`: every instruction of the `asm` statement, in order.
-/
namespace Ruy.Neon

/-- kernel_arm64.cc:4466-4509. -/
def dotx0 : Block := ⟨[
    .ldpX 5 .lhsBasePtr, .ldpW 6 .startRow, .ldpW 7 .lastRow, .ldpW 8 .lastCol,
    .ldpW 9 .lhsStride, .ldpW 10 .rhsStride, .ldpW 11 .dstStride, .ldpW 12 .depth,
    .ldq 0 lhsPtr 0 16, .ldq 1 lhsPtr 0 16, .ldq 2 rhsPtr 0 16, .ldq 3 rhsPtr 0 16, .movi 16,
    .movi 17, .movi 18, .movi 19, .movi 20, .movi 21, .movi 22, .movi 23, .movi 24, .movi 25,
    .movi 26, .movi 27, .movi 28, .movi 29, .movi 30, .movi 31, .movI 1 4, .ve .sdot 16 0 2 0,
    .ve .sdot 18 0 2 1, .ve .sdot 20 0 2 2, .ve .sdot 22 0 2 3],
  .jmp 1⟩

/-- kernel_arm64.cc:4518-4519 (label 1). -/
def dotx1 : Block := ⟨[
    .cmpW 1 12],
  .br .eq 3 2⟩

/-- kernel_arm64.cc:4525-4550 (label 2). -/
def dotx2 : Block := ⟨[
    .ve .sdot 24 0 3 0, .ve .sdot 26 0 3 1, .addWI 1 1 4, .ve .sdot 28 0 3 2, .ve .sdot 30 0 3 3,
    .ldq 0 lhsPtr 0 16, .ve .sdot 17 1 2 0, .ve .sdot 19 1 2 1, .cmpW 1 12, .ve .sdot 21 1 2 2,
    .ve .sdot 23 1 2 3, .ldq 2 rhsPtr 0 16, .ve .sdot 25 1 3 0, .ve .sdot 27 1 3 1,
    .ve .sdot 29 1 3 2, .ve .sdot 31 1 3 3, .ldq 3 rhsPtr 0 16, .ve .sdot 16 0 2 0,
    .ve .sdot 18 0 2 1, .ve .sdot 20 0 2 2, .ve .sdot 22 0 2 3, .ldq 1 lhsPtr 0 16],
  .br .lt 2 3⟩

/-- kernel_arm64.cc:4557-4587 (label 79). -/
def dotx3 : Block := ⟨[
    .ve .sdot 24 0 3 0, .ve .sdot 26 0 3 1, .ve .sdot 28 0 3 2, .ve .sdot 30 0 3 3,
    .ve .sdot 17 1 2 0, .ve .sdot 19 1 2 1, .ve .sdot 21 1 2 2, .ve .sdot 23 1 2 3,
    .ve .sdot 25 1 3 0, .ve .sdot 27 1 3 1, .ve .sdot 29 1 3 2, .ve .sdot 31 1 3 3, .cmpW rRow 7],
  .br .ge 5 4⟩

/-- kernel_arm64.cc:4589-4590. -/
def dotx4 : Block := ⟨[
    .addX lhsColPtr lhsColPtr 9 3],
  .jmp 7⟩

/-- kernel_arm64.cc:4592-4601 (label 4). -/
def dotx5 : Block := ⟨[
    .movX lhsColPtr 5, .cmpW rCol 8],
  .br .ge 7 6⟩

/-- kernel_arm64.cc:4603-4603. -/
def dotx6 : Block := ⟨[
    .addX rhsColPtr rhsColPtr 10 3],
  .jmp 7⟩

/-- kernel_arm64.cc:4608-4652 (label 5). -/
def dotx7 : Block := ⟨[
    .movX lhsPtr lhsColPtr, .movX rhsPtr rhsColPtr, .mvni 8, .ldpW 3 .prodZpDepth, .ldpB 6 .flags,
    .dupS 9 3, .ldpX 1 .bias, .tst 6 32, .cselW 3 rRow rCol .eq, .addX 5 1 3 2, .tst 6 1,
    .cselX 1 1 5 .eq, .ldq 14 1 0 16, .ldq 15 1 0 0, .ldq 0 lhsPtr 0 16, .ldq 1 lhsPtr 0 16,
    .ldq 2 rhsPtr 0 16, .ldq 3 rhsPtr 0 16, .v3 .add 14 14 9, .v3 .add 15 15 9, .tst 6 32],
  .br .ne 9 8⟩

/-- kernel_arm64.cc:4654-4670. -/
def dotx8 : Block := ⟨[
    .v3 .add 16 16 14, .v3 .add 17 17 15, .v3 .add 18 18 14, .v3 .add 19 19 15, .v3 .add 20 20 14,
    .v3 .add 21 21 15, .v3 .add 22 22 14, .v3 .add 23 23 15, .v3 .add 24 24 14, .v3 .add 25 25 15,
    .v3 .add 26 26 14, .v3 .add 27 27 15, .v3 .add 28 28 14, .v3 .add 29 29 15, .v3 .add 30 30 14,
    .v3 .add 31 31 15],
  .jmp 10⟩

/-- kernel_arm64.cc:4674-4697 (label 6). -/
def dotx9 : Block := ⟨[
    .dupES 10 14 0, .dupES 11 14 1, .dupES 12 14 2, .dupES 13 14 3, .v3 .add 16 16 10,
    .v3 .add 17 17 10, .v3 .add 18 18 11, .v3 .add 19 19 11, .v3 .add 20 20 12, .v3 .add 21 21 12,
    .v3 .add 22 22 13, .v3 .add 23 23 13, .dupES 10 15 0, .dupES 11 15 1, .dupES 12 15 2,
    .dupES 13 15 3, .v3 .add 24 24 10, .v3 .add 25 25 10, .v3 .add 26 26 11, .v3 .add 27 27 11,
    .v3 .add 28 28 12, .v3 .add 29 29 12, .v3 .add 30 30 13, .v3 .add 31 31 13],
  .jmp 10⟩

/-- kernel_arm64.cc:4700-4701 (label 7). -/
def dotx10 : Block := ⟨[
    .tst 6 4],
  .br .eq 12 11⟩

/-- kernel_arm64.cc:4702-4725. -/
def dotx11 : Block := ⟨[
    .ldpX 3 .rhsSums, .addX 3 3 rCol 2, .ldq 14 3 0 16, .ldq 15 3 0 0, .ldpW 5 .lhsZeroPoint,
    .dupS 10 5, .ve .mls 16 10 14 0, .ve .mls 17 10 14 0, .ve .mls 18 10 14 1,
    .ve .mls 19 10 14 1, .ve .mls 20 10 14 2, .ve .mls 21 10 14 2, .ve .mls 22 10 14 3,
    .ve .mls 23 10 14 3, .ve .mls 24 10 15 0, .ve .mls 25 10 15 0, .ve .mls 26 10 15 1,
    .ve .mls 27 10 15 1, .ve .mls 28 10 15 2, .ve .mls 29 10 15 2, .ve .mls 30 10 15 3,
    .ve .mls 31 10 15 3],
  .jmp 12⟩

/-- kernel_arm64.cc:4728-4729 (label 401). -/
def dotx12 : Block := ⟨[
    .tst 6 2],
  .br .eq 14 13⟩

/-- kernel_arm64.cc:4730-4760. -/
def dotx13 : Block := ⟨[
    .ldpX 2 .lhsSums, .addX 2 2 rRow 2, .ldpW 5 .rhsZeroPoint, .ldq 11 2 0 16, .ldq 12 2 0 0,
    .insS 13 1 5, .ve .mul 11 11 13 1, .ve .mul 12 12 13 1, .v3 .sub 16 16 11, .v3 .sub 17 17 12,
    .v3 .sub 18 18 11, .v3 .sub 19 19 12, .v3 .sub 20 20 11, .v3 .sub 21 21 12, .v3 .sub 22 22 11,
    .v3 .sub 23 23 12, .v3 .sub 24 24 11, .v3 .sub 25 25 12, .v3 .sub 26 26 11, .v3 .sub 27 27 12,
    .v3 .sub 28 28 11, .v3 .sub 29 29 12, .v3 .sub 30 30 11, .v3 .sub 31 31 12, .cmpI dstTypeId 4],
  .br .eq 48 14⟩

/-- kernel_arm64.cc:4772-4799 (label 402). -/
def dotx14 : Block := ⟨[
    .ldpX 1 .mulExp, .tst 6 32, .cselW 3 rRow rCol .eq, .tst 6 8, .addX 5 1 3 2, .cselX 1 1 5 .eq,
    .ldq 9 1 0 0, .ldq 10 1 16 0, .v3 .smin 11 8 9, .v3 .smin 12 8 10, .v3 .sub 9 9 11,
    .v3 .sub 10 10 12, .ldpX 4 .mulFix, .addX 5 4 3 2, .cselX 4 4 5 .eq, .ldq 14 4 0 0,
    .ldq 15 4 16 0, .tst 6 32],
  .br .ne 17 15⟩

/-- kernel_arm64.cc:4803-4818. -/
def dotx15 : Block := ⟨[
    .v3 .sshl 16 16 9, .v3 .sshl 17 17 10, .v3 .sshl 18 18 9, .v3 .sshl 19 19 10,
    .v3 .sshl 20 20 9, .v3 .sshl 21 21 10, .v3 .sshl 22 22 9, .v3 .sshl 23 23 10,
    .v3 .sshl 24 24 9, .v3 .sshl 25 25 10, .v3 .sshl 26 26 9, .v3 .sshl 27 27 10,
    .v3 .sshl 28 28 9, .v3 .sshl 29 29 10, .v3 .sshl 30 30 9, .v3 .sshl 31 31 10],
  .jmp 16⟩

/-- kernel_arm64.cc:4822-4856 (label 10). -/
def dotx16 : Block := ⟨[
    .v3 .sqdmulh 16 16 14, .v3 .sqdmulh 17 17 15, .v3 .sqdmulh 18 18 14, .v3 .sqdmulh 19 19 15,
    .v3 .sqdmulh 20 20 14, .v3 .sqdmulh 21 21 15, .v3 .sqdmulh 22 22 14, .v3 .sqdmulh 23 23 15,
    .v3 .sqdmulh 24 24 14, .v3 .sqdmulh 25 25 15, .v3 .sqdmulh 26 26 14, .v3 .sqdmulh 27 27 15,
    .v3 .sqdmulh 28 28 14, .v3 .sqdmulh 29 29 15, .v3 .sqdmulh 30 30 14, .v3 .sqdmulh 31 31 15,
    .v3 .srshl 16 16 11, .v3 .srshl 17 17 12, .v3 .srshl 18 18 11, .v3 .srshl 19 19 12,
    .v3 .srshl 20 20 11, .v3 .srshl 21 21 12, .v3 .srshl 22 22 11, .v3 .srshl 23 23 12,
    .v3 .srshl 24 24 11, .v3 .srshl 25 25 12, .v3 .srshl 26 26 11, .v3 .srshl 27 27 12,
    .v3 .srshl 28 28 11, .v3 .srshl 29 29 12, .v3 .srshl 30 30 11, .v3 .srshl 31 31 12],
  .jmp 19⟩

/-- kernel_arm64.cc:4862-4885 (label 8). -/
def dotx17 : Block := ⟨[
    .dupES 4 9 0, .dupES 5 9 1, .dupES 6 9 2, .dupES 7 9 3, .v3 .sshl 16 16 4, .v3 .sshl 17 17 4,
    .v3 .sshl 18 18 5, .v3 .sshl 19 19 5, .v3 .sshl 20 20 6, .v3 .sshl 21 21 6, .v3 .sshl 22 22 7,
    .v3 .sshl 23 23 7, .dupES 4 10 0, .dupES 5 10 1, .dupES 6 10 2, .dupES 7 10 3,
    .v3 .sshl 24 24 4, .v3 .sshl 25 25 4, .v3 .sshl 26 26 5, .v3 .sshl 27 27 5, .v3 .sshl 28 28 6,
    .v3 .sshl 29 29 6, .v3 .sshl 30 30 7, .v3 .sshl 31 31 7],
  .jmp 18⟩

/-- kernel_arm64.cc:4889-4930 (label 11). -/
def dotx18 : Block := ⟨[
    .ve .sqdmulh 16 16 14 0, .ve .sqdmulh 17 17 14 0, .ve .sqdmulh 18 18 14 1,
    .ve .sqdmulh 19 19 14 1, .ve .sqdmulh 20 20 14 2, .ve .sqdmulh 21 21 14 2,
    .ve .sqdmulh 22 22 14 3, .ve .sqdmulh 23 23 14 3, .ve .sqdmulh 24 24 15 0,
    .ve .sqdmulh 25 25 15 0, .ve .sqdmulh 26 26 15 1, .ve .sqdmulh 27 27 15 1,
    .ve .sqdmulh 28 28 15 2, .ve .sqdmulh 29 29 15 2, .ve .sqdmulh 30 30 15 3,
    .ve .sqdmulh 31 31 15 3, .dupES 4 11 0, .dupES 5 11 1, .dupES 6 11 2, .dupES 7 11 3,
    .v3 .srshl 16 16 4, .v3 .srshl 17 17 4, .v3 .srshl 18 18 5, .v3 .srshl 19 19 5,
    .v3 .srshl 20 20 6, .v3 .srshl 21 21 6, .v3 .srshl 22 22 7, .v3 .srshl 23 23 7, .dupES 4 12 0,
    .dupES 5 12 1, .dupES 6 12 2, .dupES 7 12 3, .v3 .srshl 24 24 4, .v3 .srshl 25 25 4,
    .v3 .srshl 26 26 5, .v3 .srshl 27 27 5, .v3 .srshl 28 28 6, .v3 .srshl 29 29 6,
    .v3 .srshl 30 30 7, .v3 .srshl 31 31 7],
  .jmp 19⟩

/-- kernel_arm64.cc:4933-4937 (label 9). -/
def dotx19 : Block := ⟨[
    .ldpW 4 .dstZeroPoint, .insH 13 4 4, .cmpI dstTypeId 3],
  .br .eq 39 20⟩

/-- kernel_arm64.cc:4938-4939. -/
def dotx20 : Block := ⟨[
    .cmpI dstTypeId 2],
  .br .eq 30 21⟩

/-- kernel_arm64.cc:4944-5039 (label RUY_ASM_LABEL_STORE_UINT8). -/
def dotx21 : Block := ⟨[
    .v3 .sqxtnS 16 16 16, .v3 .sqxtnS2 16 17 17, .v3 .sqxtnS 17 18 18, .v3 .sqxtnS2 17 19 19,
    .v3 .sqxtnS 18 20 20, .v3 .sqxtnS2 18 21 21, .v3 .sqxtnS 19 22 22, .v3 .sqxtnS2 19 23 23,
    .v3 .sqxtnS 20 24 24, .v3 .sqxtnS2 20 25 25, .v3 .sqxtnS 21 26 26, .v3 .sqxtnS2 21 27 27,
    .v3 .sqxtnS 22 28 28, .v3 .sqxtnS2 22 29 29, .v3 .sqxtnS 23 30 30, .v3 .sqxtnS2 23 31 31,
    .movi 24, .movi 25, .movi 26, .movi 27, .movi 28, .movi 29, .movi 30, .movi 31,
    .dupEH 14 13 4, .v3 .sqaddH 16 16 14, .v3 .sqaddH 17 17 14, .v3 .sqaddH 18 18 14,
    .v3 .sqaddH 19 19 14, .v3 .sqaddH 20 20 14, .v3 .sqaddH 21 21 14, .v3 .sqaddH 22 22 14,
    .v3 .sqaddH 23 23 14, .v3 .sqxtun 16 16 16, .v3 .sqxtun2 16 17 17, .v3 .sqxtun 17 18 18,
    .v3 .sqxtun2 17 19 19, .v3 .sqxtun 18 20 20, .v3 .sqxtun2 18 21 21, .v3 .sqxtun 19 22 22,
    .v3 .sqxtun2 19 23 23, .ldpB 2 .clampMin, .ldpB 3 .clampMax, .dupB 14 2, .dupB 15 3,
    .v3 .umaxB 16 16 14, .v3 .umaxB 17 17 14, .v3 .umaxB 18 18 14, .v3 .umaxB 19 19 14,
    .v3 .uminB 16 16 15, .v3 .uminB 17 17 15, .v3 .uminB 18 18 15, .v3 .uminB 19 19 15,
    .dupD 20 16 1, .dupD 21 17 1, .dupD 22 18 1, .dupD 23 19 1, .subW 1 rDstRows rRow,
    .subW 2 rDstCols rCol, .movI 3 8, .cmpI 1 8, .cselW 1 1 3 .le, .cmpI 2 8, .cselW 2 2 3 .le,
    .cmpW 1 3, .ccmpEq 2 3],
  .br .eq 23 22⟩

/-- kernel_arm64.cc:5042-5044. -/
def dotx22 : Block := ⟨[
    .movX 3 tmpBuf, .movI 4 8],
  .jmp 24⟩

/-- kernel_arm64.cc:5048-5049 (label 30). -/
def dotx23 : Block := ⟨[
    .movX 3 dstPtr, .movX 4 11],
  .jmp 24⟩

/-- kernel_arm64.cc:5055-5088 (label 31). -/
def dotx24 : Block := ⟨[
    .stdR 16 3 4, .movi 16, .stdR 20 3 4, .movi 20, .stdR 17 3 4, .movi 17, .stdR 21 3 4,
    .movi 21, .stdR 18 3 4, .movi 18, .stdR 22 3 4, .movi 22, .stdR 19 3 4, .movi 19,
    .stdR 23 3 4, .movi 23, .ve .sdot 16 0 2 0, .ve .sdot 18 0 2 1, .ve .sdot 20 0 2 2,
    .ve .sdot 22 0 2 3],
  .br .eq 29 25⟩

/-- kernel_arm64.cc:5092-5094. -/
def dotx25 : Block := ⟨[
    .movX 3 tmpBuf, .movX 4 dstPtr, .movI 6 0],
  .jmp 26⟩

/-- kernel_arm64.cc:5097-5097 (label 50). -/
def dotx26 : Block := ⟨[
    .movI 5 0],
  .jmp 27⟩

/-- kernel_arm64.cc:5099-5103 (label 51). -/
def dotx27 : Block := ⟨[
    .ldrB 7 3 5, .strB 7 4 5, .addWI 5 5 1, .cmpW 5 1],
  .br .lt 27 28⟩

/-- kernel_arm64.cc:5104-5108. -/
def dotx28 : Block := ⟨[
    .addWI 6 6 1, .addXI 3 3 8, .addX 4 4 11 0, .cmpW 6 2],
  .br .lt 26 29⟩

/-- kernel_arm64.cc:5110-5114 (label 41). -/
def dotx29 : Block := ⟨[
    .addXI dstPtr dstPtr 8],
  .jmp 57⟩

/-- kernel_arm64.cc:5119-5214 (label RUY_ASM_LABEL_STORE_INT8). -/
def dotx30 : Block := ⟨[
    .v3 .sqxtnS 16 16 16, .v3 .sqxtnS2 16 17 17, .v3 .sqxtnS 17 18 18, .v3 .sqxtnS2 17 19 19,
    .v3 .sqxtnS 18 20 20, .v3 .sqxtnS2 18 21 21, .v3 .sqxtnS 19 22 22, .v3 .sqxtnS2 19 23 23,
    .v3 .sqxtnS 20 24 24, .v3 .sqxtnS2 20 25 25, .v3 .sqxtnS 21 26 26, .v3 .sqxtnS2 21 27 27,
    .v3 .sqxtnS 22 28 28, .v3 .sqxtnS2 22 29 29, .v3 .sqxtnS 23 30 30, .v3 .sqxtnS2 23 31 31,
    .movi 24, .movi 25, .movi 26, .movi 27, .movi 28, .movi 29, .movi 30, .movi 31,
    .dupEH 14 13 4, .v3 .sqaddH 16 16 14, .v3 .sqaddH 17 17 14, .v3 .sqaddH 18 18 14,
    .v3 .sqaddH 19 19 14, .v3 .sqaddH 20 20 14, .v3 .sqaddH 21 21 14, .v3 .sqaddH 22 22 14,
    .v3 .sqaddH 23 23 14, .v3 .sqxtnH 16 16 16, .v3 .sqxtnH2 16 17 17, .v3 .sqxtnH 17 18 18,
    .v3 .sqxtnH2 17 19 19, .v3 .sqxtnH 18 20 20, .v3 .sqxtnH2 18 21 21, .v3 .sqxtnH 19 22 22,
    .v3 .sqxtnH2 19 23 23, .ldpB 2 .clampMin, .ldpB 3 .clampMax, .dupB 14 2, .dupB 15 3,
    .v3 .smaxB 16 16 14, .v3 .smaxB 17 17 14, .v3 .smaxB 18 18 14, .v3 .smaxB 19 19 14,
    .v3 .sminB 16 16 15, .v3 .sminB 17 17 15, .v3 .sminB 18 18 15, .v3 .sminB 19 19 15,
    .dupD 20 16 1, .dupD 21 17 1, .dupD 22 18 1, .dupD 23 19 1, .subW 1 rDstRows rRow,
    .subW 2 rDstCols rCol, .movI 3 8, .cmpI 1 8, .cselW 1 1 3 .le, .cmpI 2 8, .cselW 2 2 3 .le,
    .cmpW 1 3, .ccmpEq 2 3],
  .br .eq 32 31⟩

/-- kernel_arm64.cc:5217-5219. -/
def dotx31 : Block := ⟨[
    .movX 3 tmpBuf, .movI 4 8],
  .jmp 33⟩

/-- kernel_arm64.cc:5223-5224 (label 130). -/
def dotx32 : Block := ⟨[
    .movX 3 dstPtr, .movX 4 11],
  .jmp 33⟩

/-- kernel_arm64.cc:5230-5263 (label 131). -/
def dotx33 : Block := ⟨[
    .stdR 16 3 4, .movi 16, .stdR 20 3 4, .movi 20, .stdR 17 3 4, .movi 17, .stdR 21 3 4,
    .movi 21, .stdR 18 3 4, .movi 18, .stdR 22 3 4, .movi 22, .stdR 19 3 4, .movi 19,
    .stdR 23 3 4, .movi 23, .ve .sdot 16 0 2 0, .ve .sdot 18 0 2 1, .ve .sdot 20 0 2 2,
    .ve .sdot 22 0 2 3],
  .br .eq 38 34⟩

/-- kernel_arm64.cc:5267-5269. -/
def dotx34 : Block := ⟨[
    .movX 3 tmpBuf, .movX 4 dstPtr, .movI 6 0],
  .jmp 35⟩

/-- kernel_arm64.cc:5272-5272 (label 150). -/
def dotx35 : Block := ⟨[
    .movI 5 0],
  .jmp 36⟩

/-- kernel_arm64.cc:5274-5278 (label 151). -/
def dotx36 : Block := ⟨[
    .ldrB 7 3 5, .strB 7 4 5, .addWI 5 5 1, .cmpW 5 1],
  .br .lt 36 37⟩

/-- kernel_arm64.cc:5279-5283. -/
def dotx37 : Block := ⟨[
    .addWI 6 6 1, .addXI 3 3 8, .addX 4 4 11 0, .cmpW 6 2],
  .br .lt 35 38⟩

/-- kernel_arm64.cc:5285-5289 (label 141). -/
def dotx38 : Block := ⟨[
    .addXI dstPtr dstPtr 8],
  .jmp 57⟩

/-- kernel_arm64.cc:5294-5386 (label RUY_ASM_LABEL_STORE_INT16). -/
def dotx39 : Block := ⟨[
    .dupEH 14 13 4, .v3 .saddw 16 16 14, .v3 .saddw 17 17 14, .v3 .saddw 18 18 14,
    .v3 .saddw 19 19 14, .v3 .saddw 20 20 14, .v3 .saddw 21 21 14, .v3 .saddw 22 22 14,
    .v3 .saddw 23 23 14, .v3 .saddw 24 24 14, .v3 .saddw 25 25 14, .v3 .saddw 26 26 14,
    .v3 .saddw 27 27 14, .v3 .saddw 28 28 14, .v3 .saddw 29 29 14, .v3 .saddw 30 30 14,
    .v3 .saddw 31 31 14, .v3 .sqxtnS 16 16 16, .v3 .sqxtnS2 16 17 17, .v3 .sqxtnS 17 18 18,
    .v3 .sqxtnS2 17 19 19, .v3 .sqxtnS 18 20 20, .v3 .sqxtnS2 18 21 21, .v3 .sqxtnS 19 22 22,
    .v3 .sqxtnS2 19 23 23, .v3 .sqxtnS 20 24 24, .v3 .sqxtnS2 20 25 25, .v3 .sqxtnS 21 26 26,
    .v3 .sqxtnS2 21 27 27, .v3 .sqxtnS 22 28 28, .v3 .sqxtnS2 22 29 29, .v3 .sqxtnS 23 30 30,
    .v3 .sqxtnS2 23 31 31, .movi 24, .movi 25, .movi 26, .movi 27, .movi 28, .movi 29, .movi 30,
    .movi 31, .ldpSH 2 .clampMin, .ldpSH 3 .clampMax, .dupH 14 2, .dupH 15 3, .v3 .smaxH 16 16 14,
    .v3 .smaxH 17 17 14, .v3 .smaxH 18 18 14, .v3 .smaxH 19 19 14, .v3 .smaxH 20 20 14,
    .v3 .smaxH 21 21 14, .v3 .smaxH 22 22 14, .v3 .smaxH 23 23 14, .v3 .sminH 16 16 15,
    .v3 .sminH 17 17 15, .v3 .sminH 18 18 15, .v3 .sminH 19 19 15, .v3 .sminH 20 20 15,
    .v3 .sminH 21 21 15, .v3 .sminH 22 22 15, .v3 .sminH 23 23 15, .subW 1 rDstRows rRow,
    .subW 2 rDstCols rCol, .movI 3 8, .cmpI 1 8, .cselW 1 1 3 .le, .cmpI 2 8, .cselW 2 2 3 .le,
    .cmpW 1 3, .ccmpEq 2 3],
  .br .eq 41 40⟩

/-- kernel_arm64.cc:5389-5391. -/
def dotx40 : Block := ⟨[
    .movX 3 tmpBuf, .movI 4 16],
  .jmp 42⟩

/-- kernel_arm64.cc:5395-5396 (label 230). -/
def dotx41 : Block := ⟨[
    .movX 3 dstPtr, .movX 4 11],
  .jmp 42⟩

/-- kernel_arm64.cc:5402-5435 (label 231). -/
def dotx42 : Block := ⟨[
    .stqR 16 3 4, .movi 16, .stqR 17 3 4, .movi 17, .stqR 18 3 4, .movi 18, .stqR 19 3 4,
    .movi 19, .stqR 20 3 4, .movi 20, .stqR 21 3 4, .movi 21, .stqR 22 3 4, .movi 22,
    .stqR 23 3 4, .movi 23, .ve .sdot 16 0 2 0, .ve .sdot 18 0 2 1, .ve .sdot 20 0 2 2,
    .ve .sdot 22 0 2 3],
  .br .eq 47 43⟩

/-- kernel_arm64.cc:5439-5441. -/
def dotx43 : Block := ⟨[
    .movX 3 tmpBuf, .movX 4 dstPtr, .movI 6 0],
  .jmp 44⟩

/-- kernel_arm64.cc:5444-5444 (label 250). -/
def dotx44 : Block := ⟨[
    .movI 5 0],
  .jmp 45⟩

/-- kernel_arm64.cc:5446-5450 (label 251). -/
def dotx45 : Block := ⟨[
    .ldrSH 7 3 5, .strH 7 4 5, .addWI 5 5 1, .cmpW 5 1],
  .br .lt 45 46⟩

/-- kernel_arm64.cc:5451-5455. -/
def dotx46 : Block := ⟨[
    .addWI 6 6 1, .addXI 3 3 16, .addX 4 4 11 0, .cmpW 6 2],
  .br .lt 44 47⟩

/-- kernel_arm64.cc:5457-5461 (label 241). -/
def dotx47 : Block := ⟨[
    .addXI dstPtr dstPtr 16],
  .jmp 57⟩

/-- kernel_arm64.cc:5473-5487 (label RUY_ASM_LABEL_STORE_INT32). -/
def dotx48 : Block := ⟨[
    .subW 1 rDstRows rRow, .subW 2 rDstCols rCol, .movI 3 8, .cmpI 1 8, .cselW 1 1 3 .le,
    .cmpI 2 8, .cselW 2 2 3 .le, .cmpW 1 3, .ccmpEq 2 3],
  .br .eq 50 49⟩

/-- kernel_arm64.cc:5490-5524. -/
def dotx49 : Block := ⟨[
    .movX 3 tmpBuf, .stqP 16 3, .movi 16, .stqP 17 3, .movi 17, .stqP 18 3, .movi 18, .stqP 19 3,
    .movi 19, .stqP 20 3, .movi 20, .stqP 21 3, .movi 21, .stqP 22 3, .movi 22, .stqP 23 3,
    .movi 23, .stqP 24 3, .movi 24, .stqP 25 3, .movi 25, .stqP 26 3, .movi 26, .stqP 27 3,
    .movi 27, .stqP 28 3, .movi 28, .stqP 29 3, .movi 29, .stqP 30 3, .movi 30, .stqP 31 3,
    .movi 31],
  .jmp 51⟩

/-- kernel_arm64.cc:5528-5575 (label 330). -/
def dotx50 : Block := ⟨[
    .movX 4 dstPtr, .movX 3 4, .stqP 16 3, .stqP 17 3, .movi 16, .movi 17, .addX 4 4 11 0,
    .movX 3 4, .stqP 18 3, .stqP 19 3, .movi 18, .movi 19, .addX 4 4 11 0, .movX 3 4,
    .stqP 20 3, .stqP 21 3, .movi 20, .movi 21, .addX 4 4 11 0, .movX 3 4, .stqP 22 3, .stqP 23 3,
    .movi 22, .movi 23, .addX 4 4 11 0, .movX 3 4, .stqP 24 3, .stqP 25 3, .movi 24, .movi 25,
    .addX 4 4 11 0, .movX 3 4, .stqP 26 3, .stqP 27 3, .movi 26, .movi 27, .addX 4 4 11 0,
    .movX 3 4, .stqP 28 3, .stqP 29 3, .movi 28, .movi 29, .addX 4 4 11 0, .movX 3 4,
    .stqP 30 3, .stqP 31 3, .movi 30, .movi 31],
  .jmp 51⟩

/-- kernel_arm64.cc:5581-5588 (label 331). -/
def dotx51 : Block := ⟨[
    .ve .sdot 16 0 2 0, .ve .sdot 18 0 2 1, .ve .sdot 20 0 2 2, .ve .sdot 22 0 2 3],
  .br .eq 56 52⟩

/-- kernel_arm64.cc:5593-5595. -/
def dotx52 : Block := ⟨[
    .movX 3 tmpBuf, .movX 4 dstPtr, .movI 6 0],
  .jmp 53⟩

/-- kernel_arm64.cc:5598-5598 (label 350). -/
def dotx53 : Block := ⟨[
    .movI 5 0],
  .jmp 54⟩

/-- kernel_arm64.cc:5600-5604 (label 351). -/
def dotx54 : Block := ⟨[
    .ldrS 7 3 5, .strS 7 4 5, .addWI 5 5 1, .cmpW 5 1],
  .br .lt 54 55⟩

/-- kernel_arm64.cc:5605-5609. -/
def dotx55 : Block := ⟨[
    .addWI 6 6 1, .addXI 3 3 32, .addX 4 4 11 0, .cmpW 6 2],
  .br .lt 53 56⟩

/-- kernel_arm64.cc:5611-5611 (label 341). -/
def dotx56 : Block := ⟨[
    .addXI dstPtr dstPtr 32],
  .jmp 57⟩

/-- kernel_arm64.cc:5619-5628 (label RUY_ASM_LABEL_AFTER_STORE). -/
def dotx57 : Block := ⟨[
    .ldpX 5 .lhsBasePtr, .ldpW 6 .startRow, .ldpW 7 .lastRow, .cmpW rRow 7],
  .br .eq 59 58⟩

/-- kernel_arm64.cc:5630-5631. -/
def dotx58 : Block := ⟨[
    .addWI rRow rRow 8],
  .jmp 60⟩

/-- kernel_arm64.cc:5634-5637 (label 20). -/
def dotx59 : Block := ⟨[
    .movW rRow 6, .addWI rCol rCol 8, .addX dstColPtr dstColPtr 11 3, .movX dstPtr dstColPtr],
  .jmp 60⟩

/-- kernel_arm64.cc:5641-5648 (label 21). -/
def dotx60 : Block := ⟨[
    .cmpW rCol 8, .movI 1 4],
  .br .le 1 61⟩

/-- The whole `asm` statement of `Kernel8bitNeonDotprodX1`. -/
def dotxCode : List Block := [
  dotx0, dotx1, dotx2, dotx3, dotx4, dotx5, dotx6, dotx7, dotx8, dotx9, dotx10, dotx11, dotx12,
  dotx13, dotx14, dotx15, dotx16, dotx17, dotx18, dotx19, dotx20, dotx21, dotx22, dotx23, dotx24,
  dotx25, dotx26, dotx27, dotx28, dotx29, dotx30, dotx31, dotx32, dotx33, dotx34, dotx35, dotx36,
  dotx37, dotx38, dotx39, dotx40, dotx41, dotx42, dotx43, dotx44, dotx45, dotx46, dotx47, dotx48,
  dotx49, dotx50, dotx51, dotx52, dotx53, dotx54, dotx55, dotx56, dotx57, dotx58, dotx59, dotx60]

/-- The words after `.inst` in the `asm` statement, in order. -/
def dotxWords : List Nat := [
    0x4f82e010, 0x4fa2e012, 0x4f82e814, 0x4fa2e816, 0x4f83e018, 0x4fa3e01a, 0x4f83e81c,
    0x4fa3e81e, 0x4f82e031, 0x4fa2e033, 0x4f82e835, 0x4fa2e837, 0x4f83e039, 0x4fa3e03b,
    0x4f83e83d, 0x4fa3e83f, 0x4f82e010, 0x4fa2e012, 0x4f82e814, 0x4fa2e816, 0x4f83e018,
    0x4fa3e01a, 0x4f83e81c, 0x4fa3e81e, 0x4f82e031, 0x4fa2e033, 0x4f82e835, 0x4fa2e837,
    0x4f83e039, 0x4fa3e03b, 0x4f83e83d, 0x4fa3e83f, 0x4f82e010, 0x4fa2e012, 0x4f82e814,
    0x4fa2e816, 0x4f82e010, 0x4fa2e012, 0x4f82e814, 0x4fa2e816, 0x4f82e010, 0x4fa2e012,
    0x4f82e814, 0x4fa2e816, 0x4f82e010, 0x4fa2e012, 0x4f82e814, 0x4fa2e816]

/-- They are the instructions of the program. -/
theorem dotx_words : dotxWords.map sdotOf = (sdots dotxCode).map some := by decide +kernel

end Ruy.Neon

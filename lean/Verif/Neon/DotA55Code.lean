import Verif.Neon.DotCode
/-
The AArch64 kernel `Kernel8bitNeonDotprodA55ish`, kernel_arm64.cc:6364-7690, as a program for the
machine of `Isa.lean`: every instruction of the `asm` statement, in order.
-/
namespace Ruy.Neon

/-- kernel_arm64.cc:6414-6451. -/
def dota0 : Block := ⟨[
    .ldpX 5 .lhsBasePtr, .movi 16, .ldpW 6 .startRow, .movi 17, .ldpW 7 .lastRow, .movi 18,
    .ldpW 8 .lastCol, .movi 19, .ldpW 9 .lhsStride, .movi 20, .ldpW 10 .rhsStride, .movi 21,
    .ldpW 11 .dstStride, .movi 22, .ldpW 12 .depth, .ldq 0 lhsPtr 0 16, .ldq 1 lhsPtr 0 16,
    .ldq 2 rhsPtr 0 16, .ldq 3 rhsPtr 0 16, .movi 23, .movi 24, .movi 25, .movi 26, .movi 27,
    .ve .sdot 16 0 2 0, .movi 28, .ve .sdot 18 0 2 1, .movi 29, .ve .sdot 20 0 2 2, .movi 30,
    .ve .sdot 22 0 2 3, .movi 31],
  .jmp 1⟩

/-- kernel_arm64.cc:6456-6460 (label 1). -/
def dota1 : Block := ⟨[
    .addX 5 lhsPtr 12 3, .subP 5 5 32, .cmpPP lhsPtr 5],
  .br .eq 3 2⟩

/-- kernel_arm64.cc:6464-6495 (label 2). -/
def dota2 : Block := ⟨[
    .ve .sdot 24 0 3 0, .ldx 1 lhsPtr 8, .ve .sdot 26 0 3 1, .ldx 3 rhsPtr 8, .ve .sdot 28 0 3 2,
    .ldx 4 rhsPtr 24, .ve .sdot 30 0 3 3, .ldd 0 lhsPtr 0 0, .ve .sdot 17 1 2 0, .insD 0 1 1,
    .ve .sdot 19 1 2 1, .ldx 2 lhsPtr 24, .ve .sdot 21 1 2 2, .addXI lhsPtr lhsPtr 32,
    .ve .sdot 23 1 2 3, .ldd 2 rhsPtr 0 0, .ve .sdot 25 1 3 0, .insD 2 1 3, .ve .sdot 27 1 3 1,
    .cmpPP lhsPtr 5, .ve .sdot 29 1 3 2, .addXI rhsPtr rhsPtr 32, .ve .sdot 31 1 3 3,
    .lddN 3 rhsPtr 16, .ve .sdot 16 0 2 0, .lddN 1 lhsPtr 16, .ve .sdot 18 0 2 1, .insD 3 1 4,
    .ve .sdot 20 0 2 2, .insD 1 1 2, .ve .sdot 22 0 2 3],
  .br .lt 2 3⟩

/-- kernel_arm64.cc:6499-6530 (label 79). -/
def dota3 : Block := ⟨[
    .ve .sdot 24 0 3 0, .ldpX 5 .lhsBasePtr, .ve .sdot 26 0 3 1, .cmpW rRow 7, .ve .sdot 28 0 3 2,
    .ve .sdot 30 0 3 3, .ve .sdot 17 1 2 0, .ve .sdot 19 1 2 1, .ve .sdot 21 1 2 2,
    .ve .sdot 23 1 2 3, .ve .sdot 25 1 3 0, .ve .sdot 27 1 3 1, .ve .sdot 29 1 3 2,
    .ve .sdot 31 1 3 3],
  .br .ge 5 4⟩

/-- kernel_arm64.cc:6532-6533. -/
def dota4 : Block := ⟨[
    .addX lhsColPtr lhsColPtr 9 3],
  .jmp 7⟩

/-- kernel_arm64.cc:6535-6544 (label 4). -/
def dota5 : Block := ⟨[
    .movX lhsColPtr 5, .cmpW rCol 8],
  .br .ge 7 6⟩

/-- kernel_arm64.cc:6546-6546. -/
def dota6 : Block := ⟨[
    .addX rhsColPtr rhsColPtr 10 3],
  .jmp 7⟩

/-- kernel_arm64.cc:6551-6588 (label 5). -/
def dota7 : Block := ⟨[
    .movX lhsPtr lhsColPtr, .mvni 8, .movX rhsPtr rhsColPtr, .ldpW 3 .prodZpDepth, .ldpB 6 .flags,
    .dupS 9 3, .ldpX 1 .bias, .tst 6 32, .cselW 3 rRow rCol .eq, .addX 5 1 3 2, .tst 6 1,
    .cselX 1 1 5 .eq, .ldd 14 1 0 8, .ldxP 5 1, .insD 14 1 5, .ldd 15 1 0 8, .ldxP 5 1,
    .insD 15 1 5, .v3 .add 14 14 9, .v3 .add 15 15 9, .tst 6 32],
  .br .ne 9 8⟩

/-- kernel_arm64.cc:6590-6606. -/
def dota8 : Block := ⟨[
    .v3 .add 16 16 14, .v3 .add 17 17 15, .v3 .add 18 18 14, .v3 .add 19 19 15, .v3 .add 20 20 14,
    .v3 .add 21 21 15, .v3 .add 22 22 14, .v3 .add 23 23 15, .v3 .add 24 24 14, .v3 .add 25 25 15,
    .v3 .add 26 26 14, .v3 .add 27 27 15, .v3 .add 28 28 14, .v3 .add 29 29 15, .v3 .add 30 30 14,
    .v3 .add 31 31 15],
  .jmp 10⟩

/-- kernel_arm64.cc:6610-6633 (label 6). -/
def dota9 : Block := ⟨[
    .dupES 10 14 0, .dupES 11 14 1, .v3 .add 16 16 10, .dupES 12 14 2, .v3 .add 17 17 10,
    .dupES 13 14 3, .v3 .add 18 18 11, .dupES 10 15 0, .v3 .add 19 19 11, .dupES 11 15 1,
    .v3 .add 20 20 12, .v3 .add 21 21 12, .dupES 12 15 2, .v3 .add 22 22 13, .v3 .add 23 23 13,
    .dupES 13 15 3, .v3 .add 24 24 10, .v3 .add 25 25 10, .v3 .add 26 26 11, .v3 .add 27 27 11,
    .v3 .add 28 28 12, .v3 .add 29 29 12, .v3 .add 30 30 13, .v3 .add 31 31 13],
  .jmp 10⟩

/-- kernel_arm64.cc:6636-6637 (label 7). -/
def dota10 : Block := ⟨[
    .tst 6 4],
  .br .eq 12 11⟩

/-- kernel_arm64.cc:6638-6666. -/
def dota11 : Block := ⟨[
    .ldpW 5 .lhsZeroPoint, .dupS 10 5, .ldpX 5 .rhsSums, .addX 5 5 rCol 2, .ldd 14 5 0 8,
    .ldxP 7 5, .ldd 15 5 0 8, .insD 14 1 7, .ldxP 7 5, .insD 15 1 7, .ve .mls 16 10 14 0,
    .ve .mls 17 10 14 0, .ve .mls 18 10 14 1, .ve .mls 19 10 14 1, .ve .mls 20 10 14 2,
    .ve .mls 21 10 14 2, .ve .mls 22 10 14 3, .ve .mls 23 10 14 3, .ve .mls 24 10 15 0,
    .ve .mls 25 10 15 0, .ve .mls 26 10 15 1, .ve .mls 27 10 15 1, .ve .mls 28 10 15 2,
    .ve .mls 29 10 15 2, .ve .mls 30 10 15 3, .ve .mls 31 10 15 3],
  .jmp 12⟩

/-- kernel_arm64.cc:6669-6670 (label 401). -/
def dota12 : Block := ⟨[
    .tst 6 2],
  .br .eq 14 13⟩

/-- kernel_arm64.cc:6671-6705. -/
def dota13 : Block := ⟨[
    .ldpX 2 .lhsSums, .addX 2 2 rRow 2, .ldpW 5 .rhsZeroPoint, .insS 13 1 5, .ldd 11 2 0 8,
    .ldxP 4 2, .insD 11 1 4, .ldd 12 2 0 8, .ldxP 4 2, .insD 12 1 4, .ve .mul 11 11 13 1,
    .ve .mul 12 12 13 1, .v3 .sub 16 16 11, .v3 .sub 17 17 12, .v3 .sub 18 18 11,
    .v3 .sub 19 19 12, .v3 .sub 20 20 11, .v3 .sub 21 21 12, .v3 .sub 22 22 11, .v3 .sub 23 23 12,
    .v3 .sub 24 24 11, .v3 .sub 25 25 12, .v3 .sub 26 26 11, .v3 .sub 27 27 12, .v3 .sub 28 28 11,
    .v3 .sub 29 29 12, .v3 .sub 30 30 11, .v3 .sub 31 31 12, .cmpI dstTypeId 4],
  .br .eq 48 14⟩

/-- kernel_arm64.cc:6717-6742 (label 402). -/
def dota14 : Block := ⟨[
    .ldpX 1 .mulExp, .ldpB 6 .flags, .tst 6 8, .addX 5 1 3 2, .cselX 1 1 5 .eq, .ldq 9 1 0 0,
    .ldq 10 1 16 0, .v3 .smin 11 8 9, .v3 .smin 12 8 10, .v3 .sub 9 9 11, .v3 .sub 10 10 12,
    .ldpX 4 .mulFix, .addX 5 4 3 2, .cselX 4 4 5 .eq, .ldq 14 4 0 0, .ldq 15 4 16 0, .tst 6 32],
  .br .ne 17 15⟩

/-- kernel_arm64.cc:6746-6761. -/
def dota15 : Block := ⟨[
    .v3 .sshl 16 16 9, .v3 .sshl 17 17 10, .v3 .sshl 18 18 9, .v3 .sshl 19 19 10,
    .v3 .sshl 20 20 9, .v3 .sshl 21 21 10, .v3 .sshl 22 22 9, .v3 .sshl 23 23 10,
    .v3 .sshl 24 24 9, .v3 .sshl 25 25 10, .v3 .sshl 26 26 9, .v3 .sshl 27 27 10,
    .v3 .sshl 28 28 9, .v3 .sshl 29 29 10, .v3 .sshl 30 30 9, .v3 .sshl 31 31 10],
  .jmp 16⟩

/-- kernel_arm64.cc:6771-6819 (label 10). -/
def dota16 : Block := ⟨[
    .ldd 0 lhsPtr 0 8, .v3 .sqdmulh 16 16 14, .ldxP 1 lhsPtr, .v3 .sqdmulh 17 17 15,
    .ldd 1 lhsPtr 0 8, .v3 .sqdmulh 18 18 14, .ldxP 2 lhsPtr, .v3 .sqdmulh 19 19 15,
    .ldd 2 rhsPtr 0 8, .v3 .sqdmulh 20 20 14, .ldxP 5 rhsPtr, .v3 .sqdmulh 21 21 15,
    .ldd 3 rhsPtr 0 8, .v3 .sqdmulh 22 22 14, .ldxP 6 rhsPtr, .v3 .sqdmulh 23 23 15,
    .v3 .sqdmulh 24 24 14, .v3 .sqdmulh 25 25 15, .v3 .sqdmulh 26 26 14, .v3 .sqdmulh 27 27 15,
    .v3 .sqdmulh 28 28 14, .v3 .sqdmulh 29 29 15, .v3 .sqdmulh 30 30 14, .v3 .sqdmulh 31 31 15,
    .v3 .srshl 16 16 11, .v3 .srshl 17 17 12, .v3 .srshl 18 18 11, .v3 .srshl 19 19 12,
    .v3 .srshl 20 20 11, .v3 .srshl 21 21 12, .v3 .srshl 22 22 11, .v3 .srshl 23 23 12,
    .v3 .srshl 24 24 11, .v3 .srshl 25 25 12, .ldpW 4 .dstZeroPoint, .v3 .srshl 26 26 11,
    .insH 13 4 4, .v3 .srshl 27 27 12, .insD 0 1 1, .v3 .srshl 28 28 11, .insD 1 1 2,
    .v3 .srshl 29 29 12, .insD 2 1 5, .v3 .srshl 30 30 11, .insD 3 1 6, .v3 .srshl 31 31 12],
  .jmp 19⟩

/-- kernel_arm64.cc:6825-6848 (label 8). -/
def dota17 : Block := ⟨[
    .dupES 4 9 0, .dupES 5 9 1, .v3 .sshl 16 16 4, .dupES 6 9 2, .v3 .sshl 17 17 4, .dupES 7 9 3,
    .v3 .sshl 18 18 5, .dupES 4 10 0, .v3 .sshl 19 19 5, .dupES 5 10 1, .v3 .sshl 20 20 6,
    .v3 .sshl 21 21 6, .dupES 6 10 2, .v3 .sshl 22 22 7, .v3 .sshl 23 23 7, .dupES 7 10 3,
    .v3 .sshl 24 24 4, .v3 .sshl 25 25 4, .v3 .sshl 26 26 5, .v3 .sshl 27 27 5, .v3 .sshl 28 28 6,
    .v3 .sshl 29 29 6, .v3 .sshl 30 30 7, .v3 .sshl 31 31 7],
  .jmp 18⟩

/-- kernel_arm64.cc:6858-6913 (label 11). -/
def dota18 : Block := ⟨[
    .ldd 0 lhsPtr 0 8, .ve .sqdmulh 16 16 14 0, .ldxP 1 lhsPtr, .ve .sqdmulh 17 17 14 0,
    .ldd 1 lhsPtr 0 8, .ve .sqdmulh 18 18 14 1, .ldxP 2 lhsPtr, .ve .sqdmulh 19 19 14 1,
    .ldd 2 rhsPtr 0 8, .ve .sqdmulh 20 20 14 2, .ldxP 5 rhsPtr, .ve .sqdmulh 21 21 14 2,
    .ldd 3 rhsPtr 0 8, .ve .sqdmulh 22 22 14 3, .ldxP 6 rhsPtr, .ve .sqdmulh 23 23 14 3,
    .dupES 4 11 0, .ve .sqdmulh 24 24 15 0, .dupES 5 11 1, .ve .sqdmulh 25 25 15 0, .dupES 6 11 2,
    .ve .sqdmulh 26 26 15 1, .dupES 7 11 3, .ve .sqdmulh 27 27 15 1, .ve .sqdmulh 28 28 15 2,
    .ve .sqdmulh 29 29 15 2, .ve .sqdmulh 30 30 15 3, .ve .sqdmulh 31 31 15 3, .v3 .srshl 16 16 4,
    .v3 .srshl 17 17 4, .dupES 4 12 0, .v3 .srshl 18 18 5, .v3 .srshl 19 19 5, .dupES 5 12 1,
    .v3 .srshl 20 20 6, .v3 .srshl 21 21 6, .dupES 6 12 2, .v3 .srshl 22 22 7, .v3 .srshl 23 23 7,
    .dupES 7 12 3, .v3 .srshl 24 24 4, .ldpW 4 .dstZeroPoint, .v3 .srshl 25 25 4, .insH 13 4 4,
    .v3 .srshl 26 26 5, .insD 0 1 1, .v3 .srshl 27 27 5, .insD 1 1 2, .v3 .srshl 28 28 6,
    .insD 2 1 5, .v3 .srshl 29 29 6, .insD 3 1 6, .v3 .srshl 30 30 7, .v3 .srshl 31 31 7],
  .jmp 19⟩

/-- kernel_arm64.cc:6916-6917 (label 9). -/
def dota19 : Block := ⟨[
    .cmpI dstTypeId 3],
  .br .eq 39 20⟩

/-- kernel_arm64.cc:6918-6919. -/
def dota20 : Block := ⟨[
    .cmpI dstTypeId 2],
  .br .eq 30 21⟩

/-- kernel_arm64.cc:6924-7018 (label RUY_ASM_LABEL_STORE_UINT8). -/
def dota21 : Block := ⟨[
    .v3 .sqxtnS 16 16 16, .v3 .sqxtnS2 16 17 17, .v3 .sqxtnS 17 18 18, .v3 .sqxtnS2 17 19 19,
    .v3 .sqxtnS 18 20 20, .v3 .sqxtnS2 18 21 21, .v3 .sqxtnS 19 22 22, .v3 .sqxtnS2 19 23 23,
    .v3 .sqxtnS 20 24 24, .v3 .sqxtnS2 20 25 25, .v3 .sqxtnS 21 26 26, .v3 .sqxtnS2 21 27 27,
    .v3 .sqxtnS 22 28 28, .v3 .sqxtnS2 22 29 29, .v3 .sqxtnS 23 30 30, .v3 .sqxtnS2 23 31 31,
    .dupEH 14 13 4, .movi 24, .movi 25, .movi 26, .movi 27, .movi 28, .movi 29, .movi 30,
    .movi 31, .v3 .sqaddH 16 16 14, .v3 .sqaddH 17 17 14, .v3 .sqaddH 18 18 14,
    .v3 .sqaddH 19 19 14, .v3 .sqaddH 20 20 14, .v3 .sqaddH 21 21 14, .v3 .sqaddH 22 22 14,
    .v3 .sqaddH 23 23 14, .ldpB 2 .clampMin, .v3 .sqxtun 16 16 16, .ldpB 3 .clampMax,
    .v3 .sqxtun2 16 17 17, .v3 .sqxtun 17 18 18, .v3 .sqxtun2 17 19 19, .v3 .sqxtun 18 20 20,
    .v3 .sqxtun2 18 21 21, .v3 .sqxtun 19 22 22, .v3 .sqxtun2 19 23 23, .dupB 14 2, .dupB 15 3,
    .subW 1 rDstRows rRow, .v3 .umaxB 16 16 14, .subW 2 rDstCols rCol, .v3 .umaxB 17 17 14,
    .movI 3 8, .v3 .umaxB 18 18 14, .cmpI 1 8, .v3 .umaxB 19 19 14, .cselW 1 1 3 .le,
    .v3 .uminB 16 16 15, .cmpI 2 8, .v3 .uminB 17 17 15, .cselW 2 2 3 .le, .v3 .uminB 18 18 15,
    .v3 .uminB 19 19 15, .dupD 20 16 1, .dupD 21 17 1, .dupD 22 18 1, .dupD 23 19 1, .cmpW 1 3,
    .ccmpEq 2 3],
  .br .eq 23 22⟩

/-- kernel_arm64.cc:7021-7023. -/
def dota22 : Block := ⟨[
    .movX 3 tmpBuf, .movI 4 8],
  .jmp 24⟩

/-- kernel_arm64.cc:7027-7028 (label 30). -/
def dota23 : Block := ⟨[
    .movX 3 dstPtr, .movX 4 11],
  .jmp 24⟩

/-- kernel_arm64.cc:7034-7066 (label 31). -/
def dota24 : Block := ⟨[
    .stdR 16 3 4, .movi 16, .stdR 20 3 4, .movi 20, .ve .sdot 16 0 2 0, .stdR 17 3 4, .movi 17,
    .ve .sdot 20 0 2 2, .stdR 21 3 4, .movi 21, .stdR 18 3 4, .movi 18, .stdR 22 3 4, .movi 22,
    .ve .sdot 18 0 2 1, .stdR 19 3 4, .movi 19, .ve .sdot 22 0 2 3, .stdR 23 3 4, .movi 23],
  .br .eq 29 25⟩

/-- kernel_arm64.cc:7070-7072. -/
def dota25 : Block := ⟨[
    .movX 3 tmpBuf, .movX 4 dstPtr, .movI 6 0],
  .jmp 26⟩

/-- kernel_arm64.cc:7075-7075 (label 50). -/
def dota26 : Block := ⟨[
    .movI 5 0],
  .jmp 27⟩

/-- kernel_arm64.cc:7077-7081 (label 51). -/
def dota27 : Block := ⟨[
    .ldrB 7 3 5, .strB 7 4 5, .addWI 5 5 1, .cmpW 5 1],
  .br .lt 27 28⟩

/-- kernel_arm64.cc:7082-7086. -/
def dota28 : Block := ⟨[
    .addWI 6 6 1, .addXI 3 3 8, .addX 4 4 11 0, .cmpW 6 2],
  .br .lt 26 29⟩

/-- kernel_arm64.cc:7088-7093 (label 41). -/
def dota29 : Block := ⟨[
    .addXI dstPtr dstPtr 8],
  .jmp 57⟩

/-- kernel_arm64.cc:7098-7192 (label RUY_ASM_LABEL_STORE_INT8). -/
def dota30 : Block := ⟨[
    .v3 .sqxtnS 16 16 16, .v3 .sqxtnS2 16 17 17, .v3 .sqxtnS 17 18 18, .v3 .sqxtnS2 17 19 19,
    .v3 .sqxtnS 18 20 20, .v3 .sqxtnS2 18 21 21, .v3 .sqxtnS 19 22 22, .v3 .sqxtnS2 19 23 23,
    .v3 .sqxtnS 20 24 24, .v3 .sqxtnS2 20 25 25, .v3 .sqxtnS 21 26 26, .v3 .sqxtnS2 21 27 27,
    .v3 .sqxtnS 22 28 28, .v3 .sqxtnS2 22 29 29, .v3 .sqxtnS 23 30 30, .v3 .sqxtnS2 23 31 31,
    .dupEH 14 13 4, .movi 24, .movi 25, .movi 26, .movi 27, .movi 28, .movi 29, .movi 30,
    .movi 31, .v3 .sqaddH 16 16 14, .v3 .sqaddH 17 17 14, .v3 .sqaddH 18 18 14,
    .v3 .sqaddH 19 19 14, .v3 .sqaddH 20 20 14, .v3 .sqaddH 21 21 14, .v3 .sqaddH 22 22 14,
    .v3 .sqaddH 23 23 14, .ldpB 2 .clampMin, .v3 .sqxtnH 16 16 16, .ldpB 3 .clampMax,
    .v3 .sqxtnH2 16 17 17, .v3 .sqxtnH 17 18 18, .v3 .sqxtnH2 17 19 19, .v3 .sqxtnH 18 20 20,
    .v3 .sqxtnH2 18 21 21, .v3 .sqxtnH 19 22 22, .v3 .sqxtnH2 19 23 23, .dupB 14 2, .dupB 15 3,
    .subW 1 rDstRows rRow, .v3 .smaxB 16 16 14, .subW 2 rDstCols rCol, .v3 .smaxB 17 17 14,
    .movI 3 8, .v3 .smaxB 18 18 14, .cmpI 1 8, .v3 .smaxB 19 19 14, .cselW 1 1 3 .le,
    .v3 .sminB 16 16 15, .cmpI 2 8, .v3 .sminB 17 17 15, .cselW 2 2 3 .le, .v3 .sminB 18 18 15,
    .v3 .sminB 19 19 15, .dupD 20 16 1, .dupD 21 17 1, .dupD 22 18 1, .dupD 23 19 1, .cmpW 1 3,
    .ccmpEq 2 3],
  .br .eq 32 31⟩

/-- kernel_arm64.cc:7195-7197. -/
def dota31 : Block := ⟨[
    .movX 3 tmpBuf, .movI 4 8],
  .jmp 33⟩

/-- kernel_arm64.cc:7201-7202 (label 130). -/
def dota32 : Block := ⟨[
    .movX 3 dstPtr, .movX 4 11],
  .jmp 33⟩

/-- kernel_arm64.cc:7208-7240 (label 131). -/
def dota33 : Block := ⟨[
    .stdR 16 3 4, .movi 16, .stdR 20 3 4, .movi 20, .ve .sdot 16 0 2 0, .stdR 17 3 4, .movi 17,
    .ve .sdot 20 0 2 2, .stdR 21 3 4, .movi 21, .stdR 18 3 4, .movi 18, .stdR 22 3 4, .movi 22,
    .ve .sdot 18 0 2 1, .stdR 19 3 4, .movi 19, .ve .sdot 22 0 2 3, .stdR 23 3 4, .movi 23],
  .br .eq 38 34⟩

/-- kernel_arm64.cc:7244-7246. -/
def dota34 : Block := ⟨[
    .movX 3 tmpBuf, .movX 4 dstPtr, .movI 6 0],
  .jmp 35⟩

/-- kernel_arm64.cc:7249-7249 (label 150). -/
def dota35 : Block := ⟨[
    .movI 5 0],
  .jmp 36⟩

/-- kernel_arm64.cc:7251-7255 (label 151). -/
def dota36 : Block := ⟨[
    .ldrB 7 3 5, .strB 7 4 5, .addWI 5 5 1, .cmpW 5 1],
  .br .lt 36 37⟩

/-- kernel_arm64.cc:7256-7260. -/
def dota37 : Block := ⟨[
    .addWI 6 6 1, .addXI 3 3 8, .addX 4 4 11 0, .cmpW 6 2],
  .br .lt 35 38⟩

/-- kernel_arm64.cc:7262-7267 (label 141). -/
def dota38 : Block := ⟨[
    .addXI dstPtr dstPtr 8],
  .jmp 57⟩

/-- kernel_arm64.cc:7272-7364 (label RUY_ASM_LABEL_STORE_INT16). -/
def dota39 : Block := ⟨[
    .dupEH 14 13 4, .v3 .saddw 16 16 14, .v3 .saddw 17 17 14, .v3 .saddw 18 18 14,
    .v3 .saddw 19 19 14, .v3 .saddw 20 20 14, .v3 .saddw 21 21 14, .v3 .saddw 22 22 14,
    .v3 .saddw 23 23 14, .v3 .saddw 24 24 14, .v3 .saddw 25 25 14, .v3 .saddw 26 26 14,
    .v3 .saddw 27 27 14, .v3 .saddw 28 28 14, .v3 .saddw 29 29 14, .v3 .saddw 30 30 14,
    .v3 .saddw 31 31 14, .v3 .sqxtnS 16 16 16, .v3 .sqxtnS2 16 17 17, .v3 .sqxtnS 17 18 18,
    .v3 .sqxtnS2 17 19 19, .v3 .sqxtnS 18 20 20, .v3 .sqxtnS2 18 21 21, .v3 .sqxtnS 19 22 22,
    .v3 .sqxtnS2 19 23 23, .v3 .sqxtnS 20 24 24, .v3 .sqxtnS2 20 25 25, .v3 .sqxtnS 21 26 26,
    .v3 .sqxtnS2 21 27 27, .v3 .sqxtnS 22 28 28, .v3 .sqxtnS2 22 29 29, .v3 .sqxtnS 23 30 30,
    .v3 .sqxtnS2 23 31 31, .movi 24, .movi 25, .movi 26, .movi 27, .movi 28, .movi 29, .movi 30,
    .movi 31, .ldpSH 2 .clampMin, .ldpSH 3 .clampMax, .dupH 14 2, .dupH 15 3, .v3 .smaxH 16 16 14,
    .v3 .smaxH 17 17 14, .v3 .smaxH 18 18 14, .v3 .smaxH 19 19 14, .v3 .smaxH 20 20 14,
    .v3 .smaxH 21 21 14, .v3 .smaxH 22 22 14, .v3 .smaxH 23 23 14, .v3 .sminH 16 16 15,
    .v3 .sminH 17 17 15, .v3 .sminH 18 18 15, .v3 .sminH 19 19 15, .v3 .sminH 20 20 15,
    .v3 .sminH 21 21 15, .v3 .sminH 22 22 15, .v3 .sminH 23 23 15, .subW 1 rDstRows rRow,
    .subW 2 rDstCols rCol, .movI 3 8, .cmpI 1 8, .cselW 1 1 3 .le, .cmpI 2 8, .cselW 2 2 3 .le,
    .cmpW 1 3, .ccmpEq 2 3],
  .br .eq 41 40⟩

/-- kernel_arm64.cc:7367-7369. -/
def dota40 : Block := ⟨[
    .movX 3 tmpBuf, .movI 4 16],
  .jmp 42⟩

/-- kernel_arm64.cc:7373-7374 (label 230). -/
def dota41 : Block := ⟨[
    .movX 3 dstPtr, .movX 4 11],
  .jmp 42⟩

/-- kernel_arm64.cc:7380-7413 (label 231). -/
def dota42 : Block := ⟨[
    .stqR 16 3 4, .movi 16, .stqR 17 3 4, .movi 17, .stqR 18 3 4, .movi 18, .stqR 19 3 4,
    .movi 19, .stqR 20 3 4, .movi 20, .stqR 21 3 4, .movi 21, .stqR 22 3 4, .movi 22,
    .stqR 23 3 4, .movi 23, .ve .sdot 16 0 2 0, .ve .sdot 18 0 2 1, .ve .sdot 20 0 2 2,
    .ve .sdot 22 0 2 3],
  .br .eq 47 43⟩

/-- kernel_arm64.cc:7417-7419. -/
def dota43 : Block := ⟨[
    .movX 3 tmpBuf, .movX 4 dstPtr, .movI 6 0],
  .jmp 44⟩

/-- kernel_arm64.cc:7422-7422 (label 250). -/
def dota44 : Block := ⟨[
    .movI 5 0],
  .jmp 45⟩

/-- kernel_arm64.cc:7424-7428 (label 251). -/
def dota45 : Block := ⟨[
    .ldrSH 7 3 5, .strH 7 4 5, .addWI 5 5 1, .cmpW 5 1],
  .br .lt 45 46⟩

/-- kernel_arm64.cc:7429-7433. -/
def dota46 : Block := ⟨[
    .addWI 6 6 1, .addXI 3 3 16, .addX 4 4 11 0, .cmpW 6 2],
  .br .lt 44 47⟩

/-- kernel_arm64.cc:7435-7439 (label 241). -/
def dota47 : Block := ⟨[
    .addXI dstPtr dstPtr 16],
  .jmp 57⟩

/-- kernel_arm64.cc:7443-7478 (label RUY_ASM_LABEL_STORE_INT32). -/
def dota48 : Block := ⟨[
    .ldd 0 lhsPtr 0 8, .ldxP 1 lhsPtr, .ldd 1 lhsPtr 0 8, .ldxP 2 lhsPtr, .ldd 2 rhsPtr 0 8,
    .ldxP 5 rhsPtr, .ldd 3 rhsPtr 0 8, .ldxP 6 rhsPtr, .insD 0 1 1, .insD 1 1 2, .insD 2 1 5,
    .insD 3 1 6, .subW 1 rDstRows rRow, .subW 2 rDstCols rCol, .movI 3 8, .cmpI 1 8,
    .cselW 1 1 3 .le, .cmpI 2 8, .cselW 2 2 3 .le, .cmpW 1 3, .ccmpEq 2 3],
  .br .eq 50 49⟩

/-- kernel_arm64.cc:7481-7515. -/
def dota49 : Block := ⟨[
    .movX 3 tmpBuf, .stqP 16 3, .movi 16, .stqP 17 3, .movi 17, .stqP 18 3, .movi 18, .stqP 19 3,
    .movi 19, .stqP 20 3, .movi 20, .stqP 21 3, .movi 21, .stqP 22 3, .movi 22, .stqP 23 3,
    .movi 23, .stqP 24 3, .movi 24, .stqP 25 3, .movi 25, .stqP 26 3, .movi 26, .stqP 27 3,
    .movi 27, .stqP 28 3, .movi 28, .stqP 29 3, .movi 29, .stqP 30 3, .movi 30, .stqP 31 3,
    .movi 31],
  .jmp 51⟩

/-- kernel_arm64.cc:7519-7551 (label 330). -/
def dota50 : Block := ⟨[
    .movX 4 dstPtr, .st2R 16 17 4 11, .movi 16, .movi 17, .st2R 18 19 4 11, .movi 18, .movi 19,
    .st2R 20 21 4 11, .movi 20, .movi 21, .st2R 22 23 4 11, .movi 22, .movi 23, .st2R 24 25 4 11,
    .movi 24, .movi 25, .st2R 26 27 4 11, .movi 26, .movi 27, .st2R 28 29 4 11, .movi 28,
    .movi 29, .st2R 30 31 4 11, .movi 30, .movi 31],
  .jmp 51⟩

/-- kernel_arm64.cc:7557-7564 (label 331). -/
def dota51 : Block := ⟨[
    .ve .sdot 16 0 2 0, .ve .sdot 18 0 2 1, .ve .sdot 20 0 2 2, .ve .sdot 22 0 2 3],
  .br .eq 56 52⟩

/-- kernel_arm64.cc:7569-7571. -/
def dota52 : Block := ⟨[
    .movX 3 tmpBuf, .movX 4 dstPtr, .movI 6 0],
  .jmp 53⟩

/-- kernel_arm64.cc:7574-7574 (label 350). -/
def dota53 : Block := ⟨[
    .movI 5 0],
  .jmp 54⟩

/-- kernel_arm64.cc:7576-7580 (label 351). -/
def dota54 : Block := ⟨[
    .ldrS 7 3 5, .strS 7 4 5, .addWI 5 5 1, .cmpW 5 1],
  .br .lt 54 55⟩

/-- kernel_arm64.cc:7581-7585. -/
def dota55 : Block := ⟨[
    .addWI 6 6 1, .addXI 3 3 32, .addX 4 4 11 0, .cmpW 6 2],
  .br .lt 53 56⟩

/-- kernel_arm64.cc:7587-7587 (label 341). -/
def dota56 : Block := ⟨[
    .addXI dstPtr dstPtr 32],
  .jmp 57⟩

/-- kernel_arm64.cc:7595-7603 (label RUY_ASM_LABEL_AFTER_STORE). -/
def dota57 : Block := ⟨[
    .ldpW 6 .startRow, .ldpW 7 .lastRow, .cmpW rRow 7],
  .br .eq 59 58⟩

/-- kernel_arm64.cc:7605-7606. -/
def dota58 : Block := ⟨[
    .addWI rRow rRow 8],
  .jmp 60⟩

/-- kernel_arm64.cc:7609-7612 (label 20). -/
def dota59 : Block := ⟨[
    .movW rRow 6, .addWI rCol rCol 8, .addX dstColPtr dstColPtr 11 3, .movX dstPtr dstColPtr],
  .jmp 60⟩

/-- kernel_arm64.cc:7616-7618 (label 21). -/
def dota60 : Block := ⟨[
    .cmpW rCol 8, .ldpX 5 .lhsBasePtr],
  .br .le 1 61⟩

/-- The whole `asm` statement of `Kernel8bitNeonDotprodA55ish`. -/
def dotaCode : List Block := [
  dota0, dota1, dota2, dota3, dota4, dota5, dota6, dota7, dota8, dota9, dota10, dota11, dota12,
  dota13, dota14, dota15, dota16, dota17, dota18, dota19, dota20, dota21, dota22, dota23, dota24,
  dota25, dota26, dota27, dota28, dota29, dota30, dota31, dota32, dota33, dota34, dota35, dota36,
  dota37, dota38, dota39, dota40, dota41, dota42, dota43, dota44, dota45, dota46, dota47, dota48,
  dota49, dota50, dota51, dota52, dota53, dota54, dota55, dota56, dota57, dota58, dota59, dota60]

/-- The words after `.inst` in the `asm` statement, in order. -/
def dotaWords : List Nat := [
    0x4f82e010, 0x4fa2e012, 0x4f82e814, 0x4fa2e816, 0x4f83e018, 0x4fa3e01a, 0x4f83e81c,
    0x4fa3e81e, 0x4f82e031, 0x4fa2e033, 0x4f82e835, 0x4fa2e837, 0x4f83e039, 0x4fa3e03b,
    0x4f83e83d, 0x4fa3e83f, 0x4f82e010, 0x4fa2e012, 0x4f82e814, 0x4fa2e816, 0x4f83e018,
    0x4fa3e01a, 0x4f83e81c, 0x4fa3e81e, 0x4f82e031, 0x4fa2e033, 0x4f82e835, 0x4fa2e837,
    0x4f83e039, 0x4fa3e03b, 0x4f83e83d, 0x4fa3e83f, 0x4f82e010, 0x4f82e814, 0x4fa2e012,
    0x4fa2e816, 0x4f82e010, 0x4f82e814, 0x4fa2e012, 0x4fa2e816, 0x4f82e010, 0x4fa2e012,
    0x4f82e814, 0x4fa2e816, 0x4f82e010, 0x4fa2e012, 0x4f82e814, 0x4fa2e816]

/-- They are the instructions of the program. -/
theorem dota_words : dotaWords.map sdotOf = (sdots dotaCode).map some := by decide +kernel

end Ruy.Neon

import Verif.Neon.Isa
/-
The AArch64 kernel `Kernel8bitNeon`, kernel_arm64.cc:99-1151, as a program for the
machine of `Isa.lean`: every instruction of the `asm` statement, in order.

The operands of the `asm` statement (kernel_arm64.cc:1141-1146) are registers chosen by
the compiler; they get numbers from 32 on.
-/
namespace Ruy.Neon

abbrev lhsColPtr : Nat := 32
abbrev rhsColPtr : Nat := 33
abbrev lhsPtr : Nat := 34
abbrev rhsPtr : Nat := 35
abbrev dstColPtr : Nat := 36
abbrev dstPtr : Nat := 37
abbrev rRow : Nat := 38
abbrev rCol : Nat := 39
abbrev rDstRows : Nat := 40
abbrev rDstCols : Nat := 41
abbrev tmpBuf : Nat := 42
abbrev dstTypeId : Nat := 43

/-- kernel_arm64.cc:142-206. -/
def gemm0 : Block := ⟨[
    .ldpX 5 .lhsBasePtr, .ldpW 6 .startRow, .ldpW 7 .lastRow, .ldpW 8 .lastCol,
    .ldpW 9 .lhsStride, .ldpW 10 .rhsStride, .ldpW 11 .dstStride, .ldpW 12 .depth,
    .ldq 0 lhsPtr 0 16, .ldq 1 lhsPtr 0 16, .ldq 2 lhsPtr 0 16, .ldq 3 lhsPtr 0 16,
    .ldq 4 rhsPtr 0 16, .ldq 5 rhsPtr 0 16, .ldq 6 rhsPtr 0 16, .ldq 7 rhsPtr 0 16, .movi 16,
    .movi 17, .movi 18, .movi 19, .movi 20, .movi 21, .movi 22, .movi 23, .movi 24, .movi 25,
    .movi 26, .movi 27, .movi 28, .movi 29, .movi 30, .movi 31, .movI 1 16, .v3 .smull 8 0 4,
    .v3 .smull 9 1 4, .v3 .smull 10 2 4, .v3 .smull 11 3 4, .v3 .smull 12 0 5, .v3 .smull 13 1 5,
    .v3 .smull 14 2 5, .v3 .smull 15 3 5, .v3 .smlal2 8 0 4, .v3 .smlal2 9 1 4,
    .v3 .smlal2 10 2 4, .v3 .smlal2 11 3 4, .v3 .smlal2 12 0 5, .v3 .smlal2 13 1 5,
    .v3 .smlal2 14 2 5, .v3 .smlal2 15 3 5],
  .jmp 1⟩

/-- kernel_arm64.cc:215-216 (label 1). -/
def gemm1 : Block := ⟨[
    .cmpW 1 12],
  .br .eq 3 2⟩

/-- kernel_arm64.cc:222-301 (label 2). -/
def gemm2 : Block := ⟨[
    .v3 .sadalp 16 8 8, .ldq 4 rhsPtr 0 16, .v3 .smull 8 0 6, .v3 .sadalp 17 9 9,
    .ldq 5 rhsPtr 0 16, .v3 .smull 9 1 6, .v3 .sadalp 18 10 10, .v3 .smull 10 2 6,
    .v3 .sadalp 19 11 11, .v3 .smull 11 3 6, .v3 .sadalp 20 12 12, .v3 .smull 12 0 7,
    .v3 .sadalp 21 13 13, .v3 .smull 13 1 7, .v3 .sadalp 22 14 14, .v3 .smull 14 2 7,
    .v3 .sadalp 23 15 15, .v3 .smull 15 3 7, .v3 .smlal2 8 0 6, .v3 .smlal2 9 1 6,
    .v3 .smlal2 10 2 6, .v3 .smlal2 11 3 6, .ldq 6 rhsPtr 0 16, .v3 .smlal2 12 0 7,
    .ldq 0 lhsPtr 0 16, .v3 .smlal2 13 1 7, .ldq 1 lhsPtr 0 16, .v3 .smlal2 14 2 7,
    .ldq 2 lhsPtr 0 16, .v3 .smlal2 15 3 7, .ldq 3 lhsPtr 0 16, .v3 .sadalp 24 8 8,
    .v3 .smull 8 0 4, .v3 .sadalp 25 9 9, .ldq 7 rhsPtr 0 16, .v3 .smull 9 1 4,
    .v3 .sadalp 26 10 10, .v3 .smull 10 2 4, .v3 .sadalp 27 11 11, .v3 .smull 11 3 4,
    .v3 .sadalp 28 12 12, .v3 .smull 12 0 5, .v3 .sadalp 29 13 13, .v3 .smull 13 1 5,
    .v3 .sadalp 30 14 14, .v3 .smull 14 2 5, .v3 .sadalp 31 15 15, .v3 .smull 15 3 5,
    .v3 .smlal2 8 0 4, .v3 .smlal2 9 1 4, .v3 .smlal2 10 2 4, .v3 .smlal2 11 3 4,
    .v3 .smlal2 12 0 5, .v3 .smlal2 13 1 5, .v3 .smlal2 14 2 5, .v3 .smlal2 15 3 5, .addWI 1 1 16,
    .cmpW 1 12],
  .br .lt 2 3⟩

/-- kernel_arm64.cc:305-379 (label 79). -/
def gemm3 : Block := ⟨[
    .v3 .sadalp 16 8 8, .v3 .smull 8 0 6, .v3 .sadalp 17 9 9, .v3 .smull 9 1 6,
    .v3 .sadalp 18 10 10, .v3 .smull 10 2 6, .v3 .sadalp 19 11 11, .v3 .smull 11 3 6,
    .v3 .sadalp 20 12 12, .v3 .smull 12 0 7, .v3 .sadalp 21 13 13, .v3 .smull 13 1 7,
    .v3 .sadalp 22 14 14, .v3 .smull 14 2 7, .v3 .sadalp 23 15 15, .v3 .smull 15 3 7,
    .v3 .smlal2 8 0 6, .v3 .smlal2 9 1 6, .v3 .smlal2 10 2 6, .v3 .smlal2 11 3 6,
    .v3 .smlal2 12 0 7, .v3 .smlal2 13 1 7, .v3 .smlal2 14 2 7, .v3 .smlal2 15 3 7,
    .v3 .sadalp 24 8 8, .v3 .sadalp 25 9 9, .v3 .sadalp 26 10 10, .v3 .sadalp 27 11 11,
    .v3 .sadalp 28 12 12, .v3 .sadalp 29 13 13, .v3 .sadalp 30 14 14, .v3 .sadalp 31 15 15,
    .v3 .addp 16 16 17, .v3 .addp 18 18 19, .v3 .addp 20 20 21, .v3 .addp 22 22 23,
    .v3 .addp 24 24 25, .v3 .addp 26 26 27, .v3 .addp 28 28 29, .v3 .addp 30 30 31,
    .v3 .addp 16 16 18, .v3 .addp 17 20 22, .v3 .addp 18 24 26, .v3 .addp 19 28 30, .cmpW rRow 7],
  .br .ge 5 4⟩

/-- kernel_arm64.cc:381-382. -/
def gemm4 : Block := ⟨[
    .addX lhsColPtr lhsColPtr 9 2],
  .jmp 7⟩

/-- kernel_arm64.cc:384-393 (label 4). -/
def gemm5 : Block := ⟨[
    .movX lhsColPtr 5, .cmpW rCol 8],
  .br .ge 7 6⟩

/-- kernel_arm64.cc:395-395. -/
def gemm6 : Block := ⟨[
    .addX rhsColPtr rhsColPtr 10 2],
  .jmp 7⟩

/-- kernel_arm64.cc:400-459 (label 5). -/
def gemm7 : Block := ⟨[
    .movX lhsPtr lhsColPtr, .movX rhsPtr rhsColPtr, .mvni 8, .ldpW 4 .dstZeroPoint,
    .ldpW 3 .prodZpDepth, .insH 13 4 4, .ldpX 4 .mulFix, .ldpB 6 .flags, .dupS 9 3, .ldpX 1 .bias,
    .tst 6 32, .cselW 3 rRow rCol .eq, .addX 5 1 3 2, .tst 6 1, .cselX 1 1 5 .eq, .ldq 14 1 0 0,
    .addX 5 4 3 2, .tst 6 8, .cselX 4 4 5 .eq, .ldq 15 4 0 0, .ldq 0 lhsPtr 0 16,
    .ldq 1 lhsPtr 0 16, .ldq 2 lhsPtr 0 16, .ldq 3 lhsPtr 0 16, .ldq 4 rhsPtr 0 16,
    .ldq 5 rhsPtr 0 16, .ldq 6 rhsPtr 0 16, .ldq 7 rhsPtr 0 16, .v3 .add 14 14 9, .tst 6 32],
  .br .ne 9 8⟩

/-- kernel_arm64.cc:461-465. -/
def gemm8 : Block := ⟨[
    .v3 .add 16 16 14, .v3 .add 17 17 14, .v3 .add 18 18 14, .v3 .add 19 19 14],
  .jmp 10⟩

/-- kernel_arm64.cc:469-476 (label 6). -/
def gemm9 : Block := ⟨[
    .dupES 20 14 0, .dupES 21 14 1, .dupES 22 14 2, .dupES 23 14 3, .v3 .add 16 16 20,
    .v3 .add 17 17 21, .v3 .add 18 18 22, .v3 .add 19 19 23],
  .jmp 10⟩

/-- kernel_arm64.cc:479-480 (label 7). -/
def gemm10 : Block := ⟨[
    .tst 6 4],
  .br .eq 12 11⟩

/-- kernel_arm64.cc:481-491. -/
def gemm11 : Block := ⟨[
    .ldpX 3 .rhsSums, .addX 3 3 rCol 2, .ldq 14 3 0 0, .ldpW 5 .lhsZeroPoint, .dupS 10 5,
    .ve .mls 16 10 14 0, .ve .mls 17 10 14 1, .ve .mls 18 10 14 2, .ve .mls 19 10 14 3],
  .jmp 12⟩

/-- kernel_arm64.cc:494-495 (label 401). -/
def gemm12 : Block := ⟨[
    .tst 6 2],
  .br .eq 14 13⟩

/-- kernel_arm64.cc:496-514. -/
def gemm13 : Block := ⟨[
    .ldpX 2 .lhsSums, .addX 2 2 rRow 2, .ldpW 5 .rhsZeroPoint, .ldq 11 2 0 0, .insS 13 1 5,
    .ve .mul 11 11 13 1, .v3 .sub 16 16 11, .v3 .sub 17 17 11, .v3 .sub 18 18 11,
    .v3 .sub 19 19 11, .cmpI dstTypeId 4],
  .br .eq 43 14⟩

/-- kernel_arm64.cc:526-542 (label 402). -/
def gemm14 : Block := ⟨[
    .ldpX 1 .mulExp, .tst 6 32, .cselW 3 rRow rCol .eq, .tst 6 8, .addX 5 1 3 2, .cselX 1 1 5 .eq,
    .ldq 14 1 0 0, .v3 .smin 11 8 14, .v3 .sub 12 14 11, .tst 6 32],
  .br .ne 16 15⟩

/-- kernel_arm64.cc:546-562. -/
def gemm15 : Block := ⟨[
    .v3 .sshl 16 16 12, .v3 .sshl 17 17 12, .v3 .sshl 18 18 12, .v3 .sshl 19 19 12,
    .v3 .sqdmulh 16 16 15, .v3 .sqdmulh 17 17 15, .v3 .sqdmulh 18 18 15, .v3 .sqdmulh 19 19 15,
    .v3 .srshl 16 16 11, .v3 .srshl 17 17 11, .v3 .srshl 18 18 11, .v3 .srshl 19 19 11],
  .jmp 17⟩

/-- kernel_arm64.cc:568-591 (label 8). -/
def gemm16 : Block := ⟨[
    .dupES 20 12 0, .dupES 21 12 1, .dupES 22 12 2, .dupES 23 12 3, .v3 .sshl 16 16 20,
    .v3 .sshl 17 17 21, .v3 .sshl 18 18 22, .v3 .sshl 19 19 23, .ve .sqdmulh 16 16 15 0,
    .ve .sqdmulh 17 17 15 1, .ve .sqdmulh 18 18 15 2, .ve .sqdmulh 19 19 15 3, .dupES 20 11 0,
    .dupES 21 11 1, .dupES 22 11 2, .dupES 23 11 3, .v3 .srshl 16 16 20, .v3 .srshl 17 17 21,
    .v3 .srshl 18 18 22, .v3 .srshl 19 19 23],
  .jmp 17⟩

/-- kernel_arm64.cc:594-595 (label 9). -/
def gemm17 : Block := ⟨[
    .cmpI dstTypeId 3],
  .br .eq 35 18⟩

/-- kernel_arm64.cc:596-597. -/
def gemm18 : Block := ⟨[
    .cmpI dstTypeId 2],
  .br .eq 27 19⟩

/-- kernel_arm64.cc:602-665 (label RUY_ASM_LABEL_STORE_UINT8). -/
def gemm19 : Block := ⟨[
    .v3 .sqxtnS 16 16 16, .v3 .sqxtnS2 16 17 17, .v3 .sqxtnS 17 18 18, .v3 .sqxtnS2 17 19 19,
    .movi 18, .movi 19, .movi 20, .movi 21, .movi 22, .movi 23, .movi 24, .movi 25, .movi 26,
    .movi 27, .movi 28, .movi 29, .movi 30, .movi 31, .dupEH 14 13 4, .v3 .sqaddH 16 16 14,
    .v3 .sqaddH 17 17 14, .v3 .sqxtun 16 16 16, .v3 .sqxtun2 16 17 17, .ldpB 2 .clampMin,
    .ldpB 3 .clampMax, .dupB 14 2, .dupB 15 3, .v3 .umaxB 16 16 14, .v3 .uminB 16 16 15,
    .subW 1 rDstRows rRow, .subW 2 rDstCols rCol, .movI 3 4, .cmpI 1 4, .cselW 1 1 3 .le,
    .cmpI 2 4, .cselW 2 2 3 .le, .cmpW 1 3, .ccmpEq 2 3, .movX 4 dstPtr],
  .br .eq 25 20⟩

/-- kernel_arm64.cc:668-671. -/
def gemm20 : Block := ⟨[
    .stq 16 tmpBuf 0, .movX 3 tmpBuf, .movI 6 0],
  .jmp 21⟩

/-- kernel_arm64.cc:674-674 (label 50). -/
def gemm21 : Block := ⟨[
    .movI 5 0],
  .jmp 22⟩

/-- kernel_arm64.cc:676-680 (label 51). -/
def gemm22 : Block := ⟨[
    .ldrB 7 3 5, .strB 7 4 5, .addWI 5 5 1, .cmpW 5 1],
  .br .lt 22 23⟩

/-- kernel_arm64.cc:681-685. -/
def gemm23 : Block := ⟨[
    .addWI 6 6 1, .addXI 3 3 4, .addX 4 4 11 0, .cmpW 6 2],
  .br .lt 21 24⟩

/-- kernel_arm64.cc:686-686. -/
def gemm24 : Block := ⟨[
   ],
  .jmp 26⟩

/-- kernel_arm64.cc:690-716 (label 30). -/
def gemm25 : Block := ⟨[
    .movX 3 4, .stB 16 0 3, .addX 4 4 11 0, .stB 16 1 3, .stB 16 2 3, .stB 16 3 3, .movX 3 4,
    .stB 16 4 3, .addX 4 4 11 0, .stB 16 5 3, .stB 16 6 3, .stB 16 7 3, .movX 3 4, .stB 16 8 3,
    .addX 4 4 11 0, .stB 16 9 3, .stB 16 10 3, .stB 16 11 3, .movX 3 4, .stB 16 12 3,
    .addX 4 4 11 0, .stB 16 13 3, .stB 16 14 3, .stB 16 15 3],
  .jmp 26⟩

/-- kernel_arm64.cc:719-724 (label 31). -/
def gemm26 : Block := ⟨[
    .addXI dstPtr dstPtr 4, .movi 16, .movi 17],
  .jmp 51⟩

/-- kernel_arm64.cc:729-792 (label RUY_ASM_LABEL_STORE_INT8). -/
def gemm27 : Block := ⟨[
    .v3 .sqxtnS 16 16 16, .v3 .sqxtnS2 16 17 17, .v3 .sqxtnS 17 18 18, .v3 .sqxtnS2 17 19 19,
    .movi 18, .movi 19, .movi 20, .movi 21, .movi 22, .movi 23, .movi 24, .movi 25, .movi 26,
    .movi 27, .movi 28, .movi 29, .movi 30, .movi 31, .dupEH 14 13 4, .v3 .sqaddH 16 16 14,
    .v3 .sqaddH 17 17 14, .v3 .sqxtnH 16 16 16, .v3 .sqxtnH2 16 17 17, .ldpB 2 .clampMin,
    .ldpB 3 .clampMax, .dupB 14 2, .dupB 15 3, .v3 .smaxB 16 16 14, .v3 .sminB 16 16 15,
    .subW 1 rDstRows rRow, .subW 2 rDstCols rCol, .movI 3 4, .cmpI 1 4, .cselW 1 1 3 .le,
    .cmpI 2 4, .cselW 2 2 3 .le, .cmpW 1 3, .ccmpEq 2 3, .movX 4 dstPtr],
  .br .eq 33 28⟩

/-- kernel_arm64.cc:795-798. -/
def gemm28 : Block := ⟨[
    .stq 16 tmpBuf 0, .movX 3 tmpBuf, .movI 6 0],
  .jmp 29⟩

/-- kernel_arm64.cc:801-801 (label 50). -/
def gemm29 : Block := ⟨[
    .movI 5 0],
  .jmp 30⟩

/-- kernel_arm64.cc:803-807 (label 51). -/
def gemm30 : Block := ⟨[
    .ldrB 7 3 5, .strB 7 4 5, .addWI 5 5 1, .cmpW 5 1],
  .br .lt 30 31⟩

/-- kernel_arm64.cc:808-812. -/
def gemm31 : Block := ⟨[
    .addWI 6 6 1, .addXI 3 3 4, .addX 4 4 11 0, .cmpW 6 2],
  .br .lt 29 32⟩

/-- kernel_arm64.cc:813-813. -/
def gemm32 : Block := ⟨[
   ],
  .jmp 34⟩

/-- kernel_arm64.cc:817-843 (label 30). -/
def gemm33 : Block := ⟨[
    .movX 3 4, .stB 16 0 3, .addX 4 4 11 0, .stB 16 1 3, .stB 16 2 3, .stB 16 3 3, .movX 3 4,
    .stB 16 4 3, .addX 4 4 11 0, .stB 16 5 3, .stB 16 6 3, .stB 16 7 3, .movX 3 4, .stB 16 8 3,
    .addX 4 4 11 0, .stB 16 9 3, .stB 16 10 3, .stB 16 11 3, .movX 3 4, .stB 16 12 3,
    .addX 4 4 11 0, .stB 16 13 3, .stB 16 14 3, .stB 16 15 3],
  .jmp 34⟩

/-- kernel_arm64.cc:846-851 (label 31). -/
def gemm34 : Block := ⟨[
    .addXI dstPtr dstPtr 4, .movi 16, .movi 17],
  .jmp 51⟩

/-- kernel_arm64.cc:856-919 (label RUY_ASM_LABEL_STORE_INT16). -/
def gemm35 : Block := ⟨[
    .dupEH4 14 13 4, .v3 .saddw 16 16 14, .v3 .saddw 17 17 14, .v3 .saddw 18 18 14,
    .v3 .saddw 19 19 14, .v3 .sqxtnS 16 16 16, .v3 .sqxtnS2 16 17 17, .v3 .sqxtnS 17 18 18,
    .v3 .sqxtnS2 17 19 19, .movi 18, .movi 19, .movi 20, .movi 21, .movi 22, .movi 23, .movi 24,
    .movi 25, .movi 26, .movi 27, .movi 28, .movi 29, .movi 30, .movi 31, .ldpH 2 .clampMin,
    .ldpH 3 .clampMax, .dupH 14 2, .dupH 15 3, .v3 .smaxH 16 16 14, .v3 .smaxH 17 17 14,
    .v3 .sminH 16 16 15, .v3 .sminH 17 17 15, .subW 1 rDstRows rRow, .subW 2 rDstCols rCol,
    .movI 3 4, .cmpI 1 4, .cselW 1 1 3 .le, .cmpI 2 4, .cselW 2 2 3 .le, .cmpW 1 3, .ccmpEq 2 3,
    .movX 4 dstPtr],
  .br .eq 41 36⟩

/-- kernel_arm64.cc:922-926. -/
def gemm36 : Block := ⟨[
    .stq 16 tmpBuf 0, .stq 17 tmpBuf 16, .movX 3 tmpBuf, .movI 6 0],
  .jmp 37⟩

/-- kernel_arm64.cc:929-929 (label 50). -/
def gemm37 : Block := ⟨[
    .movI 5 0],
  .jmp 38⟩

/-- kernel_arm64.cc:931-935 (label 51). -/
def gemm38 : Block := ⟨[
    .ldrH 7 3 5, .strH 7 4 5, .addWI 5 5 1, .cmpW 5 1],
  .br .lt 38 39⟩

/-- kernel_arm64.cc:936-940. -/
def gemm39 : Block := ⟨[
    .addWI 6 6 1, .addXI 3 3 8, .addX 4 4 11 0, .cmpW 6 2],
  .br .lt 37 40⟩

/-- kernel_arm64.cc:941-941. -/
def gemm40 : Block := ⟨[
   ],
  .jmp 42⟩

/-- kernel_arm64.cc:945-971 (label 30). -/
def gemm41 : Block := ⟨[
    .movX 3 4, .stH 16 0 3, .addX 4 4 11 0, .stH 16 1 3, .stH 16 2 3, .stH 16 3 3, .movX 3 4,
    .stH 16 4 3, .addX 4 4 11 0, .stH 16 5 3, .stH 16 6 3, .stH 16 7 3, .movX 3 4, .stH 17 0 3,
    .addX 4 4 11 0, .stH 17 1 3, .stH 17 2 3, .stH 17 3 3, .movX 3 4, .stH 17 4 3, .addX 4 4 11 0,
    .stH 17 5 3, .stH 17 6 3, .stH 17 7 3],
  .jmp 42⟩

/-- kernel_arm64.cc:974-979 (label 31). -/
def gemm42 : Block := ⟨[
    .addXI dstPtr dstPtr 8, .movi 16, .movi 17],
  .jmp 51⟩

/-- kernel_arm64.cc:989-1022 (label RUY_ASM_LABEL_STORE_INT32). -/
def gemm43 : Block := ⟨[
    .movi 20, .movi 21, .movi 22, .movi 23, .movi 24, .movi 25, .movi 26, .movi 27, .movi 28,
    .movi 29, .movi 30, .movi 31, .subW 1 rDstRows rRow, .subW 2 rDstCols rCol, .movI 3 4,
    .cmpI 1 4, .cselW 1 1 3 .le, .cmpI 2 4, .cselW 2 2 3 .le, .cmpW 1 3, .ccmpEq 2 3,
    .movX 4 dstPtr],
  .br .eq 49 44⟩

/-- kernel_arm64.cc:1025-1031. -/
def gemm44 : Block := ⟨[
    .stq 16 tmpBuf 0, .stq 17 tmpBuf 16, .stq 18 tmpBuf 32, .stq 19 tmpBuf 48, .movX 3 tmpBuf,
    .movI 6 0],
  .jmp 45⟩

/-- kernel_arm64.cc:1034-1034 (label 50). -/
def gemm45 : Block := ⟨[
    .movI 5 0],
  .jmp 46⟩

/-- kernel_arm64.cc:1036-1040 (label 51). -/
def gemm46 : Block := ⟨[
    .ldrS 7 3 5, .strS 7 4 5, .addWI 5 5 1, .cmpW 5 1],
  .br .lt 46 47⟩

/-- kernel_arm64.cc:1041-1045. -/
def gemm47 : Block := ⟨[
    .addWI 6 6 1, .addXI 3 3 16, .addX 4 4 11 0, .cmpW 6 2],
  .br .lt 45 48⟩

/-- kernel_arm64.cc:1046-1046. -/
def gemm48 : Block := ⟨[
   ],
  .jmp 50⟩

/-- kernel_arm64.cc:1050-1076 (label 30). -/
def gemm49 : Block := ⟨[
    .movX 3 4, .stS 16 0 3, .addX 4 4 11 0, .stS 16 1 3, .stS 16 2 3, .stS 16 3 3, .movX 3 4,
    .stS 17 0 3, .addX 4 4 11 0, .stS 17 1 3, .stS 17 2 3, .stS 17 3 3, .movX 3 4, .stS 18 0 3,
    .addX 4 4 11 0, .stS 18 1 3, .stS 18 2 3, .stS 18 3 3, .movX 3 4, .stS 19 0 3, .addX 4 4 11 0,
    .stS 19 1 3, .stS 19 2 3, .stS 19 3 3],
  .jmp 50⟩

/-- kernel_arm64.cc:1079-1084 (label 31). -/
def gemm50 : Block := ⟨[
    .addXI dstPtr dstPtr 16, .movi 16, .movi 17, .movi 18, .movi 19],
  .jmp 51⟩

/-- kernel_arm64.cc:1090-1118 (label RUY_ASM_LABEL_AFTER_STORE). -/
def gemm51 : Block := ⟨[
    .v3 .smull 8 0 4, .v3 .smull 9 1 4, .v3 .smull 10 2 4, .v3 .smull 11 3 4, .v3 .smull 12 0 5,
    .v3 .smull 13 1 5, .v3 .smull 14 2 5, .v3 .smull 15 3 5, .v3 .smlal2 8 0 4, .v3 .smlal2 9 1 4,
    .v3 .smlal2 10 2 4, .v3 .smlal2 11 3 4, .v3 .smlal2 12 0 5, .v3 .smlal2 13 1 5,
    .v3 .smlal2 14 2 5, .v3 .smlal2 15 3 5, .ldpX 5 .lhsBasePtr, .ldpW 6 .startRow,
    .ldpW 7 .lastRow, .cmpW rRow 7],
  .br .eq 53 52⟩

/-- kernel_arm64.cc:1120-1121. -/
def gemm52 : Block := ⟨[
    .addWI rRow rRow 4],
  .jmp 54⟩

/-- kernel_arm64.cc:1124-1127 (label 20). -/
def gemm53 : Block := ⟨[
    .movW rRow 6, .addWI rCol rCol 4, .addX dstColPtr dstColPtr 11 2, .movX dstPtr dstColPtr],
  .jmp 54⟩

/-- kernel_arm64.cc:1131-1138 (label 21). -/
def gemm54 : Block := ⟨[
    .cmpW rCol 8, .movI 1 16],
  .br .le 1 55⟩

/-- The whole `asm` statement of `Kernel8bitNeon`. -/
def gemmCode : List Block := [
  gemm0, gemm1, gemm2, gemm3, gemm4, gemm5, gemm6, gemm7, gemm8, gemm9, gemm10, gemm11, gemm12, gemm13, gemm14, gemm15, gemm16, gemm17, gemm18, gemm19, gemm20, gemm21, gemm22, gemm23, gemm24, gemm25, gemm26, gemm27, gemm28, gemm29, gemm30, gemm31, gemm32, gemm33, gemm34, gemm35, gemm36, gemm37, gemm38, gemm39, gemm40, gemm41, gemm42, gemm43, gemm44, gemm45, gemm46, gemm47, gemm48, gemm49, gemm50, gemm51, gemm52, gemm53, gemm54]

end Ruy.Neon

import Verif.Neon.DotCode
/-
The AArch64 kernel `Kernel8bitNeonDotprod1Col`, kernel_arm64.cc:5669-6360, as a program for the
machine of `Isa.lean`: every instruction of the `asm` statement, in order.
-/
namespace Ruy.Neon

/-- kernel_arm64.cc:5723-5749. -/
def doto0 : Block := ⟨[
    .ldpX 5 .lhsBasePtr, .ldpW 6 .startRow, .ldpW 7 .lastRow, .ldpW 8 .lastCol,
    .ldpW 9 .lhsStride, .ldpW 10 .rhsStride, .ldpW 11 .dstStride, .ldpW 12 .depth,
    .ldq 0 lhsPtr 0 16, .ldq 1 lhsPtr 0 16, .ldd 2 rhsPtr 0 0, .addXI rhsPtr rhsPtr 32, .movi 16,
    .movi 17, .movI 1 4, .ve .sdot 16 0 2 0],
  .jmp 1⟩

/-- kernel_arm64.cc:5760-5761 (label 1). -/
def doto1 : Block := ⟨[
    .cmpW 1 12],
  .br .eq 3 2⟩

/-- kernel_arm64.cc:5768-5778 (label 2). -/
def doto2 : Block := ⟨[
    .addWI 1 1 4, .ldq 0 lhsPtr 0 16, .ve .sdot 17 1 2 0, .cmpW 1 12, .ldd 2 rhsPtr 0 0,
    .addXI rhsPtr rhsPtr 32, .ve .sdot 16 0 2 0, .ldq 1 lhsPtr 0 16],
  .br .lt 2 3⟩

/-- kernel_arm64.cc:5785-5804 (label 79). -/
def doto3 : Block := ⟨[
    .ve .sdot 17 1 2 0, .cmpW rRow 7],
  .br .ge 5 4⟩

/-- kernel_arm64.cc:5806-5807. -/
def doto4 : Block := ⟨[
    .addX lhsColPtr lhsColPtr 9 3],
  .jmp 7⟩

/-- kernel_arm64.cc:5809-5818 (label 4). -/
def doto5 : Block := ⟨[
    .movX lhsColPtr 5, .cmpW rCol 8],
  .br .ge 7 6⟩

/-- kernel_arm64.cc:5820-5820. -/
def doto6 : Block := ⟨[
    .addX rhsColPtr rhsColPtr 10 3],
  .jmp 7⟩

/-- kernel_arm64.cc:5825-5870 (label 5). -/
def doto7 : Block := ⟨[
    .movX lhsPtr lhsColPtr, .movX rhsPtr rhsColPtr, .mvni 8, .ldpW 4 .dstZeroPoint,
    .ldpW 3 .prodZpDepth, .insH 13 4 4, .ldpX 4 .mulFix, .ldpB 6 .flags, .dupS 9 3,
    .addX 5 4 rRow 2, .tst 6 8, .cselX 4 4 5 .eq, .ldpX 1 .bias, .addX 5 1 rRow 2, .tst 6 1,
    .cselX 1 1 5 .eq, .ldq 14 1 0 16, .ldq 15 1 0 0, .ldq 0 lhsPtr 0 16, .ldq 1 lhsPtr 0 16,
    .ldd 2 rhsPtr 0 0, .addXI rhsPtr rhsPtr 32, .v3 .add 14 14 9, .v3 .add 15 15 9,
    .v3 .add 16 16 14, .v3 .add 17 17 15, .tst 6 4],
  .br .eq 9 8⟩

/-- kernel_arm64.cc:5871-5880. -/
def doto8 : Block := ⟨[
    .ldpX 3 .rhsSums, .addX 3 3 rCol 2, .ldq 14 3 0 16, .ldq 15 3 0 0, .ldpW 5 .lhsZeroPoint,
    .dupS 10 5, .ve .mls 16 10 14 0, .ve .mls 17 10 14 0],
  .jmp 9⟩

/-- kernel_arm64.cc:5883-5884 (label 401). -/
def doto9 : Block := ⟨[
    .tst 6 2],
  .br .eq 11 10⟩

/-- kernel_arm64.cc:5885-5901. -/
def doto10 : Block := ⟨[
    .ldpX 2 .lhsSums, .addX 2 2 rRow 2, .ldpW 5 .rhsZeroPoint, .ldq 11 2 0 16, .ldq 12 2 0 0,
    .insS 13 1 5, .ve .mul 11 11 13 1, .ve .mul 12 12 13 1, .v3 .sub 16 16 11, .v3 .sub 17 17 12,
    .cmpI dstTypeId 4],
  .br .eq 38 11⟩

/-- kernel_arm64.cc:5913-5928 (label 402). -/
def doto11 : Block := ⟨[
    .ldpX 1 .mulExp, .tst 6 8, .addX 5 1 rRow 2, .cselX 1 1 5 .eq, .ldq 9 1 0 0, .ldq 10 1 16 0,
    .v3 .smin 11 8 9, .v3 .smin 12 8 10, .v3 .sub 9 9 11, .v3 .sub 10 10 12, .v3 .sshl 16 16 9,
    .v3 .sshl 17 17 10],
  .jmp 12⟩

/-- kernel_arm64.cc:5931-5943 (label 403). -/
def doto12 : Block := ⟨[
    .ldq 14 4 0 0, .ldq 15 4 16 0, .v3 .sqdmulh 16 16 14, .v3 .sqdmulh 17 17 15,
    .v3 .srshl 16 16 11, .v3 .srshl 17 17 12, .cmpI dstTypeId 3],
  .br .eq 30 13⟩

/-- kernel_arm64.cc:5944-5945. -/
def doto13 : Block := ⟨[
    .cmpI dstTypeId 2],
  .br .eq 22 14⟩

/-- kernel_arm64.cc:5950-5995 (label RUY_ASM_LABEL_STORE_UINT8). -/
def doto14 : Block := ⟨[
    .v3 .sqxtnS 16 16 16, .v3 .sqxtnS2 16 17 17, .dupEH 14 13 4, .v3 .sqaddH 16 16 14,
    .v3 .sqxtun 16 16 16, .ldpB 2 .clampMin, .ldpB 3 .clampMax, .dupB 14 2, .dupB 15 3,
    .v3 .umaxB 16 16 14, .v3 .uminB 16 16 15, .dupD 20 16 1, .subW 1 rDstRows rRow,
    .subW 2 rDstCols rCol, .movI 3 8, .cmpI 1 8, .cselW 1 1 3 .le, .cmpI 2 8, .cmpW 1 3],
  .br .eq 16 15⟩

/-- kernel_arm64.cc:5998-6000. -/
def doto15 : Block := ⟨[
    .movX 3 tmpBuf, .movI 4 8],
  .jmp 17⟩

/-- kernel_arm64.cc:6004-6005 (label 30). -/
def doto16 : Block := ⟨[
    .movX 3 dstPtr, .movX 4 11],
  .jmp 17⟩

/-- kernel_arm64.cc:6010-6020 (label 31). -/
def doto17 : Block := ⟨[
    .std 16 3, .movi 16, .movi 17, .ve .sdot 16 0 2 0],
  .br .eq 21 18⟩

/-- kernel_arm64.cc:6024-6026. -/
def doto18 : Block := ⟨[
    .movX 3 tmpBuf, .movX 4 dstPtr, .movI 6 0],
  .jmp 19⟩

/-- kernel_arm64.cc:6029-6029 (label 50). -/
def doto19 : Block := ⟨[
    .movI 5 0],
  .jmp 20⟩

/-- kernel_arm64.cc:6031-6035 (label 51). -/
def doto20 : Block := ⟨[
    .ldrB 7 3 5, .strB 7 4 5, .addWI 5 5 1, .cmpW 5 1],
  .br .lt 20 21⟩

/-- kernel_arm64.cc:6037-6041 (label 41). -/
def doto21 : Block := ⟨[
    .addXI dstPtr dstPtr 8],
  .jmp 46⟩

/-- kernel_arm64.cc:6046-6090 (label RUY_ASM_LABEL_STORE_INT8). -/
def doto22 : Block := ⟨[
    .v3 .sqxtnS 16 16 16, .v3 .sqxtnS2 16 17 17, .dupEH 14 13 4, .v3 .sqaddH 16 16 14,
    .v3 .sqxtnH 16 16 16, .ldpB 2 .clampMin, .ldpB 3 .clampMax, .dupB 14 2, .dupB 15 3,
    .v3 .smaxB 16 16 14, .v3 .sminB 16 16 15, .dupD 20 16 1, .subW 1 rDstRows rRow,
    .subW 2 rDstCols rCol, .movI 3 8, .cmpI 1 8, .cselW 1 1 3 .le, .cmpI 2 8, .cmpW 1 3],
  .br .eq 24 23⟩

/-- kernel_arm64.cc:6093-6095. -/
def doto23 : Block := ⟨[
    .movX 3 tmpBuf, .movI 4 8],
  .jmp 25⟩

/-- kernel_arm64.cc:6099-6100 (label 130). -/
def doto24 : Block := ⟨[
    .movX 3 dstPtr, .movX 4 11],
  .jmp 25⟩

/-- kernel_arm64.cc:6105-6115 (label 131). -/
def doto25 : Block := ⟨[
    .std 16 3, .movi 16, .movi 17, .ve .sdot 16 0 2 0],
  .br .eq 29 26⟩

/-- kernel_arm64.cc:6119-6121. -/
def doto26 : Block := ⟨[
    .movX 3 tmpBuf, .movX 4 dstPtr, .movI 6 0],
  .jmp 27⟩

/-- kernel_arm64.cc:6124-6124 (label 150). -/
def doto27 : Block := ⟨[
    .movI 5 0],
  .jmp 28⟩

/-- kernel_arm64.cc:6126-6130 (label 151). -/
def doto28 : Block := ⟨[
    .ldrB 7 3 5, .strB 7 4 5, .addWI 5 5 1, .cmpW 5 1],
  .br .lt 28 29⟩

/-- kernel_arm64.cc:6132-6136 (label 141). -/
def doto29 : Block := ⟨[
    .addXI dstPtr dstPtr 8],
  .jmp 46⟩

/-- kernel_arm64.cc:6141-6176 (label RUY_ASM_LABEL_STORE_INT16). -/
def doto30 : Block := ⟨[
    .dupEH 14 13 4, .v3 .saddw 16 16 14, .v3 .saddw 17 17 14, .v3 .sqxtnS 16 16 16,
    .v3 .sqxtnS2 16 17 17, .ldpSH 2 .clampMin, .ldpSH 3 .clampMax, .dupH 14 2, .dupH 15 3,
    .v3 .smaxH 16 16 14, .v3 .sminH 16 16 15, .subW 1 rDstRows rRow, .subW 2 rDstCols rCol,
    .movI 3 8, .cmpI 1 8, .cselW 1 1 3 .le, .cmpI 2 8, .cmpW 1 3],
  .br .eq 32 31⟩

/-- kernel_arm64.cc:6179-6181. -/
def doto31 : Block := ⟨[
    .movX 3 tmpBuf, .movI 4 16],
  .jmp 33⟩

/-- kernel_arm64.cc:6185-6186 (label 230). -/
def doto32 : Block := ⟨[
    .movX 3 dstPtr, .movX 4 11],
  .jmp 33⟩

/-- kernel_arm64.cc:6191-6201 (label 231). -/
def doto33 : Block := ⟨[
    .stq 16 3 0, .movi 16, .movi 17, .ve .sdot 16 0 2 0],
  .br .eq 37 34⟩

/-- kernel_arm64.cc:6205-6207. -/
def doto34 : Block := ⟨[
    .movX 3 tmpBuf, .movX 4 dstPtr, .movI 6 0],
  .jmp 35⟩

/-- kernel_arm64.cc:6210-6210 (label 250). -/
def doto35 : Block := ⟨[
    .movI 5 0],
  .jmp 36⟩

/-- kernel_arm64.cc:6212-6216 (label 251). -/
def doto36 : Block := ⟨[
    .ldrSH 7 3 5, .strH 7 4 5, .addWI 5 5 1, .cmpW 5 1],
  .br .lt 36 37⟩

/-- kernel_arm64.cc:6218-6222 (label 241). -/
def doto37 : Block := ⟨[
    .addXI dstPtr dstPtr 16],
  .jmp 46⟩

/-- kernel_arm64.cc:6234-6247 (label RUY_ASM_LABEL_STORE_INT32). -/
def doto38 : Block := ⟨[
    .subW 1 rDstRows rRow, .subW 2 rDstCols rCol, .movI 3 8, .cmpI 1 8, .cselW 1 1 3 .le,
    .cmpI 2 8, .cselW 2 2 3 .le, .cmpW 1 3],
  .br .eq 40 39⟩

/-- kernel_arm64.cc:6250-6262. -/
def doto39 : Block := ⟨[
    .movX 3 tmpBuf, .movI 4 16, .stqR 16 3 4, .movi 16, .stqR 17 3 4, .movi 17],
  .jmp 41⟩

/-- kernel_arm64.cc:6267-6275 (label 330). -/
def doto40 : Block := ⟨[
    .movX 4 dstPtr, .movX 3 4, .stqP 16 3, .stqP 17 3, .movi 16, .movi 17],
  .jmp 41⟩

/-- kernel_arm64.cc:6281-6285 (label 331). -/
def doto41 : Block := ⟨[
    .ve .sdot 16 0 2 0],
  .br .eq 45 42⟩

/-- kernel_arm64.cc:6290-6292. -/
def doto42 : Block := ⟨[
    .movX 3 tmpBuf, .movX 4 dstPtr, .movI 6 0],
  .jmp 43⟩

/-- kernel_arm64.cc:6295-6295 (label 350). -/
def doto43 : Block := ⟨[
    .movI 5 0],
  .jmp 44⟩

/-- kernel_arm64.cc:6297-6301 (label 351). -/
def doto44 : Block := ⟨[
    .ldrS 7 3 5, .strS 7 4 5, .addWI 5 5 1, .cmpW 5 1],
  .br .lt 44 45⟩

/-- kernel_arm64.cc:6303-6303 (label 341). -/
def doto45 : Block := ⟨[
    .addXI dstPtr dstPtr 32],
  .jmp 46⟩

/-- kernel_arm64.cc:6311-6320 (label RUY_ASM_LABEL_AFTER_STORE). -/
def doto46 : Block := ⟨[
    .ldpX 5 .lhsBasePtr, .ldpW 6 .startRow, .ldpW 7 .lastRow, .cmpW rRow 7],
  .br .eq 48 47⟩

/-- kernel_arm64.cc:6322-6323. -/
def doto47 : Block := ⟨[
    .addWI rRow rRow 8],
  .jmp 49⟩

/-- kernel_arm64.cc:6326-6329 (label 20). -/
def doto48 : Block := ⟨[
    .movW rRow 6, .addWI rCol rCol 8, .addX dstColPtr dstColPtr 11 3, .movX dstPtr dstColPtr],
  .jmp 49⟩

/-- kernel_arm64.cc:6333-6340 (label 21). -/
def doto49 : Block := ⟨[
    .cmpW rCol 8, .movI 1 4],
  .br .le 1 50⟩

/-- The whole `asm` statement of `Kernel8bitNeonDotprod1Col`. -/
def dotoCode : List Block := [
  doto0, doto1, doto2, doto3, doto4, doto5, doto6, doto7, doto8, doto9, doto10, doto11, doto12,
  doto13, doto14, doto15, doto16, doto17, doto18, doto19, doto20, doto21, doto22, doto23, doto24,
  doto25, doto26, doto27, doto28, doto29, doto30, doto31, doto32, doto33, doto34, doto35, doto36,
  doto37, doto38, doto39, doto40, doto41, doto42, doto43, doto44, doto45, doto46, doto47, doto48,
  doto49]

/-- The words after `.inst` in the `asm` statement, in order. -/
def dotoWords : List Nat := [
    0x4f82e010, 0x4f82e031, 0x4f82e010, 0x4f82e031, 0x4f82e010, 0x4f82e010, 0x4f82e010, 0x4f82e010]

/-- They are the instructions of the program. -/
theorem doto_words : dotoWords.map sdotOf = (sdots dotoCode).map some := by decide +kernel

end Ruy.Neon

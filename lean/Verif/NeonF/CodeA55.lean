import Verif.NeonF.Isa
import Verif.Neon.Code
/-
The AArch64 float kernels for in-order processors: `KernelFloatNeonA55ish`
(kernel_arm64.cc:8813-9291) and `KernelFloatNeonDotprodA55ish` (kernel_arm64.cc:9305-9784), as
programs for the machine of `NeonF/Isa.lean`.
-/
namespace Ruy.NeonF
open Ruy.Neon (lhsColPtr rhsColPtr lhsPtr rhsPtr dstColPtr dstPtr rRow rCol rDstRows rDstCols tmpBuf)

/-- kernel_arm64.cc:8858-8902. -/
def fa0 : Block := ⟨[
    .ldpX 5 .lhsBasePtr, .ldpW 6 .startRow, .ldpW 7 .lastRow, .ldpW 8 .lastCol,
    .ldpW 9 .lhsStride, .ldpW 10 .rhsStride, .ldpW 11 .dstStride, .ldpW 12 .depth, .movi 16,
    .ldq 0 lhsPtr 0 16, .movi 17, .ldq 1 lhsPtr 0 16, .movi 18, .ldq 2 rhsPtr 0 16, .movi 19,
    .ldq 3 rhsPtr 0 16, .movi 20, .movi 21, .movi 22, .movi 23, .movi 24, .movi 25, .movi 26,
    .movi 27, .movi 28, .movi 29, .movi 30, .movi 31, .subWI 1 12 1],
  .jmp 1⟩

/-- kernel_arm64.cc:8908-8915 (label 1). -/
def fa1 : Block := ⟨[
    .cmpI 1 0, .fmla 16 0 2 0, .fmla 18 0 2 1, .fmla 20 0 2 2, .fmla 22 0 2 3],
  .br .eq 3 2⟩

/-- kernel_arm64.cc:8919-8951 (label 2). -/
def fa2 : Block := ⟨[
    .fmla 24 0 3 0, .ldx 2 lhsPtr 8, .fmla 26 0 3 1, .ldx 3 lhsPtr 24, .fmla 28 0 3 2,
    .ldx 5 rhsPtr 24, .fmla 30 0 3 3, .ldx 4 rhsPtr 8, .fmla 25 1 3 0, .subsI 1 1 1,
    .ldd 0 lhsPtr 0 32, .fmla 27 1 3 1, .fmla 29 1 3 2, .fmla 31 1 3 3, .insD 0 1 2,
    .ldd 3 rhsPtr 16 0, .fmla 17 1 2 0, .fmla 19 1 2 1, .insD 3 1 5, .ldd 4 rhsPtr 0 32,
    .fmla 21 1 2 2, .fmla 23 1 2 3, .fmla 16 0 4 0, .insD 4 1 4, .lddN 1 lhsPtr 16,
    .fmla 18 0 4 1, .fmla 20 0 4 2, .insD 1 1 3, .movV 2 4, .fmla 22 0 4 3],
  .br .ne 2 3⟩

/-- kernel_arm64.cc:8959-8990 (label 79). -/
def fa3 : Block := ⟨[
    .fmla 24 0 3 0, .fmla 26 0 3 1, .fmla 28 0 3 2, .fmla 30 0 3 3, .fmla 25 1 3 0,
    .fmla 27 1 3 1, .fmla 29 1 3 2, .fmla 31 1 3 3, .ldpX 5 .lhsBasePtr, .fmla 17 1 2 0,
    .fmla 19 1 2 1, .fmla 21 1 2 2, .fmla 23 1 2 3, .cmpW rRow 7],
  .br .ge 5 4⟩

/-- kernel_arm64.cc:8992-8993. -/
def fa4 : Block := ⟨[
    .addX lhsColPtr lhsColPtr 9 3],
  .jmp 7⟩

/-- kernel_arm64.cc:8995-9004 (label 4). -/
def fa5 : Block := ⟨[
    .movX lhsColPtr 5, .cmpW rCol 8],
  .br .ge 7 6⟩

/-- kernel_arm64.cc:9006-9006. -/
def fa6 : Block := ⟨[
    .addX rhsColPtr rhsColPtr 10 3],
  .jmp 7⟩

/-- kernel_arm64.cc:9011-9047 (label 5). -/
def fa7 : Block := ⟨[
    .movX lhsPtr lhsColPtr, .movX rhsPtr rhsColPtr, .ldpB 4 .flags, .ldpX 1 .bias, .tst 4 32,
    .cselW 3 rRow rCol .eq, .addX 5 1 3 2, .tst 4 1, .cselX 1 1 5 .eq, .ldq 14 1 0 16,
    .ldq 15 1 0 0, .ldq 0 lhsPtr 0 16, .ldq 1 lhsPtr 0 16, .ldq 2 rhsPtr 0 16, .ldq 3 rhsPtr 0 16,
    .tst 4 32],
  .br .ne 9 8⟩

/-- kernel_arm64.cc:9049-9065. -/
def fa8 : Block := ⟨[
    .v3 .fadd 16 16 14, .v3 .fadd 17 17 15, .v3 .fadd 18 18 14, .v3 .fadd 19 19 15,
    .v3 .fadd 20 20 14, .v3 .fadd 21 21 15, .v3 .fadd 22 22 14, .v3 .fadd 23 23 15,
    .v3 .fadd 24 24 14, .v3 .fadd 25 25 15, .v3 .fadd 26 26 14, .v3 .fadd 27 27 15,
    .v3 .fadd 28 28 14, .v3 .fadd 29 29 15, .v3 .fadd 30 30 14, .v3 .fadd 31 31 15],
  .jmp 10⟩

/-- kernel_arm64.cc:9069-9092 (label 6). -/
def fa9 : Block := ⟨[
    .dupES 8 14 0, .dupES 9 14 1, .v3 .fadd 16 16 8, .dupES 10 14 2, .v3 .fadd 17 17 8,
    .dupES 11 14 3, .v3 .fadd 18 18 9, .dupES 12 15 0, .v3 .fadd 19 19 9, .dupES 13 15 1,
    .v3 .fadd 20 20 10, .dupES 14 15 2, .v3 .fadd 21 21 10, .dupES 15 15 3, .v3 .fadd 22 22 11,
    .v3 .fadd 23 23 11, .v3 .fadd 24 24 12, .v3 .fadd 25 25 12, .v3 .fadd 26 26 13,
    .v3 .fadd 27 27 13, .v3 .fadd 28 28 14, .v3 .fadd 29 29 14, .v3 .fadd 30 30 15,
    .v3 .fadd 31 31 15],
  .jmp 10⟩

/-- kernel_arm64.cc:9096-9156 (label 7). -/
def fa10 : Block := ⟨[
    .ldpW 2 .clampMin, .ldpW 3 .clampMax, .dupS 14 2, .dupS 15 3, .v3 .fmax 16 16 14,
    .v3 .fmax 17 17 14, .v3 .fmax 18 18 14, .v3 .fmax 19 19 14, .v3 .fmax 20 20 14,
    .v3 .fmax 21 21 14, .v3 .fmax 22 22 14, .v3 .fmax 23 23 14, .v3 .fmax 24 24 14,
    .v3 .fmax 25 25 14, .v3 .fmax 26 26 14, .v3 .fmax 27 27 14, .v3 .fmax 28 28 14,
    .v3 .fmax 29 29 14, .v3 .fmax 30 30 14, .v3 .fmax 31 31 14, .v3 .fmin 16 16 15,
    .v3 .fmin 17 17 15, .v3 .fmin 18 18 15, .v3 .fmin 19 19 15, .v3 .fmin 20 20 15,
    .v3 .fmin 21 21 15, .v3 .fmin 22 22 15, .v3 .fmin 23 23 15, .v3 .fmin 24 24 15,
    .v3 .fmin 25 25 15, .v3 .fmin 26 26 15, .v3 .fmin 27 27 15, .v3 .fmin 28 28 15,
    .v3 .fmin 29 29 15, .v3 .fmin 30 30 15, .v3 .fmin 31 31 15, .subW 1 rDstRows rRow,
    .subW 2 rDstCols rCol, .movI 3 8, .cmpI 1 8, .cselW 1 1 3 .le, .cmpI 2 8, .cselW 2 2 3 .le,
    .cmpW 1 3, .ccmpEq 2 3],
  .br .eq 12 11⟩

/-- kernel_arm64.cc:9159-9161. -/
def fa11 : Block := ⟨[
    .movX 3 tmpBuf, .movI 4 32],
  .jmp 13⟩

/-- kernel_arm64.cc:9165-9166 (label 30). -/
def fa12 : Block := ⟨[
    .movX 3 dstPtr, .movX 4 11],
  .jmp 13⟩

/-- kernel_arm64.cc:9172-9221 (label 31). -/
def fa13 : Block := ⟨[
    .stq 16 3 0, .stq 17 3 16, .addX 3 3 4 0, .movi 16, .movi 17, .stq 18 3 0, .stq 19 3 16,
    .addX 3 3 4 0, .movi 18, .movi 19, .stq 20 3 0, .stq 21 3 16, .addX 3 3 4 0, .movi 20,
    .movi 21, .stq 22 3 0, .stq 23 3 16, .addX 3 3 4 0, .movi 22, .movi 23, .stq 24 3 0,
    .stq 25 3 16, .addX 3 3 4 0, .movi 24, .movi 25, .stq 26 3 0, .stq 27 3 16, .addX 3 3 4 0,
    .movi 26, .movi 27, .stq 28 3 0, .stq 29 3 16, .addX 3 3 4 0, .movi 28, .movi 29, .stq 30 3 0,
    .stq 31 3 16, .movi 30, .movi 31],
  .br .eq 18 14⟩

/-- kernel_arm64.cc:9225-9227. -/
def fa14 : Block := ⟨[
    .movX 3 tmpBuf, .movX 4 dstPtr, .movI 6 0],
  .jmp 15⟩

/-- kernel_arm64.cc:9230-9230 (label 50). -/
def fa15 : Block := ⟨[
    .movI 5 0],
  .jmp 16⟩

/-- kernel_arm64.cc:9232-9236 (label 51). -/
def fa16 : Block := ⟨[
    .ldrS 7 3 5, .strS 7 4 5, .addWI 5 5 1, .cmpW 5 1],
  .br .lt 16 17⟩

/-- kernel_arm64.cc:9237-9241. -/
def fa17 : Block := ⟨[
    .addWI 6 6 1, .addXI 3 3 32, .addX 4 4 11 0, .cmpW 6 2],
  .br .lt 15 18⟩

/-- kernel_arm64.cc:9243-9258 (label 41). -/
def fa18 : Block := ⟨[
    .addXI dstPtr dstPtr 32, .ldpX 5 .lhsBasePtr, .ldpW 6 .startRow, .ldpW 7 .lastRow,
    .cmpW rRow 7],
  .br .eq 20 19⟩

/-- kernel_arm64.cc:9260-9261. -/
def fa19 : Block := ⟨[
    .addWI rRow rRow 8],
  .jmp 21⟩

/-- kernel_arm64.cc:9264-9267 (label 20). -/
def fa20 : Block := ⟨[
    .movW rRow 6, .addWI rCol rCol 8, .addX dstColPtr dstColPtr 11 3, .movX dstPtr dstColPtr],
  .jmp 21⟩

/-- kernel_arm64.cc:9271-9278 (label 21). -/
def fa21 : Block := ⟨[
    .cmpW rCol 8, .subWI 1 12 1],
  .br .le 1 22⟩

/-- The whole `asm` statement of `KernelFloatNeonA55ish`. -/
def faCode : List Block := [
  fa0, fa1, fa2, fa3, fa4, fa5, fa6, fa7, fa8, fa9, fa10, fa11, fa12, fa13, fa14, fa15, fa16,
  fa17, fa18, fa19, fa20, fa21]

/-- kernel_arm64.cc:9351-9395. -/
def fd0 : Block := ⟨[
    .ldpX 5 .lhsBasePtr, .ldpW 6 .startRow, .ldpW 7 .lastRow, .ldpW 8 .lastCol,
    .ldpW 9 .lhsStride, .ldpW 10 .rhsStride, .ldpW 11 .dstStride, .ldpW 12 .depth, .movi 16,
    .ldq 0 lhsPtr 0 16, .movi 17, .ldq 1 lhsPtr 0 16, .movi 18, .ldq 2 rhsPtr 0 16, .movi 19,
    .ldq 3 rhsPtr 0 16, .movi 20, .movi 21, .movi 22, .movi 23, .movi 24, .movi 25, .movi 26,
    .movi 27, .movi 28, .movi 29, .movi 30, .movi 31, .subWI 1 12 1],
  .jmp 1⟩

/-- kernel_arm64.cc:9401-9408 (label 1). -/
def fd1 : Block := ⟨[
    .cmpI 1 0, .fmla 16 0 2 0, .fmla 18 0 2 1, .fmla 20 0 2 2, .fmla 22 0 2 3],
  .br .eq 3 2⟩

/-- kernel_arm64.cc:9413-9444 (label 2). -/
def fd2 : Block := ⟨[
    .fmla 24 0 3 0, .ldx 2 lhsPtr 8, .fmla 26 0 3 1, .ldx 3 lhsPtr 24, .fmla 28 0 3 2,
    .ldx 5 rhsPtr 24, .fmla 30 0 3 3, .ldd 0 lhsPtr 0 32, .fmla 25 1 3 0, .ldx 4 rhsPtr 8,
    .fmla 27 1 3 1, .subsI 1 1 1, .fmla 29 1 3 2, .insD 0 1 2, .fmla 31 1 3 3, .ldd 3 rhsPtr 16 0,
    .fmla 17 1 2 0, .insD 3 1 5, .fmla 19 1 2 1, .ldd 4 rhsPtr 0 32, .fmla 21 1 2 2, .insD 4 1 4,
    .fmla 23 1 2 3, .fmla 16 0 4 0, .lddN 1 lhsPtr 16, .fmla 18 0 4 1, .insD 1 1 3,
    .fmla 20 0 4 2, .movV 2 4, .fmla 22 0 4 3],
  .br .ne 2 3⟩

/-- kernel_arm64.cc:9452-9483 (label 79). -/
def fd3 : Block := ⟨[
    .fmla 24 0 3 0, .fmla 26 0 3 1, .fmla 28 0 3 2, .fmla 30 0 3 3, .fmla 25 1 3 0,
    .fmla 27 1 3 1, .fmla 29 1 3 2, .fmla 31 1 3 3, .ldpX 5 .lhsBasePtr, .fmla 17 1 2 0,
    .fmla 19 1 2 1, .fmla 21 1 2 2, .fmla 23 1 2 3, .cmpW rRow 7],
  .br .ge 5 4⟩

/-- kernel_arm64.cc:9485-9486. -/
def fd4 : Block := ⟨[
    .addX lhsColPtr lhsColPtr 9 3],
  .jmp 7⟩

/-- kernel_arm64.cc:9488-9497 (label 4). -/
def fd5 : Block := ⟨[
    .movX lhsColPtr 5, .cmpW rCol 8],
  .br .ge 7 6⟩

/-- kernel_arm64.cc:9499-9499. -/
def fd6 : Block := ⟨[
    .addX rhsColPtr rhsColPtr 10 3],
  .jmp 7⟩

/-- kernel_arm64.cc:9504-9540 (label 5). -/
def fd7 : Block := ⟨[
    .movX lhsPtr lhsColPtr, .movX rhsPtr rhsColPtr, .ldpB 4 .flags, .ldpX 1 .bias, .tst 4 32,
    .cselW 3 rRow rCol .eq, .addX 5 1 3 2, .tst 4 1, .cselX 1 1 5 .eq, .ldq 14 1 0 16,
    .ldq 15 1 0 0, .ldq 0 lhsPtr 0 16, .ldq 1 lhsPtr 0 16, .ldq 2 rhsPtr 0 16, .ldq 3 rhsPtr 0 16,
    .tst 4 32],
  .br .ne 9 8⟩

/-- kernel_arm64.cc:9542-9558. -/
def fd8 : Block := ⟨[
    .v3 .fadd 16 16 14, .v3 .fadd 17 17 15, .v3 .fadd 18 18 14, .v3 .fadd 19 19 15,
    .v3 .fadd 20 20 14, .v3 .fadd 21 21 15, .v3 .fadd 22 22 14, .v3 .fadd 23 23 15,
    .v3 .fadd 24 24 14, .v3 .fadd 25 25 15, .v3 .fadd 26 26 14, .v3 .fadd 27 27 15,
    .v3 .fadd 28 28 14, .v3 .fadd 29 29 15, .v3 .fadd 30 30 14, .v3 .fadd 31 31 15],
  .jmp 10⟩

/-- kernel_arm64.cc:9562-9585 (label 6). -/
def fd9 : Block := ⟨[
    .dupES 8 14 0, .dupES 9 14 1, .v3 .fadd 16 16 8, .dupES 10 14 2, .v3 .fadd 17 17 8,
    .dupES 11 14 3, .v3 .fadd 18 18 9, .dupES 12 15 0, .v3 .fadd 19 19 9, .dupES 13 15 1,
    .v3 .fadd 20 20 10, .dupES 14 15 2, .v3 .fadd 21 21 10, .dupES 15 15 3, .v3 .fadd 22 22 11,
    .v3 .fadd 23 23 11, .v3 .fadd 24 24 12, .v3 .fadd 25 25 12, .v3 .fadd 26 26 13,
    .v3 .fadd 27 27 13, .v3 .fadd 28 28 14, .v3 .fadd 29 29 14, .v3 .fadd 30 30 15,
    .v3 .fadd 31 31 15],
  .jmp 10⟩

/-- kernel_arm64.cc:9589-9649 (label 7). -/
def fd10 : Block := ⟨[
    .ldpW 2 .clampMin, .ldpW 3 .clampMax, .dupS 14 2, .dupS 15 3, .v3 .fmax 16 16 14,
    .v3 .fmax 17 17 14, .v3 .fmax 18 18 14, .v3 .fmax 19 19 14, .v3 .fmax 20 20 14,
    .v3 .fmax 21 21 14, .v3 .fmax 22 22 14, .v3 .fmax 23 23 14, .v3 .fmax 24 24 14,
    .v3 .fmax 25 25 14, .v3 .fmax 26 26 14, .v3 .fmax 27 27 14, .v3 .fmax 28 28 14,
    .v3 .fmax 29 29 14, .v3 .fmax 30 30 14, .v3 .fmax 31 31 14, .v3 .fmin 16 16 15,
    .v3 .fmin 17 17 15, .v3 .fmin 18 18 15, .v3 .fmin 19 19 15, .v3 .fmin 20 20 15,
    .v3 .fmin 21 21 15, .v3 .fmin 22 22 15, .v3 .fmin 23 23 15, .v3 .fmin 24 24 15,
    .v3 .fmin 25 25 15, .v3 .fmin 26 26 15, .v3 .fmin 27 27 15, .v3 .fmin 28 28 15,
    .v3 .fmin 29 29 15, .v3 .fmin 30 30 15, .v3 .fmin 31 31 15, .subW 1 rDstRows rRow,
    .subW 2 rDstCols rCol, .movI 3 8, .cmpI 1 8, .cselW 1 1 3 .le, .cmpI 2 8, .cselW 2 2 3 .le,
    .cmpW 1 3, .ccmpEq 2 3],
  .br .eq 12 11⟩

/-- kernel_arm64.cc:9652-9654. -/
def fd11 : Block := ⟨[
    .movX 3 tmpBuf, .movI 4 32],
  .jmp 13⟩

/-- kernel_arm64.cc:9658-9659 (label 30). -/
def fd12 : Block := ⟨[
    .movX 3 dstPtr, .movX 4 11],
  .jmp 13⟩

/-- kernel_arm64.cc:9665-9714 (label 31). -/
def fd13 : Block := ⟨[
    .stq 16 3 0, .stq 17 3 16, .addX 3 3 4 0, .movi 16, .movi 17, .stq 18 3 0, .stq 19 3 16,
    .addX 3 3 4 0, .movi 18, .movi 19, .stq 20 3 0, .stq 21 3 16, .addX 3 3 4 0, .movi 20,
    .movi 21, .stq 22 3 0, .stq 23 3 16, .addX 3 3 4 0, .movi 22, .movi 23, .stq 24 3 0,
    .stq 25 3 16, .addX 3 3 4 0, .movi 24, .movi 25, .stq 26 3 0, .stq 27 3 16, .addX 3 3 4 0,
    .movi 26, .movi 27, .stq 28 3 0, .stq 29 3 16, .addX 3 3 4 0, .movi 28, .movi 29, .stq 30 3 0,
    .stq 31 3 16, .movi 30, .movi 31],
  .br .eq 18 14⟩

/-- kernel_arm64.cc:9718-9720. -/
def fd14 : Block := ⟨[
    .movX 3 tmpBuf, .movX 4 dstPtr, .movI 6 0],
  .jmp 15⟩

/-- kernel_arm64.cc:9723-9723 (label 50). -/
def fd15 : Block := ⟨[
    .movI 5 0],
  .jmp 16⟩

/-- kernel_arm64.cc:9725-9729 (label 51). -/
def fd16 : Block := ⟨[
    .ldrS 7 3 5, .strS 7 4 5, .addWI 5 5 1, .cmpW 5 1],
  .br .lt 16 17⟩

/-- kernel_arm64.cc:9730-9734. -/
def fd17 : Block := ⟨[
    .addWI 6 6 1, .addXI 3 3 32, .addX 4 4 11 0, .cmpW 6 2],
  .br .lt 15 18⟩

/-- kernel_arm64.cc:9736-9751 (label 41). -/
def fd18 : Block := ⟨[
    .addXI dstPtr dstPtr 32, .ldpX 5 .lhsBasePtr, .ldpW 6 .startRow, .ldpW 7 .lastRow,
    .cmpW rRow 7],
  .br .eq 20 19⟩

/-- kernel_arm64.cc:9753-9754. -/
def fd19 : Block := ⟨[
    .addWI rRow rRow 8],
  .jmp 21⟩

/-- kernel_arm64.cc:9757-9760 (label 20). -/
def fd20 : Block := ⟨[
    .movW rRow 6, .addWI rCol rCol 8, .addX dstColPtr dstColPtr 11 3, .movX dstPtr dstColPtr],
  .jmp 21⟩

/-- kernel_arm64.cc:9764-9771 (label 21). -/
def fd21 : Block := ⟨[
    .cmpW rCol 8, .subWI 1 12 1],
  .br .le 1 22⟩

/-- The whole `asm` statement of `KernelFloatNeonDotprodA55ish`. -/
def fdCode : List Block := [
  fd0, fd1, fd2, fd3, fd4, fd5, fd6, fd7, fd8, fd9, fd10, fd11, fd12, fd13, fd14, fd15, fd16,
  fd17, fd18, fd19, fd20, fd21]

end Ruy.NeonF

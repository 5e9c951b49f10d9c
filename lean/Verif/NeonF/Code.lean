import Verif.NeonF.Isa
import Verif.Neon.Code
/-
The AArch64 float kernels `KernelFloatNeon` (kernel_arm64.cc:7703-8332) and `KernelFloatNeonX1`
(kernel_arm64.cc:8337-8798) as programs for the machine of `NeonF/Isa.lean`: every instruction of
the `asm` statements but the prefetches, in order.  The macro `RUY_MAKE_ZERO` is a `movi`.  The code
under `RUY_OPT(MAX_STREAMING)` is included: all optimizations are on by default (opt_set.h:44-45).
-/
namespace Ruy.NeonF
open Ruy.Neon (lhsColPtr rhsColPtr lhsPtr rhsPtr dstColPtr dstPtr rRow rCol rDstRows rDstCols tmpBuf)

/-- kernel_arm64.cc:7751-7787. -/
def flt0 : Block := ⟨[
    .ldpX 5 .lhsBasePtr, .ldpW 6 .startRow, .ldpW 7 .lastRow, .ldpW 8 .lastCol,
    .ldpW 9 .lhsStride, .ldpW 10 .rhsStride, .ldpW 11 .dstStride, .ldpW 12 .depth,
    .ldq 0 lhsPtr 0 16, .ldq 1 lhsPtr 0 16, .ldq 2 rhsPtr 0 16, .ldq 3 rhsPtr 0 16, .movi 16,
    .movi 17, .movi 18, .movi 19, .movi 20, .movi 21, .movi 22, .movi 23, .movi 24, .movi 25,
    .movi 26, .movi 27, .movi 28, .movi 29, .movi 30, .movi 31, .movI 1 1],
  .jmp 1⟩

/-- kernel_arm64.cc:7793-7800 (label 1). -/
def flt1 : Block := ⟨[
    .fmla 16 0 2 0, .fmla 18 0 2 1, .fmla 20 0 2 2, .fmla 22 0 2 3, .cmpI 12 8],
  .br .lt 5 2⟩

/-- kernel_arm64.cc:7801-7817. -/
def flt2 : Block := ⟨[
    .andI 2 12 4294967292, .ldq 4 lhsPtr 0 16, .ldq 5 lhsPtr 0 16, .ldq 6 rhsPtr 0 16,
    .ldq 7 rhsPtr 0 16, .ldq 8 lhsPtr 0 16, .ldq 9 lhsPtr 0 16, .ldq 10 rhsPtr 0 16,
    .ldq 11 rhsPtr 0 16, .ldq 12 lhsPtr 0 16, .ldq 13 lhsPtr 0 16, .ldq 14 rhsPtr 0 16,
    .ldq 15 rhsPtr 0 16, .movI 1 4],
  .jmp 3⟩

/-- kernel_arm64.cc:7821-7910 (label 80). -/
def flt3 : Block := ⟨[
    .addXI lhsPtr lhsPtr 128, .addXI rhsPtr rhsPtr 128, .fmla 24 0 3 0, .fmla 26 0 3 1,
    .fmla 28 0 3 2, .fmla 30 0 3 3, .ldqN 0 lhsPtr 128, .fmla 25 1 3 0, .fmla 27 1 3 1,
    .fmla 29 1 3 2, .fmla 31 1 3 3, .ldqN 3 rhsPtr 112, .fmla 17 1 2 0, .fmla 19 1 2 1,
    .fmla 21 1 2 2, .fmla 23 1 2 3, .ldqN 1 lhsPtr 112, .fmla 16 4 6 0, .fmla 18 4 6 1,
    .ldqN 2 rhsPtr 128, .fmla 20 4 6 2, .fmla 22 4 6 3, .fmla 24 4 7 0, .fmla 26 4 7 1,
    .fmla 28 4 7 2, .fmla 30 4 7 3, .ldqN 4 lhsPtr 96, .fmla 25 5 7 0, .fmla 27 5 7 1,
    .fmla 29 5 7 2, .fmla 31 5 7 3, .ldqN 7 rhsPtr 80, .fmla 17 5 6 0, .fmla 19 5 6 1,
    .fmla 21 5 6 2, .fmla 23 5 6 3, .ldqN 5 lhsPtr 80, .fmla 16 8 10 0, .fmla 18 8 10 1,
    .ldqN 6 rhsPtr 96, .fmla 20 8 10 2, .fmla 22 8 10 3, .fmla 24 8 11 0, .fmla 26 8 11 1,
    .fmla 28 8 11 2, .fmla 30 8 11 3, .ldqN 8 lhsPtr 64, .fmla 25 9 11 0, .fmla 27 9 11 1,
    .fmla 29 9 11 2, .fmla 31 9 11 3, .ldqN 11 rhsPtr 48, .fmla 17 9 10 0, .fmla 19 9 10 1,
    .fmla 21 9 10 2, .fmla 23 9 10 3, .ldqN 9 lhsPtr 48, .fmla 16 12 14 0, .fmla 18 12 14 1,
    .ldqN 10 rhsPtr 64, .fmla 20 12 14 2, .fmla 22 12 14 3, .fmla 24 12 15 0, .fmla 26 12 15 1,
    .fmla 28 12 15 2, .fmla 30 12 15 3, .ldqN 12 lhsPtr 32, .fmla 25 13 15 0, .fmla 27 13 15 1,
    .fmla 29 13 15 2, .fmla 31 13 15 3, .ldqN 15 rhsPtr 16, .fmla 17 13 14 0, .fmla 19 13 14 1,
    .fmla 21 13 14 2, .fmla 23 13 14 3, .ldqN 13 lhsPtr 16, .fmla 16 0 2 0, .fmla 18 0 2 1,
    .ldqN 14 rhsPtr 32, .fmla 20 0 2 2, .fmla 22 0 2 3, .addWI 1 1 4, .cmpW 1 2],
  .br .lt 3 4⟩

/-- kernel_arm64.cc:7912-7961. -/
def flt4 : Block := ⟨[
    .fmla 16 4 6 0, .fmla 18 4 6 1, .fmla 20 4 6 2, .fmla 22 4 6 3, .fmla 24 4 7 0,
    .fmla 26 4 7 1, .fmla 28 4 7 2, .fmla 30 4 7 3, .fmla 25 5 7 0, .fmla 27 5 7 1,
    .fmla 29 5 7 2, .fmla 31 5 7 3, .fmla 17 5 6 0, .fmla 19 5 6 1, .fmla 21 5 6 2,
    .fmla 23 5 6 3, .fmla 16 8 10 0, .fmla 18 8 10 1, .fmla 20 8 10 2, .fmla 22 8 10 3,
    .fmla 24 8 11 0, .fmla 26 8 11 1, .fmla 28 8 11 2, .fmla 30 8 11 3, .fmla 25 9 11 0,
    .fmla 27 9 11 1, .fmla 29 9 11 2, .fmla 31 9 11 3, .fmla 17 9 10 0, .fmla 19 9 10 1,
    .fmla 21 9 10 2, .fmla 23 9 10 3, .fmla 16 12 14 0, .fmla 18 12 14 1, .fmla 20 12 14 2,
    .fmla 22 12 14 3, .fmla 24 12 15 0, .fmla 26 12 15 1, .fmla 28 12 15 2, .fmla 30 12 15 3,
    .fmla 25 13 15 0, .fmla 27 13 15 1, .fmla 29 13 15 2, .fmla 31 13 15 3, .fmla 17 13 14 0,
    .fmla 19 13 14 1, .fmla 21 13 14 2, .fmla 23 13 14 3],
  .jmp 5⟩

/-- kernel_arm64.cc:7967-7968 (label 78). -/
def flt5 : Block := ⟨[
    .cmpW 1 12],
  .br .eq 7 6⟩

/-- kernel_arm64.cc:7971-7994 (label 2). -/
def flt6 : Block := ⟨[
    .fmla 24 0 3 0, .fmla 26 0 3 1, .ldq 4 rhsPtr 0 16, .fmla 28 0 3 2, .fmla 30 0 3 3,
    .ldq 0 lhsPtr 0 16, .fmla 25 1 3 0, .fmla 27 1 3 1, .addWI 1 1 1, .fmla 29 1 3 2,
    .fmla 31 1 3 3, .ldq 3 rhsPtr 0 16, .fmla 17 1 2 0, .fmla 19 1 2 1, .cmpW 1 12,
    .fmla 21 1 2 2, .fmla 23 1 2 3, .ldq 1 lhsPtr 0 16, .fmla 16 0 4 0, .fmla 18 0 4 1, .movV 2 4,
    .fmla 20 0 4 2, .fmla 22 0 4 3],
  .br .lt 6 7⟩

/-- kernel_arm64.cc:8002-8032 (label 79). -/
def flt7 : Block := ⟨[
    .fmla 24 0 3 0, .fmla 26 0 3 1, .fmla 28 0 3 2, .fmla 30 0 3 3, .fmla 25 1 3 0,
    .fmla 27 1 3 1, .fmla 29 1 3 2, .fmla 31 1 3 3, .fmla 17 1 2 0, .fmla 19 1 2 1,
    .fmla 21 1 2 2, .fmla 23 1 2 3, .cmpW rRow 7],
  .br .ge 9 8⟩

/-- kernel_arm64.cc:8034-8035. -/
def flt8 : Block := ⟨[
    .addX lhsColPtr lhsColPtr 9 3],
  .jmp 11⟩

/-- kernel_arm64.cc:8037-8046 (label 4). -/
def flt9 : Block := ⟨[
    .movX lhsColPtr 5, .cmpW rCol 8],
  .br .ge 11 10⟩

/-- kernel_arm64.cc:8048-8048. -/
def flt10 : Block := ⟨[
    .addX rhsColPtr rhsColPtr 10 3],
  .jmp 11⟩

/-- kernel_arm64.cc:8053-8088 (label 5). -/
def flt11 : Block := ⟨[
    .movX lhsPtr lhsColPtr, .movX rhsPtr rhsColPtr, .ldpB 4 .flags, .ldpX 1 .bias, .tst 4 32,
    .cselW 3 rRow rCol .eq, .addX 5 1 3 2, .tst 4 1, .cselX 1 1 5 .eq, .ldq 14 1 0 16,
    .ldq 15 1 0 0, .ldq 0 lhsPtr 0 16, .ldq 1 lhsPtr 0 16, .ldq 2 rhsPtr 0 16, .ldq 3 rhsPtr 0 16,
    .tst 4 32],
  .br .ne 13 12⟩

/-- kernel_arm64.cc:8090-8106. -/
def flt12 : Block := ⟨[
    .v3 .fadd 16 16 14, .v3 .fadd 17 17 15, .v3 .fadd 18 18 14, .v3 .fadd 19 19 15,
    .v3 .fadd 20 20 14, .v3 .fadd 21 21 15, .v3 .fadd 22 22 14, .v3 .fadd 23 23 15,
    .v3 .fadd 24 24 14, .v3 .fadd 25 25 15, .v3 .fadd 26 26 14, .v3 .fadd 27 27 15,
    .v3 .fadd 28 28 14, .v3 .fadd 29 29 15, .v3 .fadd 30 30 14, .v3 .fadd 31 31 15],
  .jmp 14⟩

/-- kernel_arm64.cc:8110-8133 (label 6). -/
def flt13 : Block := ⟨[
    .dupES 8 14 0, .dupES 9 14 1, .dupES 10 14 2, .dupES 11 14 3, .dupES 12 15 0, .dupES 13 15 1,
    .dupES 14 15 2, .dupES 15 15 3, .v3 .fadd 16 16 8, .v3 .fadd 17 17 8, .v3 .fadd 18 18 9,
    .v3 .fadd 19 19 9, .v3 .fadd 20 20 10, .v3 .fadd 21 21 10, .v3 .fadd 22 22 11,
    .v3 .fadd 23 23 11, .v3 .fadd 24 24 12, .v3 .fadd 25 25 12, .v3 .fadd 26 26 13,
    .v3 .fadd 27 27 13, .v3 .fadd 28 28 14, .v3 .fadd 29 29 14, .v3 .fadd 30 30 15,
    .v3 .fadd 31 31 15],
  .jmp 14⟩

/-- kernel_arm64.cc:8137-8197 (label 7). -/
def flt14 : Block := ⟨[
    .ldpW 2 .clampMin, .ldpW 3 .clampMax, .dupS 14 2, .dupS 15 3, .v3 .fmax 16 16 14,
    .v3 .fmax 17 17 14, .v3 .fmax 18 18 14, .v3 .fmax 19 19 14, .v3 .fmax 20 20 14,
    .v3 .fmax 21 21 14, .v3 .fmax 22 22 14, .v3 .fmax 23 23 14, .v3 .fmax 24 24 14,
    .v3 .fmax 25 25 14, .v3 .fmax 26 26 14, .v3 .fmax 27 27 14, .v3 .fmax 28 28 14,
    .v3 .fmax 29 29 14, .v3 .fmax 30 30 14, .v3 .fmax 31 31 14, .v3 .fmin 16 16 15,
    .v3 .fmin 17 17 15, .v3 .fmin 18 18 15, .v3 .fmin 19 19 15, .v3 .fmin 20 20 15,
    .v3 .fmin 21 21 15, .v3 .fmin 22 22 15, .v3 .fmin 23 23 15, .v3 .fmin 24 24 15,
    .v3 .fmin 25 25 15, .v3 .fmin 26 26 15, .v3 .fmin 27 27 15, .v3 .fmin 28 28 15,
    .v3 .fmin 29 29 15, .v3 .fmin 30 30 15, .v3 .fmin 31 31 15, .subW 1 rDstRows rRow,
    .subW 2 rDstCols rCol, .movI 3 8, .cmpI 1 8, .cselW 1 1 3 .le, .cmpI 2 8, .cselW 2 2 3 .le,
    .cmpW 1 3, .ccmpEq 2 3],
  .br .eq 16 15⟩

/-- kernel_arm64.cc:8200-8202. -/
def flt15 : Block := ⟨[
    .movX 3 tmpBuf, .movI 4 32],
  .jmp 17⟩

/-- kernel_arm64.cc:8206-8207 (label 30). -/
def flt16 : Block := ⟨[
    .movX 3 dstPtr, .movX 4 11],
  .jmp 17⟩

/-- kernel_arm64.cc:8213-8262 (label 31). -/
def flt17 : Block := ⟨[
    .stq 16 3 0, .stq 17 3 16, .addX 3 3 4 0, .movi 16, .movi 17, .stq 18 3 0, .stq 19 3 16,
    .addX 3 3 4 0, .movi 18, .movi 19, .stq 20 3 0, .stq 21 3 16, .addX 3 3 4 0, .movi 20,
    .movi 21, .stq 22 3 0, .stq 23 3 16, .addX 3 3 4 0, .movi 22, .movi 23, .stq 24 3 0,
    .stq 25 3 16, .addX 3 3 4 0, .movi 24, .movi 25, .stq 26 3 0, .stq 27 3 16, .addX 3 3 4 0,
    .movi 26, .movi 27, .stq 28 3 0, .stq 29 3 16, .addX 3 3 4 0, .movi 28, .movi 29, .stq 30 3 0,
    .stq 31 3 16, .movi 30, .movi 31],
  .br .eq 22 18⟩

/-- kernel_arm64.cc:8266-8268. -/
def flt18 : Block := ⟨[
    .movX 3 tmpBuf, .movX 4 dstPtr, .movI 6 0],
  .jmp 19⟩

/-- kernel_arm64.cc:8271-8271 (label 50). -/
def flt19 : Block := ⟨[
    .movI 5 0],
  .jmp 20⟩

/-- kernel_arm64.cc:8273-8277 (label 51). -/
def flt20 : Block := ⟨[
    .ldrS 7 3 5, .strS 7 4 5, .addWI 5 5 1, .cmpW 5 1],
  .br .lt 20 21⟩

/-- kernel_arm64.cc:8278-8282. -/
def flt21 : Block := ⟨[
    .addWI 6 6 1, .addXI 3 3 32, .addX 4 4 11 0, .cmpW 6 2],
  .br .lt 19 22⟩

/-- kernel_arm64.cc:8284-8299 (label 41). -/
def flt22 : Block := ⟨[
    .addXI dstPtr dstPtr 32, .ldpX 5 .lhsBasePtr, .ldpW 6 .startRow, .ldpW 7 .lastRow,
    .cmpW rRow 7],
  .br .eq 24 23⟩

/-- kernel_arm64.cc:8301-8302. -/
def flt23 : Block := ⟨[
    .addWI rRow rRow 8],
  .jmp 25⟩

/-- kernel_arm64.cc:8305-8308 (label 20). -/
def flt24 : Block := ⟨[
    .movW rRow 6, .addWI rCol rCol 8, .addX dstColPtr dstColPtr 11 3, .movX dstPtr dstColPtr],
  .jmp 25⟩

/-- kernel_arm64.cc:8312-8319 (label 21). -/
def flt25 : Block := ⟨[
    .cmpW rCol 8, .movI 1 1],
  .br .le 1 26⟩

/-- The whole `asm` statement of `KernelFloatNeon`. -/
def fltCode : List Block := [
  flt0, flt1, flt2, flt3, flt4, flt5, flt6, flt7, flt8, flt9, flt10, flt11, flt12, flt13, flt14,
  flt15, flt16, flt17, flt18, flt19, flt20, flt21, flt22, flt23, flt24, flt25]

/-- kernel_arm64.cc:8385-8421. -/
def fx0 : Block := ⟨[
    .ldpX 5 .lhsBasePtr, .ldpW 6 .startRow, .ldpW 7 .lastRow, .ldpW 8 .lastCol,
    .ldpW 9 .lhsStride, .ldpW 10 .rhsStride, .ldpW 11 .dstStride, .ldpW 12 .depth,
    .ldq 0 lhsPtr 0 16, .ldq 1 lhsPtr 0 16, .ldq 2 rhsPtr 0 16, .ldq 3 rhsPtr 0 16, .movi 16,
    .movi 17, .movi 18, .movi 19, .movi 20, .movi 21, .movi 22, .movi 23, .movi 24, .movi 25,
    .movi 26, .movi 27, .movi 28, .movi 29, .movi 30, .movi 31, .movI 1 1],
  .jmp 1⟩

/-- kernel_arm64.cc:8427-8434 (label 1). -/
def fx1 : Block := ⟨[
    .fmla 16 0 2 0, .fmla 18 0 2 1, .fmla 20 0 2 2, .fmla 22 0 2 3, .cmpW 1 12],
  .br .eq 3 2⟩

/-- kernel_arm64.cc:8437-8460 (label 2). -/
def fx2 : Block := ⟨[
    .fmla 24 0 3 0, .fmla 26 0 3 1, .ldq 4 rhsPtr 0 16, .fmla 28 0 3 2, .fmla 30 0 3 3,
    .ldq 0 lhsPtr 0 16, .fmla 25 1 3 0, .fmla 27 1 3 1, .addWI 1 1 1, .fmla 29 1 3 2,
    .fmla 31 1 3 3, .ldq 3 rhsPtr 0 16, .fmla 17 1 2 0, .fmla 19 1 2 1, .cmpW 1 12,
    .fmla 21 1 2 2, .fmla 23 1 2 3, .ldq 1 lhsPtr 0 16, .fmla 16 0 4 0, .fmla 18 0 4 1, .movV 2 4,
    .fmla 20 0 4 2, .fmla 22 0 4 3],
  .br .lt 2 3⟩

/-- kernel_arm64.cc:8468-8498 (label 79). -/
def fx3 : Block := ⟨[
    .fmla 24 0 3 0, .fmla 26 0 3 1, .fmla 28 0 3 2, .fmla 30 0 3 3, .fmla 25 1 3 0,
    .fmla 27 1 3 1, .fmla 29 1 3 2, .fmla 31 1 3 3, .fmla 17 1 2 0, .fmla 19 1 2 1,
    .fmla 21 1 2 2, .fmla 23 1 2 3, .cmpW rRow 7],
  .br .ge 5 4⟩

/-- kernel_arm64.cc:8500-8501. -/
def fx4 : Block := ⟨[
    .addX lhsColPtr lhsColPtr 9 3],
  .jmp 7⟩

/-- kernel_arm64.cc:8503-8512 (label 4). -/
def fx5 : Block := ⟨[
    .movX lhsColPtr 5, .cmpW rCol 8],
  .br .ge 7 6⟩

/-- kernel_arm64.cc:8514-8514. -/
def fx6 : Block := ⟨[
    .addX rhsColPtr rhsColPtr 10 3],
  .jmp 7⟩

/-- kernel_arm64.cc:8519-8554 (label 5). -/
def fx7 : Block := ⟨[
    .movX lhsPtr lhsColPtr, .movX rhsPtr rhsColPtr, .ldpB 4 .flags, .ldpX 1 .bias, .tst 4 32,
    .cselW 3 rRow rCol .eq, .addX 5 1 3 2, .tst 4 1, .cselX 1 1 5 .eq, .ldq 14 1 0 16,
    .ldq 15 1 0 0, .ldq 0 lhsPtr 0 16, .ldq 1 lhsPtr 0 16, .ldq 2 rhsPtr 0 16, .ldq 3 rhsPtr 0 16,
    .tst 4 32],
  .br .ne 9 8⟩

/-- kernel_arm64.cc:8556-8572. -/
def fx8 : Block := ⟨[
    .v3 .fadd 16 16 14, .v3 .fadd 17 17 15, .v3 .fadd 18 18 14, .v3 .fadd 19 19 15,
    .v3 .fadd 20 20 14, .v3 .fadd 21 21 15, .v3 .fadd 22 22 14, .v3 .fadd 23 23 15,
    .v3 .fadd 24 24 14, .v3 .fadd 25 25 15, .v3 .fadd 26 26 14, .v3 .fadd 27 27 15,
    .v3 .fadd 28 28 14, .v3 .fadd 29 29 15, .v3 .fadd 30 30 14, .v3 .fadd 31 31 15],
  .jmp 10⟩

/-- kernel_arm64.cc:8576-8599 (label 6). -/
def fx9 : Block := ⟨[
    .dupES 8 14 0, .dupES 9 14 1, .dupES 10 14 2, .dupES 11 14 3, .dupES 12 15 0, .dupES 13 15 1,
    .dupES 14 15 2, .dupES 15 15 3, .v3 .fadd 16 16 8, .v3 .fadd 17 17 8, .v3 .fadd 18 18 9,
    .v3 .fadd 19 19 9, .v3 .fadd 20 20 10, .v3 .fadd 21 21 10, .v3 .fadd 22 22 11,
    .v3 .fadd 23 23 11, .v3 .fadd 24 24 12, .v3 .fadd 25 25 12, .v3 .fadd 26 26 13,
    .v3 .fadd 27 27 13, .v3 .fadd 28 28 14, .v3 .fadd 29 29 14, .v3 .fadd 30 30 15,
    .v3 .fadd 31 31 15],
  .jmp 10⟩

/-- kernel_arm64.cc:8603-8663 (label 7). -/
def fx10 : Block := ⟨[
    .ldpW 2 .clampMin, .ldpW 3 .clampMax, .dupS 14 2, .dupS 15 3, .v3 .fmax 16 16 14,
    .v3 .fmax 17 17 14, .v3 .fmax 18 18 14, .v3 .fmax 19 19 14, .v3 .fmax 20 20 14,
    .v3 .fmax 21 21 14, .v3 .fmax 22 22 14, .v3 .fmax 23 23 14, .v3 .fmax 24 24 14,
    .v3 .fmax 25 25 14, .v3 .fmax 26 26 14, .v3 .fmax 27 27 14, .v3 .fmax 28 28 14,
    .v3 .fmax 29 29 14, .v3 .fmax 30 30 14, .v3 .fmax 31 31 14, .v3 .fmin 16 16 15,
    .v3 .fmin 17 17 15, .v3 .fmin 18 18 15, .v3 .fmin 19 19 15, .v3 .fmin 20 20 15,
    .v3 .fmin 21 21 15, .v3 .fmin 22 22 15, .v3 .fmin 23 23 15, .v3 .fmin 24 24 15,
    .v3 .fmin 25 25 15, .v3 .fmin 26 26 15, .v3 .fmin 27 27 15, .v3 .fmin 28 28 15,
    .v3 .fmin 29 29 15, .v3 .fmin 30 30 15, .v3 .fmin 31 31 15, .subW 1 rDstRows rRow,
    .subW 2 rDstCols rCol, .movI 3 8, .cmpI 1 8, .cselW 1 1 3 .le, .cmpI 2 8, .cselW 2 2 3 .le,
    .cmpW 1 3, .ccmpEq 2 3],
  .br .eq 12 11⟩

/-- kernel_arm64.cc:8666-8668. -/
def fx11 : Block := ⟨[
    .movX 3 tmpBuf, .movI 4 32],
  .jmp 13⟩

/-- kernel_arm64.cc:8672-8673 (label 30). -/
def fx12 : Block := ⟨[
    .movX 3 dstPtr, .movX 4 11],
  .jmp 13⟩

/-- kernel_arm64.cc:8679-8728 (label 31). -/
def fx13 : Block := ⟨[
    .stq 16 3 0, .stq 17 3 16, .addX 3 3 4 0, .movi 16, .movi 17, .stq 18 3 0, .stq 19 3 16,
    .addX 3 3 4 0, .movi 18, .movi 19, .stq 20 3 0, .stq 21 3 16, .addX 3 3 4 0, .movi 20,
    .movi 21, .stq 22 3 0, .stq 23 3 16, .addX 3 3 4 0, .movi 22, .movi 23, .stq 24 3 0,
    .stq 25 3 16, .addX 3 3 4 0, .movi 24, .movi 25, .stq 26 3 0, .stq 27 3 16, .addX 3 3 4 0,
    .movi 26, .movi 27, .stq 28 3 0, .stq 29 3 16, .addX 3 3 4 0, .movi 28, .movi 29, .stq 30 3 0,
    .stq 31 3 16, .movi 30, .movi 31],
  .br .eq 18 14⟩

/-- kernel_arm64.cc:8732-8734. -/
def fx14 : Block := ⟨[
    .movX 3 tmpBuf, .movX 4 dstPtr, .movI 6 0],
  .jmp 15⟩

/-- kernel_arm64.cc:8737-8737 (label 50). -/
def fx15 : Block := ⟨[
    .movI 5 0],
  .jmp 16⟩

/-- kernel_arm64.cc:8739-8743 (label 51). -/
def fx16 : Block := ⟨[
    .ldrS 7 3 5, .strS 7 4 5, .addWI 5 5 1, .cmpW 5 1],
  .br .lt 16 17⟩

/-- kernel_arm64.cc:8744-8748. -/
def fx17 : Block := ⟨[
    .addWI 6 6 1, .addXI 3 3 32, .addX 4 4 11 0, .cmpW 6 2],
  .br .lt 15 18⟩

/-- kernel_arm64.cc:8750-8765 (label 41). -/
def fx18 : Block := ⟨[
    .addXI dstPtr dstPtr 32, .ldpX 5 .lhsBasePtr, .ldpW 6 .startRow, .ldpW 7 .lastRow,
    .cmpW rRow 7],
  .br .eq 20 19⟩

/-- kernel_arm64.cc:8767-8768. -/
def fx19 : Block := ⟨[
    .addWI rRow rRow 8],
  .jmp 21⟩

/-- kernel_arm64.cc:8771-8774 (label 20). -/
def fx20 : Block := ⟨[
    .movW rRow 6, .addWI rCol rCol 8, .addX dstColPtr dstColPtr 11 3, .movX dstPtr dstColPtr],
  .jmp 21⟩

/-- kernel_arm64.cc:8778-8785 (label 21). -/
def fx21 : Block := ⟨[
    .cmpW rCol 8, .movI 1 1],
  .br .le 1 22⟩

/-- The whole `asm` statement of `KernelFloatNeonX1`. -/
def fxCode : List Block := [
  fx0, fx1, fx2, fx3, fx4, fx5, fx6, fx7, fx8, fx9, fx10, fx11, fx12, fx13, fx14, fx15, fx16,
  fx17, fx18, fx19, fx20, fx21]

end Ruy.NeonF

import Verif.Neon.Code
/-
The AArch64 kernel `Kernel8bitNeonDotprod`, kernel_arm64.cc:2987-4410, as a program for the
machine of `Isa.lean`: every instruction of the `asm` statement, in order.  `RUY_OPT(MAX_STREAMING)`
holds (opt_set.h:36-49).

The dot-product instructions are given as numbers (`.inst`), with their meaning in a comment;
`dot_words` checks the numbers.
-/
namespace Ruy.Neon

/-- `SDOT (by element)` from its encoding: `0 1 0 01111 10 L M Rm 1110 H 0 Rn Rd`, the element is
`H:L`, the register `M:Rm`. -/
def sdotOf (w : Nat) : Option Instr :=
  if w / 4194304 = 0x4f8 / 4 ∧ w / 4096 % 16 = 14 ∧ w / 1024 % 2 = 0 then
    some (.ve .sdot (w % 32) (w / 32 % 32) (w / 65536 % 32) (w / 2048 % 2 * 2 + w / 2097152 % 2))
  else none

/-- The dot products of a program. -/
def sdots (p : List Block) : List Instr :=
  p.flatMap fun b => b.body.filter fun i => match i with | .ve .sdot _ _ _ _ => true | _ => false

/-- kernel_arm64.cc:3039-3082. -/
def dot0 : Block := ⟨[
    .ldpX 5 .lhsBasePtr, .ldpW 6 .startRow, .ldpW 7 .lastRow, .ldpW 8 .lastCol,
    .ldpW 9 .lhsStride, .ldpW 10 .rhsStride, .ldpW 11 .dstStride, .ldpW 12 .depth,
    .ldq 0 lhsPtr 0 16, .ldq 1 lhsPtr 0 16, .ldq 2 rhsPtr 0 16, .ldq 3 rhsPtr 0 16, .movi 16,
    .movi 17, .movi 18, .movi 19, .movi 20, .movi 21, .movi 22, .movi 23, .movi 24, .movi 25,
    .movi 26, .movi 27, .movi 28, .movi 29, .movi 30, .movi 31, .movI 1 4, .ve .sdot 16 0 2 0,
    .ve .sdot 18 0 2 1, .ve .sdot 20 0 2 2, .ve .sdot 22 0 2 3],
  .jmp 1⟩

/-- kernel_arm64.cc:3092-3093 (label 1). -/
def dot1 : Block := ⟨[
    .cmpI 12 32],
  .br .lt 5 2⟩

/-- kernel_arm64.cc:3095-3109. -/
def dot2 : Block := ⟨[
    .ldq 4 lhsPtr 0 16, .ldq 5 lhsPtr 0 16, .ldq 6 rhsPtr 0 16, .ldq 7 rhsPtr 0 16,
    .ldq 8 lhsPtr 0 16, .ldq 9 lhsPtr 0 16, .ldq 10 rhsPtr 0 16, .ldq 11 rhsPtr 0 16,
    .ldq 12 lhsPtr 0 16, .ldq 13 lhsPtr 0 16, .ldq 14 rhsPtr 0 16, .ldq 15 rhsPtr 0 16,
    .movI 1 16, .andI 3 12 4294967280],
  .jmp 3⟩

/-- kernel_arm64.cc:3111-3201 (label 81). -/
def dot3 : Block := ⟨[
    .addWI 1 1 16, .ve .sdot 24 0 3 0, .ve .sdot 26 0 3 1, .ve .sdot 28 0 3 2, .ve .sdot 30 0 3 3,
    .ldq 0 lhsPtr 0 0, .ve .sdot 17 1 2 0, .ve .sdot 19 1 2 1, .ve .sdot 21 1 2 2,
    .ve .sdot 23 1 2 3, .ldq 2 rhsPtr 0 0, .ve .sdot 25 1 3 0, .ve .sdot 27 1 3 1,
    .ve .sdot 29 1 3 2, .ve .sdot 31 1 3 3, .ldq 1 lhsPtr 16 0, .ve .sdot 24 4 7 0,
    .ve .sdot 26 4 7 1, .ldq 3 rhsPtr 16 0, .ve .sdot 28 4 7 2, .ve .sdot 30 4 7 3,
    .ve .sdot 17 5 6 0, .ve .sdot 19 5 6 1, .ve .sdot 21 5 6 2, .ve .sdot 23 5 6 3,
    .ve .sdot 25 5 7 0, .ve .sdot 27 5 7 1, .ve .sdot 29 5 7 2, .ve .sdot 31 5 7 3,
    .ldq 5 lhsPtr 48 0, .ve .sdot 16 4 6 0, .ve .sdot 18 4 6 1, .ldq 7 rhsPtr 48 0,
    .ve .sdot 20 4 6 2, .ve .sdot 22 4 6 3, .ldq 4 lhsPtr 32 0, .ve .sdot 24 8 11 0,
    .ve .sdot 26 8 11 1, .ldq 6 rhsPtr 32 0, .ve .sdot 28 8 11 2, .ve .sdot 30 8 11 3,
    .ve .sdot 17 9 10 0, .ve .sdot 19 9 10 1, .ve .sdot 21 9 10 2, .ve .sdot 23 9 10 3,
    .ve .sdot 25 9 11 0, .ve .sdot 27 9 11 1, .ve .sdot 29 9 11 2, .ve .sdot 31 9 11 3,
    .ldq 9 lhsPtr 80 0, .ve .sdot 16 8 10 0, .ve .sdot 18 8 10 1, .ldq 11 rhsPtr 80 0,
    .ve .sdot 20 8 10 2, .ve .sdot 22 8 10 3, .ldq 8 lhsPtr 64 0, .ve .sdot 24 12 15 0,
    .ve .sdot 26 12 15 1, .ldq 10 rhsPtr 64 0, .ve .sdot 28 12 15 2, .ve .sdot 30 12 15 3,
    .addXI lhsPtr lhsPtr 128, .ve .sdot 17 13 14 0, .ve .sdot 19 13 14 1,
    .addXI rhsPtr rhsPtr 128, .ve .sdot 21 13 14 2, .ve .sdot 23 13 14 3, .ve .sdot 25 13 15 0,
    .ve .sdot 27 13 15 1, .cmpW 1 3, .ve .sdot 29 13 15 2, .ve .sdot 31 13 15 3,
    .ldqN 13 lhsPtr 16, .ve .sdot 16 12 14 0, .ve .sdot 18 12 14 1, .ldqN 15 rhsPtr 16,
    .ve .sdot 20 12 14 2, .ve .sdot 22 12 14 3, .ldqN 12 lhsPtr 32, .ve .sdot 16 0 2 0,
    .ve .sdot 18 0 2 1, .ldqN 14 rhsPtr 32, .ve .sdot 20 0 2 2, .ve .sdot 22 0 2 3],
  .br .lt 3 4⟩

/-- kernel_arm64.cc:3203-3252. -/
def dot4 : Block := ⟨[
    .ve .sdot 24 4 7 0, .ve .sdot 26 4 7 1, .ve .sdot 28 4 7 2, .ve .sdot 30 4 7 3,
    .ve .sdot 17 5 6 0, .ve .sdot 19 5 6 1, .ve .sdot 21 5 6 2, .ve .sdot 23 5 6 3,
    .ve .sdot 25 5 7 0, .ve .sdot 27 5 7 1, .ve .sdot 29 5 7 2, .ve .sdot 31 5 7 3,
    .ve .sdot 16 4 6 0, .ve .sdot 18 4 6 1, .ve .sdot 20 4 6 2, .ve .sdot 22 4 6 3,
    .ve .sdot 24 8 11 0, .ve .sdot 26 8 11 1, .ve .sdot 28 8 11 2, .ve .sdot 30 8 11 3,
    .ve .sdot 17 9 10 0, .ve .sdot 19 9 10 1, .ve .sdot 21 9 10 2, .ve .sdot 23 9 10 3,
    .ve .sdot 25 9 11 0, .ve .sdot 27 9 11 1, .ve .sdot 29 9 11 2, .ve .sdot 31 9 11 3,
    .ve .sdot 16 8 10 0, .ve .sdot 18 8 10 1, .ve .sdot 20 8 10 2, .ve .sdot 22 8 10 3,
    .ve .sdot 24 12 15 0, .ve .sdot 26 12 15 1, .ve .sdot 28 12 15 2, .ve .sdot 30 12 15 3,
    .ve .sdot 17 13 14 0, .ve .sdot 19 13 14 1, .ve .sdot 21 13 14 2, .ve .sdot 23 13 14 3,
    .ve .sdot 25 13 15 0, .ve .sdot 27 13 15 1, .ve .sdot 29 13 15 2, .ve .sdot 31 13 15 3,
    .ve .sdot 16 12 14 0, .ve .sdot 18 12 14 1, .ve .sdot 20 12 14 2, .ve .sdot 22 12 14 3],
  .jmp 5⟩

/-- kernel_arm64.cc:3263-3264 (label 78). -/
def dot5 : Block := ⟨[
    .cmpW 1 12],
  .br .eq 7 6⟩

/-- kernel_arm64.cc:3270-3295 (label 2). -/
def dot6 : Block := ⟨[
    .ve .sdot 24 0 3 0, .ve .sdot 26 0 3 1, .addWI 1 1 4, .ve .sdot 28 0 3 2, .ve .sdot 30 0 3 3,
    .ldq 0 lhsPtr 0 16, .ve .sdot 17 1 2 0, .ve .sdot 19 1 2 1, .cmpW 1 12, .ve .sdot 21 1 2 2,
    .ve .sdot 23 1 2 3, .ldq 2 rhsPtr 0 16, .ve .sdot 25 1 3 0, .ve .sdot 27 1 3 1,
    .ve .sdot 29 1 3 2, .ve .sdot 31 1 3 3, .ldq 3 rhsPtr 0 16, .ve .sdot 16 0 2 0,
    .ve .sdot 18 0 2 1, .ve .sdot 20 0 2 2, .ve .sdot 22 0 2 3, .ldq 1 lhsPtr 0 16],
  .br .lt 6 7⟩

/-- kernel_arm64.cc:3302-3332 (label 79). -/
def dot7 : Block := ⟨[
    .ve .sdot 24 0 3 0, .ve .sdot 26 0 3 1, .ve .sdot 28 0 3 2, .ve .sdot 30 0 3 3,
    .ve .sdot 17 1 2 0, .ve .sdot 19 1 2 1, .ve .sdot 21 1 2 2, .ve .sdot 23 1 2 3,
    .ve .sdot 25 1 3 0, .ve .sdot 27 1 3 1, .ve .sdot 29 1 3 2, .ve .sdot 31 1 3 3, .cmpW rRow 7],
  .br .ge 9 8⟩

/-- kernel_arm64.cc:3334-3335. -/
def dot8 : Block := ⟨[
    .addX lhsColPtr lhsColPtr 9 3],
  .jmp 11⟩

/-- kernel_arm64.cc:3337-3346 (label 4). -/
def dot9 : Block := ⟨[
    .movX lhsColPtr 5, .cmpW rCol 8],
  .br .ge 11 10⟩

/-- kernel_arm64.cc:3348-3348. -/
def dot10 : Block := ⟨[
    .addX rhsColPtr rhsColPtr 10 3],
  .jmp 11⟩

/-- kernel_arm64.cc:3353-3397 (label 5). -/
def dot11 : Block := ⟨[
    .movX lhsPtr lhsColPtr, .movX rhsPtr rhsColPtr, .mvni 8, .ldpW 3 .prodZpDepth, .ldpB 6 .flags,
    .dupS 9 3, .ldpX 1 .bias, .tst 6 32, .cselW 3 rRow rCol .eq, .addX 5 1 3 2, .tst 6 1,
    .cselX 1 1 5 .eq, .ldq 14 1 0 16, .ldq 15 1 0 0, .ldq 0 lhsPtr 0 16, .ldq 1 lhsPtr 0 16,
    .ldq 2 rhsPtr 0 16, .ldq 3 rhsPtr 0 16, .v3 .add 14 14 9, .v3 .add 15 15 9, .tst 6 32],
  .br .ne 13 12⟩

/-- kernel_arm64.cc:3399-3415. -/
def dot12 : Block := ⟨[
    .v3 .add 16 16 14, .v3 .add 17 17 15, .v3 .add 18 18 14, .v3 .add 19 19 15, .v3 .add 20 20 14,
    .v3 .add 21 21 15, .v3 .add 22 22 14, .v3 .add 23 23 15, .v3 .add 24 24 14, .v3 .add 25 25 15,
    .v3 .add 26 26 14, .v3 .add 27 27 15, .v3 .add 28 28 14, .v3 .add 29 29 15, .v3 .add 30 30 14,
    .v3 .add 31 31 15],
  .jmp 14⟩

/-- kernel_arm64.cc:3419-3442 (label 6). -/
def dot13 : Block := ⟨[
    .dupES 10 14 0, .dupES 11 14 1, .dupES 12 14 2, .dupES 13 14 3, .v3 .add 16 16 10,
    .v3 .add 17 17 10, .v3 .add 18 18 11, .v3 .add 19 19 11, .v3 .add 20 20 12, .v3 .add 21 21 12,
    .v3 .add 22 22 13, .v3 .add 23 23 13, .dupES 10 15 0, .dupES 11 15 1, .dupES 12 15 2,
    .dupES 13 15 3, .v3 .add 24 24 10, .v3 .add 25 25 10, .v3 .add 26 26 11, .v3 .add 27 27 11,
    .v3 .add 28 28 12, .v3 .add 29 29 12, .v3 .add 30 30 13, .v3 .add 31 31 13],
  .jmp 14⟩

/-- kernel_arm64.cc:3445-3446 (label 7). -/
def dot14 : Block := ⟨[
    .tst 6 4],
  .br .eq 16 15⟩

/-- kernel_arm64.cc:3447-3470. -/
def dot15 : Block := ⟨[
    .ldpX 3 .rhsSums, .addX 3 3 rCol 2, .ldq 14 3 0 16, .ldq 15 3 0 0, .ldpW 5 .lhsZeroPoint,
    .dupS 10 5, .ve .mls 16 10 14 0, .ve .mls 17 10 14 0, .ve .mls 18 10 14 1,
    .ve .mls 19 10 14 1, .ve .mls 20 10 14 2, .ve .mls 21 10 14 2, .ve .mls 22 10 14 3,
    .ve .mls 23 10 14 3, .ve .mls 24 10 15 0, .ve .mls 25 10 15 0, .ve .mls 26 10 15 1,
    .ve .mls 27 10 15 1, .ve .mls 28 10 15 2, .ve .mls 29 10 15 2, .ve .mls 30 10 15 3,
    .ve .mls 31 10 15 3],
  .jmp 16⟩

/-- kernel_arm64.cc:3473-3474 (label 401). -/
def dot16 : Block := ⟨[
    .tst 6 2],
  .br .eq 18 17⟩

/-- kernel_arm64.cc:3475-3505. -/
def dot17 : Block := ⟨[
    .ldpX 2 .lhsSums, .addX 2 2 rRow 2, .ldpW 5 .rhsZeroPoint, .ldq 11 2 0 16, .ldq 12 2 0 0,
    .insS 13 1 5, .ve .mul 11 11 13 1, .ve .mul 12 12 13 1, .v3 .sub 16 16 11, .v3 .sub 17 17 12,
    .v3 .sub 18 18 11, .v3 .sub 19 19 12, .v3 .sub 20 20 11, .v3 .sub 21 21 12, .v3 .sub 22 22 11,
    .v3 .sub 23 23 12, .v3 .sub 24 24 11, .v3 .sub 25 25 12, .v3 .sub 26 26 11, .v3 .sub 27 27 12,
    .v3 .sub 28 28 11, .v3 .sub 29 29 12, .v3 .sub 30 30 11, .v3 .sub 31 31 12, .cmpI dstTypeId 4],
  .br .eq 52 18⟩

/-- kernel_arm64.cc:3517-3544 (label 402). -/
def dot18 : Block := ⟨[
    .ldpX 1 .mulExp, .tst 6 32, .cselW 3 rRow rCol .eq, .tst 6 8, .addX 5 1 3 2, .cselX 1 1 5 .eq,
    .ldq 9 1 0 0, .ldq 10 1 16 0, .v3 .smin 11 8 9, .v3 .smin 12 8 10, .v3 .sub 9 9 11,
    .v3 .sub 10 10 12, .ldpX 4 .mulFix, .addX 5 4 3 2, .cselX 4 4 5 .eq, .ldq 14 4 0 0,
    .ldq 15 4 16 0, .tst 6 32],
  .br .ne 21 19⟩

/-- kernel_arm64.cc:3548-3563. -/
def dot19 : Block := ⟨[
    .v3 .sshl 16 16 9, .v3 .sshl 17 17 10, .v3 .sshl 18 18 9, .v3 .sshl 19 19 10,
    .v3 .sshl 20 20 9, .v3 .sshl 21 21 10, .v3 .sshl 22 22 9, .v3 .sshl 23 23 10,
    .v3 .sshl 24 24 9, .v3 .sshl 25 25 10, .v3 .sshl 26 26 9, .v3 .sshl 27 27 10,
    .v3 .sshl 28 28 9, .v3 .sshl 29 29 10, .v3 .sshl 30 30 9, .v3 .sshl 31 31 10],
  .jmp 20⟩

/-- kernel_arm64.cc:3567-3601 (label 10). -/
def dot20 : Block := ⟨[
    .v3 .sqdmulh 16 16 14, .v3 .sqdmulh 17 17 15, .v3 .sqdmulh 18 18 14, .v3 .sqdmulh 19 19 15,
    .v3 .sqdmulh 20 20 14, .v3 .sqdmulh 21 21 15, .v3 .sqdmulh 22 22 14, .v3 .sqdmulh 23 23 15,
    .v3 .sqdmulh 24 24 14, .v3 .sqdmulh 25 25 15, .v3 .sqdmulh 26 26 14, .v3 .sqdmulh 27 27 15,
    .v3 .sqdmulh 28 28 14, .v3 .sqdmulh 29 29 15, .v3 .sqdmulh 30 30 14, .v3 .sqdmulh 31 31 15,
    .v3 .srshl 16 16 11, .v3 .srshl 17 17 12, .v3 .srshl 18 18 11, .v3 .srshl 19 19 12,
    .v3 .srshl 20 20 11, .v3 .srshl 21 21 12, .v3 .srshl 22 22 11, .v3 .srshl 23 23 12,
    .v3 .srshl 24 24 11, .v3 .srshl 25 25 12, .v3 .srshl 26 26 11, .v3 .srshl 27 27 12,
    .v3 .srshl 28 28 11, .v3 .srshl 29 29 12, .v3 .srshl 30 30 11, .v3 .srshl 31 31 12],
  .jmp 23⟩

/-- kernel_arm64.cc:3607-3630 (label 8). -/
def dot21 : Block := ⟨[
    .dupES 4 9 0, .dupES 5 9 1, .dupES 6 9 2, .dupES 7 9 3, .v3 .sshl 16 16 4, .v3 .sshl 17 17 4,
    .v3 .sshl 18 18 5, .v3 .sshl 19 19 5, .v3 .sshl 20 20 6, .v3 .sshl 21 21 6, .v3 .sshl 22 22 7,
    .v3 .sshl 23 23 7, .dupES 4 10 0, .dupES 5 10 1, .dupES 6 10 2, .dupES 7 10 3,
    .v3 .sshl 24 24 4, .v3 .sshl 25 25 4, .v3 .sshl 26 26 5, .v3 .sshl 27 27 5, .v3 .sshl 28 28 6,
    .v3 .sshl 29 29 6, .v3 .sshl 30 30 7, .v3 .sshl 31 31 7],
  .jmp 22⟩

/-- kernel_arm64.cc:3634-3675 (label 11). -/
def dot22 : Block := ⟨[
    .ve .sqdmulh 16 16 14 0, .ve .sqdmulh 17 17 14 0, .ve .sqdmulh 18 18 14 1,
    .ve .sqdmulh 19 19 14 1, .ve .sqdmulh 20 20 14 2, .ve .sqdmulh 21 21 14 2,
    .ve .sqdmulh 22 22 14 3, .ve .sqdmulh 23 23 14 3, .ve .sqdmulh 24 24 15 0,
    .ve .sqdmulh 25 25 15 0, .ve .sqdmulh 26 26 15 1, .ve .sqdmulh 27 27 15 1,
    .ve .sqdmulh 28 28 15 2, .ve .sqdmulh 29 29 15 2, .ve .sqdmulh 30 30 15 3,
    .ve .sqdmulh 31 31 15 3, .dupES 4 11 0, .dupES 5 11 1, .dupES 6 11 2, .dupES 7 11 3,
    .v3 .srshl 16 16 4, .v3 .srshl 17 17 4, .v3 .srshl 18 18 5, .v3 .srshl 19 19 5,
    .v3 .srshl 20 20 6, .v3 .srshl 21 21 6, .v3 .srshl 22 22 7, .v3 .srshl 23 23 7, .dupES 4 12 0,
    .dupES 5 12 1, .dupES 6 12 2, .dupES 7 12 3, .v3 .srshl 24 24 4, .v3 .srshl 25 25 4,
    .v3 .srshl 26 26 5, .v3 .srshl 27 27 5, .v3 .srshl 28 28 6, .v3 .srshl 29 29 6,
    .v3 .srshl 30 30 7, .v3 .srshl 31 31 7],
  .jmp 23⟩

/-- kernel_arm64.cc:3678-3682 (label 9). -/
def dot23 : Block := ⟨[
    .ldpW 4 .dstZeroPoint, .insH 13 4 4, .cmpI dstTypeId 3],
  .br .eq 43 24⟩

/-- kernel_arm64.cc:3683-3684. -/
def dot24 : Block := ⟨[
    .cmpI dstTypeId 2],
  .br .eq 34 25⟩

/-- kernel_arm64.cc:3689-3784 (label RUY_ASM_LABEL_STORE_UINT8). -/
def dot25 : Block := ⟨[
    .v3 .sqxtnS 16 16 16, .v3 .sqxtnS2 16 17 17, .v3 .sqxtnS 17 18 18, .v3 .sqxtnS2 17 19 19,
    .v3 .sqxtnS 18 20 20, .v3 .sqxtnS2 18 21 21, .v3 .sqxtnS 19 22 22, .v3 .sqxtnS2 19 23 23,
    .v3 .sqxtnS 20 24 24, .v3 .sqxtnS2 20 25 25, .v3 .sqxtnS 21 26 26, .v3 .sqxtnS2 21 27 27,
    .v3 .sqxtnS 22 28 28, .v3 .sqxtnS2 22 29 29, .v3 .sqxtnS 23 30 30, .v3 .sqxtnS2 23 31 31,
    .movi 24, .movi 25, .movi 26, .movi 27, .movi 28, .movi 29, .movi 30, .movi 31,
    .dupEH 14 13 4, .v3 .sqaddH 16 16 14, .v3 .sqaddH 17 17 14, .v3 .sqaddH 18 18 14,
    .v3 .sqaddH 19 19 14, .v3 .sqaddH 20 20 14, .v3 .sqaddH 21 21 14, .v3 .sqaddH 22 22 14,
    .v3 .sqaddH 23 23 14, .v3 .sqxtun 16 16 16, .v3 .sqxtun2 16 17 17, .v3 .sqxtun 17 18 18,
    .v3 .sqxtun2 17 19 19, .v3 .sqxtun 18 20 20, .v3 .sqxtun2 18 21 21, .v3 .sqxtun 19 22 22,
    .v3 .sqxtun2 19 23 23, .ldpB 2 .clampMin, .ldpB 3 .clampMax, .dupB 14 2, .dupB 15 3,
    .v3 .umaxB 16 16 14, .v3 .umaxB 17 17 14, .v3 .umaxB 18 18 14, .v3 .umaxB 19 19 14,
    .v3 .uminB 16 16 15, .v3 .uminB 17 17 15, .v3 .uminB 18 18 15, .v3 .uminB 19 19 15,
    .dupD 20 16 1, .dupD 21 17 1, .dupD 22 18 1, .dupD 23 19 1, .subW 1 rDstRows rRow,
    .subW 2 rDstCols rCol, .movI 3 8, .cmpI 1 8, .cselW 1 1 3 .le, .cmpI 2 8, .cselW 2 2 3 .le,
    .cmpW 1 3, .ccmpEq 2 3],
  .br .eq 27 26⟩

/-- kernel_arm64.cc:3787-3789. -/
def dot26 : Block := ⟨[
    .movX 3 tmpBuf, .movI 4 8],
  .jmp 28⟩

/-- kernel_arm64.cc:3793-3794 (label 30). -/
def dot27 : Block := ⟨[
    .movX 3 dstPtr, .movX 4 11],
  .jmp 28⟩

/-- kernel_arm64.cc:3800-3833 (label 31). -/
def dot28 : Block := ⟨[
    .stdR 16 3 4, .movi 16, .stdR 20 3 4, .movi 20, .stdR 17 3 4, .movi 17, .stdR 21 3 4,
    .movi 21, .stdR 18 3 4, .movi 18, .stdR 22 3 4, .movi 22, .stdR 19 3 4, .movi 19,
    .stdR 23 3 4, .movi 23, .ve .sdot 16 0 2 0, .ve .sdot 18 0 2 1, .ve .sdot 20 0 2 2,
    .ve .sdot 22 0 2 3],
  .br .eq 33 29⟩

/-- kernel_arm64.cc:3837-3839. -/
def dot29 : Block := ⟨[
    .movX 3 tmpBuf, .movX 4 dstPtr, .movI 6 0],
  .jmp 30⟩

/-- kernel_arm64.cc:3842-3842 (label 50). -/
def dot30 : Block := ⟨[
    .movI 5 0],
  .jmp 31⟩

/-- kernel_arm64.cc:3844-3848 (label 51). -/
def dot31 : Block := ⟨[
    .ldrB 7 3 5, .strB 7 4 5, .addWI 5 5 1, .cmpW 5 1],
  .br .lt 31 32⟩

/-- kernel_arm64.cc:3849-3853. -/
def dot32 : Block := ⟨[
    .addWI 6 6 1, .addXI 3 3 8, .addX 4 4 11 0, .cmpW 6 2],
  .br .lt 30 33⟩

/-- kernel_arm64.cc:3855-3859 (label 41). -/
def dot33 : Block := ⟨[
    .addXI dstPtr dstPtr 8],
  .jmp 61⟩

/-- kernel_arm64.cc:3864-3959 (label RUY_ASM_LABEL_STORE_INT8). -/
def dot34 : Block := ⟨[
    .v3 .sqxtnS 16 16 16, .v3 .sqxtnS2 16 17 17, .v3 .sqxtnS 17 18 18, .v3 .sqxtnS2 17 19 19,
    .v3 .sqxtnS 18 20 20, .v3 .sqxtnS2 18 21 21, .v3 .sqxtnS 19 22 22, .v3 .sqxtnS2 19 23 23,
    .v3 .sqxtnS 20 24 24, .v3 .sqxtnS2 20 25 25, .v3 .sqxtnS 21 26 26, .v3 .sqxtnS2 21 27 27,
    .v3 .sqxtnS 22 28 28, .v3 .sqxtnS2 22 29 29, .v3 .sqxtnS 23 30 30, .v3 .sqxtnS2 23 31 31,
    .movi 24, .movi 25, .movi 26, .movi 27, .movi 28, .movi 29, .movi 30, .movi 31,
    .dupEH 14 13 4, .v3 .sqaddH 16 16 14, .v3 .sqaddH 17 17 14, .v3 .sqaddH 18 18 14,
    .v3 .sqaddH 19 19 14, .v3 .sqaddH 20 20 14, .v3 .sqaddH 21 21 14, .v3 .sqaddH 22 22 14,
    .v3 .sqaddH 23 23 14, .v3 .sqxtnH 16 16 16, .v3 .sqxtnH2 16 17 17, .v3 .sqxtnH 17 18 18,
    .v3 .sqxtnH2 17 19 19, .v3 .sqxtnH 18 20 20, .v3 .sqxtnH2 18 21 21, .v3 .sqxtnH 19 22 22,
    .v3 .sqxtnH2 19 23 23, .ldpB 2 .clampMin, .ldpB 3 .clampMax, .dupB 14 2, .dupB 15 3,
    .v3 .smaxB 16 16 14, .v3 .smaxB 17 17 14, .v3 .smaxB 18 18 14, .v3 .smaxB 19 19 14,
    .v3 .sminB 16 16 15, .v3 .sminB 17 17 15, .v3 .sminB 18 18 15, .v3 .sminB 19 19 15,
    .dupD 20 16 1, .dupD 21 17 1, .dupD 22 18 1, .dupD 23 19 1, .subW 1 rDstRows rRow,
    .subW 2 rDstCols rCol, .movI 3 8, .cmpI 1 8, .cselW 1 1 3 .le, .cmpI 2 8, .cselW 2 2 3 .le,
    .cmpW 1 3, .ccmpEq 2 3],
  .br .eq 36 35⟩

/-- kernel_arm64.cc:3962-3964. -/
def dot35 : Block := ⟨[
    .movX 3 tmpBuf, .movI 4 8],
  .jmp 37⟩

/-- kernel_arm64.cc:3968-3969 (label 130). -/
def dot36 : Block := ⟨[
    .movX 3 dstPtr, .movX 4 11],
  .jmp 37⟩

/-- kernel_arm64.cc:3975-4008 (label 131). -/
def dot37 : Block := ⟨[
    .stdR 16 3 4, .movi 16, .stdR 20 3 4, .movi 20, .stdR 17 3 4, .movi 17, .stdR 21 3 4,
    .movi 21, .stdR 18 3 4, .movi 18, .stdR 22 3 4, .movi 22, .stdR 19 3 4, .movi 19,
    .stdR 23 3 4, .movi 23, .ve .sdot 16 0 2 0, .ve .sdot 18 0 2 1, .ve .sdot 20 0 2 2,
    .ve .sdot 22 0 2 3],
  .br .eq 42 38⟩

/-- kernel_arm64.cc:4012-4014. -/
def dot38 : Block := ⟨[
    .movX 3 tmpBuf, .movX 4 dstPtr, .movI 6 0],
  .jmp 39⟩

/-- kernel_arm64.cc:4017-4017 (label 150). -/
def dot39 : Block := ⟨[
    .movI 5 0],
  .jmp 40⟩

/-- kernel_arm64.cc:4019-4023 (label 151). -/
def dot40 : Block := ⟨[
    .ldrB 7 3 5, .strB 7 4 5, .addWI 5 5 1, .cmpW 5 1],
  .br .lt 40 41⟩

/-- kernel_arm64.cc:4024-4028. -/
def dot41 : Block := ⟨[
    .addWI 6 6 1, .addXI 3 3 8, .addX 4 4 11 0, .cmpW 6 2],
  .br .lt 39 42⟩

/-- kernel_arm64.cc:4030-4034 (label 141). -/
def dot42 : Block := ⟨[
    .addXI dstPtr dstPtr 8],
  .jmp 61⟩

/-- kernel_arm64.cc:4039-4131 (label RUY_ASM_LABEL_STORE_INT16). -/
def dot43 : Block := ⟨[
    .dupEH 14 13 4, .v3 .saddw 16 16 14, .v3 .saddw 17 17 14, .v3 .saddw 18 18 14,
    .v3 .saddw 19 19 14, .v3 .saddw 20 20 14, .v3 .saddw 21 21 14, .v3 .saddw 22 22 14,
    .v3 .saddw 23 23 14, .v3 .saddw 24 24 14, .v3 .saddw 25 25 14, .v3 .saddw 26 26 14,
    .v3 .saddw 27 27 14, .v3 .saddw 28 28 14, .v3 .saddw 29 29 14, .v3 .saddw 30 30 14,
    .v3 .saddw 31 31 14, .v3 .sqxtnS 16 16 16, .v3 .sqxtnS2 16 17 17, .v3 .sqxtnS 17 18 18,
    .v3 .sqxtnS2 17 19 19, .v3 .sqxtnS 18 20 20, .v3 .sqxtnS2 18 21 21, .v3 .sqxtnS 19 22 22,
    .v3 .sqxtnS2 19 23 23, .v3 .sqxtnS 20 24 24, .v3 .sqxtnS2 20 25 25, .v3 .sqxtnS 21 26 26,
    .v3 .sqxtnS2 21 27 27, .v3 .sqxtnS 22 28 28, .v3 .sqxtnS2 22 29 29, .v3 .sqxtnS 23 30 30,
    .v3 .sqxtnS2 23 31 31, .movi 24, .movi 25, .movi 26, .movi 27, .movi 28, .movi 29, .movi 30,
    .movi 31, .ldpSH 2 .clampMin, .ldpSH 3 .clampMax, .dupH 14 2, .dupH 15 3, .v3 .smaxH 16 16 14,
    .v3 .smaxH 17 17 14, .v3 .smaxH 18 18 14, .v3 .smaxH 19 19 14, .v3 .smaxH 20 20 14,
    .v3 .smaxH 21 21 14, .v3 .smaxH 22 22 14, .v3 .smaxH 23 23 14, .v3 .sminH 16 16 15,
    .v3 .sminH 17 17 15, .v3 .sminH 18 18 15, .v3 .sminH 19 19 15, .v3 .sminH 20 20 15,
    .v3 .sminH 21 21 15, .v3 .sminH 22 22 15, .v3 .sminH 23 23 15, .subW 1 rDstRows rRow,
    .subW 2 rDstCols rCol, .movI 3 8, .cmpI 1 8, .cselW 1 1 3 .le, .cmpI 2 8, .cselW 2 2 3 .le,
    .cmpW 1 3, .ccmpEq 2 3],
  .br .eq 45 44⟩

/-- kernel_arm64.cc:4134-4136. -/
def dot44 : Block := ⟨[
    .movX 3 tmpBuf, .movI 4 16],
  .jmp 46⟩

/-- kernel_arm64.cc:4140-4141 (label 230). -/
def dot45 : Block := ⟨[
    .movX 3 dstPtr, .movX 4 11],
  .jmp 46⟩

/-- kernel_arm64.cc:4147-4180 (label 231). -/
def dot46 : Block := ⟨[
    .stqR 16 3 4, .movi 16, .stqR 17 3 4, .movi 17, .stqR 18 3 4, .movi 18, .stqR 19 3 4,
    .movi 19, .stqR 20 3 4, .movi 20, .stqR 21 3 4, .movi 21, .stqR 22 3 4, .movi 22,
    .stqR 23 3 4, .movi 23, .ve .sdot 16 0 2 0, .ve .sdot 18 0 2 1, .ve .sdot 20 0 2 2,
    .ve .sdot 22 0 2 3],
  .br .eq 51 47⟩

/-- kernel_arm64.cc:4184-4186. -/
def dot47 : Block := ⟨[
    .movX 3 tmpBuf, .movX 4 dstPtr, .movI 6 0],
  .jmp 48⟩

/-- kernel_arm64.cc:4189-4189 (label 250). -/
def dot48 : Block := ⟨[
    .movI 5 0],
  .jmp 49⟩

/-- kernel_arm64.cc:4191-4195 (label 251). -/
def dot49 : Block := ⟨[
    .ldrSH 7 3 5, .strH 7 4 5, .addWI 5 5 1, .cmpW 5 1],
  .br .lt 49 50⟩

/-- kernel_arm64.cc:4196-4200. -/
def dot50 : Block := ⟨[
    .addWI 6 6 1, .addXI 3 3 16, .addX 4 4 11 0, .cmpW 6 2],
  .br .lt 48 51⟩

/-- kernel_arm64.cc:4202-4206 (label 241). -/
def dot51 : Block := ⟨[
    .addXI dstPtr dstPtr 16],
  .jmp 61⟩

/-- kernel_arm64.cc:4218-4232 (label RUY_ASM_LABEL_STORE_INT32). -/
def dot52 : Block := ⟨[
    .subW 1 rDstRows rRow, .subW 2 rDstCols rCol, .movI 3 8, .cmpI 1 8, .cselW 1 1 3 .le,
    .cmpI 2 8, .cselW 2 2 3 .le, .cmpW 1 3, .ccmpEq 2 3],
  .br .eq 54 53⟩

/-- kernel_arm64.cc:4235-4269. -/
def dot53 : Block := ⟨[
    .movX 3 tmpBuf, .stqP 16 3, .movi 16, .stqP 17 3, .movi 17, .stqP 18 3, .movi 18, .stqP 19 3,
    .movi 19, .stqP 20 3, .movi 20, .stqP 21 3, .movi 21, .stqP 22 3, .movi 22, .stqP 23 3,
    .movi 23, .stqP 24 3, .movi 24, .stqP 25 3, .movi 25, .stqP 26 3, .movi 26, .stqP 27 3,
    .movi 27, .stqP 28 3, .movi 28, .stqP 29 3, .movi 29, .stqP 30 3, .movi 30, .stqP 31 3,
    .movi 31],
  .jmp 55⟩

/-- kernel_arm64.cc:4273-4320 (label 330). -/
def dot54 : Block := ⟨[
    .movX 4 dstPtr, .movX 3 4, .stqP 16 3, .stqP 17 3, .movi 16, .movi 17, .addX 4 4 11 0,
    .movX 3 4, .stqP 18 3, .stqP 19 3, .movi 18, .movi 19, .addX 4 4 11 0, .movX 3 4,
    .stqP 20 3, .stqP 21 3, .movi 20, .movi 21, .addX 4 4 11 0, .movX 3 4, .stqP 22 3, .stqP 23 3,
    .movi 22, .movi 23, .addX 4 4 11 0, .movX 3 4, .stqP 24 3, .stqP 25 3, .movi 24, .movi 25,
    .addX 4 4 11 0, .movX 3 4, .stqP 26 3, .stqP 27 3, .movi 26, .movi 27, .addX 4 4 11 0,
    .movX 3 4, .stqP 28 3, .stqP 29 3, .movi 28, .movi 29, .addX 4 4 11 0, .movX 3 4,
    .stqP 30 3, .stqP 31 3, .movi 30, .movi 31],
  .jmp 55⟩

/-- kernel_arm64.cc:4326-4333 (label 331). -/
def dot55 : Block := ⟨[
    .ve .sdot 16 0 2 0, .ve .sdot 18 0 2 1, .ve .sdot 20 0 2 2, .ve .sdot 22 0 2 3],
  .br .eq 60 56⟩

/-- kernel_arm64.cc:4338-4340. -/
def dot56 : Block := ⟨[
    .movX 3 tmpBuf, .movX 4 dstPtr, .movI 6 0],
  .jmp 57⟩

/-- kernel_arm64.cc:4343-4343 (label 350). -/
def dot57 : Block := ⟨[
    .movI 5 0],
  .jmp 58⟩

/-- kernel_arm64.cc:4345-4349 (label 351). -/
def dot58 : Block := ⟨[
    .ldrS 7 3 5, .strS 7 4 5, .addWI 5 5 1, .cmpW 5 1],
  .br .lt 58 59⟩

/-- kernel_arm64.cc:4350-4354. -/
def dot59 : Block := ⟨[
    .addWI 6 6 1, .addXI 3 3 32, .addX 4 4 11 0, .cmpW 6 2],
  .br .lt 57 60⟩

/-- kernel_arm64.cc:4356-4356 (label 341). -/
def dot60 : Block := ⟨[
    .addXI dstPtr dstPtr 32],
  .jmp 61⟩

/-- kernel_arm64.cc:4364-4373 (label RUY_ASM_LABEL_AFTER_STORE). -/
def dot61 : Block := ⟨[
    .ldpX 5 .lhsBasePtr, .ldpW 6 .startRow, .ldpW 7 .lastRow, .cmpW rRow 7],
  .br .eq 63 62⟩

/-- kernel_arm64.cc:4375-4376. -/
def dot62 : Block := ⟨[
    .addWI rRow rRow 8],
  .jmp 64⟩

/-- kernel_arm64.cc:4379-4382 (label 20). -/
def dot63 : Block := ⟨[
    .movW rRow 6, .addWI rCol rCol 8, .addX dstColPtr dstColPtr 11 3, .movX dstPtr dstColPtr],
  .jmp 64⟩

/-- kernel_arm64.cc:4386-4393 (label 21). -/
def dot64 : Block := ⟨[
    .cmpW rCol 8, .movI 1 4],
  .br .le 1 65⟩

/-- The whole `asm` statement of `Kernel8bitNeonDotprod`. -/
def dotCode : List Block := [
  dot0, dot1, dot2, dot3, dot4, dot5, dot6, dot7, dot8, dot9, dot10, dot11, dot12, dot13, dot14,
  dot15, dot16, dot17, dot18, dot19, dot20, dot21, dot22, dot23, dot24, dot25, dot26, dot27,
  dot28, dot29, dot30, dot31, dot32, dot33, dot34, dot35, dot36, dot37, dot38, dot39, dot40,
  dot41, dot42, dot43, dot44, dot45, dot46, dot47, dot48, dot49, dot50, dot51, dot52, dot53,
  dot54, dot55, dot56, dot57, dot58, dot59, dot60, dot61, dot62, dot63, dot64]

/-- The words after `.inst` in the `asm` statement, in order. -/
def dotWords : List Nat := [
    0x4f82e010, 0x4fa2e012, 0x4f82e814, 0x4fa2e816, 0x4f83e018, 0x4fa3e01a, 0x4f83e81c,
    0x4fa3e81e, 0x4f82e031, 0x4fa2e033, 0x4f82e835, 0x4fa2e837, 0x4f83e039, 0x4fa3e03b,
    0x4f83e83d, 0x4fa3e83f, 0x4f87e098, 0x4fa7e09a, 0x4f87e89c, 0x4fa7e89e, 0x4f86e0b1,
    0x4fa6e0b3, 0x4f86e8b5, 0x4fa6e8b7, 0x4f87e0b9, 0x4fa7e0bb, 0x4f87e8bd, 0x4fa7e8bf,
    0x4f86e090, 0x4fa6e092, 0x4f86e894, 0x4fa6e896, 0x4f8be118, 0x4fabe11a, 0x4f8be91c,
    0x4fabe91e, 0x4f8ae131, 0x4faae133, 0x4f8ae935, 0x4faae937, 0x4f8be139, 0x4fabe13b,
    0x4f8be93d, 0x4fabe93f, 0x4f8ae110, 0x4faae112, 0x4f8ae914, 0x4faae916, 0x4f8fe198,
    0x4fafe19a, 0x4f8fe99c, 0x4fafe99e, 0x4f8ee1b1, 0x4faee1b3, 0x4f8ee9b5, 0x4faee9b7,
    0x4f8fe1b9, 0x4fafe1bb, 0x4f8fe9bd, 0x4fafe9bf, 0x4f8ee190, 0x4faee192, 0x4f8ee994,
    0x4faee996, 0x4f82e010, 0x4fa2e012, 0x4f82e814, 0x4fa2e816, 0x4f87e098, 0x4fa7e09a,
    0x4f87e89c, 0x4fa7e89e, 0x4f86e0b1, 0x4fa6e0b3, 0x4f86e8b5, 0x4fa6e8b7, 0x4f87e0b9,
    0x4fa7e0bb, 0x4f87e8bd, 0x4fa7e8bf, 0x4f86e090, 0x4fa6e092, 0x4f86e894, 0x4fa6e896,
    0x4f8be118, 0x4fabe11a, 0x4f8be91c, 0x4fabe91e, 0x4f8ae131, 0x4faae133, 0x4f8ae935,
    0x4faae937, 0x4f8be139, 0x4fabe13b, 0x4f8be93d, 0x4fabe93f, 0x4f8ae110, 0x4faae112,
    0x4f8ae914, 0x4faae916, 0x4f8fe198, 0x4fafe19a, 0x4f8fe99c, 0x4fafe99e, 0x4f8ee1b1,
    0x4faee1b3, 0x4f8ee9b5, 0x4faee9b7, 0x4f8fe1b9, 0x4fafe1bb, 0x4f8fe9bd, 0x4fafe9bf,
    0x4f8ee190, 0x4faee192, 0x4f8ee994, 0x4faee996, 0x4f83e018, 0x4fa3e01a, 0x4f83e81c,
    0x4fa3e81e, 0x4f82e031, 0x4fa2e033, 0x4f82e835, 0x4fa2e837, 0x4f83e039, 0x4fa3e03b,
    0x4f83e83d, 0x4fa3e83f, 0x4f82e010, 0x4fa2e012, 0x4f82e814, 0x4fa2e816, 0x4f83e018,
    0x4fa3e01a, 0x4f83e81c, 0x4fa3e81e, 0x4f82e031, 0x4fa2e033, 0x4f82e835, 0x4fa2e837,
    0x4f83e039, 0x4fa3e03b, 0x4f83e83d, 0x4fa3e83f, 0x4f82e010, 0x4fa2e012, 0x4f82e814,
    0x4fa2e816, 0x4f82e010, 0x4fa2e012, 0x4f82e814, 0x4fa2e816, 0x4f82e010, 0x4fa2e012,
    0x4f82e814, 0x4fa2e816, 0x4f82e010, 0x4fa2e012, 0x4f82e814, 0x4fa2e816]

/-- They are the instructions of the program. -/
theorem dot_words : dotWords.map sdotOf = (sdots dotCode).map some := by decide +kernel

end Ruy.Neon

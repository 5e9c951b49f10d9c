import Verif.Neon.PackCode
/-
The AArch64 pack functions for dot products as programs for the machine of `Isa.lean`: every
instruction of the `asm` statements, in order:

  `Pack8bitColMajorForNeonDotprod`        pack_arm.cc:1086-1585
  `Pack8bitColMajorForNeonDotprodA55ish`  pack_arm.cc:840-1084
  `Pack8bitRowMajorForNeonDotprod`        pack_arm.cc:1587-1736

The code under `#if RUY_OPT(MAX_STREAMING)` is included; it is on by default (opt_set.h).  The
macros RUY_LOAD_ONE_ROW and RUY_LOAD_ONE_COL are expanded.  Dot products stand in the source
as words after `.inst`, with the instruction in a comment: the words are decoded here.

The operands of the `asm` statements (pack_arm.cc:1072-1078, 1571-1579, 1723-1730) are
registers chosen by the compiler; their numbers are those of `PackCode.lean`, and 61 for
`packed_stride`; `src_cols` has the number of `rows`.
-/
namespace Ruy.Neon

abbrev rPackedStride : Nat := 61

/-- `sdot vd.4s, vn.16b, vm.16b`: 0 1 0 01110 10 0 Rm 1001 0 1 Rn Rd. -/
def sdotvOf (w : Nat) : Option Instr :=
  if w / 2097152 = 0x4e8 / 2 ∧ w / 1024 % 64 = 37 then
    some (.v3 .sdot (w % 32) (w / 32 % 32) (w / 65536 % 32))
  else none

/-- The dot products of a program. -/
def sdotvs (p : List Block) : List Instr :=
  p.flatMap fun b => b.body.filter fun i => match i with | .v3 .sdot _ _ _ => true | _ => false

/-- pack_arm.cc:1097-1119. -/
def dpack0 : Block := ⟨[
    .dupB 26 rInputXor, .movI 1 1, .dupB 27 1, .movI 1 0, .movi 28, .movi 29, .movi 30, .movi 31,
    .andsI 2 rRows 4294967232],
  .br .eq 4 1⟩

/-- pack_arm.cc:1121-1141. -/
def dpack1 : Block := ⟨[
    .addWI 1 1 64, .ldqR 0 srcPtr0 srcInc0, .ldqR 1 srcPtr1 srcInc1, .ldqR 2 srcPtr2 srcInc2,
    .ldqR 3 srcPtr3 srcInc3, .ldqR 4 srcPtr0 srcInc0, .ldqR 5 srcPtr1 srcInc1,
    .ldqR 6 srcPtr2 srcInc2, .ldqR 7 srcPtr3 srcInc3, .ldqR 8 srcPtr0 srcInc0,
    .ldqR 9 srcPtr1 srcInc1, .ldqR 10 srcPtr2 srcInc2, .ldqR 11 srcPtr3 srcInc3,
    .ldqR 12 srcPtr0 srcInc0, .ldqR 13 srcPtr1 srcInc1, .cmpW 1 2, .ldqR 14 srcPtr2 srcInc2,
    .ldqR 15 srcPtr3 srcInc3],
  .br .eq 3 2⟩

/-- pack_arm.cc:1146-1279 (label 7). -/
def dpack2 : Block := ⟨[
    .v3 .eor 0 0 26, .v3 .eor 1 1 26, .v3 .eor 2 2 26, .v3 .eor 3 3 26, .v3 .trn1S 16 0 1,
    .v3 .trn2S 17 0 1, .v3 .trn1S 18 2 3, .v3 .trn2S 19 2 3, .ldqR 0 srcPtr0 srcInc0,
    .ldqR 1 srcPtr1 srcInc1, .ldqR 2 srcPtr2 srcInc2, .ldqR 3 srcPtr3 srcInc3, .addWI 1 1 16,
    .v3 .trn1D 20 16 18, .v3 .trn2D 22 16 18, .v3 .trn1D 21 17 19, .v3 .trn2D 23 17 19,
    .v3 .sdot 28 20 27, .v3 .sdot 29 22 27, .v3 .sdot 30 21 27, .v3 .sdot 31 23 27,
    .stq 20 packedPtr 0, .stq 21 packedPtr 32, .stq 22 packedPtr 64, .stq 23 packedPtr 96,
    .addXI packedPtr packedPtr 128, .v3 .eor 4 4 26, .v3 .eor 5 5 26, .v3 .eor 6 6 26,
    .v3 .eor 7 7 26, .v3 .trn1S 16 4 5, .v3 .trn2S 17 4 5, .v3 .trn1S 18 6 7, .v3 .trn2S 19 6 7,
    .ldqR 4 srcPtr0 srcInc0, .ldqR 5 srcPtr1 srcInc1, .ldqR 6 srcPtr2 srcInc2,
    .ldqR 7 srcPtr3 srcInc3, .addWI 1 1 16, .v3 .trn1D 20 16 18, .v3 .trn2D 22 16 18,
    .v3 .trn1D 21 17 19, .v3 .trn2D 23 17 19, .v3 .sdot 28 20 27, .v3 .sdot 29 22 27,
    .v3 .sdot 30 21 27, .v3 .sdot 31 23 27, .stq 20 packedPtr 0, .stq 21 packedPtr 32,
    .stq 22 packedPtr 64, .stq 23 packedPtr 96, .addXI packedPtr packedPtr 128, .v3 .eor 8 8 26,
    .v3 .eor 9 9 26, .v3 .eor 10 10 26, .v3 .eor 11 11 26, .v3 .trn1S 16 8 9, .v3 .trn2S 17 8 9,
    .v3 .trn1S 18 10 11, .v3 .trn2S 19 10 11, .ldqR 8 srcPtr0 srcInc0, .ldqR 9 srcPtr1 srcInc1,
    .ldqR 10 srcPtr2 srcInc2, .ldqR 11 srcPtr3 srcInc3, .addWI 1 1 16, .v3 .trn1D 20 16 18,
    .v3 .trn2D 22 16 18, .v3 .trn1D 21 17 19, .v3 .trn2D 23 17 19, .v3 .sdot 28 20 27,
    .v3 .sdot 29 22 27, .v3 .sdot 30 21 27, .v3 .sdot 31 23 27, .stq 20 packedPtr 0,
    .stq 21 packedPtr 32, .stq 22 packedPtr 64, .stq 23 packedPtr 96,
    .addXI packedPtr packedPtr 128, .v3 .eor 12 12 26, .v3 .eor 13 13 26, .v3 .eor 14 14 26,
    .v3 .eor 15 15 26, .v3 .trn1S 16 12 13, .v3 .trn2S 17 12 13, .v3 .trn1S 18 14 15,
    .v3 .trn2S 19 14 15, .ldqR 12 srcPtr0 srcInc0, .ldqR 13 srcPtr1 srcInc1,
    .ldqR 14 srcPtr2 srcInc2, .ldqR 15 srcPtr3 srcInc3, .addWI 1 1 16, .v3 .trn1D 20 16 18,
    .v3 .trn2D 22 16 18, .v3 .trn1D 21 17 19, .v3 .trn2D 23 17 19, .v3 .sdot 28 20 27,
    .v3 .sdot 29 22 27, .v3 .sdot 30 21 27, .v3 .sdot 31 23 27, .cmpW 1 2, .stq 20 packedPtr 0,
    .stq 21 packedPtr 32, .stq 22 packedPtr 64, .stq 23 packedPtr 96,
    .addXI packedPtr packedPtr 128],
  .br .ne 2 3⟩

/-- pack_arm.cc:1286-1391 (label 8). -/
def dpack3 : Block := ⟨[
    .v3 .eor 0 0 26, .v3 .eor 1 1 26, .v3 .eor 2 2 26, .v3 .eor 3 3 26, .v3 .trn1S 16 0 1,
    .v3 .trn2S 17 0 1, .v3 .trn1S 18 2 3, .v3 .trn2S 19 2 3, .v3 .trn1D 20 16 18,
    .v3 .trn2D 22 16 18, .v3 .trn1D 21 17 19, .v3 .trn2D 23 17 19, .v3 .sdot 28 20 27,
    .v3 .sdot 29 22 27, .v3 .sdot 30 21 27, .v3 .sdot 31 23 27, .stq 20 packedPtr 0,
    .stq 21 packedPtr 32, .stq 22 packedPtr 64, .stq 23 packedPtr 96,
    .addXI packedPtr packedPtr 128, .v3 .eor 4 4 26, .v3 .eor 5 5 26, .v3 .eor 6 6 26,
    .v3 .eor 7 7 26, .v3 .trn1S 16 4 5, .v3 .trn2S 17 4 5, .v3 .trn1S 18 6 7, .v3 .trn2S 19 6 7,
    .v3 .trn1D 20 16 18, .v3 .trn2D 22 16 18, .v3 .trn1D 21 17 19, .v3 .trn2D 23 17 19,
    .v3 .sdot 28 20 27, .v3 .sdot 29 22 27, .v3 .sdot 30 21 27, .v3 .sdot 31 23 27,
    .stq 20 packedPtr 0, .stq 21 packedPtr 32, .stq 22 packedPtr 64, .stq 23 packedPtr 96,
    .addXI packedPtr packedPtr 128, .v3 .eor 8 8 26, .v3 .eor 9 9 26, .v3 .eor 10 10 26,
    .v3 .eor 11 11 26, .v3 .trn1S 16 8 9, .v3 .trn2S 17 8 9, .v3 .trn1S 18 10 11,
    .v3 .trn2S 19 10 11, .v3 .trn1D 20 16 18, .v3 .trn2D 22 16 18, .v3 .trn1D 21 17 19,
    .v3 .trn2D 23 17 19, .v3 .sdot 28 20 27, .v3 .sdot 29 22 27, .v3 .sdot 30 21 27,
    .v3 .sdot 31 23 27, .stq 20 packedPtr 0, .stq 21 packedPtr 32, .stq 22 packedPtr 64,
    .stq 23 packedPtr 96, .addXI packedPtr packedPtr 128, .v3 .eor 12 12 26, .v3 .eor 13 13 26,
    .v3 .eor 14 14 26, .v3 .eor 15 15 26, .v3 .trn1S 16 12 13, .v3 .trn2S 17 12 13,
    .v3 .trn1S 18 14 15, .v3 .trn2S 19 14 15, .v3 .trn1D 20 16 18, .v3 .trn2D 22 16 18,
    .v3 .trn1D 21 17 19, .v3 .trn2D 23 17 19, .v3 .sdot 28 20 27, .v3 .sdot 29 22 27,
    .v3 .sdot 30 21 27, .v3 .sdot 31 23 27, .stq 20 packedPtr 0, .stq 21 packedPtr 32,
    .stq 22 packedPtr 64, .stq 23 packedPtr 96, .addXI packedPtr packedPtr 128],
  .jmp 4⟩

/-- pack_arm.cc:1400-1404 (label 9). -/
def dpack4 : Block := ⟨[
    .andI 2 rRows 4294967280, .cmpW 1 2],
  .br .eq 8 5⟩

/-- pack_arm.cc:1407-1416. -/
def dpack5 : Block := ⟨[
    .addWI 1 1 16, .ldqR 0 srcPtr0 srcInc0, .ldqR 1 srcPtr1 srcInc1, .cmpW 1 2,
    .ldqR 2 srcPtr2 srcInc2, .ldqR 3 srcPtr3 srcInc3],
  .br .eq 7 6⟩

/-- pack_arm.cc:1420-1453 (label 1). -/
def dpack6 : Block := ⟨[
    .v3 .eor 0 0 26, .v3 .eor 1 1 26, .v3 .eor 2 2 26, .v3 .eor 3 3 26, .v3 .trn1S 16 0 1,
    .v3 .trn2S 17 0 1, .v3 .trn1S 18 2 3, .v3 .trn2S 19 2 3, .ldqR 0 srcPtr0 srcInc0,
    .ldqR 1 srcPtr1 srcInc1, .ldqR 2 srcPtr2 srcInc2, .ldqR 3 srcPtr3 srcInc3, .addWI 1 1 16,
    .v3 .trn1D 20 16 18, .v3 .trn2D 22 16 18, .v3 .trn1D 21 17 19, .v3 .trn2D 23 17 19,
    .v3 .sdot 28 20 27, .v3 .sdot 29 22 27, .v3 .sdot 30 21 27, .v3 .sdot 31 23 27,
    .stq 20 packedPtr 0, .stq 21 packedPtr 32, .cmpW 1 2, .stq 22 packedPtr 64,
    .stq 23 packedPtr 96, .addXI packedPtr packedPtr 128],
  .br .ne 6 7⟩

/-- pack_arm.cc:1459-1483 (label 2). -/
def dpack7 : Block := ⟨[
    .v3 .eor 0 0 26, .v3 .eor 1 1 26, .v3 .eor 2 2 26, .v3 .eor 3 3 26, .v3 .trn1S 16 0 1,
    .v3 .trn2S 17 0 1, .v3 .trn1S 18 2 3, .v3 .trn2S 19 2 3, .v3 .trn1D 20 16 18,
    .v3 .trn2D 22 16 18, .v3 .trn1D 21 17 19, .v3 .trn2D 23 17 19, .v3 .sdot 28 20 27,
    .v3 .sdot 29 22 27, .v3 .sdot 30 21 27, .v3 .sdot 31 23 27, .stq 20 packedPtr 0,
    .stq 21 packedPtr 32, .stq 22 packedPtr 64, .stq 23 packedPtr 96,
    .addXI packedPtr packedPtr 128],
  .jmp 8⟩

/-- pack_arm.cc:1489-1491 (label 3). -/
def dpack8 : Block := ⟨[
    .andsI 2 rRows 15],
  .br .eq 29 9⟩

/-- pack_arm.cc:1494-1506. -/
def dpack9 : Block := ⟨[
    .dupB 0 rZeroPoint, .dupB 1 rZeroPoint, .dupB 2 rZeroPoint, .dupB 3 rZeroPoint, .cmpI 2 0],
  .br .eq 25 10⟩

/-- pack_arm.cc:1506-1507. -/
def dpack10 : Block := ⟨[
    .ldB 0 0 srcPtr0, .ldB 1 0 srcPtr1, .ldB 2 0 srcPtr2, .ldB 3 0 srcPtr3, .cmpI 2 1],
  .br .eq 25 11⟩

/-- pack_arm.cc:1507-1508. -/
def dpack11 : Block := ⟨[
    .ldB 0 1 srcPtr0, .ldB 1 1 srcPtr1, .ldB 2 1 srcPtr2, .ldB 3 1 srcPtr3, .cmpI 2 2],
  .br .eq 25 12⟩

/-- pack_arm.cc:1508-1509. -/
def dpack12 : Block := ⟨[
    .ldB 0 2 srcPtr0, .ldB 1 2 srcPtr1, .ldB 2 2 srcPtr2, .ldB 3 2 srcPtr3, .cmpI 2 3],
  .br .eq 25 13⟩

/-- pack_arm.cc:1509-1510. -/
def dpack13 : Block := ⟨[
    .ldB 0 3 srcPtr0, .ldB 1 3 srcPtr1, .ldB 2 3 srcPtr2, .ldB 3 3 srcPtr3, .cmpI 2 4],
  .br .eq 25 14⟩

/-- pack_arm.cc:1510-1511. -/
def dpack14 : Block := ⟨[
    .ldB 0 4 srcPtr0, .ldB 1 4 srcPtr1, .ldB 2 4 srcPtr2, .ldB 3 4 srcPtr3, .cmpI 2 5],
  .br .eq 25 15⟩

/-- pack_arm.cc:1511-1512. -/
def dpack15 : Block := ⟨[
    .ldB 0 5 srcPtr0, .ldB 1 5 srcPtr1, .ldB 2 5 srcPtr2, .ldB 3 5 srcPtr3, .cmpI 2 6],
  .br .eq 25 16⟩

/-- pack_arm.cc:1512-1513. -/
def dpack16 : Block := ⟨[
    .ldB 0 6 srcPtr0, .ldB 1 6 srcPtr1, .ldB 2 6 srcPtr2, .ldB 3 6 srcPtr3, .cmpI 2 7],
  .br .eq 25 17⟩

/-- pack_arm.cc:1513-1514. -/
def dpack17 : Block := ⟨[
    .ldB 0 7 srcPtr0, .ldB 1 7 srcPtr1, .ldB 2 7 srcPtr2, .ldB 3 7 srcPtr3, .cmpI 2 8],
  .br .eq 25 18⟩

/-- pack_arm.cc:1514-1515. -/
def dpack18 : Block := ⟨[
    .ldB 0 8 srcPtr0, .ldB 1 8 srcPtr1, .ldB 2 8 srcPtr2, .ldB 3 8 srcPtr3, .cmpI 2 9],
  .br .eq 25 19⟩

/-- pack_arm.cc:1515-1516. -/
def dpack19 : Block := ⟨[
    .ldB 0 9 srcPtr0, .ldB 1 9 srcPtr1, .ldB 2 9 srcPtr2, .ldB 3 9 srcPtr3, .cmpI 2 10],
  .br .eq 25 20⟩

/-- pack_arm.cc:1516-1517. -/
def dpack20 : Block := ⟨[
    .ldB 0 10 srcPtr0, .ldB 1 10 srcPtr1, .ldB 2 10 srcPtr2, .ldB 3 10 srcPtr3, .cmpI 2 11],
  .br .eq 25 21⟩

/-- pack_arm.cc:1517-1518. -/
def dpack21 : Block := ⟨[
    .ldB 0 11 srcPtr0, .ldB 1 11 srcPtr1, .ldB 2 11 srcPtr2, .ldB 3 11 srcPtr3, .cmpI 2 12],
  .br .eq 25 22⟩

/-- pack_arm.cc:1518-1519. -/
def dpack22 : Block := ⟨[
    .ldB 0 12 srcPtr0, .ldB 1 12 srcPtr1, .ldB 2 12 srcPtr2, .ldB 3 12 srcPtr3, .cmpI 2 13],
  .br .eq 25 23⟩

/-- pack_arm.cc:1519-1520. -/
def dpack23 : Block := ⟨[
    .ldB 0 13 srcPtr0, .ldB 1 13 srcPtr1, .ldB 2 13 srcPtr2, .ldB 3 13 srcPtr3, .cmpI 2 14],
  .br .eq 25 24⟩

/-- pack_arm.cc:1520-1520. -/
def dpack24 : Block := ⟨[
    .ldB 0 14 srcPtr0, .ldB 1 14 srcPtr1, .ldB 2 14 srcPtr2, .ldB 3 14 srcPtr3],
  .jmp 25⟩

/-- pack_arm.cc:1526-1544 (label 5). -/
def dpack25 : Block := ⟨[
    .v3 .eor 0 0 26, .v3 .eor 1 1 26, .v3 .eor 2 2 26, .v3 .eor 3 3 26, .v3 .trn1S 16 0 1,
    .v3 .trn2S 17 0 1, .v3 .trn1S 18 2 3, .v3 .trn2S 19 2 3, .v3 .trn1D 20 16 18,
    .v3 .trn2D 22 16 18, .v3 .trn1D 21 17 19, .v3 .trn2D 23 17 19, .v3 .sdot 28 20 27,
    .stq 20 packedPtr 0, .cmpI 2 4],
  .br .le 29 26⟩

/-- pack_arm.cc:1545-1548. -/
def dpack26 : Block := ⟨[
    .v3 .sdot 30 21 27, .stq 21 packedPtr 32, .cmpI 2 8],
  .br .le 29 27⟩

/-- pack_arm.cc:1549-1552. -/
def dpack27 : Block := ⟨[
    .v3 .sdot 29 22 27, .stq 22 packedPtr 64, .cmpI 2 12],
  .br .le 29 28⟩

/-- pack_arm.cc:1553-1555. -/
def dpack28 : Block := ⟨[
    .v3 .sdot 31 23 27, .stq 23 packedPtr 96, .addXI packedPtr packedPtr 128],
  .jmp 29⟩

/-- pack_arm.cc:1560-1566 (label 4). -/
def dpack29 : Block := ⟨[
    .v3 .add 28 28 29, .v3 .add 30 30 31, .v3 .add 28 28 30, .cmpP sumsPtr],
  .br .eq 31 30⟩

/-- pack_arm.cc:1567-1567. -/
def dpack30 : Block := ⟨[
    .stqP 28 sumsPtr],
  .jmp 31⟩

/-- The whole `asm` statement of `Pack8bitColMajorForNeonDotprod`. -/
def dpackCode : List Block := [
  dpack0, dpack1, dpack2, dpack3, dpack4, dpack5, dpack6, dpack7, dpack8, dpack9, dpack10,
  dpack11, dpack12, dpack13, dpack14, dpack15, dpack16, dpack17, dpack18, dpack19, dpack20,
  dpack21, dpack22, dpack23, dpack24, dpack25, dpack26, dpack27, dpack28, dpack29, dpack30]

/-- The words after `.inst` in the `asm` statement, in order. -/
def dpackWords : List Nat := [
  0x4e9b969c, 0x4e9b96dd, 0x4e9b96be, 0x4e9b96ff, 0x4e9b969c, 0x4e9b96dd, 0x4e9b96be, 0x4e9b96ff,
  0x4e9b969c, 0x4e9b96dd, 0x4e9b96be, 0x4e9b96ff, 0x4e9b969c, 0x4e9b96dd, 0x4e9b96be, 0x4e9b96ff,
  0x4e9b969c, 0x4e9b96dd, 0x4e9b96be, 0x4e9b96ff, 0x4e9b969c, 0x4e9b96dd, 0x4e9b96be, 0x4e9b96ff,
  0x4e9b969c, 0x4e9b96dd, 0x4e9b96be, 0x4e9b96ff, 0x4e9b969c, 0x4e9b96dd, 0x4e9b96be, 0x4e9b96ff,
  0x4e9b969c, 0x4e9b96dd, 0x4e9b96be, 0x4e9b96ff, 0x4e9b969c, 0x4e9b96dd, 0x4e9b96be, 0x4e9b96ff,
  0x4e9b969c, 0x4e9b96be, 0x4e9b96dd, 0x4e9b96ff]

/-- They are the instructions of the program. -/
theorem dpack_words : dpackWords.map sdotvOf = (sdotvs dpackCode).map some := by decide +kernel

/-- pack_arm.cc:851-868. -/
def dpackA0 : Block := ⟨[
    .dupB 26 rInputXor, .movI 1 1, .dupB 27 1, .movI 1 0, .movi 28, .movi 29, .movi 30, .movi 31,
    .andsI 2 rRows 4294967280],
  .br .eq 4 1⟩

/-- pack_arm.cc:870-895. -/
def dpackA1 : Block := ⟨[
    .addWI 1 1 16, .ldx 10 srcPtr0 8, .lddR 0 srcPtr0 srcInc0, .ldx 11 srcPtr1 8,
    .lddR 1 srcPtr1 srcInc1, .ldx 12 srcPtr2 8, .lddR 2 srcPtr2 srcInc2, .ldx 13 srcPtr3 8,
    .lddR 3 srcPtr3 srcInc3, .cmpW 1 2],
  .br .eq 3 2⟩

/-- pack_arm.cc:899-954 (label 1). -/
def dpackA2 : Block := ⟨[
    .addWI 1 1 16, .insD 0 1 10, .ldx 10 srcPtr0 8, .insD 1 1 11, .ldx 11 srcPtr1 8, .insD 2 1 12,
    .ldx 12 srcPtr2 8, .insD 3 1 13, .ldx 13 srcPtr3 8, .v3 .eor 4 0 26, .lddR 0 srcPtr0 srcInc0,
    .v3 .eor 5 1 26, .lddR 1 srcPtr1 srcInc1, .v3 .eor 6 2 26, .lddR 2 srcPtr2 srcInc2,
    .v3 .eor 7 3 26, .lddR 3 srcPtr3 srcInc3, .v3 .trn1S 16 4 5, .v3 .trn2S 17 4 5,
    .v3 .trn1S 18 6 7, .v3 .trn2S 19 6 7, .v3 .trn1D 20 16 18, .v3 .trn2D 22 16 18,
    .v3 .trn1D 21 17 19, .v3 .trn2D 23 17 19, .cmpW 1 2, .v3 .sdot 28 20 27, .stq 20 packedPtr 0,
    .v3 .sdot 29 22 27, .stq 21 packedPtr 32, .v3 .sdot 30 21 27, .stq 22 packedPtr 64,
    .v3 .sdot 31 23 27, .stq 23 packedPtr 96, .addXI packedPtr packedPtr 128],
  .br .ne 2 3⟩

/-- pack_arm.cc:959-986 (label 2). -/
def dpackA3 : Block := ⟨[
    .insD 0 1 10, .insD 1 1 11, .insD 2 1 12, .insD 3 1 13, .v3 .eor 0 0 26, .v3 .eor 1 1 26,
    .v3 .eor 2 2 26, .v3 .eor 3 3 26, .v3 .trn1S 16 0 1, .v3 .trn2S 17 0 1, .v3 .trn1S 18 2 3,
    .v3 .trn2S 19 2 3, .v3 .trn1D 20 16 18, .v3 .trn2D 22 16 18, .v3 .trn1D 21 17 19,
    .v3 .trn2D 23 17 19, .v3 .sdot 28 20 27, .stq 20 packedPtr 0, .v3 .sdot 29 22 27,
    .stq 21 packedPtr 32, .v3 .sdot 30 21 27, .stq 22 packedPtr 64, .v3 .sdot 31 23 27,
    .stq 23 packedPtr 96, .addXI packedPtr packedPtr 128],
  .jmp 4⟩

/-- pack_arm.cc:992-994 (label 3). -/
def dpackA4 : Block := ⟨[
    .andsI 2 rRows 15],
  .br .eq 25 5⟩

/-- pack_arm.cc:997-1009. -/
def dpackA5 : Block := ⟨[
    .dupB 0 rZeroPoint, .dupB 1 rZeroPoint, .dupB 2 rZeroPoint, .dupB 3 rZeroPoint, .cmpI 2 0],
  .br .eq 21 6⟩

/-- pack_arm.cc:1009-1010. -/
def dpackA6 : Block := ⟨[
    .ldB 0 0 srcPtr0, .ldB 1 0 srcPtr1, .ldB 2 0 srcPtr2, .ldB 3 0 srcPtr3, .cmpI 2 1],
  .br .eq 21 7⟩

/-- pack_arm.cc:1010-1011. -/
def dpackA7 : Block := ⟨[
    .ldB 0 1 srcPtr0, .ldB 1 1 srcPtr1, .ldB 2 1 srcPtr2, .ldB 3 1 srcPtr3, .cmpI 2 2],
  .br .eq 21 8⟩

/-- pack_arm.cc:1011-1012. -/
def dpackA8 : Block := ⟨[
    .ldB 0 2 srcPtr0, .ldB 1 2 srcPtr1, .ldB 2 2 srcPtr2, .ldB 3 2 srcPtr3, .cmpI 2 3],
  .br .eq 21 9⟩

/-- pack_arm.cc:1012-1013. -/
def dpackA9 : Block := ⟨[
    .ldB 0 3 srcPtr0, .ldB 1 3 srcPtr1, .ldB 2 3 srcPtr2, .ldB 3 3 srcPtr3, .cmpI 2 4],
  .br .eq 21 10⟩

/-- pack_arm.cc:1013-1014. -/
def dpackA10 : Block := ⟨[
    .ldB 0 4 srcPtr0, .ldB 1 4 srcPtr1, .ldB 2 4 srcPtr2, .ldB 3 4 srcPtr3, .cmpI 2 5],
  .br .eq 21 11⟩

/-- pack_arm.cc:1014-1015. -/
def dpackA11 : Block := ⟨[
    .ldB 0 5 srcPtr0, .ldB 1 5 srcPtr1, .ldB 2 5 srcPtr2, .ldB 3 5 srcPtr3, .cmpI 2 6],
  .br .eq 21 12⟩

/-- pack_arm.cc:1015-1016. -/
def dpackA12 : Block := ⟨[
    .ldB 0 6 srcPtr0, .ldB 1 6 srcPtr1, .ldB 2 6 srcPtr2, .ldB 3 6 srcPtr3, .cmpI 2 7],
  .br .eq 21 13⟩

/-- pack_arm.cc:1016-1017. -/
def dpackA13 : Block := ⟨[
    .ldB 0 7 srcPtr0, .ldB 1 7 srcPtr1, .ldB 2 7 srcPtr2, .ldB 3 7 srcPtr3, .cmpI 2 8],
  .br .eq 21 14⟩

/-- pack_arm.cc:1017-1018. -/
def dpackA14 : Block := ⟨[
    .ldB 0 8 srcPtr0, .ldB 1 8 srcPtr1, .ldB 2 8 srcPtr2, .ldB 3 8 srcPtr3, .cmpI 2 9],
  .br .eq 21 15⟩

/-- pack_arm.cc:1018-1019. -/
def dpackA15 : Block := ⟨[
    .ldB 0 9 srcPtr0, .ldB 1 9 srcPtr1, .ldB 2 9 srcPtr2, .ldB 3 9 srcPtr3, .cmpI 2 10],
  .br .eq 21 16⟩

/-- pack_arm.cc:1019-1020. -/
def dpackA16 : Block := ⟨[
    .ldB 0 10 srcPtr0, .ldB 1 10 srcPtr1, .ldB 2 10 srcPtr2, .ldB 3 10 srcPtr3, .cmpI 2 11],
  .br .eq 21 17⟩

/-- pack_arm.cc:1020-1021. -/
def dpackA17 : Block := ⟨[
    .ldB 0 11 srcPtr0, .ldB 1 11 srcPtr1, .ldB 2 11 srcPtr2, .ldB 3 11 srcPtr3, .cmpI 2 12],
  .br .eq 21 18⟩

/-- pack_arm.cc:1021-1022. -/
def dpackA18 : Block := ⟨[
    .ldB 0 12 srcPtr0, .ldB 1 12 srcPtr1, .ldB 2 12 srcPtr2, .ldB 3 12 srcPtr3, .cmpI 2 13],
  .br .eq 21 19⟩

/-- pack_arm.cc:1022-1023. -/
def dpackA19 : Block := ⟨[
    .ldB 0 13 srcPtr0, .ldB 1 13 srcPtr1, .ldB 2 13 srcPtr2, .ldB 3 13 srcPtr3, .cmpI 2 14],
  .br .eq 21 20⟩

/-- pack_arm.cc:1023-1023. -/
def dpackA20 : Block := ⟨[
    .ldB 0 14 srcPtr0, .ldB 1 14 srcPtr1, .ldB 2 14 srcPtr2, .ldB 3 14 srcPtr3],
  .jmp 21⟩

/-- pack_arm.cc:1029-1047 (label 5). -/
def dpackA21 : Block := ⟨[
    .v3 .eor 0 0 26, .v3 .eor 1 1 26, .v3 .eor 2 2 26, .v3 .eor 3 3 26, .v3 .trn1S 16 0 1,
    .v3 .trn2S 17 0 1, .v3 .trn1S 18 2 3, .v3 .trn2S 19 2 3, .v3 .trn1D 20 16 18,
    .v3 .trn2D 22 16 18, .v3 .trn1D 21 17 19, .v3 .trn2D 23 17 19, .v3 .sdot 28 20 27,
    .stq 20 packedPtr 0, .cmpI 2 4],
  .br .le 25 22⟩

/-- pack_arm.cc:1048-1051. -/
def dpackA22 : Block := ⟨[
    .v3 .sdot 30 21 27, .stq 21 packedPtr 32, .cmpI 2 8],
  .br .le 25 23⟩

/-- pack_arm.cc:1052-1055. -/
def dpackA23 : Block := ⟨[
    .v3 .sdot 29 22 27, .stq 22 packedPtr 64, .cmpI 2 12],
  .br .le 25 24⟩

/-- pack_arm.cc:1056-1058. -/
def dpackA24 : Block := ⟨[
    .v3 .sdot 31 23 27, .stq 23 packedPtr 96, .addXI packedPtr packedPtr 128],
  .jmp 25⟩

/-- pack_arm.cc:1063-1069 (label 4). -/
def dpackA25 : Block := ⟨[
    .v3 .add 28 28 29, .v3 .add 30 30 31, .v3 .add 28 28 30, .cmpP sumsPtr],
  .br .eq 27 26⟩

/-- pack_arm.cc:1070-1070. -/
def dpackA26 : Block := ⟨[
    .stqP 28 sumsPtr],
  .jmp 27⟩

/-- The whole `asm` statement of `Pack8bitColMajorForNeonDotprodA55ish`. -/
def dpackACode : List Block := [
  dpackA0, dpackA1, dpackA2, dpackA3, dpackA4, dpackA5, dpackA6, dpackA7, dpackA8, dpackA9,
  dpackA10, dpackA11, dpackA12, dpackA13, dpackA14, dpackA15, dpackA16, dpackA17, dpackA18,
  dpackA19, dpackA20, dpackA21, dpackA22, dpackA23, dpackA24, dpackA25, dpackA26]

/-- The words after `.inst` in the `asm` statement, in order. -/
def dpackAWords : List Nat := [
  0x4e9b969c, 0x4e9b96dd, 0x4e9b96be, 0x4e9b96ff, 0x4e9b969c, 0x4e9b96dd, 0x4e9b96be, 0x4e9b96ff,
  0x4e9b969c, 0x4e9b96be, 0x4e9b96dd, 0x4e9b96ff]

/-- They are the instructions of the program. -/
theorem dpackA_words : dpackAWords.map sdotvOf = (sdotvs dpackACode).map some := by decide +kernel

/-- pack_arm.cc:1603-1613. -/
def drow0 : Block := ⟨[
    .subsI 0 rRows 8, .dupB 26 rInputXor, .moviB 27 1],
  .br .lt 2 1⟩

/-- pack_arm.cc:1619-1660 (label 1). -/
def drow1 : Block := ⟨[
    .ldd 0 srcPtr0 0 0, .ldd 1 srcPtr1 0 0, .ldd 2 srcPtr2 0 0, .ldd 3 srcPtr3 0 0,
    .v3 .zip1B 0 0 1, .ldq 8 sumsPtr 0 0, .v3 .zip1B 1 2 3, .ldq 9 sumsPtr 16 0, .v3 .zip1H 2 0 1,
    .v3 .zip2H 3 0 1, .v3 .eor 2 2 26, .v3 .eor 3 3 26, .v3 .sdot 8 2 27, .v3 .sdot 9 3 27,
    .stq 2 packedPtr 0, .addXS srcPtr0 srcPtr0 srcInc0, .stq 3 packedPtr 16,
    .addXS srcPtr1 srcPtr1 srcInc1, .stqP 8 sumsPtr, .addX packedPtr packedPtr rPackedStride 3,
    .stqP 9 sumsPtr, .subsI 0 0 8, .addXS srcPtr2 srcPtr2 srcInc2, .addXS srcPtr3 srcPtr3 srcInc3],
  .br .ge 1 2⟩

/-- pack_arm.cc:1665-1667 (label 2). -/
def drow2 : Block := ⟨[
    .addsI 0 0 8],
  .br .eq 12 3⟩

/-- pack_arm.cc:1669-1682. -/
def drow3 : Block := ⟨[
    .dupB8 0 rZeroPoint, .dupB8 1 rZeroPoint, .dupB8 2 rZeroPoint, .dupB8 3 rZeroPoint, .cmpI 0 0],
  .br .eq 11 4⟩

/-- pack_arm.cc:1682-1683. -/
def drow4 : Block := ⟨[
    .ldB 0 0 srcPtr0, .ldB 1 0 srcPtr1, .ldB 2 0 srcPtr2, .ldB 3 0 srcPtr3, .cmpI 0 1],
  .br .eq 11 5⟩

/-- pack_arm.cc:1683-1684. -/
def drow5 : Block := ⟨[
    .ldB 0 1 srcPtr0, .ldB 1 1 srcPtr1, .ldB 2 1 srcPtr2, .ldB 3 1 srcPtr3, .cmpI 0 2],
  .br .eq 11 6⟩

/-- pack_arm.cc:1684-1685. -/
def drow6 : Block := ⟨[
    .ldB 0 2 srcPtr0, .ldB 1 2 srcPtr1, .ldB 2 2 srcPtr2, .ldB 3 2 srcPtr3, .cmpI 0 3],
  .br .eq 11 7⟩

/-- pack_arm.cc:1685-1686. -/
def drow7 : Block := ⟨[
    .ldB 0 3 srcPtr0, .ldB 1 3 srcPtr1, .ldB 2 3 srcPtr2, .ldB 3 3 srcPtr3, .cmpI 0 4],
  .br .eq 11 8⟩

/-- pack_arm.cc:1686-1687. -/
def drow8 : Block := ⟨[
    .ldB 0 4 srcPtr0, .ldB 1 4 srcPtr1, .ldB 2 4 srcPtr2, .ldB 3 4 srcPtr3, .cmpI 0 5],
  .br .eq 11 9⟩

/-- pack_arm.cc:1687-1688. -/
def drow9 : Block := ⟨[
    .ldB 0 5 srcPtr0, .ldB 1 5 srcPtr1, .ldB 2 5 srcPtr2, .ldB 3 5 srcPtr3, .cmpI 0 6],
  .br .eq 11 10⟩

/-- pack_arm.cc:1688-1688. -/
def drow10 : Block := ⟨[
    .ldB 0 6 srcPtr0, .ldB 1 6 srcPtr1, .ldB 2 6 srcPtr2, .ldB 3 6 srcPtr3],
  .jmp 11⟩

/-- pack_arm.cc:1697-1719 (label 4). -/
def drow11 : Block := ⟨[
    .v3 .zip1B 0 0 1, .ldq 8 sumsPtr 0 0, .v3 .zip1B 1 2 3, .ldq 9 sumsPtr 16 0, .v3 .zip1H 2 0 1,
    .v3 .zip2H 3 0 1, .v3 .eor 2 2 26, .v3 .eor 3 3 26, .v3 .sdot 8 2 27, .v3 .sdot 9 3 27,
    .stq 2 packedPtr 0, .stq 3 packedPtr 16, .stqP 8 sumsPtr, .stqP 9 sumsPtr],
  .jmp 12⟩

/-- The whole `asm` statement of `Pack8bitRowMajorForNeonDotprod`. -/
def drowCode : List Block := [
  drow0, drow1, drow2, drow3, drow4, drow5, drow6, drow7, drow8, drow9, drow10, drow11]

/-- The words after `.inst` in the `asm` statement, in order. -/
def drowWords : List Nat := [
  0x4e9b9448, 0x4e9b9469, 0x4e9b9448, 0x4e9b9469]

/-- They are the instructions of the program. -/
theorem drow_words : drowWords.map sdotvOf = (sdotvs drowCode).map some := by decide +kernel

end Ruy.Neon

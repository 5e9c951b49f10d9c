import Verif.NeonF.Isa
import Verif.Neon.PackCode
/-
The AArch64 pack functions for floats as programs for the machine of `Isa.lean`: every instruction
of the `asm` statements, in order:

  `PackFloatColMajorForNeon`        pack_arm.cc:1738-1879
  `PackFloatColMajorForNeonA55ish`  pack_arm.cc:2067-2225

The macros RUY_LOAD_ONE_ROW and RUY_STORE_ONE_ROW are expanded; prefetches are left out.

The operands of the `asm` statements (pack_arm.cc:1866-1873, 2211-2218) are registers chosen by the
compiler; their numbers are those of `Neon/PackCode.lean`.
-/
namespace Ruy.NeonF
open Ruy.Neon (srcPtr0 srcPtr1 srcPtr2 srcPtr3 packedPtr srcInc0 srcInc1 srcInc2 srcInc3 rRows)

/-- pack_arm.cc:1746-1751. -/
def fpack0 : Block := ⟨[
    .movI 1 0, .andsI 2 rRows 4294967292],
  .br .eq 4 1⟩

/-- pack_arm.cc:1753-1762. -/
def fpack1 : Block := ⟨[
    .addWI 1 1 4, .ldqR 0 srcPtr0 srcInc0, .ldqR 1 srcPtr1 srcInc1, .cmpW 1 2,
    .ldqR 2 srcPtr2 srcInc2, .ldqR 3 srcPtr3 srcInc3],
  .br .eq 3 2⟩

/-- pack_arm.cc:1766-1791 (label 1). -/
def fpack2 : Block := ⟨[
    .addWI 1 1 4, .v3 .trn1S 16 0 1, .v3 .trn2S 17 0 1, .v3 .trn1S 18 2 3, .v3 .trn2S 19 2 3,
    .ldqR 0 srcPtr0 srcInc0, .ldqR 1 srcPtr1 srcInc1, .ldqR 2 srcPtr2 srcInc2,
    .ldqR 3 srcPtr3 srcInc3, .v3 .trn1D 20 16 18, .v3 .trn2D 22 16 18, .v3 .trn1D 21 17 19,
    .v3 .trn2D 23 17 19, .cmpW 1 2, .stq 20 packedPtr 0, .stq 21 packedPtr 32,
    .stq 22 packedPtr 64, .stq 23 packedPtr 96, .addXI packedPtr packedPtr 128],
  .br .ne 2 3⟩

/-- pack_arm.cc:1796-1810 (label 2). -/
def fpack3 : Block := ⟨[
    .v3 .trn1S 16 0 1, .v3 .trn2S 17 0 1, .v3 .trn1S 18 2 3, .v3 .trn2S 19 2 3,
    .v3 .trn1D 20 16 18, .v3 .trn2D 22 16 18, .v3 .trn1D 21 17 19, .v3 .trn2D 23 17 19,
    .stq 20 packedPtr 0, .stq 21 packedPtr 32, .stq 22 packedPtr 64, .stq 23 packedPtr 96,
    .addXI packedPtr packedPtr 128],
  .jmp 4⟩

/-- pack_arm.cc:1816-1818 (label 3). -/
def fpack4 : Block := ⟨[
    .andsI 2 rRows 3],
  .br .eq 14 5⟩

/-- pack_arm.cc:1821-1833. -/
def fpack5 : Block := ⟨[
    .movi 0, .movi 1, .movi 2, .movi 3, .cmpI 2 0],
  .br .eq 9 6⟩

/-- pack_arm.cc:1833-1834. -/
def fpack6 : Block := ⟨[
    .ldS 0 0 srcPtr0, .ldS 1 0 srcPtr1, .ldS 2 0 srcPtr2, .ldS 3 0 srcPtr3, .cmpI 2 1],
  .br .eq 9 7⟩

/-- pack_arm.cc:1834-1835. -/
def fpack7 : Block := ⟨[
    .ldS 0 1 srcPtr0, .ldS 1 1 srcPtr1, .ldS 2 1 srcPtr2, .ldS 3 1 srcPtr3, .cmpI 2 2],
  .br .eq 9 8⟩

/-- pack_arm.cc:1835-1835. -/
def fpack8 : Block := ⟨[
    .ldS 0 2 srcPtr0, .ldS 1 2 srcPtr1, .ldS 2 2 srcPtr2, .ldS 3 2 srcPtr3],
  .jmp 9⟩

/-- pack_arm.cc:1841-1858 (label 5). -/
def fpack9 : Block := ⟨[
    .v3 .trn1S 16 0 1, .v3 .trn2S 17 0 1, .v3 .trn1S 18 2 3, .v3 .trn2S 19 2 3,
    .v3 .trn1D 20 16 18, .v3 .trn2D 22 16 18, .v3 .trn1D 21 17 19, .v3 .trn2D 23 17 19,
    .movI 1 32, .cmpI 2 0],
  .br .eq 14 10⟩

/-- pack_arm.cc:1858-1859. -/
def fpack10 : Block := ⟨[
    .stqR 20 packedPtr 1, .cmpI 2 1],
  .br .eq 14 11⟩

/-- pack_arm.cc:1859-1860. -/
def fpack11 : Block := ⟨[
    .stqR 21 packedPtr 1, .cmpI 2 2],
  .br .eq 14 12⟩

/-- pack_arm.cc:1860-1861. -/
def fpack12 : Block := ⟨[
    .stqR 22 packedPtr 1, .cmpI 2 3],
  .br .eq 14 13⟩

/-- pack_arm.cc:1861-1861. -/
def fpack13 : Block := ⟨[
    .stqR 23 packedPtr 1],
  .jmp 14⟩

/-- The whole `asm` statement of `PackFloatColMajorForNeon`. -/
def fpackCode : List Block := [
  fpack0, fpack1, fpack2, fpack3, fpack4, fpack5, fpack6, fpack7, fpack8, fpack9, fpack10,
  fpack11, fpack12, fpack13]

/-- pack_arm.cc:2077-2081. -/
def fpackA0 : Block := ⟨[
    .movI 1 0, .andI 2 rRows 4294967292, .cmpW 1 2],
  .br .eq 4 1⟩

/-- pack_arm.cc:2082-2101. -/
def fpackA1 : Block := ⟨[
    .ldqR 0 srcPtr0 srcInc0, .ldqR 1 srcPtr1 srcInc1, .ldqR 2 srcPtr2 srcInc2,
    .ldqR 3 srcPtr3 srcInc3, .addWI 1 1 4, .cmpW 1 2],
  .br .eq 3 2⟩

/-- pack_arm.cc:2104-2140 (label 1). -/
def fpackA2 : Block := ⟨[
    .addWI 1 1 4, .ldx 10 srcPtr0 8, .v3 .trn1S 16 0 1, .ldx 11 srcPtr1 8, .v3 .trn2S 17 0 1,
    .ldx 12 srcPtr2 8, .v3 .trn1S 18 2 3, .ldx 13 srcPtr3 8, .v3 .trn2S 19 2 3,
    .lddR 0 srcPtr0 srcInc0, .v3 .trn1D 20 16 18, .lddR 1 srcPtr1 srcInc1, .v3 .trn2D 22 16 18,
    .lddR 2 srcPtr2 srcInc2, .v3 .trn1D 21 17 19, .lddR 3 srcPtr3 srcInc3, .v3 .trn2D 23 17 19,
    .cmpW 1 2, .insD 0 1 10, .stq 20 packedPtr 0, .insD 1 1 11, .stq 21 packedPtr 32,
    .insD 2 1 12, .stq 22 packedPtr 64, .insD 3 1 13, .stq 23 packedPtr 96,
    .addXI packedPtr packedPtr 128],
  .br .ne 2 3⟩

/-- pack_arm.cc:2144-2158 (label 2). -/
def fpackA3 : Block := ⟨[
    .v3 .trn1S 16 0 1, .v3 .trn2S 17 0 1, .v3 .trn1S 18 2 3, .v3 .trn2S 19 2 3,
    .v3 .trn1D 20 16 18, .v3 .trn2D 22 16 18, .v3 .trn1D 21 17 19, .v3 .trn2D 23 17 19,
    .stq 20 packedPtr 0, .stq 21 packedPtr 32, .stq 22 packedPtr 64, .stq 23 packedPtr 96,
    .addXI packedPtr packedPtr 128],
  .jmp 4⟩

/-- pack_arm.cc:2162-2163 (label 3). -/
def fpackA4 : Block := ⟨[
    .andsI 2 rRows 3],
  .br .eq 15 5⟩

/-- pack_arm.cc:2164-2176. -/
def fpackA5 : Block := ⟨[
    .movi 0, .movi 1, .movi 2, .movi 3, .cmpI 2 0],
  .br .eq 10 6⟩

/-- pack_arm.cc:2176-2177. -/
def fpackA6 : Block := ⟨[
    .ldS 0 0 srcPtr0, .ldS 1 0 srcPtr1, .ldS 2 0 srcPtr2, .ldS 3 0 srcPtr3, .cmpI 2 1],
  .br .eq 10 7⟩

/-- pack_arm.cc:2177-2178. -/
def fpackA7 : Block := ⟨[
    .ldS 0 1 srcPtr0, .ldS 1 1 srcPtr1, .ldS 2 1 srcPtr2, .ldS 3 1 srcPtr3, .cmpI 2 2],
  .br .eq 10 8⟩

/-- pack_arm.cc:2178-2179. -/
def fpackA8 : Block := ⟨[
    .ldS 0 2 srcPtr0, .ldS 1 2 srcPtr1, .ldS 2 2 srcPtr2, .ldS 3 2 srcPtr3, .cmpI 2 3],
  .br .eq 10 9⟩

/-- pack_arm.cc:2179-2179. -/
def fpackA9 : Block := ⟨[
    .ldS 0 3 srcPtr0, .ldS 1 3 srcPtr1, .ldS 2 3 srcPtr2, .ldS 3 3 srcPtr3],
  .jmp 10⟩

/-- pack_arm.cc:2183-2200 (label 5). -/
def fpackA10 : Block := ⟨[
    .v3 .trn1S 16 0 1, .v3 .trn2S 17 0 1, .v3 .trn1S 18 2 3, .v3 .trn2S 19 2 3,
    .v3 .trn1D 20 16 18, .v3 .trn2D 22 16 18, .v3 .trn1D 21 17 19, .v3 .trn2D 23 17 19,
    .movI 1 32, .cmpI 2 0],
  .br .eq 15 11⟩

/-- pack_arm.cc:2200-2201. -/
def fpackA11 : Block := ⟨[
    .stqR 20 packedPtr 1, .cmpI 2 1],
  .br .eq 15 12⟩

/-- pack_arm.cc:2201-2202. -/
def fpackA12 : Block := ⟨[
    .stqR 21 packedPtr 1, .cmpI 2 2],
  .br .eq 15 13⟩

/-- pack_arm.cc:2202-2203. -/
def fpackA13 : Block := ⟨[
    .stqR 22 packedPtr 1, .cmpI 2 3],
  .br .eq 15 14⟩

/-- pack_arm.cc:2203-2203. -/
def fpackA14 : Block := ⟨[
    .stqR 23 packedPtr 1],
  .jmp 15⟩

/-- The whole `asm` statement of `PackFloatColMajorForNeonA55ish`. -/
def fpackACode : List Block := [
  fpackA0, fpackA1, fpackA2, fpackA3, fpackA4, fpackA5, fpackA6, fpackA7, fpackA8, fpackA9,
  fpackA10, fpackA11, fpackA12, fpackA13, fpackA14]

end Ruy.NeonF

import Verif.Neon.Isa
/-
The AArch64 pack functions `Pack8bitColMajorForNeon` (pack_arm.cc:34-213) and
`Pack8bitColMajorForNeonA55ish` (pack_arm.cc:629-838) as programs for the machine of
`Isa.lean`: every instruction of the `asm` statements, in order.  The macro
RUY_LOAD_ONE_ROW is expanded; `st1 {v28.4s}, [sums_ptr], #16` becomes a store and an
addition.

The operands of the `asm` statements (pack_arm.cc:200-208 and 820-826) are registers chosen by
the compiler; they get numbers from 48 on.
-/
namespace Ruy.Neon

abbrev srcPtr0 : Nat := 48
abbrev srcPtr1 : Nat := 49
abbrev srcPtr2 : Nat := 50
abbrev srcPtr3 : Nat := 51
abbrev packedPtr : Nat := 52
abbrev sumsPtr : Nat := 53
abbrev srcInc0 : Nat := 54
abbrev srcInc1 : Nat := 55
abbrev srcInc2 : Nat := 56
abbrev srcInc3 : Nat := 57
abbrev rRows : Nat := 58
abbrev rZeroPoint : Nat := 59
abbrev rInputXor : Nat := 60

/-- pack_arm.cc:45-57. -/
def pack0 : Block := ⟨[
    .dupB 26 rInputXor, .movI 1 0, .movi 28, .movi 29, .movi 30, .movi 31,
    .andsI 2 rRows 4294967280],
  .br .eq 4 1⟩

/-- pack_arm.cc:59-68. -/
def pack1 : Block := ⟨[
    .addWI 1 1 16, .ldqR 0 srcPtr0 srcInc0, .ldqR 1 srcPtr1 srcInc1, .cmpW 1 2,
    .ldqR 2 srcPtr2 srcInc2, .ldqR 3 srcPtr3 srcInc3],
  .br .eq 3 2⟩

/-- pack_arm.cc:73-99 (label 1). -/
def pack2 : Block := ⟨[
    .addWI 1 1 16, .v3 .eor 4 0 26, .ldqR 0 srcPtr0 srcInc0, .v3 .eor 5 1 26,
    .ldqR 1 srcPtr1 srcInc1, .v3 .eor 6 2 26, .ldqR 2 srcPtr2 srcInc2, .v3 .eor 7 3 26,
    .ldqR 3 srcPtr3 srcInc3, .v3 .saddlp 16 4 4, .stq 4 packedPtr 0, .v3 .saddlp 17 5 5,
    .stq 5 packedPtr 16, .v3 .saddlp 18 6 6, .stq 6 packedPtr 32, .v3 .saddlp 19 7 7,
    .stq 7 packedPtr 48, .v3 .sadalp 28 16 16, .cmpW 1 2, .v3 .sadalp 29 17 17,
    .addXI packedPtr packedPtr 64, .v3 .sadalp 30 18 18, .v3 .sadalp 31 19 19],
  .br .ne 2 3⟩

/-- pack_arm.cc:105-123 (label 2). -/
def pack3 : Block := ⟨[
    .v3 .eor 4 0 26, .v3 .eor 5 1 26, .v3 .eor 6 2 26, .v3 .eor 7 3 26, .v3 .saddlp 16 4 4,
    .stq 4 packedPtr 0, .v3 .saddlp 17 5 5, .stq 5 packedPtr 16, .v3 .saddlp 18 6 6,
    .stq 6 packedPtr 32, .v3 .saddlp 19 7 7, .stq 7 packedPtr 48, .v3 .sadalp 28 16 16,
    .v3 .sadalp 29 17 17, .v3 .sadalp 30 18 18, .v3 .sadalp 31 19 19,
    .addXI packedPtr packedPtr 64],
  .jmp 4⟩

/-- pack_arm.cc:129-131 (label 3). -/
def pack4 : Block := ⟨[
    .andsI 2 rRows 15],
  .br .eq 22 5⟩

/-- pack_arm.cc:134-146. -/
def pack5 : Block := ⟨[
    .dupB 0 rZeroPoint, .dupB 1 rZeroPoint, .dupB 2 rZeroPoint, .dupB 3 rZeroPoint, .cmpI 2 0],
  .br .eq 21 6⟩

/-- pack_arm.cc:146-147. -/
def pack6 : Block := ⟨[
    .ldB 0 0 srcPtr0, .ldB 1 0 srcPtr1, .ldB 2 0 srcPtr2, .ldB 3 0 srcPtr3, .cmpI 2 1],
  .br .eq 21 7⟩

/-- pack_arm.cc:147-148. -/
def pack7 : Block := ⟨[
    .ldB 0 1 srcPtr0, .ldB 1 1 srcPtr1, .ldB 2 1 srcPtr2, .ldB 3 1 srcPtr3, .cmpI 2 2],
  .br .eq 21 8⟩

/-- pack_arm.cc:148-149. -/
def pack8 : Block := ⟨[
    .ldB 0 2 srcPtr0, .ldB 1 2 srcPtr1, .ldB 2 2 srcPtr2, .ldB 3 2 srcPtr3, .cmpI 2 3],
  .br .eq 21 9⟩

/-- pack_arm.cc:149-150. -/
def pack9 : Block := ⟨[
    .ldB 0 3 srcPtr0, .ldB 1 3 srcPtr1, .ldB 2 3 srcPtr2, .ldB 3 3 srcPtr3, .cmpI 2 4],
  .br .eq 21 10⟩

/-- pack_arm.cc:150-151. -/
def pack10 : Block := ⟨[
    .ldB 0 4 srcPtr0, .ldB 1 4 srcPtr1, .ldB 2 4 srcPtr2, .ldB 3 4 srcPtr3, .cmpI 2 5],
  .br .eq 21 11⟩

/-- pack_arm.cc:151-152. -/
def pack11 : Block := ⟨[
    .ldB 0 5 srcPtr0, .ldB 1 5 srcPtr1, .ldB 2 5 srcPtr2, .ldB 3 5 srcPtr3, .cmpI 2 6],
  .br .eq 21 12⟩

/-- pack_arm.cc:152-153. -/
def pack12 : Block := ⟨[
    .ldB 0 6 srcPtr0, .ldB 1 6 srcPtr1, .ldB 2 6 srcPtr2, .ldB 3 6 srcPtr3, .cmpI 2 7],
  .br .eq 21 13⟩

/-- pack_arm.cc:153-154. -/
def pack13 : Block := ⟨[
    .ldB 0 7 srcPtr0, .ldB 1 7 srcPtr1, .ldB 2 7 srcPtr2, .ldB 3 7 srcPtr3, .cmpI 2 8],
  .br .eq 21 14⟩

/-- pack_arm.cc:154-155. -/
def pack14 : Block := ⟨[
    .ldB 0 8 srcPtr0, .ldB 1 8 srcPtr1, .ldB 2 8 srcPtr2, .ldB 3 8 srcPtr3, .cmpI 2 9],
  .br .eq 21 15⟩

/-- pack_arm.cc:155-156. -/
def pack15 : Block := ⟨[
    .ldB 0 9 srcPtr0, .ldB 1 9 srcPtr1, .ldB 2 9 srcPtr2, .ldB 3 9 srcPtr3, .cmpI 2 10],
  .br .eq 21 16⟩

/-- pack_arm.cc:156-157. -/
def pack16 : Block := ⟨[
    .ldB 0 10 srcPtr0, .ldB 1 10 srcPtr1, .ldB 2 10 srcPtr2, .ldB 3 10 srcPtr3, .cmpI 2 11],
  .br .eq 21 17⟩

/-- pack_arm.cc:157-158. -/
def pack17 : Block := ⟨[
    .ldB 0 11 srcPtr0, .ldB 1 11 srcPtr1, .ldB 2 11 srcPtr2, .ldB 3 11 srcPtr3, .cmpI 2 12],
  .br .eq 21 18⟩

/-- pack_arm.cc:158-159. -/
def pack18 : Block := ⟨[
    .ldB 0 12 srcPtr0, .ldB 1 12 srcPtr1, .ldB 2 12 srcPtr2, .ldB 3 12 srcPtr3, .cmpI 2 13],
  .br .eq 21 19⟩

/-- pack_arm.cc:159-160. -/
def pack19 : Block := ⟨[
    .ldB 0 13 srcPtr0, .ldB 1 13 srcPtr1, .ldB 2 13 srcPtr2, .ldB 3 13 srcPtr3, .cmpI 2 14],
  .br .eq 21 20⟩

/-- pack_arm.cc:160-160. -/
def pack20 : Block := ⟨[
    .ldB 0 14 srcPtr0, .ldB 1 14 srcPtr1, .ldB 2 14 srcPtr2, .ldB 3 14 srcPtr3],
  .jmp 21⟩

/-- pack_arm.cc:166-184 (label 5). -/
def pack21 : Block := ⟨[
    .v3 .eor 4 0 26, .v3 .eor 5 1 26, .v3 .eor 6 2 26, .v3 .eor 7 3 26, .v3 .saddlp 16 4 4,
    .v3 .saddlp 17 5 5, .v3 .saddlp 18 6 6, .v3 .saddlp 19 7 7, .v3 .sadalp 28 16 16,
    .v3 .sadalp 29 17 17, .v3 .sadalp 30 18 18, .v3 .sadalp 31 19 19, .stq 4 packedPtr 0,
    .stq 5 packedPtr 16, .stq 6 packedPtr 32, .stq 7 packedPtr 48, .addXI packedPtr packedPtr 64],
  .jmp 22⟩

/-- pack_arm.cc:189-195 (label 4). -/
def pack22 : Block := ⟨[
    .v3 .addp 28 28 29, .v3 .addp 30 30 31, .v3 .addp 28 28 30, .cmpP sumsPtr],
  .br .eq 24 23⟩

/-- pack_arm.cc:196-196. -/
def pack23 : Block := ⟨[
    .stq 28 sumsPtr 0, .addXI sumsPtr sumsPtr 16],
  .jmp 24⟩

/-- The whole `asm` statement of `Pack8bitColMajorForNeon`. -/
def packCode : List Block := [
  pack0, pack1, pack2, pack3, pack4, pack5, pack6, pack7, pack8, pack9, pack10, pack11, pack12,
  pack13, pack14, pack15, pack16, pack17, pack18, pack19, pack20, pack21, pack22, pack23]

/-- pack_arm.cc:640-652. -/
def packA0 : Block := ⟨[
    .dupB 26 rInputXor, .movI 1 0, .movi 28, .movi 29, .movi 30, .movi 31,
    .andsI 2 rRows 4294967280],
  .br .eq 4 1⟩

/-- pack_arm.cc:654-679. -/
def packA1 : Block := ⟨[
    .addWI 1 1 16, .ldx 10 srcPtr0 8, .lddR 0 srcPtr0 srcInc0, .ldx 11 srcPtr1 8,
    .lddR 1 srcPtr1 srcInc1, .ldx 12 srcPtr2 8, .lddR 2 srcPtr2 srcInc2, .ldx 13 srcPtr3 8,
    .lddR 3 srcPtr3 srcInc3, .cmpW 1 2],
  .br .eq 3 2⟩

/-- pack_arm.cc:684-722 (label 1). -/
def packA2 : Block := ⟨[
    .addWI 1 1 16, .insD 0 1 10, .ldx 10 srcPtr0 8, .insD 1 1 11, .ldx 11 srcPtr1 8, .insD 2 1 12,
    .ldx 12 srcPtr2 8, .insD 3 1 13, .ldx 13 srcPtr3 8, .v3 .eor 4 0 26, .lddR 0 srcPtr0 srcInc0,
    .v3 .eor 5 1 26, .lddR 1 srcPtr1 srcInc1, .v3 .eor 6 2 26, .lddR 2 srcPtr2 srcInc2,
    .v3 .eor 7 3 26, .lddR 3 srcPtr3 srcInc3, .v3 .saddlp 16 4 4, .stq 4 packedPtr 0,
    .v3 .saddlp 17 5 5, .stq 5 packedPtr 16, .v3 .saddlp 18 6 6, .stq 6 packedPtr 32,
    .v3 .saddlp 19 7 7, .stq 7 packedPtr 48, .v3 .sadalp 28 16 16, .cmpW 1 2,
    .v3 .sadalp 29 17 17, .addXI packedPtr packedPtr 64, .v3 .sadalp 30 18 18,
    .v3 .sadalp 31 19 19],
  .br .ne 2 3⟩

/-- pack_arm.cc:727-749 (label 2). -/
def packA3 : Block := ⟨[
    .insD 0 1 10, .insD 1 1 11, .insD 2 1 12, .insD 3 1 13, .v3 .eor 4 0 26, .v3 .eor 5 1 26,
    .v3 .eor 6 2 26, .v3 .eor 7 3 26, .v3 .saddlp 16 4 4, .stq 4 packedPtr 0, .v3 .saddlp 17 5 5,
    .stq 5 packedPtr 16, .v3 .saddlp 18 6 6, .stq 6 packedPtr 32, .v3 .saddlp 19 7 7,
    .stq 7 packedPtr 48, .v3 .sadalp 28 16 16, .v3 .sadalp 29 17 17, .v3 .sadalp 30 18 18,
    .v3 .sadalp 31 19 19, .addXI packedPtr packedPtr 64],
  .jmp 4⟩

/-- pack_arm.cc:755-757 (label 3). -/
def packA4 : Block := ⟨[
    .andsI 2 rRows 15],
  .br .eq 22 5⟩

/-- pack_arm.cc:760-772. -/
def packA5 : Block := ⟨[
    .dupB 0 rZeroPoint, .dupB 1 rZeroPoint, .dupB 2 rZeroPoint, .dupB 3 rZeroPoint, .cmpI 2 0],
  .br .eq 21 6⟩

/-- pack_arm.cc:772-773. -/
def packA6 : Block := ⟨[
    .ldB 0 0 srcPtr0, .ldB 1 0 srcPtr1, .ldB 2 0 srcPtr2, .ldB 3 0 srcPtr3, .cmpI 2 1],
  .br .eq 21 7⟩

/-- pack_arm.cc:773-774. -/
def packA7 : Block := ⟨[
    .ldB 0 1 srcPtr0, .ldB 1 1 srcPtr1, .ldB 2 1 srcPtr2, .ldB 3 1 srcPtr3, .cmpI 2 2],
  .br .eq 21 8⟩

/-- pack_arm.cc:774-775. -/
def packA8 : Block := ⟨[
    .ldB 0 2 srcPtr0, .ldB 1 2 srcPtr1, .ldB 2 2 srcPtr2, .ldB 3 2 srcPtr3, .cmpI 2 3],
  .br .eq 21 9⟩

/-- pack_arm.cc:775-776. -/
def packA9 : Block := ⟨[
    .ldB 0 3 srcPtr0, .ldB 1 3 srcPtr1, .ldB 2 3 srcPtr2, .ldB 3 3 srcPtr3, .cmpI 2 4],
  .br .eq 21 10⟩

/-- pack_arm.cc:776-777. -/
def packA10 : Block := ⟨[
    .ldB 0 4 srcPtr0, .ldB 1 4 srcPtr1, .ldB 2 4 srcPtr2, .ldB 3 4 srcPtr3, .cmpI 2 5],
  .br .eq 21 11⟩

/-- pack_arm.cc:777-778. -/
def packA11 : Block := ⟨[
    .ldB 0 5 srcPtr0, .ldB 1 5 srcPtr1, .ldB 2 5 srcPtr2, .ldB 3 5 srcPtr3, .cmpI 2 6],
  .br .eq 21 12⟩

/-- pack_arm.cc:778-779. -/
def packA12 : Block := ⟨[
    .ldB 0 6 srcPtr0, .ldB 1 6 srcPtr1, .ldB 2 6 srcPtr2, .ldB 3 6 srcPtr3, .cmpI 2 7],
  .br .eq 21 13⟩

/-- pack_arm.cc:779-780. -/
def packA13 : Block := ⟨[
    .ldB 0 7 srcPtr0, .ldB 1 7 srcPtr1, .ldB 2 7 srcPtr2, .ldB 3 7 srcPtr3, .cmpI 2 8],
  .br .eq 21 14⟩

/-- pack_arm.cc:780-781. -/
def packA14 : Block := ⟨[
    .ldB 0 8 srcPtr0, .ldB 1 8 srcPtr1, .ldB 2 8 srcPtr2, .ldB 3 8 srcPtr3, .cmpI 2 9],
  .br .eq 21 15⟩

/-- pack_arm.cc:781-782. -/
def packA15 : Block := ⟨[
    .ldB 0 9 srcPtr0, .ldB 1 9 srcPtr1, .ldB 2 9 srcPtr2, .ldB 3 9 srcPtr3, .cmpI 2 10],
  .br .eq 21 16⟩

/-- pack_arm.cc:782-783. -/
def packA16 : Block := ⟨[
    .ldB 0 10 srcPtr0, .ldB 1 10 srcPtr1, .ldB 2 10 srcPtr2, .ldB 3 10 srcPtr3, .cmpI 2 11],
  .br .eq 21 17⟩

/-- pack_arm.cc:783-784. -/
def packA17 : Block := ⟨[
    .ldB 0 11 srcPtr0, .ldB 1 11 srcPtr1, .ldB 2 11 srcPtr2, .ldB 3 11 srcPtr3, .cmpI 2 12],
  .br .eq 21 18⟩

/-- pack_arm.cc:784-785. -/
def packA18 : Block := ⟨[
    .ldB 0 12 srcPtr0, .ldB 1 12 srcPtr1, .ldB 2 12 srcPtr2, .ldB 3 12 srcPtr3, .cmpI 2 13],
  .br .eq 21 19⟩

/-- pack_arm.cc:785-786. -/
def packA19 : Block := ⟨[
    .ldB 0 13 srcPtr0, .ldB 1 13 srcPtr1, .ldB 2 13 srcPtr2, .ldB 3 13 srcPtr3, .cmpI 2 14],
  .br .eq 21 20⟩

/-- pack_arm.cc:786-786. -/
def packA20 : Block := ⟨[
    .ldB 0 14 srcPtr0, .ldB 1 14 srcPtr1, .ldB 2 14 srcPtr2, .ldB 3 14 srcPtr3],
  .jmp 21⟩

/-- pack_arm.cc:792-810 (label 5). -/
def packA21 : Block := ⟨[
    .v3 .eor 4 0 26, .v3 .eor 5 1 26, .v3 .eor 6 2 26, .v3 .eor 7 3 26, .v3 .saddlp 16 4 4,
    .v3 .saddlp 17 5 5, .v3 .saddlp 18 6 6, .v3 .saddlp 19 7 7, .v3 .sadalp 28 16 16,
    .v3 .sadalp 29 17 17, .v3 .sadalp 30 18 18, .v3 .sadalp 31 19 19, .stq 4 packedPtr 0,
    .stq 5 packedPtr 16, .stq 6 packedPtr 32, .stq 7 packedPtr 48, .addXI packedPtr packedPtr 64],
  .jmp 22⟩

/-- pack_arm.cc:815-821 (label 4). -/
def packA22 : Block := ⟨[
    .v3 .addp 28 28 29, .v3 .addp 30 30 31, .v3 .addp 28 28 30, .cmpP sumsPtr],
  .br .eq 24 23⟩

/-- pack_arm.cc:822-822. -/
def packA23 : Block := ⟨[
    .stq 28 sumsPtr 0, .addXI sumsPtr sumsPtr 16],
  .jmp 24⟩

/-- The whole `asm` statement of `Pack8bitColMajorForNeonA55ish`. -/
def packACode : List Block := [
  packA0, packA1, packA2, packA3, packA4, packA5, packA6, packA7, packA8, packA9, packA10,
  packA11, packA12, packA13, packA14, packA15, packA16, packA17, packA18, packA19, packA20,
  packA21, packA22, packA23]

end Ruy.Neon

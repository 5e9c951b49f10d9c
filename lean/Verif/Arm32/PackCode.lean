import Verif.Arm32.Isa
/-
The `asm` statement of the ARM32 `PackFloatColMajorForNeon` (pack_arm.cc:1885-2063) as basic blocks.

Registers of the model: `r0`, …, `r3` are 0, …, 3; `src_ptr0`, …, `src_ptr3`, `packed_ptr` are 48, …, 52, `src_inc`
is 54, `rows` is 58, `stride` is 59.  `src_inc` is passed as a 64-bit number; the statement uses the register with
its lower half.
-/
namespace Ruy.Arm32.Pack
open Instr

/-- RUY_LOAD_FOUR_BY_FOUR, lines 1896-1916. -/
def load4 : List Instr := [
  ldq 0 48 0, andI 3 54 1, addP 48 48 3 4, ldq 1 49 0, andI 3 54 2, addP 49 49 3 3,
  ldq 2 50 0, andI 3 54 4, addP 50 50 3 2, ldq 3 51 0, andI 3 54 8, addP 51 51 3 1]

/-- "Transpose 4x4 matrix" and the copies after it, lines 1927-1940. -/
def trans4 : List Instr := [
  zip 0 1, zip 2 3, trn 0 2, trn 1 3, zip 0 2, zip 1 3, movV 8 0, movV 9 1, movV 10 2, movV 11 3]

/-- RUY_STORE_FOUR_BY_FOUR, lines 1945-1958. -/
def store4 : List Instr := [
  stq 8 52 0, addP 52 52 59 0, stq 10 52 0, addP 52 52 59 0, stq 9 52 0, addP 52 52 59 0, stq 11 52 0,
  addP 52 52 59 0]

/-- RUY_LOAD_ONE_ROW_FIRST_HALF and …_SECOND_HALF without the comparison, lines 1994-2008. -/
def row (k : Nat) : List Instr := [ldS 0 k 48, ldS 1 k 49, ldS 2 k 50, ldS 3 k 51]

/-- RUY_STORE_ONE_ROW without the comparison, lines 2035-2039. -/
def out1 (q : Nat) : List Instr := [stq q 52 0, addP 52 52 59 0]

/-- Lines 1892-1895. -/
def p0 : Block := ⟨[movI 1 0, andI 2 58 4294967292, cmp 1 2], .br .eq 4 1⟩
/-- Lines 1918-1922. -/
def p1 : Block := ⟨load4 ++ [addI 1 1 4, cmp 1 2], .br .eq 3 2⟩
/-- Label 1, lines 1924-1963. -/
def p2 : Block := ⟨[addI 1 1 4] ++ (trans4 ++ (load4 ++ (store4 ++ [.cmp 1 2]))), .br .ne 2 3⟩
/-- Label 2, lines 1965-1982. -/
def p3 : Block := ⟨trans4 ++ store4, .jmp 4⟩
/-- Label 3, lines 1984-1987. -/
def p4 : Block := ⟨[andsI 2 58 3], .br .eq 15 5⟩
/-- Lines 1988-1993, 2010. -/
def p5 : Block := ⟨[movI 0 0, dupZ 0 0, dupZ 1 0, dupZ 2 0, dupZ 3 0] ++ [cmpI 2 0], .br .eq 10 6⟩
/-- Lines 2010-2013. -/
def p6 : Block := ⟨row 0 ++ [cmpI 2 1], .br .eq 10 7⟩
def p7 : Block := ⟨row 1 ++ [cmpI 2 2], .br .eq 10 8⟩
def p8 : Block := ⟨row 2 ++ [cmpI 2 3], .br .eq 10 9⟩
def p9 : Block := ⟨row 3, .jmp 10⟩
/-- Label 5, lines 2016-2042. -/
def p10 : Block := ⟨trans4 ++ ([movI 1 32] ++ [cmpI 2 0]), .br .eq 15 11⟩
/-- Lines 2042-2048. -/
def p11 : Block := ⟨out1 8 ++ [cmpI 2 1], .br .eq 15 12⟩
def p12 : Block := ⟨out1 10 ++ [cmpI 2 2], .br .eq 15 13⟩
def p13 : Block := ⟨out1 9 ++ [cmpI 2 3], .br .eq 15 14⟩
def p14 : Block := ⟨out1 11, .jmp 15⟩

/-- `PackFloatColMajorForNeon` on ARM32. -/
def code : List Block := [p0, p1, p2, p3, p4, p5, p6, p7, p8, p9, p10, p11, p12, p13, p14]

end Ruy.Arm32.Pack

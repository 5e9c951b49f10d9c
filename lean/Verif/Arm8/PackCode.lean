import Verif.Arm8.Isa
/-
The ARM32 pack functions `Pack8bitColMajorForNeon4Cols` (pack_arm.cc:251-470) and `Pack8bitColMajorForNeon2Cols`
(pack_arm.cc:476-609) as programs for the machine of `Isa.lean`: every instruction of the `asm` statements, in order.
The macros RUY_LOAD_ONE_ROW1 and RUY_LOAD_ONE_ROW2 are expanded; prefetches are left out.

Columns are processed in pairs: pair 0 in both functions, pair 1 in the function for four columns with the same
instructions on other registers.

The operands of the statements (pack_arm.cc:463-467 and 604-606) are registers chosen by the compiler; they get the
same numbers as in `Neon/PackCode.lean`: `src_ptr` is 48, …, 51, `packed_ptr` 52 and `src_inc` 54, …, 57.
-/
namespace Ruy.Arm8.Pack

/-- The loads of a full block of 16 rows: pack_arm.cc:285-292 and 311-317; 504-510. -/
def loads (p : Nat) : List Instr := [
  .ldq 0 (48 + 2 * p) 0, .addP (48 + 2 * p) (48 + 2 * p) (54 + 2 * p) 0,
  .ldq 1 (49 + 2 * p) 0, .addP (49 + 2 * p) (49 + 2 * p) (55 + 2 * p) 0]

/-- What is done with them: pack_arm.cc:294-308 and 319-330; 512-524. -/
def process (p : Nat) : List Instr := [
  .v3 .eor 4 0 11, .v3 .eor 5 1 11, .v3 .saddlp 8 4 4, .v3 .saddlp 9 5 5, .stqP 4 52, .stqP 5 52,
  .padal (12 + 2 * p) 8, .padal (13 + 2 * p) 9]

/-- One row of the last rows: RUY_LOAD_ONE_ROW1(k, k) for `k < 8` and RUY_LOAD_ONE_ROW2(k, k - 8) from there on,
without the comparison that comes first. -/
def rowLoads (p k : Nat) : List Instr := [.ldB (k / 8) (k % 8) (48 + 2 * p), .ldB (2 + k / 8) (k % 8) (49 + 2 * p)]

/-- Label 5, for both pairs: pack_arm.cc:380-391 and 432-443; 575-587. -/
def processTail (p : Nat) : List Instr := [
  .v3 .eor 4 0 11, .v3 .eor 5 1 11, .v3 .saddlp 8 4 4, .v3 .saddlp 9 5 5, .padal (12 + 2 * p) 8, .padal (13 + 2 * p) 9,
  .stqP 4 52, .stqP 5 52]

/-- Row `k` followed by the comparison for row `k + 1`, in blocks that start at `base`. -/
def rowBlk (p base k : Nat) : Block := ⟨rowLoads p k ++ [.cmpI 2 (k + 1)], .br .eq (base + 16) (base + k + 1)⟩

/-- All 16 rows: pack_arm.cc:352-376, 404-428; 547-571. -/
def rowBlks (p base : Nat) : List Block :=
  (List.range 15).map (rowBlk p base) ++ [⟨rowLoads p 15, .jmp (base + 16)⟩]

/-- pack_arm.cc:267-280; 488-499. -/
def start (wide : Bool) : Block := ⟨
  [.ldp 2 .packXor, .dupB 11 2, .movI 1 0, .zero 12, .zero 13] ++ (if wide then [.zero 14, .zero 15] else []) ++
    [.ldp 3 .packRows, .andI 2 3 4294967280, .cmp 1 2],
  .br .eq 2 1⟩

/-- Label 1: pack_arm.cc:283-333; 502-528. -/
def full (wide : Bool) : Block := ⟨
  [.addI 1 1 16] ++ ((loads 0 ++ process 0) ++ ((if wide then loads 1 ++ process 1 else []) ++ [.cmp 1 2])),
  .br .ne 1 2⟩

/-- Label 3: pack_arm.cc:338-340; 533-535. -/
def rest (wide : Bool) : Block := ⟨[.ldp 3 .packRows, .andsI 2 3 15], .br .eq (if wide then 38 else 21) 3⟩

/-- pack_arm.cc:341-348; 536-543. -/
def fill : Block := ⟨[.ldp 3 .packZeroPoint, .dupB 0 3, .dupB 1 3, .cmpI 2 0], .br .eq 20 4⟩

/-- Label 5 of the first pair and the start of the second: pack_arm.cc:380-400. -/
def second : Block := ⟨processTail 0 ++ [.dupB 0 3, .dupB 1 3, .cmpI 2 0], .br .eq 37 21⟩

/-- Label 4: pack_arm.cc:447-457; 592-599. -/
def sum4 : Block := ⟨[
  .padd 24 24 25, .padd 26 26 27, .padd 28 28 29, .padd 30 30 31, .padd 25 24 26, .padd 27 28 30,
  .ldp 3 .packSums, .cmpP 3], .br .eq 40 39⟩
def sum2 : Block := ⟨[.padd 24 24 25, .padd 26 26 27, .padd 25 24 26, .ldp 3 .packSums, .cmpP 3], .br .eq 23 22⟩

/-- `Pack8bitColMajorForNeon4Cols`. -/
def pack4 : List Block :=
  [start true, full true, rest true, fill] ++ (rowBlks 0 4 ++ ([second] ++ (rowBlks 1 21 ++
    [⟨processTail 1, .jmp 38⟩, sum4, ⟨[.stdP 25 3, .stdP 27 3], .jmp 40⟩])))

/-- `Pack8bitColMajorForNeon2Cols`. -/
def pack2 : List Block :=
  [start false, full false, rest false, fill] ++ (rowBlks 0 4 ++
    [⟨processTail 0, .jmp 21⟩, sum2, ⟨[.stdP 25 3], .jmp 23⟩])

def code (wide : Bool) : List Block := if wide then pack4 else pack2

end Ruy.Arm8.Pack

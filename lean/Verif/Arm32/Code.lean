import Verif.Arm32.Isa
/-
The `asm` statement of `KernelFloat32Neon` (kernel_arm32.cc:128-531) as basic blocks.

Registers of the model: `r0`, …, `r10` are 0, …, 10; `lhs_ptr`, `rhs_ptr`, `dst_tmp_buf` are 34, 35, 42.
Stack slots: `dst_col_ptr` 0, `dst_ptr` 16, `row` 32, `col` 48, `lhs_col_ptr` 64, `rhs_col_ptr` 80
(kernel_arm32.cc:48-54).  A conditional branch ends a block; its second target is the next block.
Prefetches (`pld`) have no effect and are left out, as are the `it` prefixes.
-/
namespace Ruy.Arm32
open Instr

def lp : Nat := 34
def rp : Nat := 35
def tmp : Nat := 42

/-- Start: lines 132-173. -/
def k0 : Block := ⟨[
  ldq 0 34 16, ldq 1 34 16, ldq 2 35 16, subSp 96,
  ldp 1 .dstBasePtr, sts 1 0, ldp 2 .dstBasePtr, sts 2 16, ldp 1 .startRow, sts 1 32, ldp 3 .startCol, sts 3 48,
  ldp 1 .lhsBasePtr, sts 1 64, ldp 2 .rhsBasePtr, sts 2 80,
  zero 3, zero 4, zero 5, zero 6, zero 7, zero 8, zero 9, zero 10, movI 1 1], .jmp 1⟩

/-- Label 1: lines 177-182. -/
def k1 : Block := ⟨[ldp 2 .depth, cmp 1 2], .br .eq 3 2⟩

/-- Label 2: lines 184-204. -/
def k2 : Block := ⟨[
  mla 3 0 2 0, mla 5 0 2 1, mla 7 0 2 2, mla 9 0 2 3, ldq 0 34 16,
  mla 4 1 2 0, mla 6 1 2 1, mla 8 1 2 2, mla 10 1 2 3, ldq 1 34 16, ldq 2 35 16,
  addI 1 1 1, cmp 1 2], .br .lt 2 3⟩

/-- Label 79: lines 206-242. -/
def k3 : Block := ⟨[
  mla 3 0 2 0, mla 5 0 2 1, mla 7 0 2 2, mla 9 0 2 3,
  mla 4 1 2 0, mla 6 1 2 1, mla 8 1 2 2, mla 10 1 2 3,
  ldp 3 .lastRow, lds 1 32, cmp 1 3], .br .ge 5 4⟩

/-- Lines 244-248. -/
def k4 : Block := ⟨[ldp 1 .lhsStride, lds 4 64, addP 4 4 1 3, sts 4 64], .jmp 7⟩

/-- Label 4: lines 249-263. -/
def k5 : Block := ⟨[ldp 5 .lhsBasePtr, sts 5 64, ldp 4 .lastCol, lds 8 48, cmp 8 4], .br .ge 7 6⟩

/-- Lines 265-268. -/
def k6 : Block := ⟨[ldp 1 .rhsStride, lds 10 80, addP 10 10 1 2, sts 10 80], .jmp 7⟩

/-- Label 5: lines 269-285. -/
def k7 : Block := ⟨[lds 4 64, mov 34 4, lds 5 80, mov 35 5, ldpB 4 .flags, ldp 1 .bias, tst 4 32], .br .ne 9 8⟩

/-- Lines 286-287. -/
def k8 : Block := ⟨[movI 8 32], .jmp 10⟩

/-- Label 1000: lines 288-289. -/
def k9 : Block := ⟨[movI 8 48], .jmp 10⟩

/-- Label 1001: lines 290-296. -/
def k10 : Block := ⟨[ldsR 8 8, tst 4 1], .br .eq 12 11⟩

/-- Line 297. -/
def k11 : Block := ⟨[addP 1 1 8 2], .jmp 12⟩

/-- Label 1002: lines 298-319. -/
def k12 : Block := ⟨[ldq 12 1 16, ldq 0 34 16, ldq 1 34 16, ldq 2 35 16, tst 4 32], .br .ne 14 13⟩

/-- Lines 323-332. -/
def k13 : Block := ⟨[
  ldq 13 1 0, v3 .fadd 3 3 12, v3 .fadd 5 5 12, v3 .fadd 7 7 12, v3 .fadd 9 9 12,
  v3 .fadd 4 4 13, v3 .fadd 6 6 13, v3 .fadd 8 8 13, v3 .fadd 10 10 13], .jmp 15⟩

/-- Label 6: lines 334-347. -/
def k14 : Block := ⟨[
  dupL 11 12 0, dupL 13 12 1, dupL 14 12 2, dupL 15 12 3,
  v3 .fadd 3 3 11, v3 .fadd 4 4 11, v3 .fadd 5 5 13, v3 .fadd 6 6 13,
  v3 .fadd 7 7 14, v3 .fadd 8 8 14, v3 .fadd 9 9 15, v3 .fadd 10 10 15], .jmp 15⟩

/-- Label 7: lines 348-404. -/
def k15 : Block := ⟨[
  ldp 2 .clampMin, ldp 3 .clampMax, dupR 12 2, dupR 13 3,
  v3 .fmax 3 3 12, v3 .fmax 4 4 12, v3 .fmax 5 5 12, v3 .fmax 6 6 12,
  v3 .fmax 7 7 12, v3 .fmax 8 8 12, v3 .fmax 9 9 12, v3 .fmax 10 10 12,
  v3 .fmin 3 3 13, v3 .fmin 4 4 13, v3 .fmin 5 5 13, v3 .fmin 6 6 13,
  v3 .fmin 7 7 13, v3 .fmin 8 8 13, v3 .fmin 9 9 13, v3 .fmin 10 10 13,
  ldp 1 .dstRows, lds 8 32, sub 1 1 8, ldp 2 .dstCols, lds 4 48, sub 2 2 4, movI 3 8, movI 5 4,
  cmpI 1 8, movGt 1 3, cmpI 2 4, movGt 2 5, cmp 1 3, cmpEq 2 5], .br .eq 17 16⟩

/-- Lines 407-409. -/
def k16 : Block := ⟨[mov 3 42, movI 4 32], .jmp 18⟩

/-- Label 30: lines 410-415. -/
def k17 : Block := ⟨[ldp 5 .dstStride, lds 3 16, mov 4 5], .jmp 18⟩

/-- Label 31: lines 416-439. -/
def k18 : Block := ⟨[
  stq 3 3 0, stq 4 3 16, addP 3 3 4 0, zero 3, zero 4, stq 5 3 0, stq 6 3 16, addP 3 3 4 0, zero 5, zero 6,
  stq 7 3 0, stq 8 3 16, addP 3 3 4 0, zero 7, zero 8, stq 9 3 0, stq 10 3 16, addP 3 3 4 0, zero 9, zero 10],
  .br .eq 23 19⟩

/-- Lines 443-446. -/
def k19 : Block := ⟨[ldp 8 .dstStride, mov 3 42, lds 4 16, movI 6 0], .jmp 20⟩

/-- Label 50: lines 447-448. -/
def k20 : Block := ⟨[movI 5 0], .jmp 21⟩

/-- Label 51: lines 449-454. -/
def k21 : Block := ⟨[ldrS 10 3 5, strS 10 4 5, addI 5 5 1, cmp 5 1], .br .lt 21 22⟩

/-- Lines 455-460. -/
def k22 : Block := ⟨[addI 6 6 1, addPI 3 3 32, addP 4 4 8 0, cmp 6 2], .br .lt 20 23⟩

/-- Label 41: lines 461-482. -/
def k23 : Block := ⟨[
  lds 4 16, addPI 4 4 32, sts 4 16, ldp 5 .lhsBasePtr, ldp 6 .startRow, ldp 3 .lastRow, lds 8 32, cmp 8 3],
  .br .eq 25 24⟩

/-- Lines 484-488. -/
def k24 : Block := ⟨[addI 8 8 8, sts 8 32], .jmp 26⟩

/-- Label 20: lines 489-505. -/
def k25 : Block := ⟨[
  sts 6 32, lds 4 48, addI 4 4 4, sts 4 48, ldp 8 .dstStride, lds 1 0, addP 1 1 8 2, sts 1 0, sts 1 16], .jmp 26⟩

/-- Label 21: lines 506-518. -/
def k26 : Block := ⟨[ldp 4 .lastCol, lds 8 48, cmp 8 4, movI 1 1], .br .le 1 27⟩

/-- Line 521. -/
def k27 : Block := ⟨[addSp 96], .jmp 28⟩

/-- `KernelFloat32Neon`. -/
def kernel : List Block :=
  [k0, k1, k2, k3, k4, k5, k6, k7, k8, k9, k10, k11, k12, k13, k14, k15, k16, k17, k18, k19, k20, k21, k22, k23,
    k24, k25, k26, k27]

end Ruy.Arm32

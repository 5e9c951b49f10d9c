import Verif.Arm32.Code
/-
What a call of the ARM32 float kernel is given, the registers at the start of its `asm` statement, and what the
call should leave in the destination.
-/
namespace Ruy.Arm32
open Ruy.NeonF (St Val Region Ops)

/-- The parameters of a call, `KernelParamsFloat<8, 4>` (kernel_common.h:215-236).  Offsets and strides are in
floats.  The call covers `8 * (rowSteps + 1)` rows from `startRow` and `4 * (colSteps + 1)` columns from
`startCol`. -/
structure Job (A : Type) where
  startRow : Nat
  startCol : Nat
  rowSteps : Nat
  colSteps : Nat
  depth : Nat
  lhsBase : Nat
  rhsBase : Nat
  dstBase : Nat
  lhsStride : Nat
  rhsStride : Nat
  dstStride : Nat
  dstRows : Nat
  dstCols : Nat
  clampMin : A
  clampMax : A
  hasBias : Bool
  chanCol : Bool
  size : Region → Nat
  m : Region → Nat → A
  ops : Ops A

namespace Job
variable {A : Type}

def lastRow (j : Job A) : Nat := j.startRow + 8 * j.rowSteps
def lastCol (j : Job A) : Nat := j.startCol + 4 * j.colSteps

/-- `RUY_ASM_FLAG_HAS_BIAS`, `RUY_ASM_FLAG_CHANNEL_DIMENSION_IS_COL` (kernel_common.h:59-64, 256-265). -/
def flags (j : Job A) : Nat := (if j.hasBias then 1 else 0) + (if j.chanCol then 32 else 0)

/-- kernel_common.h:238-282; strides become bytes. -/
def field (j : Job A) : Field → Val A
  | .bias => .ptr .bias 0
  | .lhsBasePtr => .ptr .lhs (4 * j.lhsBase)
  | .rhsBasePtr => .ptr .rhs (4 * j.rhsBase)
  | .dstBasePtr => .ptr .dst (4 * j.dstBase)
  | .startRow => .int j.startRow
  | .startCol => .int j.startCol
  | .lastRow => .int j.lastRow
  | .lastCol => .int j.lastCol
  | .dstRows => .int j.dstRows
  | .dstCols => .int j.dstCols
  | .lhsStride => .int (4 * j.lhsStride)
  | .rhsStride => .int (4 * j.rhsStride)
  | .dstStride => .int (4 * j.dstStride)
  | .depth => .int j.depth
  | .clampMin => .word j.clampMin
  | .clampMax => .word j.clampMax
  | .flags => .int j.flags

def env (j : Job A) : Env A := ⟨j.field, j.size, j.ops⟩

/-- The operands of the `asm` statement on entry, kernel_arm32.cc:85-86 and 524-525; everything else is arbitrary.
`sp` has not been moved. -/
structure Start (j : Job A) (s : St A) : Prop where
  lhsP : s.x lp = .ptr .lhs (4 * j.lhsBase)
  rhsP : s.x rp = .ptr .rhs (4 * j.rhsBase)
  tmp : s.x tmp = .ptr .tmp 0
  sp : s.x 13 = .int 0
  mem : ∀ r, r ≠ .tmp → s.m r = j.m r
  ok : s.bad = false

/-- Channels that a call reads. -/
def channels (j : Job A) : Nat := if j.chanCol then j.lastCol + 4 else j.lastRow + 8

/-- The buffers are large enough and fit into 32-bit addresses, the packed blocks follow each other, and the int32
fields represent their values.  `dst_tmp_buf` has `LhsCols * RhsCols` floats (kernel_common.h:235).  The depth is
not zero: the kernel loads the first level without looking at the depth. -/
structure Fits (j : Job A) : Prop where
  row : j.lastRow + 8 < 2 ^ 31
  col : j.lastCol + 4 < 2 ^ 31
  rowIn : j.lastRow < j.dstRows
  colIn : j.lastCol < j.dstCols
  rows : j.dstRows < 2 ^ 31
  cols : j.dstCols < 2 ^ 31
  lstride : 4 * j.lhsStride < 2 ^ 31
  rstride : 4 * j.rhsStride < 2 ^ 31
  dstride : 4 * j.dstStride < 2 ^ 31
  pos : 1 ≤ j.depth
  lhsDepth : j.depth ≤ j.lhsStride
  rhsDepth : j.depth ≤ j.rhsStride
  lhsSize : j.lhsBase + (j.rowSteps + 1) * (8 * j.lhsStride) ≤ j.size .lhs
  rhsSize : j.rhsBase + (j.colSteps + 1) * (4 * j.rhsStride) ≤ j.size .rhs
  bias : if j.hasBias then j.channels ≤ j.size .bias else 8 ≤ j.size .bias
  tmp : 32 ≤ j.size .tmp
  memory : ∀ r, 4 * j.size r ≤ 2 ^ 32
  /-- The destination: `dstBase` is the address of the entry (startRow, startCol); columns do not overlap. -/
  dst : ∀ r c, j.startRow + r < j.dstRows → j.startCol + c < j.dstCols →
    r < 8 * (j.rowSteps + 1) → c < 4 * (j.colSteps + 1) →
    j.dstBase + c * j.dstStride + r < j.size .dst
  columns : j.dstRows - j.startRow ≤ j.dstStride

/-! ### What is computed -/

/-- Entries of the packed matrices: column `c` of the operand (a row `r` of the LHS matrix) from the start of the
call, level `k`: eight, respectively four columns interleaved (`FixedKernelLayout<Order::kRowMajor, 1, 8>` and
`<…, 1, 4>`, kernel_arm.h:173-174). -/
def lhsAt (j : Job A) (r k : Nat) : A := j.m .lhs (j.lhsBase + r / 8 * (8 * j.lhsStride) + 8 * k + r % 8)
def rhsAt (j : Job A) (c k : Nat) : A := j.m .rhs (j.rhsBase + c / 4 * (4 * j.rhsStride) + 4 * k + c % 4)

/-- The products of row `r` and column `c`, added to zero level after level. -/
def sumOf (j : Job A) (r c : Nat) : A :=
  (List.range j.depth).foldl (fun d k => j.ops.fma d (j.lhsAt r k) (j.rhsAt c k)) j.ops.zero

/-- The bias of an entry; without a bias the kernel is given zeros (kernel_common.h:257-261). -/
def biasOf (j : Job A) (r c : Nat) : A :=
  if j.hasBias then j.m .bias (if j.chanCol then j.startCol + c else j.startRow + r) else j.ops.zero

/-- The value that belongs into the destination. -/
def outOf (j : Job A) (r c : Nat) : A :=
  j.ops.min (j.ops.max (j.ops.add (j.sumOf r c) (j.biasOf r c)) j.clampMin) j.clampMax

/-- kernel_common.h:234, 257. -/
def NoBias (j : Job A) : Prop := j.hasBias = false → ∀ i, i < 8 → j.m .bias i = j.ops.zero

/-- Entry (`r`, `c`), counted from the start of the call, belongs to the call and to the destination. -/
def Inside (j : Job A) (r c : Nat) : Prop :=
  r < 8 * (j.rowSteps + 1) ∧ c < 4 * (j.colSteps + 1) ∧ j.startRow + r < j.dstRows ∧ j.startCol + c < j.dstCols

/-- Its place. -/
def addr (j : Job A) (r c : Nat) : Nat := j.dstBase + c * j.dstStride + r

/-- A finished call: nothing undefined has happened, `sp` is where it was, entry (`r`, `c`) of the call holds
`v r c`, the rest of the destination and the other buffers have not changed. -/
structure Result (j : Job A) (v : Nat → Nat → A) (s : St A) : Prop where
  ok : s.bad = false
  sp : s.x 13 = .int 0
  inputs : ∀ r, r ≠ .dst → r ≠ .tmp → s.m r = j.m r
  entry : ∀ r c, j.Inside r c → s.m .dst (j.addr r c) = v r c
  rest : ∀ o, (∀ r c, j.Inside r c → o ≠ j.addr r c) → s.m .dst o = j.m .dst o

end Job

end Ruy.Arm32

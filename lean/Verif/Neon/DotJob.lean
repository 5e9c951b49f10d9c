import Verif.Neon.DotCode
import Verif.Neon.Accum
/-
What a call of the AArch64 8-bit dot-product kernels with 8x8 blocks is given.  The structure
`Job` is that of the 4x4 kernels; here a call covers `8 * (rowSteps + 1)` rows,
`8 * (colSteps + 1)` columns and a depth of `4 * (depthSteps + 1)`.
-/
namespace Ruy.Neon.Dot
open Simd (wrap8 wrap16 wrap32)

def depth (j : Job) : Nat := 4 * (j.depthSteps + 1)
def lastRow (j : Job) : Nat := j.startRow + 8 * j.rowSteps
def lastCol (j : Job) : Nat := j.startCol + 8 * j.colSteps

/-- `KernelParams8bit<8, 8>` (kernel_common.h:96-134). -/
def field (j : Job) : Field → Val
  | .lastRow => .int (lastRow j)
  | .lastCol => .int (lastCol j)
  | .depth => .int (depth j)
  | f => j.field f

def env (j : Job) : Env := ⟨field j, j.size⟩

/-- Channels that a call reads. -/
def channels (j : Job) : Nat := if j.chanCol then lastCol j + 8 else lastRow j + 8

/-- The buffers are large enough, the packed blocks follow each other, and the int32
fields represent their values.  `dst_tmp_buf` is `LhsCols * RhsCols * kMaxDstTypeSize` bytes large
(kernel_common.h:126). -/
structure Fits (j : Job) : Prop where
  row : lastRow j + 8 < 2 ^ 31
  col : lastCol j + 8 < 2 ^ 31
  rowIn : lastRow j < j.dstRows
  colIn : lastCol j < j.dstCols
  rows : j.dstRows < 2 ^ 31
  cols : j.dstCols < 2 ^ 31
  lstride : j.lhsStride < 2 ^ 31
  rstride : j.rhsStride < 2 ^ 31
  dstride : j.dstStride < 2 ^ 31
  deep : depth j < 2 ^ 31
  lhsDepth : depth j ≤ j.lhsStride
  rhsDepth : depth j ≤ j.rhsStride
  lhsSize : j.lhsBase + (j.rowSteps + 1) * (8 * j.lhsStride) ≤ j.size .lhs
  rhsSize : j.rhsBase + (j.colSteps + 1) * (8 * j.rhsStride) ≤ j.size .rhs
  lsums : 4 * (lastRow j + 8) ≤ j.size .lhsSums
  rsums : 4 * (lastCol j + 8) ≤ j.size .rhsSums
  bias : if j.hasBias then 4 * channels j ≤ j.size .bias else 32 ≤ j.size .bias
  mfix : if j.perChannel then 4 * channels j ≤ j.size .mulFix else 32 ≤ j.size .mulFix
  mexp : if j.perChannel then 4 * channels j ≤ j.size .mulExp else 32 ≤ j.size .mulExp
  tmp : 256 ≤ j.size .tmp
  /-- The destination: `dstBase` is the address of the entry (startRow, startCol); columns do not
  overlap. -/
  dst : ∀ r c, j.startRow + r < j.dstRows → j.startCol + c < j.dstCols →
    r < 8 * (j.rowSteps + 1) → c < 8 * (j.colSteps + 1) →
    j.dstBase + c * j.dstStride + r * j.dt.size + j.dt.size ≤ j.size .dst
  columns : (j.dstRows - j.startRow) * j.dt.size ≤ j.dstStride

/-- Entries of the packed matrices: column `c` of the operand (a row `r` of the LHS matrix) from the
start of the call, depth `k`: blocks of 4x8 entries, columns of a block contiguous
(`FixedKernelLayout<Order::kColMajor, 4, 8>`, kernel_arm.h:112-113). -/
def lhsAt (j : Job) (r k : Nat) : Int :=
  wrap8 (j.m .lhs (j.lhsBase + r / 8 * (8 * j.lhsStride) + 32 * (k / 4) + 4 * (r % 8) + k % 4)).toNat
def rhsAt (j : Job) (c k : Nat) : Int :=
  wrap8 (j.m .rhs (j.rhsBase + c / 8 * (8 * j.rhsStride) + 32 * (k / 4) + 4 * (c % 8) + k % 4)).toNat

end Ruy.Neon.Dot

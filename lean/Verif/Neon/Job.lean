import Verif.Neon.Code
import Verif.Neon.Views
import Mathlib.Algebra.BigOperators.Group.Finset.Basic
/-
What a call of an AArch64 8-bit kernel with 4x4 blocks is given, and the registers
at the start of its `asm` statement.
-/
namespace Ruy.Neon
open Simd (wrap8 wrap16 wrap32)

/-- `RUY_ASM_TYPE_ID_*`, kernel_common.h:66-69. -/
inductive Dt | u8 | i8 | i16 | i32
  deriving DecidableEq, Repr

def Dt.id : Dt → Nat | .u8 => 1 | .i8 => 2 | .i16 => 3 | .i32 => 4
def Dt.size : Dt → Nat | .u8 => 1 | .i8 => 1 | .i16 => 2 | .i32 => 4

/-- The parameters of a call, `KernelParams8bit<4, 4>` (kernel_common.h:96-134).
Offsets are in bytes from the start of the buffers.  The call covers
`4 * (rowSteps + 1)` rows from `startRow` and `4 * (colSteps + 1)` columns from
`startCol`; the depth is `16 * (depthSteps + 1)`. -/
structure Job where
  dt : Dt
  startRow : Nat
  startCol : Nat
  rowSteps : Nat
  colSteps : Nat
  depthSteps : Nat
  lhsBase : Nat
  rhsBase : Nat
  dstBase : Nat
  lhsStride : Nat
  rhsStride : Nat
  dstStride : Nat
  dstRows : Nat
  dstCols : Nat
  lhsZp : Int
  rhsZp : Int
  dstZp : Int
  prodZp : Int
  clampMin : Int
  clampMax : Int
  hasBias : Bool
  perChannel : Bool
  chanCol : Bool
  size : Region → Nat
  m : Region → Nat → Byte

namespace Job

def depth (j : Job) : Nat := 16 * (j.depthSteps + 1)
def lastRow (j : Job) : Nat := j.startRow + 4 * j.rowSteps
def lastCol (j : Job) : Nat := j.startCol + 4 * j.colSteps

/-- An int32 as 32 unsigned bits. -/
def u32 (x : Int) : Nat := (x % 2 ^ 32).toNat

/-- kernel_common.h:152-172: sums are always present for 8-bit operands, the flag
`NEEDS_LEFT_SHIFT` is always set. -/
def flags (j : Job) : Nat :=
  (if j.hasBias then 1 else 0) + 2 + 4 + (if j.perChannel then 8 else 0) + 16 +
    (if j.chanCol then 32 else 0)

def field (j : Job) : Field → Val
  | .bias => .ptr .bias 0
  | .lhsSums => .ptr .lhsSums 0
  | .rhsSums => .ptr .rhsSums 0
  | .lhsBasePtr => .ptr .lhs j.lhsBase
  | .mulFix => .ptr .mulFix 0
  | .mulExp => .ptr .mulExp 0
  | .lhsZeroPoint => .int (u32 j.lhsZp)
  | .rhsZeroPoint => .int (u32 j.rhsZp)
  | .dstZeroPoint => .int (u32 j.dstZp)
  | .prodZpDepth => .int (u32 j.prodZp)
  | .startRow => .int j.startRow
  | .lastRow => .int j.lastRow
  | .lastCol => .int j.lastCol
  | .lhsStride => .int j.lhsStride
  | .rhsStride => .int j.rhsStride
  | .dstStride => .int j.dstStride
  | .depth => .int j.depth
  | .clampMin => .int (u32 j.clampMin)
  | .clampMax => .int (u32 j.clampMax)
  | .flags => .int j.flags

def env (j : Job) : Env := ⟨j.field, j.size⟩

/-- The operands of the `asm` statement on entry, kernel_arm64.cc:103-111 and 1141-1146;
everything else is arbitrary. -/
structure Start (j : Job) (s : St) : Prop where
  lhsCol : s.x lhsColPtr = .ptr .lhs j.lhsBase
  rhsCol : s.x rhsColPtr = .ptr .rhs j.rhsBase
  lhsP : s.x lhsPtr = .ptr .lhs j.lhsBase
  rhsP : s.x rhsPtr = .ptr .rhs j.rhsBase
  dstCol : s.x dstColPtr = .ptr .dst j.dstBase
  dstP : s.x dstPtr = .ptr .dst j.dstBase
  row : s.x rRow = .int j.startRow
  col : s.x rCol = .int j.startCol
  rows : s.x rDstRows = .int j.dstRows
  cols : s.x rDstCols = .int j.dstCols
  tmp : s.x tmpBuf = .ptr .tmp 0
  type : s.x dstTypeId = .int j.dt.id
  mem : ∀ r, r ≠ .tmp → s.m r = j.m r
  ok : s.bad = false

/-- Channels that a call reads: rows or columns up to the end of the last block. -/
def channels (j : Job) : Nat :=
  if j.chanCol then j.lastCol + 4 else j.lastRow + 4

/-- The buffers are large enough, the packed blocks follow each other, and the int32
fields represent their values. -/
structure Fits (j : Job) : Prop where
  row : j.lastRow + 4 < 2 ^ 31
  col : j.lastCol + 4 < 2 ^ 31
  rowIn : j.lastRow < j.dstRows
  colIn : j.lastCol < j.dstCols
  rows : j.dstRows < 2 ^ 31
  cols : j.dstCols < 2 ^ 31
  lstride : j.lhsStride < 2 ^ 31
  rstride : j.rhsStride < 2 ^ 31
  dstride : j.dstStride < 2 ^ 31
  deep : j.depth < 2 ^ 31
  lhsDepth : j.depth ≤ j.lhsStride
  rhsDepth : j.depth ≤ j.rhsStride
  lhsSize : j.lhsBase + (j.rowSteps + 1) * (4 * j.lhsStride) ≤ j.size .lhs
  rhsSize : j.rhsBase + (j.colSteps + 1) * (4 * j.rhsStride) ≤ j.size .rhs
  lsums : 4 * (j.lastRow + 4) ≤ j.size .lhsSums
  rsums : 4 * (j.lastCol + 4) ≤ j.size .rhsSums
  bias : if j.hasBias then 4 * j.channels ≤ j.size .bias else 16 ≤ j.size .bias
  mfix : if j.perChannel then 4 * j.channels ≤ j.size .mulFix else 16 ≤ j.size .mulFix
  mexp : if j.perChannel then 4 * j.channels ≤ j.size .mulExp else 16 ≤ j.size .mulExp
  tmp : 64 ≤ j.size .tmp
  /-- The destination: `dstBase` is the address of the entry (startRow, startCol); columns do not
  overlap. -/
  dst : ∀ r c, j.startRow + r < j.dstRows → j.startCol + c < j.dstCols →
    r < 4 * (j.rowSteps + 1) → c < 4 * (j.colSteps + 1) →
    j.dstBase + c * j.dstStride + r * j.dt.size + j.dt.size ≤ j.size .dst
  columns : (j.dstRows - j.startRow) * j.dt.size ≤ j.dstStride

/-! ### Memory as numbers -/

/-- The bytes at an address as a register. -/
def vec (j : Job) (r : Region) (o : Nat) : Vec := fun b => j.m r (o + b)
/-- Entry `i` of an int32 array. -/
def word (j : Job) (r : Region) (i : Nat) : Int := wrap32 (le4 (j.m r) (4 * i))

/-- Entries of the packed matrices: column `c` of the operand (a row `c` of the LHS matrix) from the
start of the call, depth `k`: blocks of 16x4 entries, columns of a block contiguous. -/
def lhsAt (j : Job) (r k : Nat) : Int :=
  wrap8 (j.m .lhs (j.lhsBase + r / 4 * (4 * j.lhsStride) + 64 * (k / 16) + 16 * (r % 4) + k % 16)).toNat
def rhsAt (j : Job) (c k : Nat) : Int :=
  wrap8 (j.m .rhs (j.rhsBase + c / 4 * (4 * j.rhsStride) + 64 * (k / 16) + 16 * (c % 4) + k % 16)).toNat

end Job

/-! ### Runs -/

def Reach (e : Env) (P : List Block) (c c' : Nat × St) : Prop := ∃ n, run e P n c = c'

theorem run_add (e : Env) (P : List Block) (a b : Nat) (c : Nat × St) :
    run e P (a + b) c = run e P b (run e P a c) := by
  induction a generalizing c with
  | zero => simp [run]
  | succ a ih => rw [Nat.succ_add]; exact ih _

theorem Reach.refl {e : Env} {P : List Block} (c : Nat × St) : Reach e P c c := ⟨0, rfl⟩

theorem Reach.trans {e : Env} {P : List Block} {a b c : Nat × St} (h : Reach e P a b)
    (h' : Reach e P b c) : Reach e P a c := by
  obtain ⟨n, hn⟩ := h
  obtain ⟨k, hk⟩ := h'
  exact ⟨n + k, by rw [run_add, hn, hk]⟩

theorem Reach.block {e : Env} {P : List Block} {i : Nat} {b : Block} {s : St} {l : Nat}
    (h : P[i]? = some b) (hl : next (exec e b.body s) b.term = l) :
    Reach e P (i, s) (l, exec e b.body s) := by
  refine ⟨1, ?_⟩
  show bstep e P (i, s) = _
  unfold bstep
  simp only [h]
  rw [hl]

end Ruy.Neon

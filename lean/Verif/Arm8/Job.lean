import Verif.Arm8.Code
import Verif.Neon.Spec
/-
What a call of the ARM32 8-bit kernel is given, the registers at the start of its `asm` statement, and what the call
should leave in the destination.
-/
namespace Ruy.Arm8
open Ruy.Neon (St Val Region Vec Byte Dt le4 byteOf)
open Simd (wrap8 wrap16 wrap32)

/-- The parameters of a call, `KernelParams8bit<4, 2>` (kernel_common.h:94-130).  Offsets and strides are in bytes.
The call covers `4 * (rowSteps + 1)` rows from `startRow` and `2 * (colSteps + 1)` columns from `startCol`; the depth
is `16 * (depthSteps + 1)`. -/
structure Job where
  dt : Dt
  startRow : Nat
  startCol : Nat
  rowSteps : Nat
  colSteps : Nat
  depthSteps : Nat
  lhsBase : Nat
  rhsBase : Nat
  dstBase : Nat
  lhsStride : Nat
  rhsStride : Nat
  dstStride : Nat
  dstRows : Nat
  dstCols : Nat
  lhsZp : Int
  rhsZp : Int
  dstZp : Int
  prodZp : Int
  clampMin : Int
  clampMax : Int
  hasBias : Bool
  hasLhsSums : Bool
  hasRhsSums : Bool
  perChannel : Bool
  chanCol : Bool
  size : Region → Nat
  m : Region → Nat → Byte

namespace Job

def depth (j : Job) : Nat := 16 * (j.depthSteps + 1)
def lastRow (j : Job) : Nat := j.startRow + 4 * j.rowSteps
def lastCol (j : Job) : Nat := j.startCol + 2 * j.colSteps

/-- An int32 as 32 unsigned bits. -/
def u32 (x : Int) : Nat := (x % 2 ^ 32).toNat

/-- kernel_common.h:59-64, 152-196; the flag `NEEDS_LEFT_SHIFT` (16) is always set and not looked at. -/
def flags (j : Job) : Nat :=
  (if j.hasBias then 1 else 0) + (if j.hasLhsSums then 2 else 0) + (if j.hasRhsSums then 4 else 0) +
    (if j.perChannel then 8 else 0) + 16 + (if j.chanCol then 32 else 0)

/-- kernel_common.h:132-213. -/
def field (j : Job) : Field → Val
  | .bias => .ptr .bias 0
  | .lhsSums => .ptr .lhsSums 0
  | .rhsSums => .ptr .rhsSums 0
  | .lhsBasePtr => .ptr .lhs j.lhsBase
  | .rhsBasePtr => .ptr .rhs j.rhsBase
  | .dstBasePtr => .ptr .dst j.dstBase
  | .mulFix => .ptr .mulFix 0
  | .mulExp => .ptr .mulExp 0
  | .lhsZeroPoint => .int (u32 j.lhsZp)
  | .rhsZeroPoint => .int (u32 j.rhsZp)
  | .dstZeroPoint => .int (u32 j.dstZp)
  | .prodZpDepth => .int (u32 j.prodZp)
  | .startRow => .int j.startRow
  | .startCol => .int j.startCol
  | .lastRow => .int j.lastRow
  | .lastCol => .int j.lastCol
  | .dstRows => .int j.dstRows
  | .dstCols => .int j.dstCols
  | .lhsStride => .int j.lhsStride
  | .rhsStride => .int j.rhsStride
  | .dstStride => .int j.dstStride
  | .depth => .int j.depth
  | .clampMin => .int (u32 j.clampMin)
  | .clampMax => .int (u32 j.clampMax)
  | .flags => .int j.flags
  | .dstTypeId => .int j.dt.id
  | .packRows | .packZeroPoint | .packXor | .packSums => .int 0

def env (j : Job) : Env := ⟨j.field, j.size⟩

/-- The operands of the `asm` statement on entry, kernel_arm32.cc:637-640 and 1625-1626; everything else is
arbitrary.  `sp` has not been moved. -/
structure Start (j : Job) (s : St) : Prop where
  lhsP : s.x lp = .ptr .lhs j.lhsBase
  rhsP : s.x rp = .ptr .rhs j.rhsBase
  tmp : s.x tmp = .ptr .tmp 0
  sp : s.x 13 = .int 0
  mem : ∀ r, r ≠ .tmp → s.m r = j.m r
  ok : s.bad = false

/-- Channels that a call reads: rows or columns up to the end of the last block. -/
def channels (j : Job) : Nat := if j.chanCol then j.lastCol + 2 else j.lastRow + 4

/-- The buffers are large enough and fit into 32-bit addresses, the packed blocks follow each other, and the int32
fields represent their values.  `dst_tmp_buf` has `LhsCols * RhsCols` int32 entries (kernel_common.h:126); without
channels the bias and the multipliers have four entries (kernel_common.h:125-128). -/
structure Fits (j : Job) : Prop where
  row : j.lastRow + 4 < 2 ^ 31
  col : j.lastCol + 2 < 2 ^ 31
  rowIn : j.lastRow < j.dstRows
  colIn : j.lastCol < j.dstCols
  rows : j.dstRows < 2 ^ 31
  cols : j.dstCols < 2 ^ 31
  lstride : j.lhsStride < 2 ^ 31
  rstride : j.rhsStride < 2 ^ 31
  dstride : j.dstStride < 2 ^ 31
  deep : j.depth < 2 ^ 31
  lhsDepth : j.depth ≤ j.lhsStride
  rhsDepth : j.depth ≤ j.rhsStride
  lhsSize : j.lhsBase + (j.rowSteps + 1) * (4 * j.lhsStride) ≤ j.size .lhs
  rhsSize : j.rhsBase + (j.colSteps + 1) * (2 * j.rhsStride) ≤ j.size .rhs
  lsums : j.hasLhsSums = true → 4 * (j.lastRow + 4) ≤ j.size .lhsSums
  rsums : j.hasRhsSums = true → 4 * (j.lastCol + 2) ≤ j.size .rhsSums
  bias : if j.hasBias then 4 * j.channels ≤ j.size .bias else 16 ≤ j.size .bias
  mfix : if j.perChannel then 4 * j.channels ≤ j.size .mulFix else 16 ≤ j.size .mulFix
  mexp : if j.perChannel then 4 * j.channels ≤ j.size .mulExp else 16 ≤ j.size .mulExp
  tmp : 32 ≤ j.size .tmp
  memory : ∀ r, j.size r ≤ 2 ^ 32
  /-- The destination: `dstBase` is the address of the entry (startRow, startCol); columns do not overlap. -/
  dst : ∀ r c, j.startRow + r < j.dstRows → j.startCol + c < j.dstCols →
    r < 4 * (j.rowSteps + 1) → c < 2 * (j.colSteps + 1) →
    j.dstBase + c * j.dstStride + r * j.dt.size + j.dt.size ≤ j.size .dst
  columns : (j.dstRows - j.startRow) * j.dt.size ≤ j.dstStride

/-! ### What is computed -/

/-- The bytes at an address as a register. -/
def vec (j : Job) (r : Region) (o : Nat) : Vec := fun b => j.m r (o + b)
/-- Entry `i` of an int32 array. -/
def word (j : Job) (r : Region) (i : Nat) : Int := wrap32 (le4 (j.m r) (4 * i))

/-- Entries of the packed matrices: column `c` of the operand (a row `r` of the LHS matrix) from the start of the
call, depth `k`: blocks of 16x4, respectively 16x2 entries, columns of a block contiguous
(`FixedKernelLayout<Order::kColMajor, 16, 4>` and `<…, 16, 2>`, kernel_arm.h:86-87). -/
def lhsAt (j : Job) (r k : Nat) : Int :=
  wrap8 (j.m .lhs (j.lhsBase + r / 4 * (4 * j.lhsStride) + 64 * (k / 16) + 16 * (r % 4) + k % 16)).toNat
def rhsAt (j : Job) (c k : Nat) : Int :=
  wrap8 (j.m .rhs (j.rhsBase + c / 2 * (2 * j.rhsStride) + 32 * (k / 16) + 16 * (c % 2) + k % 16)).toNat

/-- Sum of the products of row `r` of the LHS and column `c` of the RHS. -/
def dotOf (j : Job) (r c : Nat) : Int := ∑ k ∈ Finset.range j.depth, j.lhsAt r k * j.rhsAt c k

/-- The same with the sums of the products at depths `k` and `k + 8` (`k % 16 < 8`) reduced to int16. -/
def dot16Of (j : Job) (r c : Nat) : Int :=
  ∑ t ∈ Finset.range (j.depthSteps + 1), ∑ i ∈ Finset.range 8,
    wrap16 (j.lhsAt r (16 * t + i) * j.rhsAt c (16 * t + i) +
      j.lhsAt r (16 * t + 8 + i) * j.rhsAt c (16 * t + 8 + i))

/-- Row `r` of the LHS and column `c` of the RHS never both have -128 at two depths `k` and `k + 8` of a
group of 16. -/
def NoPair (j : Job) (r c : Nat) : Prop :=
  ∀ t, t ≤ j.depthSteps → ∀ i, i < 8 →
    ¬(j.lhsAt r (16 * t + i) = -128 ∧ j.rhsAt c (16 * t + i) = -128 ∧
      j.lhsAt r (16 * t + 8 + i) = -128 ∧ j.rhsAt c (16 * t + 8 + i) = -128)

/-- The channel of an entry. -/
def chanOf (j : Job) (r c : Nat) : Nat := if j.chanCol then j.startCol + c else j.startRow + r
def biasOf (j : Job) (r c : Nat) : Int := if j.hasBias then j.word .bias (j.chanOf r c) else 0
def fixOf (j : Job) (r c : Nat) : Int := j.word .mulFix (if j.perChannel then j.chanOf r c else 0)
def expOf (j : Job) (r c : Nat) : Int := j.word .mulExp (if j.perChannel then j.chanOf r c else 0)
/-- The sums of a row and of a column; operands whose zero point is not used come without sums. -/
def lsumOf (j : Job) (r : Nat) : Int := if j.hasLhsSums then j.word .lhsSums (j.startRow + r) else 0
def rsumOf (j : Job) (c : Nat) : Int := if j.hasRhsSums then j.word .rhsSums (j.startCol + c) else 0

/-- The accumulator of an entry whose sum of products is `d`. -/
def accOf (j : Job) (d : Int) (r c : Nat) : Int :=
  wrap32 (d + j.biasOf r c + j.prodZp - j.lhsZp * j.rsumOf c - j.rhsZp * j.lsumOf r)

/-- The entry, from its accumulator, for a destination of type `t`. -/
def outOf (j : Job) (t : Dt) (x : Int) (r c : Nat) : Int :=
  let y := Simd.Neon.apply x (j.fixOf r c) (j.expOf r c)
  match t with
  | .u8 => Simd.Neon.storeU8 y j.dstZp j.clampMin j.clampMax
  | .i8 => Simd.Neon.storeS8 y j.dstZp j.clampMin j.clampMax
  | .i16 => Simd.Neon.storeS16 y j.dstZp j.clampMin j.clampMax
  | .i32 => x

/-- kernel_common.h:153-157, 182-196: without a bias the kernel is given four zeros, without channels four copies of the
multiplier. -/
structure Args (j : Job) : Prop where
  noBias : j.hasBias = false → ∀ i, i < 4 → j.word .bias i = 0
  oneFix : j.perChannel = false → ∀ i, i < 4 → j.word .mulFix i = j.word .mulFix 0
  oneExp : j.perChannel = false → ∀ i, i < 4 → j.word .mulExp i = j.word .mulExp 0

/-- Entry (`r`, `c`), counted from the start of the call, belongs to the call and to the destination. -/
def Inside (j : Job) (r c : Nat) : Prop :=
  r < 4 * (j.rowSteps + 1) ∧ c < 2 * (j.colSteps + 1) ∧ j.startRow + r < j.dstRows ∧ j.startCol + c < j.dstCols

/-- Where an entry is in a destination of type `t`. -/
def addr (j : Job) (t : Dt) (r c : Nat) : Nat := j.dstBase + c * j.dstStride + r * t.size

/-- A finished call for entries of type `t`: nothing undefined has happened, `sp` is where it was, entry (`r`, `c`)
of the call holds `v r c`, the rest of the destination and the other buffers have not changed. -/
structure Result (j : Job) (t : Dt) (v : Nat → Nat → Int) (s : St) : Prop where
  ok : s.bad = false
  sp : s.x 13 = .int 0
  inputs : ∀ r, r ≠ .dst → r ≠ .tmp → s.m r = j.m r
  entry : ∀ r c, j.Inside r c → ∀ b, b < t.size → s.m .dst (j.addr t r c + b) = byteOf (v r c) b
  rest : ∀ o, (∀ r c, j.Inside r c → ∀ b, b < t.size → o ≠ j.addr t r c + b) → s.m .dst o = j.m .dst o

end Job

/-! ### Runs -/

def Reach (e : Env) (P : List Block) (c c' : Nat × St) : Prop := ∃ n, run e P n c = c'

theorem run_add (e : Env) (P : List Block) (a b : Nat) (c : Nat × St) :
    run e P (a + b) c = run e P b (run e P a c) := by
  induction a generalizing c with
  | zero => simp [run]
  | succ a ih => rw [Nat.succ_add]; exact ih _

theorem Reach.refl {e : Env} {P : List Block} (c : Nat × St) : Reach e P c c := ⟨0, rfl⟩

theorem Reach.trans {e : Env} {P : List Block} {a b c : Nat × St} (h : Reach e P a b)
    (h' : Reach e P b c) : Reach e P a c := by
  obtain ⟨n, hn⟩ := h
  obtain ⟨k, hk⟩ := h'
  exact ⟨n + k, by rw [run_add, hn, hk]⟩

theorem Reach.block {e : Env} {P : List Block} {i : Nat} {b : Block} {s : St} {l : Nat}
    (h : P[i]? = some b) (hl : next (exec e b.body s) b.term = l) :
    Reach e P (i, s) (l, exec e b.body s) := by
  refine ⟨1, ?_⟩
  show bstep e P (i, s) = _
  unfold bstep
  simp only [h]
  rw [hl]

end Ruy.Arm8

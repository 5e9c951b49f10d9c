import Verif.Base.Loop
import Verif.SizeUtil.NatLevel
/-
Model of ruy/mat.h (layouts, offsets, sizes, transposition) and the
corresponding parts of ruy/matrix.h.

Dimensions, strides and indices are non-negative ints.  Element offsets are
computed in `int`: since all terms are non-negative, the whole expression
overflows iff its value does, so a single range check is made on the result.
-/
namespace Ruy.Mat
open SizeUtil

/-- matrix.h:29 (`enum class Order`). -/
inductive Order where
  | colMajor
  | rowMajor
  deriving DecidableEq, Repr

/-- mat.h:105-112, matrix.h:32-52. -/
structure MatLayout where
  rows : Nat
  cols : Nat
  stride : Nat
  order : Order
  deriving DecidableEq, Repr

/-- mat.h:166-170. -/
structure KernelLayout where
  order : Order
  rows : Nat
  cols : Nat
  deriving DecidableEq, Repr

/-- mat.h:178-188.  Equality (mat.h:190-194) is equality of all fields. -/
structure PMatLayout where
  rows : Nat
  cols : Nat
  stride : Nat
  order : Order
  kernel : KernelLayout
  deriving DecidableEq, Repr

/-- matrix.h:169-174. -/
def makeSimpleLayout (rows cols : Nat) (order : Order) : MatLayout :=
  ⟨rows, cols, match order with | .colMajor => rows | .rowMajor => cols, order⟩

/-- mat.h:359-370 and matrix.h:188-199. -/
def offset (l : MatLayout) (row col : Nat) : C Nat :=
  C.int (row * (if l.order = .colMajor then 1 else l.stride) +
    col * (if l.order = .rowMajor then 1 else l.stride))

/-- mat.h:373-393.  `x & ~(k - 1)` is `round_down_pot` (size_util.h:92-96). -/
def poffset (l : PMatLayout) (row col : Nat) : C Nat := do
  C.check (nIsPot l.kernel.rows = true)
  C.check (nIsPot l.kernel.cols = true)
  let rowOuter ← nRoundDownPot row l.kernel.rows
  let colOuter ← nRoundDownPot col l.kernel.cols
  let rowStrideOuter := if l.order = .colMajor then l.kernel.cols else l.stride
  let colStrideOuter := if l.order = .rowMajor then l.kernel.rows else l.stride
  let rowInner := row - rowOuter
  let colInner := col - colOuter
  let rowStrideInner := if l.kernel.order = .colMajor then 1 else l.kernel.cols
  let colStrideInner := if l.kernel.order = .rowMajor then 1 else l.kernel.rows
  C.int (rowOuter * rowStrideOuter + colOuter * colStrideOuter +
    (rowInner * rowStrideInner + colInner * colStrideInner))

/-- mat.h:327-331 (computed in ptrdiff_t, cannot overflow for int operands). -/
def flatSize (l : MatLayout) : Nat :=
  l.stride * (match l.order with | .colMajor => l.cols | .rowMajor => l.rows)

/-- mat.h:350-354. -/
def pflatSize (l : PMatLayout) : Nat :=
  l.stride * (match l.order with | .colMajor => l.cols | .rowMajor => l.rows)

/-- mat.h:442-444. -/
def Order.transpose : Order → Order
  | .colMajor => .rowMajor
  | .rowMajor => .colMajor

/-- mat.h:446-451. -/
def MatLayout.transpose (l : MatLayout) : MatLayout :=
  ⟨l.cols, l.rows, l.stride, l.order.transpose⟩

/-- create_trmul_params.h:42-52. -/
def createPackedLayout (src : MatLayout) (k : KernelLayout) : C PMatLayout := do
  let rows ← nRoundUpPot src.rows k.rows
  let cols ← nRoundUpPot src.cols k.cols
  pure ⟨rows, cols, rows, .colMajor, k⟩

end Ruy.Mat

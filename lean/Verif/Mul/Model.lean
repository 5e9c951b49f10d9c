import Verif.Mat.Model
import Verif.Base.Side
/-
Model of the portable ("standard C++") multiplication core:
  pack.h:104-151, pack_common.h:36-58, kernel.h:79-240, reference_mul.h:27-52,
  apply_multiplier.h:55-79, apply_multiplier.cc:48-65.

The accumulator type AccumScalar and its arithmetic are a parameter
(`Arith A`): `int32` with undefined overflow, wrap-around 32-bit arithmetic,
or any (floating-point) arithmetic.  Source, packed and destination elements are
represented by the accumulator values they convert to (the conversions from the
narrower scalar types are value preserving); the final narrowing is `cast`.
-/
namespace Ruy.Mul
open Ruy.Mat

/-- Arithmetic of AccumScalar. -/
structure Arith (A : Type) where
  zero : A
  add : A → A → C A
  sub : A → A → C A
  mul : A → A → C A
  /-- `operator<`, used by std::min / std::max -/
  lt : A → A → Bool
  /-- conversion of an int (zero points, depth) -/
  ofInt : Int → A

/-- int32 accumulators: overflow is undefined. -/
def Arith.int32 : Arith Int where
  zero := 0
  add x y := C.i32 (x + y)
  sub x y := C.i32 (x - y)
  mul x y := C.i32 (x * y)
  lt x y := decide (x < y)
  ofInt x := x

/-- A plain matrix: data, layout, zero point (mat.h:121-127, 219-225). -/
structure Mat (A : Type) where
  layout : MatLayout
  data : Buf A
  zp : Int

/-- A packed matrix (mat.h:245-252, 256-275). -/
structure PMat (A : Type) where
  layout : PMatLayout
  data : Buf A
  sums : Option (Buf A)
  zp : Int

variable {A : Type}

/-- mat.h:397-410 (`Element`). -/
def Mat.elem (m : Mat A) (row col : Nat) : C A := do
  let o ← offset m.layout row col
  m.data.read o

/-- mat.h:402-405 (`*ElementPtr(m, row, col) = x`). -/
def Mat.set (m : Mat A) (row col : Nat) (x : A) : C (Mat A) := do
  let o ← offset m.layout row col
  let d ← m.data.write o x
  pure { m with data := d }

/-- mat.h:453-458. -/
def Mat.transpose (m : Mat A) : Mat A := { m with layout := m.layout.transpose }

/-- mat.h:415-428. -/
def PMat.elem (m : PMat A) (row col : Nat) : C A := do
  let o ← poffset m.layout row col
  m.data.read o

def PMat.set (m : PMat A) (row col : Nat) (x : A) : C (PMat A) := do
  let o ← poffset m.layout row col
  let d ← m.data.write o x
  pure { m with data := d }

/-! ### Packing -/

/-- pack.h:118-124: the value packed at (row, col). -/
def packedVal (ar : Arith A) (pack : A → A) (src : Mat A) (zp : Int) (row col : Nat) : C A :=
  if col < src.layout.cols ∧ row < src.layout.rows then do
    let x ← src.elem row col
    pure (pack x)
  else pure (ar.ofInt zp)

/-- pack.h:117-126: one iteration of the row loop; state = (packed matrix, accum). -/
def packStep (ar : Arith A) (pack : A → A) (src : Mat A) (col row : Nat) (st : PMat A × A) :
    C (PMat A × A) := do
  let v ← packedVal ar pack src st.1.zp row col
  let acc ← ar.add st.2 v
  let p ← st.1.set row col v
  pure (p, acc)

/-- pack.h:127-129. -/
def setSum (p : PMat A) (col : Nat) (x : A) : C (PMat A) :=
  match p.sums with
  | none => pure p
  | some b => do
    let b' ← b.write col x
    pure { p with sums := some b' }

/-- pack.h:115-130: one iteration of the column loop. -/
def packCol (ar : Arith A) (pack : A → A) (src : Mat A) (col : Nat) (p : PMat A) : C (PMat A) := do
  let st ← forUpTo p.layout.rows (packStep ar pack src col) (p, ar.zero)
  setSum st.1 col st.2

/-- pack.h:108-131 (`PackImpl::Run`), called through RunPack (pack.h:137-151)
with the source's own order, so the check on line 112 cannot fail. -/
def runPack (ar : Arith A) (pack : A → A) (src : Mat A) (startCol endCol : Nat) (p : PMat A) :
    C (PMat A) := do
  C.check ((endCol - startCol) % p.layout.kernel.cols = 0)
  forRange startCol endCol (packCol ar pack src) p

/-! ### Kernel -/

/-- mul_params.h:31-36. -/
inductive ChannelDim where
  | row
  | col
  deriving DecidableEq, Repr

/-- create_trmul_params.h:446-449. -/
def ChannelDim.transpose : ChannelDim → ChannelDim
  | .row => .col
  | .col => .row

/-- The part of MulParams that kernels read (mul_params.h:96-213).
`scale` is ApplyMultiplier (apply_multiplier.h:55-79) for the given channel;
`cast` is the conversion to DstScalar. -/
structure Params (A : Type) where
  bias : Option (Buf A)
  channelDim : ChannelDim
  scale : Nat → A → C A
  clampMin : A
  clampMax : A
  cast : A → A

/-- kernel.h:219-220, reference_mul.h:40-41. -/
def channelOf (d : ChannelDim) (i j : Nat) : Nat :=
  match d with
  | .row => i
  | .col => j

/-- kernel.h:221-223, reference_mul.h:42-44. -/
def addBias (ar : Arith A) (bias : Option (Buf A)) (channel : Nat) (acc : A) : C A :=
  match bias with
  | none => pure acc
  | some b => do
    let x ← b.read channel
    ar.add acc x

/-- kernel.h:233-237, reference_mul.h:45-49: multiplier, zero point, clamp
(std::min / std::max as specified by the standard), narrowing. -/
def finish (ar : Arith A) (mp : Params A) (dzp : Int) (channel : Nat) (acc : A) : C A := do
  let a1 ← mp.scale channel acc
  let a2 ← ar.add a1 (ar.ofInt dzp)
  let a3 := if ar.lt mp.clampMax a2 then mp.clampMax else a2
  let a4 := if ar.lt a3 mp.clampMin then mp.clampMin else a3
  pure (mp.cast a4)

/-- kernel.h:213-218: the dot product. -/
def dotStep (ar : Arith A) (lhs rhs : PMat A) (i j k : Nat) (acc : A) : C A := do
  let x ← lhs.elem k i
  let y ← rhs.elem k j
  let xy ← ar.mul x y
  ar.add acc xy

/-- Reading a column sum (a null pointer is undefined). -/
def readSum (p : PMat A) (col : Nat) : C A :=
  match p.sums with
  | none => .error .ub
  | some b => b.read col

/-- kernel.h:224-226 (and 227-229 with the roles exchanged):
`if (zp) accum -= zp * other.sums[col]`. -/
def subSum (ar : Arith A) (zp : Int) (other : PMat A) (col : Nat) (acc : A) : C A :=
  if zp = 0 then pure acc
  else do
    let s ← readSum other col
    let t ← ar.mul (ar.ofInt zp) s
    ar.sub acc t

/-- kernel.h:230-232. -/
def addZpProduct (ar : Arith A) (lzp rzp : Int) (depth : Nat) (acc : A) : C A :=
  if lzp = 0 ∨ rzp = 0 then pure acc
  else do
    let t ← ar.mul (ar.ofInt lzp) (ar.ofInt rzp)
    let u ← ar.mul t (ar.ofInt depth)
    ar.add acc u

/-- kernel.h:213-237: the value stored in destination entry (i, j). -/
def kernelEntry (ar : Arith A) (mp : Params A) (lhs rhs : PMat A) (dzp : Int) (i j : Nat) :
    C A := do
  let depth := lhs.layout.rows
  let a0 ← forUpTo depth (dotStep ar lhs rhs i j) ar.zero
  let channel := channelOf mp.channelDim i j
  let a1 ← addBias ar mp.bias channel a0
  let a2 ← subSum ar lhs.zp rhs j a1
  let a3 ← subSum ar rhs.zp lhs i a2
  let a4 ← addZpProduct ar lhs.zp rhs.zp depth a3
  finish ar mp dzp channel a4

/-- kernel.h:213-237: one iteration of the inner loop. -/
def kernelStep (ar : Arith A) (mp : Params A) (lhs rhs : PMat A) (i j : Nat) (dst : Mat A) :
    C (Mat A) := do
  let x ← kernelEntry ar mp lhs rhs dst.zp i j
  dst.set i j x

/-- The checks of RunTyped (kernel.h:118-125) and Kernel::Run (kernel.h:199-208)
for one dimension. -/
def rangeChecks (start stop dim kcols : Nat) : C Unit := do
  C.check (start ≤ stop)
  C.check (stop < dim + kcols)
  C.check ((stop - start) % kcols = 0)
  C.check (start ≤ min stop dim)
  C.check (stop - min stop dim ≤ kcols)

/-- kernel.h:79-138 + 190-240: RunKernel on the block [start, stop) of the
destination. -/
def runKernel (ar : Arith A) (mp : Params A) (lhs rhs : PMat A) (start stop : SidePair Nat)
    (dst : Mat A) : C (Mat A) := do
  rangeChecks start.lhs stop.lhs dst.layout.rows lhs.layout.kernel.cols
  rangeChecks start.rhs stop.rhs dst.layout.cols rhs.layout.kernel.cols
  forRange start.lhs (min stop.lhs dst.layout.rows) (fun i =>
    forRange start.rhs (min stop.rhs dst.layout.cols) (fun j =>
      kernelStep ar mp lhs rhs i j)) dst

/-! ### ReferenceMul -/

/-- reference_mul.h:34-39. -/
def refDotStep (ar : Arith A) (lhs rhs : Mat A) (i j k : Nat) (acc : A) : C A := do
  let x ← lhs.elem i k
  let y ← rhs.elem k j
  let x' ← ar.sub x (ar.ofInt lhs.zp)
  let y' ← ar.sub y (ar.ofInt rhs.zp)
  let xy ← ar.mul x' y'
  ar.add acc xy

/-- reference_mul.h:34-49. -/
def refEntry (ar : Arith A) (mp : Params A) (lhs rhs : Mat A) (dzp : Int) (i j : Nat) : C A := do
  let a0 ← forUpTo lhs.layout.cols (refDotStep ar lhs rhs i j) ar.zero
  let channel := channelOf mp.channelDim i j
  let a1 ← addBias ar mp.bias channel a0
  finish ar mp dzp channel a1

/-- reference_mul.h:34-49. -/
def refStep (ar : Arith A) (mp : Params A) (lhs rhs : Mat A) (i j : Nat) (dst : Mat A) :
    C (Mat A) := do
  let x ← refEntry ar mp lhs rhs dst.zp i j
  dst.set i j x

/-- reference_mul.h:27-52. -/
def referenceMul (ar : Arith A) (mp : Params A) (lhs rhs dst : Mat A) : C (Mat A) :=
  forUpTo lhs.layout.rows (fun i =>
    forUpTo rhs.layout.cols (fun j => refStep ar mp lhs rhs i j)) dst

end Ruy.Mul

import Verif.NeonF.Error
import Verif.NeonF.PackCall
import Verif.Float.PackLemmas
import Verif.Neon.FlowSteps
import Verif.Tune.Model
/-
Multiplication of float matrices on the AArch64 paths kNeon and kNeonDotprod: packing functions and kernels together.

TrMul calls RunPack (pack.h:134-151) and RunKernel (kernel.h, kernel_arm.h:141-214) on blocks of columns and rows, each
call with the tuning that its thread has found.  The model runs a list of such calls one after another.  Every buffer
is an array of floats of its own; registers and stack are arbitrary at the start of each `asm` statement, so a call is
a relation between memories.  Arithmetic on floats is arbitrary (`Ops`).
-/
namespace Ruy.NeonF.Flow
open Ruy.Mat Ruy.Mul
open Ruy.TrMul (setSide)
open Ruy.Simd.Flow (Op Covered Written)
open Ruy.Neon.Flow (at')
open Ruy.Tune (Tuning)

/-- A source matrix (mat.h:198-211, `Mat<float>`) with the depth as rows, and the size of its buffer in floats. -/
structure Source where
  layout : MatLayout
  size : Nat

/-- A packed matrix (mat.h:213-227, `PMat<float>`); float matrices have no sums. -/
structure Target where
  layout : PMatLayout
  size : Nat

/-- The destination, `Mat<float>`. -/
structure Dest where
  layout : MatLayout
  size : Nat

/-- `MulParams<float, float>` (mul_params.h:104-192): size of the bias, `none` for a null pointer. -/
structure Params (A : Type) where
  bias : Option Nat
  chan : ChannelDim
  clampMin : A
  clampMax : A

/-- What stays constant; `dot`: the path is kNeonDotprod. -/
structure Task (A : Type) where
  dot : Bool
  src : SidePair Source
  packed : SidePair Target
  dst : Dest
  mp : Params A
  ops : Ops A

/-- Memory. -/
structure Mach (A : Type) where
  src : SidePair (Nat → A)
  packed : SidePair (Nat → A)
  bias : Nat → A
  dst : Nat → A

variable {A : Type}

/-! ### RunPack -/

/-- The arguments of `PackImpl<Path::kNeon, FixedKernelLayout<Order::kRowMajor, 1, 8>, float, float, float,
Order::kColMajor>::Run` (pack_arm.h:366-368). -/
def packCall (t : Task A) (u : Tuning) (s : Side) : FPack.Call A :=
  { a55 := decide (u = .a55ish)
    rows := (t.src.get s).layout.rows
    cols := (t.src.get s).layout.cols
    stride := (t.src.get s).layout.stride
    packedStride := (t.packed.get s).layout.stride
    size := fun r => match r with
      | .src => (t.src.get s).size
      | .packed => (t.packed.get s).size
      | _ => 0
    ops := t.ops }

/-- The buffers of one side. -/
def sideMem (t : Task A) (m : Mach A) (s : Side) : Region → Nat → A
  | .src => m.src.get s
  | .packed => m.packed.get s
  | _ => fun _ => t.ops.zero

def putSide (m : Mach A) (s : Side) (x : Region → Nat → A) : Mach A :=
  { m with src := setSide m.src s (x .src), packed := setSide m.packed s (x .packed) }

/-- The matrices of one side, for the C++ code. -/
def srcMat (t : Task A) (m : Mach A) (s : Side) : Mul.Mat A :=
  ⟨(t.src.get s).layout, ⟨(t.src.get s).size, m.src.get s⟩, 0⟩
def packedMat (t : Task A) (m : Mach A) (s : Side) : PMat A :=
  ⟨(t.packed.get s).layout, ⟨(t.packed.get s).size, m.packed.get s⟩, none, 0⟩

/-- pack.h:134-151 (`RunPack`): a call for columns [lo, hi) can end with `r`.  Row-major sources are packed by
`MemcpyRowMajorFloatPackImpl` (pack_arm.h:39); kNeonDotprod inherits both from kNeon (pack_arm.h:37). -/
def RunPack (t : Task A) (u : Tuning) (s : Side) (lo hi : Nat) (m : Mach A) (r : C (Mach A)) : Prop :=
  if (t.src.get s).layout.order = .colMajor then
    ∃ x, FPack.Run (packCall t u s) lo hi (sideMem t m s) x ∧ r = x.map (putSide m s)
  else r = (Float.memcpyPack t.ops.zero 8 (srcMat t m s) lo hi (packedMat t m s)).map fun q =>
    { m with packed := setSide m.packed s q.data.val }

/-! ### RunKernel -/

/-- kernel_common.h:238-281 (`MakeKernelParamsFloat`) with LhsCols = RhsCols = 8.  The kernels load the first level of
depth and compute the first block of rows and columns without a test, so a call without depth, rows or
columns is undefined. -/
def makeJob (t : Task A) (m : Mach A) (start stop : SidePair Nat) : C (Job A) := do
  C.check (start.lhs % 8 = 0)
  C.check (start.rhs % 8 = 0)
  C.check (stop.lhs % 8 = 0)
  C.check (stop.rhs % 8 = 0)
  let lb ← C.int (start.lhs * t.packed.lhs.layout.stride)
  let rb ← C.int (start.rhs * t.packed.rhs.layout.stride)
  let db ← C.int (start.rhs * t.dst.layout.stride)
  let _ ← C.int (4 * t.packed.lhs.layout.stride)
  let _ ← C.int (4 * t.packed.rhs.layout.stride)
  let _ ← C.int (4 * t.dst.layout.stride)
  C.check (stop.lhs < t.dst.layout.rows + 8)
  C.check (stop.rhs < t.dst.layout.cols + 8)
  if 0 < t.packed.lhs.layout.rows ∧ start.lhs < stop.lhs ∧ start.rhs < stop.rhs then
    .ok {
      startRow := start.lhs
      startCol := start.rhs
      rowSteps := (stop.lhs - start.lhs) / 8 - 1
      colSteps := (stop.rhs - start.rhs) / 8 - 1
      depth := t.packed.lhs.layout.rows
      lhsBase := lb
      rhsBase := rb
      dstBase := db + start.lhs
      lhsStride := t.packed.lhs.layout.stride
      rhsStride := t.packed.rhs.layout.stride
      dstStride := t.dst.layout.stride
      dstRows := t.dst.layout.rows
      dstCols := t.dst.layout.cols
      clampMin := t.mp.clampMin
      clampMax := t.mp.clampMax
      hasBias := t.mp.bias.isSome
      chanCol := decide (t.mp.chan = .col)
      size := fun r => match r with
        | .lhs => t.packed.lhs.size
        | .rhs => t.packed.rhs.size
        | .bias => t.mp.bias.getD 8
        | .dst => t.dst.size
        | .tmp => 64
        | _ => 0
      m := fun r => match r with
        | .lhs => m.packed.lhs
        | .rhs => m.packed.rhs
        | .bias => if t.mp.bias.isSome then m.bias else fun _ => t.ops.zero
        | .dst => m.dst
        | _ => fun _ => t.ops.zero
      ops := t.ops }
  else .error .ub

/-- kernel_arm.h:157-163, 204-210: the kernel that is called. -/
def kernelOf (dot : Bool) : Tuning → Kern
  | .a55ish => if dot then .dotprodA55 else .a55
  | .x1 => .x1
  | .auto | .generic => .generic

/-- Memory after a kernel. -/
def putKernel (t : Task A) (m : Mach A) (x : Region → Nat → A) : Mach A :=
  { m with
    packed := ⟨x .lhs, x .rhs⟩
    bias := if t.mp.bias.isSome then x .bias else m.bias
    dst := x .dst }

/-- kernel_arm.h:150-164, 196-211 (`Kernel::Run`): a call for a block can end with `r`.  A call that does not stop counts
as an error. -/
def RunKernel (t : Task A) (u : Tuning) (start stop : SidePair Nat) (m : Mach A) (r : C (Mach A)) : Prop :=
  match makeJob t m start stop with
  | .error e => r = .error e
  | .ok j => ∃ s, j.Start s ∧
      ((∃ s', Stops j.env (kernelOf t.dot u).code s s' ∧
          r = if s'.bad then .error .ub else .ok (putKernel t m s'.m)) ∨
        (∀ s', ¬Stops j.env (kernelOf t.dot u).code s s') ∧ r = .error .abort)

/-! ### Calls -/

/-- One call with its tuning. -/
def Step (t : Task A) : Tuning × Op → Mach A → C (Mach A) → Prop
  | (u, .pack s lo hi), m, r => RunPack t u s lo hi m r
  | (u, .kernel start stop), m, r => RunKernel t u start stop m r

/-- Calls one after another can end with `r`. -/
inductive Runs (t : Task A) : List (Tuning × Op) → Mach A → C (Mach A) → Prop
  | nil {m} : Runs t [] m (.ok m)
  | fault {o os m e} : Step t o m (.error e) → Runs t (o :: os) m (.error e)
  | next {o os m m' r} : Step t o m (.ok m') → Runs t os m' r → Runs t (o :: os) m r

/-- trmul.cc:337-356: the simple loop, no side prepacked. -/
def simpleOps (t : Task A) (u : Tuning) : List (Tuning × Op) :=
  [(u, .pack .lhs 0 t.packed.lhs.layout.cols), (u, .pack .rhs 0 t.packed.rhs.layout.cols),
    (u, .kernel ⟨0, 0⟩ ⟨t.packed.lhs.layout.cols, t.packed.rhs.layout.cols⟩)]

/-! ### Specification -/

/-- The element in row `k` (depth) and column `c` of a source. -/
def elem (t : Task A) (m : Mach A) (s : Side) (k c : Nat) : A := m.src.get s (at' (t.src.get s).layout k c)

def depth (t : Task A) : Nat := t.src.lhs.layout.rows

def biasAt (t : Task A) (m : Mach A) (ch : Nat) : A := if t.mp.bias.isSome then m.bias ch else t.ops.zero

/-- The order in which a kernel adds up the products of entry (i, j). -/
def levels (u : Tuning) (d i j : Nat) : List Nat :=
  match u with
  | .a55ish | .x1 => List.range d
  | .auto | .generic => delayed d i j

/-- The products of row `i` of the transposed LHS and column `j` of the RHS, added to zero in the order `L`. -/
def sumIn (t : Task A) (m : Mach A) (L : List Nat) (i j : Nat) : A :=
  L.foldl (fun d k => t.ops.fma d (elem t m .lhs k i) (elem t m .rhs k j)) t.ops.zero

/-- What belongs in entry (i, j) if its kernel is called with tuning `u`. -/
def stored (t : Task A) (m : Mach A) (u : Tuning) (i j : Nat) : A :=
  t.ops.min (t.ops.max (t.ops.add (sumIn t m (levels u (depth t) i j) i j) (biasAt t m (channelOf t.mp.chan i j)))
    t.mp.clampMin) t.mp.clampMax

/-- Where entry (i, j) of the destination is. -/
def place (t : Task A) (i j : Nat) : Nat := j * t.dst.layout.stride + i

/-- The number of channels that kernels read (C29). -/
def channels (t : Task A) : Nat :=
  match t.mp.chan with
  | .row => t.packed.lhs.layout.cols
  | .col => t.packed.rhs.layout.cols

/-! ### What a call is given -/

/-- One side as CreatePackedLayout sets it up: not empty, the packed matrix is large enough, and offsets are
ints. -/
structure SideOk (s : Source) (p : Target) : Prop where
  rows : 0 < s.layout.rows
  layout : createPackedLayout s.layout ⟨.rowMajor, 1, 8⟩ = .ok p.layout
  size : p.layout.stride * p.layout.cols ≤ p.size
  int : p.layout.stride * p.layout.cols < 2 ^ 31
  source : ∀ k c, k < s.layout.rows → c < s.layout.cols → at' s.layout k c < s.size ∧ at' s.layout k c < 2 ^ 31
  columns : s.layout.order = .colMajor → ∀ c, c < p.layout.cols → s.layout.stride * c < 2 ^ 31

/-- A multiplication as Mul sets it up: packed matrices from CreatePackedLayout, a column-major destination, a bias
that covers the packed width (C29), int offsets. -/
structure TaskOk (t : Task A) : Prop where
  side : ∀ s, SideOk (t.src.get s) (t.packed.get s)
  depth : t.src.rhs.layout.rows = t.src.lhs.layout.rows
  drows : t.dst.layout.rows = t.src.lhs.layout.cols
  dcols : t.dst.layout.cols = t.src.rhs.layout.cols
  dstride : t.dst.layout.rows ≤ t.dst.layout.stride
  dsize : ∀ i j, i < t.dst.layout.rows → j < t.dst.layout.cols → place t i j < t.dst.size
  dint : 4 * t.dst.layout.stride < 2 ^ 31 ∧ ∀ j, j < t.dst.layout.cols → j * t.dst.layout.stride < 2 ^ 31
  bias : ∀ n, t.mp.bias = some n → channels t ≤ n

/-- Calls as TrMul issues them: non-empty blocks of the packed matrices, and a kernel call only after the
columns it needs have been packed. -/
structure Ordered (t : Task A) (ops : List Op) : Prop where
  packs : ∀ s lo hi, Op.pack s lo hi ∈ ops → Simd.Flow.Block 8 (t.packed.get s).layout.cols lo hi
  kernels : ∀ start stop, Op.kernel start stop ∈ ops → ∀ s : Side,
    Simd.Flow.Block 8 (t.packed.get s).layout.cols (start.get s) (stop.get s)
  first : ∀ pre start stop post, ops = pre ++ Op.kernel start stop :: post → ∀ (s : Side) (c : Nat),
    start.get s ≤ c → c < stop.get s → c < (t.src.get s).layout.cols → Covered pre s c

/-- Entry (i, j) is in a block of a kernel call with tuning `u`. -/
def WrittenWith (ops : List (Tuning × Op)) (u : Tuning) (i j : Nat) : Prop :=
  ∃ start stop, (u, Op.kernel start stop) ∈ ops ∧ start.lhs ≤ i ∧ i < stop.lhs ∧ start.rhs ≤ j ∧ j < stop.rhs

end Ruy.NeonF.Flow

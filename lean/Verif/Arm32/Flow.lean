import Verif.Arm32.PackProps
import Verif.NeonF.FlowProps
/-
Multiplication of float matrices on 32-bit ARM (path kNeon): packing functions and kernel together.

As `NeonF/Flow.lean` for AArch64, with which the matrices, the parameters, the memory and the elements (`elem`, `biasAt`,
`place`) are shared; the field `dot` of a task is not used.  Packed LHS matrices have eight kernel columns, packed RHS
matrices four (kernel_arm.h:173-174).  Tuning makes no difference: packing drops it (pack_arm.h:411, 441) and the kernel
does not look at it (kernel_arm.h:176-185).  Registers and stack are arbitrary at the start of each `asm` statement, so a
call is a relation between memories.  Arithmetic on floats is arbitrary (`Ops`).
-/
namespace Ruy.Arm32.Flow
open Ruy.Mat Ruy.Mul
open Ruy.TrMul (setSide)
open Ruy.Simd.Flow (Op Covered Written)
open Ruy.Neon.Flow (at')
open Ruy.NeonF (Region Ops)
open Ruy.NeonF.Flow (Source Target Dest Params Mach sideMem putSide srcMat packedMat putKernel elem depth biasAt sumIn
  place channels)

variable {A : Type}

/-- A multiplication. -/
abbrev Task (A : Type) := NeonF.Flow.Task A

/-- kernel_arm.h:173-174. -/
def cols : Side → Nat
  | .lhs => 8
  | .rhs => 4

/-! ### RunPack -/

/-- The arguments of `PackImpl::Run` for a column-major source (pack_arm.h:362-433 for the LHS, 435-488 for the RHS). -/
def packCall (t : Task A) (s : Side) : Pack.Call A :=
  { wide := decide (s = .lhs)
    rows := (t.src.get s).layout.rows
    cols := (t.src.get s).layout.cols
    stride := (t.src.get s).layout.stride
    packedStride := (t.packed.get s).layout.stride
    size := fun r => match r with
      | .src => (t.src.get s).size
      | .packed => (t.packed.get s).size
      | _ => 0
    ops := t.ops }

/-- pack.h:134-151 (`RunPack`): a call for columns [lo, hi) can end with `r`.  Row-major sources are packed by
`MemcpyRowMajorFloatPackImpl` (pack_arm.h:39-42). -/
def RunPack (t : Task A) (s : Side) (lo hi : Nat) (m : Mach A) (r : C (Mach A)) : Prop :=
  if (t.src.get s).layout.order = .colMajor then
    ∃ x, Pack.Run (packCall t s) lo hi (sideMem t m s) x ∧ r = x.map (putSide m s)
  else r = (Float.memcpyPack t.ops.zero (cols s) (srcMat t m s) lo hi (packedMat t m s)).map fun q =>
    { m with packed := setSide m.packed s q.data.val }

/-! ### RunKernel -/

/-- kernel_common.h:238-281 (`MakeKernelParamsFloat`) with LhsCols = 8, RhsCols = 4.  The kernel loads the first level of
depth and computes the first block of rows and columns without a test, so a call without depth, rows or columns is
undefined. -/
def makeJob (t : Task A) (m : Mach A) (start stop : SidePair Nat) : C (Job A) := do
  C.check (start.lhs % 8 = 0)
  C.check (start.rhs % 4 = 0)
  C.check (stop.lhs % 8 = 0)
  C.check (stop.rhs % 4 = 0)
  let lb ← C.int (start.lhs * t.packed.lhs.layout.stride)
  let rb ← C.int (start.rhs * t.packed.rhs.layout.stride)
  let db ← C.int (start.rhs * t.dst.layout.stride)
  let _ ← C.int (4 * t.packed.lhs.layout.stride)
  let _ ← C.int (4 * t.packed.rhs.layout.stride)
  let _ ← C.int (4 * t.dst.layout.stride)
  C.check (stop.lhs < t.dst.layout.rows + 8)
  C.check (stop.rhs < t.dst.layout.cols + 4)
  if 0 < t.packed.lhs.layout.rows ∧ start.lhs < stop.lhs ∧ start.rhs < stop.rhs then
    .ok {
      startRow := start.lhs
      startCol := start.rhs
      rowSteps := (stop.lhs - start.lhs) / 8 - 1
      colSteps := (stop.rhs - start.rhs) / 4 - 1
      depth := t.packed.lhs.layout.rows
      lhsBase := lb
      rhsBase := rb
      dstBase := db + start.lhs
      lhsStride := t.packed.lhs.layout.stride
      rhsStride := t.packed.rhs.layout.stride
      dstStride := t.dst.layout.stride
      dstRows := t.dst.layout.rows
      dstCols := t.dst.layout.cols
      clampMin := t.mp.clampMin
      clampMax := t.mp.clampMax
      hasBias := t.mp.bias.isSome
      chanCol := decide (t.mp.chan = .col)
      size := fun r => match r with
        | .lhs => t.packed.lhs.size
        | .rhs => t.packed.rhs.size
        | .bias => t.mp.bias.getD 8
        | .dst => t.dst.size
        | .tmp => 32
        | _ => 0
      m := fun r => match r with
        | .lhs => m.packed.lhs
        | .rhs => m.packed.rhs
        | .bias => if t.mp.bias.isSome then m.bias else fun _ => t.ops.zero
        | .dst => m.dst
        | _ => fun _ => t.ops.zero
      ops := t.ops }
  else .error .ub

/-- kernel_arm.h:176-185 (`Kernel::Run`): a call for a block can end with `r`.  A call that does not stop counts as an
error. -/
def RunKernel (t : Task A) (start stop : SidePair Nat) (m : Mach A) (r : C (Mach A)) : Prop :=
  match makeJob t m start stop with
  | .error e => r = .error e
  | .ok j => ∃ s, j.Start s ∧
      ((∃ s', Stops j.env kernel s s' ∧ r = if s'.bad then .error .ub else .ok (putKernel t m s'.m)) ∨
        (∀ s', ¬Stops j.env kernel s s') ∧ r = .error .abort)

/-! ### Calls -/

/-- One call. -/
def Step (t : Task A) : Op → Mach A → C (Mach A) → Prop
  | .pack s lo hi, m, r => RunPack t s lo hi m r
  | .kernel start stop, m, r => RunKernel t start stop m r

/-- Calls one after another can end with `r`. -/
inductive Runs (t : Task A) : List Op → Mach A → C (Mach A) → Prop
  | nil {m} : Runs t [] m (.ok m)
  | fault {o os m e} : Step t o m (.error e) → Runs t (o :: os) m (.error e)
  | next {o os m m' r} : Step t o m (.ok m') → Runs t os m' r → Runs t (o :: os) m r

/-- trmul.cc:337-356: the simple loop, no side prepacked. -/
def simpleOps (t : Task A) : List Op :=
  [.pack .lhs 0 t.packed.lhs.layout.cols, .pack .rhs 0 t.packed.rhs.layout.cols,
    .kernel ⟨0, 0⟩ ⟨t.packed.lhs.layout.cols, t.packed.rhs.layout.cols⟩]

/-! ### Specification -/

/-- What belongs in entry (i, j): the products, added to zero by increasing depth, plus bias, clamped. -/
def stored (t : Task A) (m : Mach A) (i j : Nat) : A :=
  t.ops.min (t.ops.max (t.ops.add (sumIn t m (List.range (depth t)) i j) (biasAt t m (channelOf t.mp.chan i j)))
    t.mp.clampMin) t.mp.clampMax

/-! ### What a call is given -/

/-- One side as CreatePackedLayout sets it up for `w` kernel columns: not empty, the buffers are large enough and in a
32-bit address space, and offsets of blocks of four columns are ints. -/
structure SideOk (w : Nat) (s : Source) (p : Target) : Prop where
  rows : 0 < s.layout.rows
  layout : createPackedLayout s.layout ⟨.rowMajor, 1, w⟩ = .ok p.layout
  size : p.layout.stride * p.layout.cols ≤ p.size
  source : ∀ k c, k < s.layout.rows → c < s.layout.cols → at' s.layout k c < s.size
  memory : 4 * s.size ≤ 2 ^ 32 ∧ 4 * p.size ≤ 2 ^ 32
  columns : s.layout.order = .colMajor → ∀ c, c < p.layout.cols → c % 4 = 0 → s.layout.stride * c < 2 ^ 31

/-- A multiplication as Mul sets it up: packed matrices from CreatePackedLayout, a column-major destination, a bias
that covers the packed width (C29), a 32-bit address space. -/
structure TaskOk (t : Task A) : Prop where
  side : ∀ s, SideOk (cols s) (t.src.get s) (t.packed.get s)
  depth : t.src.rhs.layout.rows = t.src.lhs.layout.rows
  drows : t.dst.layout.rows = t.src.lhs.layout.cols
  dcols : t.dst.layout.cols = t.src.rhs.layout.cols
  dstride : t.dst.layout.rows ≤ t.dst.layout.stride
  dsize : ∀ i j, i < t.dst.layout.rows → j < t.dst.layout.cols → place t i j < t.dst.size
  dint : 4 * t.dst.layout.stride < 2 ^ 31
  dmem : 4 * t.dst.size ≤ 2 ^ 32
  bias : ∀ n, t.mp.bias = some n → channels t ≤ n ∧ 4 * n ≤ 2 ^ 32

/-- Calls as TrMul issues them: non-empty blocks of the packed matrices, and a kernel call only after the
columns it needs have been packed. -/
structure Ordered (t : Task A) (ops : List Op) : Prop where
  packs : ∀ s lo hi, Op.pack s lo hi ∈ ops → Simd.Flow.Block (cols s) (t.packed.get s).layout.cols lo hi
  kernels : ∀ start stop, Op.kernel start stop ∈ ops → ∀ s : Side,
    Simd.Flow.Block (cols s) (t.packed.get s).layout.cols (start.get s) (stop.get s)
  first : ∀ pre start stop post, ops = pre ++ Op.kernel start stop :: post → ∀ (s : Side) (c : Nat),
    start.get s ≤ c → c < stop.get s → c < (t.src.get s).layout.cols → Covered pre s c

end Ruy.Arm32.Flow

import Verif.Arm8.RowProps
import Verif.Arm8.ColProps
import Verif.Neon.FlowRun
/-
Multiplication of 8-bit matrices on 32-bit ARM (path kNeon): packing functions and kernels together, on bytes.

As `Neon/Flow.lean` for AArch64, with which the matrices, the parameters, the memory and the specification of an entry
(`stored`, `exact`, `output`, `place`) are shared.  Packed LHS matrices have four kernel columns, packed RHS matrices two
(kernel_arm.h:86-87); tuning makes no difference.  Registers and stack are arbitrary at the start of each `asm`
statement, so a call is a relation between memories.
-/
namespace Ruy.Arm8.Flow
open Ruy.Mat Ruy.Mul
open Ruy.Simd.Flow (Op Covered Written)
open Ruy.Neon (Dt byteOf Memory)
open Ruy.Neon.Flow (Source Target Dest Params Task Mach packCall rowCall sideMem putSide putKernel at' depth place channels)

/-- kernel_arm.h:86-87. -/
def cols : Side → Nat
  | .lhs => 4
  | .rhs => 2

def isLhs : Side → Bool
  | .lhs => true
  | .rhs => false

/-- pack.h:134-151 (`RunPack`) with `PackImpl` of pack_arm.h:140-219, 222-271 (column-major) and 575-609 (row-major): a call
for columns [lo, hi) can end with `r`. -/
def RunPack (t : Task) (s : Side) (lo hi : Nat) (m : Mach) (r : C Mach) : Prop :=
  if (t.src.get s).layout.order = .colMajor then
    ∃ x, Pack.Run (isLhs s) (packCall t false s) lo hi (sideMem m s) x ∧ r = x.map (putSide m s)
  else r = (Row.run (cols s) (rowCall t s) lo hi (sideMem m s)).map (putSide m s)

/-! ### RunKernel -/

/-- What MakeKernelParams8bit fills in. -/
def jobOf (t : Task) (m : Mach) (start stop : SidePair Nat) (lb rb db ds : Nat) (prod : Int) : Job :=
  { dt := t.dst.dt
    startRow := start.lhs
    startCol := start.rhs
    rowSteps := (stop.lhs - start.lhs) / 4 - 1
    colSteps := (stop.rhs - start.rhs) / 2 - 1
    depthSteps := t.packed.lhs.layout.rows / 16 - 1
    lhsBase := lb
    rhsBase := rb
    dstBase := (db + start.lhs) * t.dst.dt.size
    lhsStride := t.packed.lhs.layout.stride
    rhsStride := t.packed.rhs.layout.stride
    dstStride := ds
    dstRows := t.dst.layout.rows
    dstCols := t.dst.layout.cols
    lhsZp := t.packed.lhs.zp
    rhsZp := t.packed.rhs.zp
    dstZp := t.dst.zp
    prodZp := prod
    clampMin := t.mp.clampMin
    clampMax := t.mp.clampMax
    hasBias := t.mp.bias.isSome
    hasLhsSums := true
    hasRhsSums := true
    perChannel := t.mp.fixedBuf.isSome
    chanCol := decide (t.mp.chan = .col)
    size := fun r => match r with
      | .lhs => t.packed.lhs.size
      | .rhs => t.packed.rhs.size
      | .lhsSums => t.packed.lhs.sumsSize
      | .rhsSums => t.packed.rhs.sumsSize
      | .bias => t.mp.bias.getD 16
      | .mulFix => t.mp.fixedBuf.getD 16
      | .mulExp => if t.mp.fixedBuf.isSome then t.mp.exponentBuf.getD 0 else 16
      | .dst => t.dst.size
      | .tmp => 32
      | _ => 0
    m := fun r => match r with
      | .lhs => m.packed.lhs
      | .rhs => m.packed.rhs
      | .lhsSums => m.sums.lhs
      | .rhsSums => m.sums.rhs
      | .bias => if t.mp.bias.isSome then m.bias else fun _ => 0
      | .mulFix => if t.mp.fixedBuf.isSome then m.fixed else fun o => byteOf t.mp.fixed (o % 4)
      | .mulExp => if t.mp.fixedBuf.isSome then m.exponent else fun o => byteOf t.mp.exponent (o % 4)
      | .dst => m.dst
      | _ => fun _ => 0 }

/-- kernel_common.h:132-213 (`MakeKernelParams8bit`) with LhsCols = 4, RhsCols = 2.  Packed int8 matrices always have sums:
their type is int32 (create_trmul_params.h:57-69) and they are allocated with the data (prepare_packed_matrices.cc:91-92,
prepacked_cache.cc:33-36).  The kernels load the first block of depth 16 and compute the first block of rows and columns
without a test, so a call without depth, rows or columns is undefined. -/
def makeJob (t : Task) (m : Mach) (start stop : SidePair Nat) : C Job := do
  C.check (start.lhs % 4 = 0)
  C.check (start.rhs % 2 = 0)
  C.check (stop.lhs % 4 = 0)
  C.check (stop.rhs % 2 = 0)
  let lb ← C.int (start.lhs * t.packed.lhs.layout.stride)
  let rb ← C.int (start.rhs * t.packed.rhs.layout.stride)
  let ds ← C.int (t.dst.dt.size * t.dst.layout.stride)
  let p1 ← C.i32 (t.packed.lhs.zp * t.packed.rhs.zp)
  let prod ← C.i32 (p1 * t.packed.lhs.layout.rows)
  C.check (t.mp.fixedBuf.isSome → t.mp.exponentBuf.isSome)
  C.check (stop.lhs < t.dst.layout.rows + 4)
  C.check (stop.rhs < t.dst.layout.cols + 2)
  let db ← C.int (start.rhs * t.dst.layout.stride)
  if 0 < t.packed.lhs.layout.rows ∧ start.lhs < stop.lhs ∧ start.rhs < stop.rhs then
    .ok (jobOf t m start stop lb rb db ds prod)
  else .error .ub

/-- kernel_arm.h:90-103 (`Kernel::Run`): a call for a block can end with `r`.  A call that does not stop counts as
an error. -/
def RunKernel (t : Task) (start stop : SidePair Nat) (m : Mach) (r : C Mach) : Prop :=
  match makeJob t m start stop with
  | .error e => r = .error e
  | .ok j => ∃ s, j.Start s ∧
      ((∃ s', Stops j.env (One.chosen j) s s' ∧ r = if s'.bad then .error .ub else .ok (putKernel t m s'.m)) ∨
        (∀ s', ¬Stops j.env (One.chosen j) s s') ∧ r = .error .abort)

/-! ### Calls -/

def Step (t : Task) : Op → Mach → C Mach → Prop
  | .pack s lo hi, m, r => RunPack t s lo hi m r
  | .kernel start stop, m, r => RunKernel t start stop m r

/-- Calls one after another can end with `r`. -/
inductive Runs (t : Task) : List Op → Mach → C Mach → Prop
  | nil {m} : Runs t [] m (.ok m)
  | fault {o os m e} : Step t o m (.error e) → Runs t (o :: os) m (.error e)
  | next {o os m m' r} : Step t o m (.ok m') → Runs t os m' r → Runs t (o :: os) m r

/-- trmul.cc:335-356: the simple loop, no side prepacked. -/
def simpleOps (t : Task) : List Op :=
  [.pack .lhs 0 t.packed.lhs.layout.cols, .pack .rhs 0 t.packed.rhs.layout.cols,
    .kernel ⟨0, 0⟩ ⟨t.packed.lhs.layout.cols, t.packed.rhs.layout.cols⟩]

/-! ### What a call is given -/

/-- One side as CreatePackedLayout sets it up for `w` kernel columns: not empty, the packed matrix is large enough, buffers fit
the address space, offsets are ints, and the sums cannot overflow. -/
structure SideOk (w : Nat) (s : Source) (p : Target) : Prop where
  rows : 0 < s.layout.rows
  layout : createPackedLayout s.layout ⟨.colMajor, 16, w⟩ = .ok p.layout
  range : if s.unsigned then 0 ≤ s.zp ∧ s.zp ≤ 255 else -128 ≤ s.zp ∧ s.zp ≤ 127
  zp : p.zp = s.zp - if s.unsigned then 128 else 0
  depth : p.layout.rows < 2 ^ 24
  size : p.layout.stride * p.layout.cols ≤ p.size
  sums : 4 * p.layout.cols ≤ p.sumsSize
  memory : p.size ≤ 2 ^ 32 ∧ p.sumsSize ≤ 2 ^ 32
  int : p.layout.stride * p.layout.cols < 2 ^ 31
  source : ∀ k c, k < s.layout.rows → c < s.layout.cols → at' s.layout k c < s.size
  columns : s.layout.order = .colMajor → ∀ c, c < p.layout.cols → c % w = 0 → s.layout.stride * c < 2 ^ 31
  lines : s.layout.order = .rowMajor → ∀ k, k < p.layout.rows → s.layout.stride * k < 2 ^ 31

/-- A multiplication as Mul sets it up: packed matrices from CreatePackedLayout, a column-major destination,
per-channel buffers that cover the packed width (C29), int offsets, buffers in the address space. -/
structure TaskOk (t : Task) : Prop where
  side : ∀ s, SideOk (cols s) (t.src.get s) (t.packed.get s)
  depth : t.src.rhs.layout.rows = t.src.lhs.layout.rows
  drows : t.dst.layout.rows = t.src.lhs.layout.cols
  dcols : t.dst.layout.cols = t.src.rhs.layout.cols
  dstride : t.dst.layout.rows ≤ t.dst.layout.stride
  dsize : ∀ i j, i < t.dst.layout.rows → j < t.dst.layout.cols → place t i j + t.dst.dt.size ≤ t.dst.size
  dint : t.dst.dt.size * t.dst.layout.stride < 2 ^ 31 ∧ ∀ j, j < t.dst.layout.cols → j * t.dst.layout.stride < 2 ^ 31
  prod : -2 ^ 31 ≤ t.packed.lhs.zp * t.packed.rhs.zp * t.packed.lhs.layout.rows ∧
    t.packed.lhs.zp * t.packed.rhs.zp * t.packed.lhs.layout.rows < 2 ^ 31
  bias : ∀ n, t.mp.bias = some n → 4 * channels t ≤ n
  fixedBuf : ∀ n, t.mp.fixedBuf = some n → 4 * channels t ≤ n ∧ ∃ n', t.mp.exponentBuf = some n' ∧ 4 * channels t ≤ n'
  fixed : -2 ^ 31 ≤ t.mp.fixed ∧ t.mp.fixed < 2 ^ 31
  exponent : -2 ^ 31 ≤ t.mp.exponent ∧ t.mp.exponent < 2 ^ 31
  memory : t.dst.size ≤ 2 ^ 32 ∧ (∀ n, t.mp.bias = some n → n ≤ 2 ^ 32) ∧ (∀ n, t.mp.fixedBuf = some n → n ≤ 2 ^ 32) ∧
    ∀ n, t.mp.exponentBuf = some n → n ≤ 2 ^ 32

/-- Calls as TrMul issues them: non-empty blocks of the packed matrices, and a kernel call only after the
columns it needs have been packed. -/
structure Ordered (t : Task) (ops : List Op) : Prop where
  packs : ∀ s lo hi, Op.pack s lo hi ∈ ops → Simd.Flow.Block (cols s) (t.packed.get s).layout.cols lo hi
  kernels : ∀ start stop, Op.kernel start stop ∈ ops → ∀ s : Side,
    Simd.Flow.Block (cols s) (t.packed.get s).layout.cols (start.get s) (stop.get s)
  first : ∀ pre start stop post, ops = pre ++ Op.kernel start stop :: post → ∀ (s : Side) (c : Nat),
    start.get s ≤ c → c < stop.get s → c < (t.src.get s).layout.cols → Covered pre s c

end Ruy.Arm8.Flow

import Verif.Neon.DotColWhole
import Verif.Neon.DotTuning
import Verif.Neon.DotColProps
import Verif.Neon.DPackCall
import Verif.Neon.DRowCall
import Verif.Neon.Flow
/-
Multiplication of 8-bit matrices on the AArch64 path kNeonDotprod: packing functions and kernels together, on bytes.

As in `Neon.Flow`, TrMul calls RunPack (pack.h:134-151) and RunKernel (kernel.h, kernel_arm.h:106-131) on blocks of
columns and rows, each call with the tuning that its thread has found; the model runs a list of such calls one after
another.  Sources, packed matrices, destination, parameters and memory are those of `Neon.Flow`.
-/
namespace Ruy.Neon.DFlow
open Ruy.Mat Ruy.Mul
open Ruy.TrMul (setSide)
open Ruy.Simd.Flow (Op Covered Written)
open Ruy.Neon.Flow (Source Target Dest Params Task Mach sideMem putSide putKernel at' elem wordAt biasAt fixedAt exponentAt
  depth exact output place channels)
open Ruy.Tune (Tuning)

/-! ### RunPack -/

/-- The arguments of `PackImpl<…, kColMajor>::Run` (pack_arm.h:283-285). -/
def packCall (t : Task) (u : Tuning) (s : Side) : PackCall :=
  { a55 := decide (u = .a55ish)
    unsigned := (t.src.get s).unsigned
    rows := (t.src.get s).layout.rows
    cols := (t.src.get s).layout.cols
    stride := (t.src.get s).layout.stride
    zp := (t.src.get s).zp
    packedStride := (t.packed.get s).layout.stride
    hasSums := true
    size := fun r => match r with
      | .src => (t.src.get s).size
      | .packed => (t.packed.get s).size
      | .sums => (t.packed.get s).sumsSize
      | _ => 0 }

/-- The arguments of `PackImpl<…, kRowMajor>::Run` (pack_arm.h:506-508). -/
def rowCall (t : Task) (s : Side) : DRowCall :=
  { unsigned := (t.src.get s).unsigned
    rows := (t.src.get s).layout.rows
    cols := (t.src.get s).layout.cols
    stride := (t.src.get s).layout.stride
    zp := (t.src.get s).zp
    packedRows := (t.packed.get s).layout.rows
    packedStride := (t.packed.get s).layout.stride
    hasSums := true
    size := fun r => match r with
      | .src => (t.src.get s).size
      | .packed => (t.packed.get s).size
      | .sums => (t.packed.get s).sumsSize
      | _ => 0 }

/-- pack.h:134-151 (`RunPack`): a call for columns [lo, hi) can end with `r`. -/
def RunPack (t : Task) (u : Tuning) (s : Side) (lo hi : Nat) (m : Mach) (r : C Mach) : Prop :=
  if (t.src.get s).layout.order = .colMajor then
    ∃ x, DPack.Run (packCall t u s) lo hi (sideMem m s) x ∧ r = x.map (putSide m s)
  else ∃ x, (rowCall t s).Run lo hi (sideMem m s) x ∧ r = x.map (putSide m s)

/-! ### RunKernel -/

/-- kernel_common.h:132-213 (`MakeKernelParams8bit`) with LhsCols = RhsCols = 8.  The kernels load the first
block of depth 4 and compute the first block of rows and columns without a test, so a call without depth,
rows or columns is undefined. -/
def makeJob (t : Task) (m : Mach) (start stop : SidePair Nat) : C Job := do
  C.check (start.lhs % 8 = 0)
  C.check (start.rhs % 8 = 0)
  C.check (stop.lhs % 8 = 0)
  C.check (stop.rhs % 8 = 0)
  let lb ← C.int (start.lhs * t.packed.lhs.layout.stride)
  let rb ← C.int (start.rhs * t.packed.rhs.layout.stride)
  let ds ← C.int (t.dst.dt.size * t.dst.layout.stride)
  let p1 ← C.i32 (t.packed.lhs.zp * t.packed.rhs.zp)
  let prod ← C.i32 (p1 * t.packed.lhs.layout.rows)
  C.check (t.mp.fixedBuf.isSome → t.mp.exponentBuf.isSome)
  C.check (stop.lhs < t.dst.layout.rows + 8)
  C.check (stop.rhs < t.dst.layout.cols + 8)
  let db ← C.int (start.rhs * t.dst.layout.stride)
  if 0 < t.packed.lhs.layout.rows ∧ start.lhs < stop.lhs ∧ start.rhs < stop.rhs then
    .ok {
      dt := t.dst.dt
      startRow := start.lhs
      startCol := start.rhs
      rowSteps := (stop.lhs - start.lhs) / 8 - 1
      colSteps := (stop.rhs - start.rhs) / 8 - 1
      depthSteps := t.packed.lhs.layout.rows / 4 - 1
      lhsBase := lb
      rhsBase := rb
      dstBase := (db + start.lhs) * t.dst.dt.size
      lhsStride := t.packed.lhs.layout.stride
      rhsStride := t.packed.rhs.layout.stride
      dstStride := ds
      dstRows := t.dst.layout.rows
      dstCols := t.dst.layout.cols
      lhsZp := t.packed.lhs.zp
      rhsZp := t.packed.rhs.zp
      dstZp := t.dst.zp
      prodZp := prod
      clampMin := t.mp.clampMin
      clampMax := t.mp.clampMax
      hasBias := t.mp.bias.isSome
      perChannel := t.mp.fixedBuf.isSome
      chanCol := decide (t.mp.chan = .col)
      size := fun r => match r with
        | .lhs => t.packed.lhs.size
        | .rhs => t.packed.rhs.size
        | .lhsSums => t.packed.lhs.sumsSize
        | .rhsSums => t.packed.rhs.sumsSize
        | .bias => t.mp.bias.getD 32
        | .mulFix => t.mp.fixedBuf.getD 32
        | .mulExp => if t.mp.fixedBuf.isSome then t.mp.exponentBuf.getD 0 else 32
        | .dst => t.dst.size
        | .tmp => 256
        | _ => 0
      m := fun r => match r with
        | .lhs => m.packed.lhs
        | .rhs => m.packed.rhs
        | .lhsSums => m.sums.lhs
        | .rhsSums => m.sums.rhs
        | .bias => if t.mp.bias.isSome then m.bias else fun _ => 0
        | .mulFix => if t.mp.fixedBuf.isSome then m.fixed else fun o => byteOf t.mp.fixed (o % 4)
        | .mulExp => if t.mp.fixedBuf.isSome then m.exponent else fun o => byteOf t.mp.exponent (o % 4)
        | .dst => m.dst
        | _ => fun _ => 0 }
  else .error .ub

/-- kernel_arm.h:112-131 (`Kernel::Run`): a call for a block can end with `r`.  A call that does not stop counts as
an error. -/
def RunKernel (t : Task) (u : Tuning) (start stop : SidePair Nat) (m : Mach) (r : C Mach) : Prop :=
  match makeJob t m start stop with
  | .error e => r = .error e
  | .ok j => ∃ s, j.Start s ∧
      ((∃ s', Stops (Dot.env j) (Dot.dotKernelOf u j.dstCols j.chanCol) s s' ∧
          r = if s'.bad then .error .ub else .ok (putKernel t m s'.m)) ∨
        (∀ s', ¬Stops (Dot.env j) (Dot.dotKernelOf u j.dstCols j.chanCol) s s') ∧ r = .error .abort)

/-! ### Calls -/

/-- One call with its tuning. -/
def Step (t : Task) : Tuning × Op → Mach → C Mach → Prop
  | (u, .pack s lo hi), m, r => RunPack t u s lo hi m r
  | (u, .kernel start stop), m, r => RunKernel t u start stop m r

/-- Calls one after another can end with `r`. -/
inductive Runs (t : Task) : List (Tuning × Op) → Mach → C Mach → Prop
  | nil {m} : Runs t [] m (.ok m)
  | fault {o os m e} : Step t o m (.error e) → Runs t (o :: os) m (.error e)
  | next {o os m m' r} : Step t o m (.ok m') → Runs t os m' r → Runs t (o :: os) m r

/-- trmul.cc:337-356: the simple loop, no side prepacked. -/
def simpleOps (t : Task) (u : Tuning) : List (Tuning × Op) :=
  [(u, .pack .lhs 0 t.packed.lhs.layout.cols), (u, .pack .rhs 0 t.packed.rhs.layout.cols),
    (u, .kernel ⟨0, 0⟩ ⟨t.packed.lhs.layout.cols, t.packed.rhs.layout.cols⟩)]

/-! ### Specification -/

/-- What belongs in entry (i, j): the exact entry, as 32 bits, put through the output stage. -/
def stored (t : Task) (m : Mach) (i j : Nat) : Int := output t m i j (Simd.wrap32 (exact t m i j))

/-- Elements as int8, with the zero point below the last row. -/
def small (t : Task) (m : Mach) (s : Side) (k c : Nat) : Int :=
  (if k < depth t then elem t m s k c else (t.src.get s).zp) - (if (t.src.get s).unsigned then 128 else 0)

/-! ### What a call is given -/

/-- One side as CreatePackedLayout sets it up: not empty, the packed matrix is large enough, and offsets are
ints. -/
structure SideOk (s : Source) (p : Target) : Prop where
  rows : 0 < s.layout.rows
  layout : createPackedLayout s.layout ⟨.colMajor, 4, 8⟩ = .ok p.layout
  range : if s.unsigned then 0 ≤ s.zp ∧ s.zp ≤ 255 else -128 ≤ s.zp ∧ s.zp ≤ 127
  zp : p.zp = s.zp - if s.unsigned then 128 else 0
  size : p.layout.stride * p.layout.cols ≤ p.size
  sums : 4 * p.layout.cols ≤ p.sumsSize
  int : p.layout.stride * p.layout.cols < 2 ^ 31
  source : ∀ k c, k < s.layout.rows → c < s.layout.cols → at' s.layout k c < s.size
  columns : s.layout.order = .colMajor → ∀ c, c < p.layout.cols → s.layout.stride * c < 2 ^ 31
  lines : s.layout.order = .rowMajor → ∀ k, k < p.layout.rows → s.layout.stride * k < 2 ^ 31

/-- A multiplication as Mul sets it up: packed matrices from CreatePackedLayout, a column-major destination,
per-channel buffers that cover the packed width (C29), int offsets. -/
structure TaskOk (t : Task) : Prop where
  side : ∀ s, SideOk (t.src.get s) (t.packed.get s)
  depth : t.src.rhs.layout.rows = t.src.lhs.layout.rows
  drows : t.dst.layout.rows = t.src.lhs.layout.cols
  dcols : t.dst.layout.cols = t.src.rhs.layout.cols
  dstride : t.dst.layout.rows ≤ t.dst.layout.stride
  dsize : ∀ i j, i < t.dst.layout.rows → j < t.dst.layout.cols → place t i j + t.dst.dt.size ≤ t.dst.size
  dint : t.dst.dt.size * t.dst.layout.stride < 2 ^ 31 ∧ ∀ j, j < t.dst.layout.cols → j * t.dst.layout.stride < 2 ^ 31
  prod : -2 ^ 31 ≤ t.packed.lhs.zp * t.packed.rhs.zp * t.packed.lhs.layout.rows ∧
    t.packed.lhs.zp * t.packed.rhs.zp * t.packed.lhs.layout.rows < 2 ^ 31
  bias : ∀ n, t.mp.bias = some n → 4 * channels t ≤ n
  fixedBuf : ∀ n, t.mp.fixedBuf = some n → 4 * channels t ≤ n ∧ ∃ n', t.mp.exponentBuf = some n' ∧ 4 * channels t ≤ n'
  fixed : -2 ^ 31 ≤ t.mp.fixed ∧ t.mp.fixed < 2 ^ 31
  exponent : -2 ^ 31 ≤ t.mp.exponent ∧ t.mp.exponent < 2 ^ 31

/-- Calls as TrMul issues them: non-empty blocks of the packed matrices, and a kernel call only after the
columns it needs have been packed. -/
structure Ordered (t : Task) (ops : List Op) : Prop where
  packs : ∀ s lo hi, Op.pack s lo hi ∈ ops → Simd.Flow.Block 8 (t.packed.get s).layout.cols lo hi
  kernels : ∀ start stop, Op.kernel start stop ∈ ops → ∀ s : Side,
    Simd.Flow.Block 8 (t.packed.get s).layout.cols (start.get s) (stop.get s)
  first : ∀ pre start stop post, ops = pre ++ Op.kernel start stop :: post → ∀ (s : Side) (c : Nat),
    start.get s ≤ c → c < stop.get s → c < (t.src.get s).layout.cols → Covered pre s c

end Ruy.Neon.DFlow

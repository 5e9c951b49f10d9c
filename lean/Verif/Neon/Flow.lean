import Verif.Neon.ColCode
import Verif.Neon.A55Code
import Verif.Neon.PackCall
import Verif.Neon.RowCall
import Verif.Simd.FlowRun
/-
Multiplication of 8-bit matrices on the AArch64 path kNeon: packing functions and kernels together, on bytes.

TrMul calls RunPack (pack.h:134-151) and RunKernel (kernel.h, kernel_arm.h:61-79) on blocks of columns and
rows, each call with the tuning that its thread has found.  The model runs a list of such calls one after
another.  Every buffer is an array of bytes of its own; registers and stack are arbitrary at the start of each
`asm` statement, so a call is a relation between memories.
-/
namespace Ruy.Neon.Flow
open Ruy.Mat Ruy.Mul
open Ruy.TrMul (setSide)
open Ruy.Simd.Flow (Op Covered Written)

/-- A source matrix (mat.h:198-211, `Mat<Scalar>`) with the depth as rows: whether `Scalar` is uint8_t or int8_t, and
the size of the buffer. -/
structure Source where
  unsigned : Bool
  layout : MatLayout
  zp : Int
  size : Nat

/-- A packed matrix (mat.h:213-227, `PMat<std::int8_t>`): sizes in bytes of the buffers of data and sums. -/
structure Target where
  layout : PMatLayout
  zp : Int
  size : Nat
  sumsSize : Nat

/-- The destination, `Mat<DstScalar>`. -/
structure Dest where
  dt : Dt
  layout : MatLayout
  zp : Int
  size : Nat

/-- `MulParams<std::int32_t, DstScalar>` as reported by the getters (mul_params.h:104-192): sizes in bytes of the
buffers, `none` for a null pointer.  The getters of the multiplier give 0 and null for a destination of type
int32. -/
structure Params where
  bias : Option Nat
  fixed : Int
  exponent : Int
  fixedBuf : Option Nat
  exponentBuf : Option Nat
  chan : ChannelDim
  clampMin : Int
  clampMax : Int

/-- What stays constant. -/
structure Task where
  src : SidePair Source
  packed : SidePair Target
  dst : Dest
  mp : Params

/-- Memory. -/
structure Mach where
  src : SidePair (Nat → Byte)
  packed : SidePair (Nat → Byte)
  sums : SidePair (Nat → Byte)
  bias : Nat → Byte
  fixed : Nat → Byte
  exponent : Nat → Byte
  dst : Nat → Byte

/-! ### RunPack -/

/-- The arguments of `PackImpl<…, kColMajor>::Run` (pack_arm.h:153-155). -/
def packCall (t : Task) (a55 : Bool) (s : Side) : PackCall :=
  { a55 := a55
    unsigned := (t.src.get s).unsigned
    rows := (t.src.get s).layout.rows
    cols := (t.src.get s).layout.cols
    stride := (t.src.get s).layout.stride
    zp := (t.src.get s).zp
    packedStride := (t.packed.get s).layout.stride
    hasSums := true
    size := fun r => match r with
      | .src => (t.src.get s).size
      | .packed => (t.packed.get s).size
      | .sums => (t.packed.get s).sumsSize
      | _ => 0 }

/-- The arguments of `PackImpl<…, kRowMajor>::Run` (pack_arm.h:577-579). -/
def rowCall (t : Task) (s : Side) : RowCall :=
  { unsigned := (t.src.get s).unsigned
    rows := (t.src.get s).layout.rows
    cols := (t.src.get s).layout.cols
    stride := (t.src.get s).layout.stride
    packedZp := (t.packed.get s).zp
    packedRows := (t.packed.get s).layout.rows
    packedStride := (t.packed.get s).layout.stride
    hasSums := true
    size := fun r => match r with
      | .src => (t.src.get s).size
      | .packed => (t.packed.get s).size
      | .sums => (t.packed.get s).sumsSize
      | _ => 0 }

/-- The buffers of one side. -/
def sideMem (m : Mach) (s : Side) : Memory
  | .src => m.src.get s
  | .packed => m.packed.get s
  | .sums => m.sums.get s
  | _ => fun _ => 0

def putSide (m : Mach) (s : Side) (x : Memory) : Mach :=
  { m with
    src := setSide m.src s (x .src)
    packed := setSide m.packed s (x .packed)
    sums := setSide m.sums s (x .sums) }

/-- pack.h:134-151 (`RunPack`): a call for columns [lo, hi) can end with `r`. -/
def RunPack (t : Task) (a55 : Bool) (s : Side) (lo hi : Nat) (m : Mach) (r : C Mach) : Prop :=
  if (t.src.get s).layout.order = .colMajor then
    ∃ x, (packCall t a55 s).Run lo hi (sideMem m s) x ∧ r = x.map (putSide m s)
  else r = ((rowCall t s).run lo hi (sideMem m s)).map (putSide m s)

/-! ### RunKernel -/

/-- kernel_common.h:132-213 (`MakeKernelParams8bit`) with LhsCols = RhsCols = 4.  The kernels load the first
block of depth 16 and compute the first block of rows and columns without a test, so a call without depth,
rows or columns is undefined. -/
def makeJob (t : Task) (m : Mach) (start stop : SidePair Nat) : C Job := do
  C.check (start.lhs % 4 = 0)
  C.check (start.rhs % 4 = 0)
  C.check (stop.lhs % 4 = 0)
  C.check (stop.rhs % 4 = 0)
  let lb ← C.int (start.lhs * t.packed.lhs.layout.stride)
  let rb ← C.int (start.rhs * t.packed.rhs.layout.stride)
  let ds ← C.int (t.dst.dt.size * t.dst.layout.stride)
  let p1 ← C.i32 (t.packed.lhs.zp * t.packed.rhs.zp)
  let prod ← C.i32 (p1 * t.packed.lhs.layout.rows)
  C.check (t.mp.fixedBuf.isSome → t.mp.exponentBuf.isSome)
  C.check (stop.lhs < t.dst.layout.rows + 4)
  C.check (stop.rhs < t.dst.layout.cols + 4)
  let db ← C.int (start.rhs * t.dst.layout.stride)
  if 0 < t.packed.lhs.layout.rows ∧ start.lhs < stop.lhs ∧ start.rhs < stop.rhs then
    .ok {
      dt := t.dst.dt
      startRow := start.lhs
      startCol := start.rhs
      rowSteps := (stop.lhs - start.lhs) / 4 - 1
      colSteps := (stop.rhs - start.rhs) / 4 - 1
      depthSteps := t.packed.lhs.layout.rows / 16 - 1
      lhsBase := lb
      rhsBase := rb
      dstBase := (db + start.lhs) * t.dst.dt.size
      lhsStride := t.packed.lhs.layout.stride
      rhsStride := t.packed.rhs.layout.stride
      dstStride := ds
      dstRows := t.dst.layout.rows
      dstCols := t.dst.layout.cols
      lhsZp := t.packed.lhs.zp
      rhsZp := t.packed.rhs.zp
      dstZp := t.dst.zp
      prodZp := prod
      clampMin := t.mp.clampMin
      clampMax := t.mp.clampMax
      hasBias := t.mp.bias.isSome
      perChannel := t.mp.fixedBuf.isSome
      chanCol := decide (t.mp.chan = .col)
      size := fun r => match r with
        | .lhs => t.packed.lhs.size
        | .rhs => t.packed.rhs.size
        | .lhsSums => t.packed.lhs.sumsSize
        | .rhsSums => t.packed.rhs.sumsSize
        | .bias => t.mp.bias.getD 16
        | .mulFix => t.mp.fixedBuf.getD 16
        | .mulExp => if t.mp.fixedBuf.isSome then t.mp.exponentBuf.getD 0 else 16
        | .dst => t.dst.size
        | .tmp => 64
        | _ => 0
      m := fun r => match r with
        | .lhs => m.packed.lhs
        | .rhs => m.packed.rhs
        | .lhsSums => m.sums.lhs
        | .rhsSums => m.sums.rhs
        | .bias => if t.mp.bias.isSome then m.bias else fun _ => 0
        | .mulFix => if t.mp.fixedBuf.isSome then m.fixed else fun o => byteOf t.mp.fixed (o % 4)
        | .mulExp => if t.mp.fixedBuf.isSome then m.exponent else fun o => byteOf t.mp.exponent (o % 4)
        | .dst => m.dst
        | _ => fun _ => 0 }
  else .error .ub

/-- kernel_arm.h:68-77: the kernel that is called, by number of columns of the destination, channel
dimension and tuning (`true`: kA55ish). -/
def kernelOf (a55ish : Bool) (dstCols : Nat) (chanCol : Bool) : List Block :=
  if dstCols = 1 ∧ chanCol = false then colCode else if a55ish then a55Code else gemmCode

/-- Memory after a kernel. -/
def putKernel (t : Task) (m : Mach) (x : Memory) : Mach :=
  { m with
    packed := ⟨x .lhs, x .rhs⟩
    sums := ⟨x .lhsSums, x .rhsSums⟩
    bias := if t.mp.bias.isSome then x .bias else m.bias
    fixed := if t.mp.fixedBuf.isSome then x .mulFix else m.fixed
    exponent := if t.mp.fixedBuf.isSome then x .mulExp else m.exponent
    dst := x .dst }

/-- kernel_arm.h:62-78 (`Kernel::Run`): a call for a block can end with `r`.  A call that does not stop counts as
an error. -/
def RunKernel (t : Task) (a55 : Bool) (start stop : SidePair Nat) (m : Mach) (r : C Mach) : Prop :=
  match makeJob t m start stop with
  | .error e => r = .error e
  | .ok j => ∃ s, j.Start s ∧
      ((∃ s', Stops j.env (kernelOf a55 j.dstCols j.chanCol) s s' ∧
          r = if s'.bad then .error .ub else .ok (putKernel t m s'.m)) ∨
        (∀ s', ¬Stops j.env (kernelOf a55 j.dstCols j.chanCol) s s') ∧ r = .error .abort)

/-! ### Calls -/

/-- One call with its tuning. -/
def Step (t : Task) : Bool × Op → Mach → C Mach → Prop
  | (a55, .pack s lo hi), m, r => RunPack t a55 s lo hi m r
  | (a55, .kernel start stop), m, r => RunKernel t a55 start stop m r

/-- Calls one after another can end with `r`. -/
inductive Runs (t : Task) : List (Bool × Op) → Mach → C Mach → Prop
  | nil {m} : Runs t [] m (.ok m)
  | fault {o os m e} : Step t o m (.error e) → Runs t (o :: os) m (.error e)
  | next {o os m m' r} : Step t o m (.ok m') → Runs t os m' r → Runs t (o :: os) m r

/-- trmul.cc:337-356: the simple loop, no side prepacked. -/
def simpleOps (t : Task) (a55 : Bool) : List (Bool × Op) :=
  [(a55, .pack .lhs 0 t.packed.lhs.layout.cols), (a55, .pack .rhs 0 t.packed.rhs.layout.cols),
    (a55, .kernel ⟨0, 0⟩ ⟨t.packed.lhs.layout.cols, t.packed.rhs.layout.cols⟩)]

/-! ### Specification -/

/-- Where element (k, c) of a matrix is. -/
def at' (l : MatLayout) (k c : Nat) : Nat :=
  match l.order with
  | .colMajor => l.stride * c + k
  | .rowMajor => l.stride * k + c

/-- The element in row `k` (depth) and column `c` of a source. -/
def elem (t : Task) (m : Mach) (s : Side) (k c : Nat) : Int :=
  let b := m.src.get s (at' (t.src.get s).layout k c)
  if (t.src.get s).unsigned then (b.toNat : Int) else b.toInt

/-- An int32 array. -/
def wordAt (f : Nat → Byte) (i : Nat) : Int := Simd.wrap32 (le4 f (4 * i))

def biasAt (t : Task) (m : Mach) (ch : Nat) : Int := if t.mp.bias.isSome then wordAt m.bias ch else 0
def fixedAt (t : Task) (m : Mach) (ch : Nat) : Int := if t.mp.fixedBuf.isSome then wordAt m.fixed ch else t.mp.fixed
def exponentAt (t : Task) (m : Mach) (ch : Nat) : Int :=
  if t.mp.fixedBuf.isSome then wordAt m.exponent ch else t.mp.exponent

def depth (t : Task) : Nat := t.src.lhs.layout.rows

/-- The mathematical entry (i, j): bias plus inner product of the offset sources. -/
def exact (t : Task) (m : Mach) (i j : Nat) : Int :=
  biasAt t m (channelOf t.mp.chan i j) +
    ∑ k ∈ Finset.range (depth t),
      (elem t m .lhs k i - t.src.lhs.zp) * (elem t m .rhs k j - t.src.rhs.zp)

/-- The entry that belongs to accumulator `x`. -/
def output (t : Task) (m : Mach) (i j : Nat) (x : Int) : Int :=
  let ch := channelOf t.mp.chan i j
  let y := Simd.Neon.apply x (fixedAt t m ch) (exponentAt t m ch)
  match t.dst.dt with
  | .u8 => Simd.Neon.storeU8 y t.dst.zp t.mp.clampMin t.mp.clampMax
  | .i8 => Simd.Neon.storeS8 y t.dst.zp t.mp.clampMin t.mp.clampMax
  | .i16 => Simd.Neon.storeS16 y t.dst.zp t.mp.clampMin t.mp.clampMax
  | .i32 => x

/-- Groups of 16 depths. -/
def groups (t : Task) : Nat := (depth t + 15) / 16

/-- Elements as int8, with the zero point below the last row. -/
def small (t : Task) (m : Mach) (s : Side) (k c : Nat) : Int :=
  (if k < depth t then elem t m s k c else (t.src.get s).zp) - (if (t.src.get s).unsigned then 128 else 0)

/-- The sum of the products at depths `k` and `k + 8`. -/
def twoProducts (t : Task) (m : Mach) (i j k : Nat) : Int :=
  small t m .lhs k i * small t m .rhs k j + small t m .lhs (k + 8) i * small t m .rhs (k + 8) j

/-- How much the accumulator of entry (i, j) loses because the sums of two products are kept in 16 bits. -/
def lost (t : Task) (m : Mach) (i j : Nat) : Int :=
  ∑ g ∈ Finset.range (groups t), ∑ k ∈ Finset.range 8,
    (twoProducts t m i j (16 * g + k) - Simd.wrap16 (twoProducts t m i j (16 * g + k)))

/-- What the code stores in entry (i, j). -/
def stored (t : Task) (m : Mach) (i j : Nat) : Int :=
  output t m i j (Simd.wrap32 (exact t m i j - lost t m i j))

/-- Row `i` of the LHS and column `j` of the RHS do not both have the smallest value at two depths `k` and `k + 8`
in a group of 16. -/
def NoPair (t : Task) (m : Mach) (i j : Nat) : Prop :=
  ∀ k, k % 16 < 8 → k < depth t →
    ¬(small t m .lhs k i = -128 ∧ small t m .rhs k j = -128 ∧ small t m .lhs (k + 8) i = -128 ∧ small t m .rhs (k + 8) j = -128)

/-- Address of entry (i, j). -/
def place (t : Task) (i j : Nat) : Nat := (j * t.dst.layout.stride + i) * t.dst.dt.size

/-! ### What a call is given -/

/-- One side as CreatePackedLayout sets it up: not empty, the packed matrix is large enough, offsets are ints, and
the sums cannot overflow. -/
structure SideOk (s : Source) (p : Target) : Prop where
  rows : 0 < s.layout.rows
  layout : createPackedLayout s.layout ⟨.colMajor, 16, 4⟩ = .ok p.layout
  range : if s.unsigned then 0 ≤ s.zp ∧ s.zp ≤ 255 else -128 ≤ s.zp ∧ s.zp ≤ 127
  zp : p.zp = s.zp - if s.unsigned then 128 else 0
  depth : p.layout.rows < 2 ^ 24
  size : p.layout.stride * p.layout.cols ≤ p.size
  sums : 4 * p.layout.cols ≤ p.sumsSize
  int : p.layout.stride * p.layout.cols < 2 ^ 31
  source : ∀ k c, k < s.layout.rows → c < s.layout.cols → at' s.layout k c < s.size
  columns : s.layout.order = .colMajor → ∀ c, c < p.layout.cols → s.layout.stride * c < 2 ^ 31
  lines : s.layout.order = .rowMajor → ∀ k, k < p.layout.rows → s.layout.stride * k < 2 ^ 31

/-- Channels up to the end of the packed matrix. -/
def channels (t : Task) : Nat :=
  match t.mp.chan with
  | .row => t.packed.lhs.layout.cols
  | .col => t.packed.rhs.layout.cols

/-- A multiplication as Mul sets it up: packed matrices from CreatePackedLayout, a column-major destination,
per-channel buffers that cover the packed width (C29), int offsets. -/
structure TaskOk (t : Task) : Prop where
  side : ∀ s, SideOk (t.src.get s) (t.packed.get s)
  depth : t.src.rhs.layout.rows = t.src.lhs.layout.rows
  drows : t.dst.layout.rows = t.src.lhs.layout.cols
  dcols : t.dst.layout.cols = t.src.rhs.layout.cols
  dstride : t.dst.layout.rows ≤ t.dst.layout.stride
  dsize : ∀ i j, i < t.dst.layout.rows → j < t.dst.layout.cols → place t i j + t.dst.dt.size ≤ t.dst.size
  dint : t.dst.dt.size * t.dst.layout.stride < 2 ^ 31 ∧ ∀ j, j < t.dst.layout.cols → j * t.dst.layout.stride < 2 ^ 31
  prod : -2 ^ 31 ≤ t.packed.lhs.zp * t.packed.rhs.zp * t.packed.lhs.layout.rows ∧
    t.packed.lhs.zp * t.packed.rhs.zp * t.packed.lhs.layout.rows < 2 ^ 31
  bias : ∀ n, t.mp.bias = some n → 4 * channels t ≤ n
  fixedBuf : ∀ n, t.mp.fixedBuf = some n → 4 * channels t ≤ n ∧ ∃ n', t.mp.exponentBuf = some n' ∧ 4 * channels t ≤ n'
  fixed : -2 ^ 31 ≤ t.mp.fixed ∧ t.mp.fixed < 2 ^ 31
  exponent : -2 ^ 31 ≤ t.mp.exponent ∧ t.mp.exponent < 2 ^ 31

/-- Calls as TrMul issues them: non-empty blocks of the packed matrices, and a kernel call only after the
columns it needs have been packed. -/
structure Ordered (t : Task) (ops : List Op) : Prop where
  packs : ∀ s lo hi, Op.pack s lo hi ∈ ops → Simd.Flow.Block 4 (t.packed.get s).layout.cols lo hi
  kernels : ∀ start stop, Op.kernel start stop ∈ ops → ∀ s : Side,
    Simd.Flow.Block 4 (t.packed.get s).layout.cols (start.get s) (stop.get s)
  first : ∀ pre start stop post, ops = pre ++ Op.kernel start stop :: post → ∀ (s : Side) (c : Nat),
    start.get s ≤ c → c < stop.get s → c < (t.src.get s).layout.cols → Covered pre s c

end Ruy.Neon.Flow

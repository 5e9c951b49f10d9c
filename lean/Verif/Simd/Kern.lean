import Verif.Simd.KernIsa
/-
The 8-bit x86 kernels:
  kernel_common.h:116-208 (MakeKernelParams8bit), kernel_x86.h:42-60 and the analogues for AVX2 and
  AVX (Kernel::Run), kernel_avx2_fma.cc:102-725, kernel_avx.cc:442-1190, kernel_avx512.cc:55-630.

Pointers are offsets into the buffers, in elements.  The flags are Booleans and options; the pointer
`zero_data`, used without a bias, is not accessed by these kernels.  A conversion of a stride to int
that changes its value is treated as undefined.
-/
namespace Ruy.Simd.Kern
open Ruy.Mat Ruy.Mul
open Ruy.Front (ScalarType MulParams Quant)

/-- kernel_common.h:79-114 (`KernelParams8bit`).  `rhsSize`, `dstSize` are sizes of elements; strides
are in elements. -/
structure KParams where
  bias : Option (Buf Int)
  lhsSums : Option (Buf Int)
  rhsSums : Option (Buf Int)
  lhs : Buf Int
  rhs : Buf Int
  lhsBase : Nat
  rhsBase : Nat
  dstBase : Nat
  fixed : Buf Int
  exponent : Buf Int
  perChannel : Bool
  channelCol : Bool
  lhsZp : Int
  rhsZp : Int
  dstZp : Int
  prodZpDepth : Int
  startRow : Nat
  startCol : Nat
  endRow : Nat
  endCol : Nat
  dstRows : Nat
  dstCols : Nat
  lhsStride : Nat
  rhsStride : Nat
  dstStride : Nat
  depth : Nat
  clampMin : Int
  clampMax : Int
  dstType : ScalarType
  rhsSize : Nat

/-- sizeof. -/
def sizeOf : ScalarType → Nat
  | .int8 | .uint8 => 1
  | .int16 => 2
  | _ => 4

/-- kernel_common.h:168-184: the buffers of multipliers and exponents, and whether they are per
channel. -/
def quantBuffers (kc : Nat) (q : Option Quant) : C (Buf Int × Buf Int × Bool) :=
  match q with
  | none => .ok (⟨kc, set1 0⟩, ⟨kc, set1 0⟩, false)
  | some q =>
    match q.fixedPerChannel, q.exponentPerChannel with
    | some f, some e => .ok (f, e, true)
    | some _, none => .error .abort
    | none, _ => .ok (⟨kc, set1 q.fixed⟩, ⟨kc, set1 q.exponent⟩, false)

/-- kernel_common.h:116-208 with LhsCols = RhsCols = kc; `rt`, `dt` are the types of RHS and
destination elements. -/
def makeParams (kc : Nat) (rt dt : ScalarType) (lhs rhs : PMat Int) (mp : MulParams Int)
    (start stop : SidePair Nat) (dst : Mul.Mat Int) : C KParams := do
  C.check (start.lhs % kc = 0)
  C.check (start.rhs % kc = 0)
  C.check (stop.lhs % kc = 0)
  C.check (stop.rhs % kc = 0)
  let lb ← C.int (start.lhs * lhs.layout.stride)
  let rb ← C.int (start.rhs * rhs.layout.stride)
  let _ ← C.int (sizeOf rt * rhs.layout.stride)
  let _ ← C.int (sizeOf dt * dst.layout.stride)
  let p1 ← C.i32 (lhs.zp * rhs.zp)
  let prod ← C.i32 (p1 * lhs.layout.rows)
  let q ← quantBuffers kc mp.quant
  C.check (stop.lhs < dst.layout.rows + kc)
  C.check (stop.rhs < dst.layout.cols + kc)
  let db ← C.int (start.rhs * dst.layout.stride)
  .ok {
    bias := mp.bias, lhsSums := lhs.sums, rhsSums := rhs.sums, lhs := lhs.data, rhs := rhs.data,
    lhsBase := lb, rhsBase := rb, dstBase := db + start.lhs, fixed := q.1, exponent := q.2.1,
    perChannel := q.2.2, channelCol := decide (mp.channelDim = .col), lhsZp := lhs.zp,
    rhsZp := rhs.zp, dstZp := dst.zp, prodZpDepth := prod, startRow := start.lhs,
    startCol := start.rhs, endRow := stop.lhs, endCol := stop.rhs, dstRows := dst.layout.rows,
    dstCols := dst.layout.cols, lhsStride := lhs.layout.stride, rhsStride := rhs.layout.stride,
    dstStride := dst.layout.stride, depth := lhs.layout.rows, clampMin := mp.clampMin,
    clampMax := mp.clampMax, dstType := dt, rhsSize := sizeOf rt }

/-- kernel_avx2_fma.cc:141-150: `rhs_sums_offsets`, or none if `has_rhs_sums_offsets` is false. -/
def rhsOffsets (isa : Isa) (k : KParams) (col : Nat) : C (Option Reg) :=
  match k.rhsSums with
  | none => .ok none
  | some s =>
    if k.lhsZp = 0 then .ok none
    else do
      let v ← loadu isa.kc s col
      .ok (some (isa.mullo (set1 k.lhsZp) v))

/-- kernel_avx2_fma.cc:180-187: adding the bias of the rows. -/
def addRowBias (isa : Isa) (k : KParams) (row : Nat) (a : Reg) : C Reg :=
  match k.bias with
  | none => .ok a
  | some b =>
    if k.channelCol then .ok a
    else do
      let v ← loadu isa.kc b row
      .ok (isa.add a v)

/-- kernel_avx2_fma.cc:190-198. -/
def subLhsSums (isa : Isa) (k : KParams) (row : Nat) (a : Reg) : C Reg :=
  match k.lhsSums with
  | none => .ok a
  | some s =>
    if k.rhsZp = 0 then .ok a
    else do
      let v ← loadu isa.kc s row
      .ok (isa.sub a (isa.mullo (set1 k.rhsZp) v))

/-- kernel_avx2_fma.cc:201-227. -/
def subOffsets (isa : Isa) (offs : Option Reg) (a : Reg) : Nat → Reg :=
  match offs with
  | none => fun _ => a
  | some o => fun j => isa.sub a (set1 (o j))

/-- kernel_avx2_fma.cc:230-258: adding the bias of the columns. -/
def addColBias (isa : Isa) (k : KParams) (col : Nat) (a : Nat → Reg) : C (Nat → Reg) :=
  match k.bias with
  | none => .ok a
  | some b =>
    if k.channelCol then do
      let v ← loadu isa.kc b col
      .ok (fun j => isa.add (a j) (isa.bcast v j))
    else .ok a

/-- kernel_avx2_fma.cc:177-258: the accumulators before the depth loop. -/
def initial (isa : Isa) (k : KParams) (offs : Option Reg) (row col : Nat) : C (Nat → Reg) := do
  let a ← addRowBias isa k row (set1 k.prodZpDepth)
  let a ← subLhsSums isa k row a
  addColBias isa k col (subOffsets isa offs a)

/-- kernel_avx2_fma.cc:262-353: one iteration of the depth loop; all RHS elements of 16 bits are
used as they are. -/
def depthStep (isa : Isa) (k : KParams) (lp rp n : Nat) (acc : Nat → Reg) : C (Nat → Reg) := do
  let l ← loadu (4 * isa.kc) k.lhs (lp + 4 * isa.kc * n)
  let r ← loadu (4 * isa.kc) k.rhs (rp + 4 * isa.kc * n)
  let r16 := if k.rhsSize = 1 then isa.expand r else r
  .ok (fun j => isa.mac (acc j) (isa.lhsLow l) (isa.lhsHigh l) (isa.dupLow r16 j) (isa.dupHigh r16 j))

/-- kernel_avx2_fma.cc:355-528: multiplier and zero point; `multiplier_channel` of lines 154-157. -/
def scaleBlock (isa : Isa) (k : KParams) (row col : Nat) (acc : Nat → Reg) : C (Nat → Reg) :=
  if k.dstType = .int32 then .ok acc
  else do
    let channel := if k.channelCol then col else row
    let mc := if k.perChannel then channel else 0
    let m ← loadu isa.kc k.fixed mc
    let e ← loadu isa.kc k.exponent mc
    .ok (isa.mult (k.perChannel && k.channelCol) m e k.dstZp acc)

/-- kernel_avx2_fma.cc:529-530, 555-572: clamping, not for int32. -/
def clampReg (isa : Isa) (k : KParams) (v : Reg) : Reg :=
  if k.dstType = .int32 then v else isa.max (isa.min v (set1 k.clampMax)) (set1 k.clampMin)

/-- The offset of a column of the block: in a full block (and with AVX-512 always) an int product. -/
def colOffset (isa : Isa) (k : KParams) (full : Bool) (j : Nat) : C Nat :=
  if full = true ∨ isa.kc = 16 then C.int (j * k.dstStride) else .ok (j * k.dstStride)

/-- kernel_avx2_fma.cc:532-715: one column of the block. -/
def storeCol (isa : Isa) (k : KParams) (full : Bool) (dp rows : Nat) (acc : Nat → Reg) (j : Nat)
    (b : Buf Int) : C (Buf Int) := do
  let o ← colOffset isa k full j
  isa.store k.dstType full b (dp + o) rows (clampReg isa k (acc j))

/-- kernel_avx2_fma.cc:152-716: one block. -/
def block (isa : Isa) (k : KParams) (offs : Option Reg) (row col lp rp dp : Nat) (b : Buf Int) :
    C (Buf Int) := do
  let rows := min (k.dstRows - row) isa.kc
  let cols := min (k.dstCols - col) isa.kc
  let acc ← initial isa k offs row col
  let acc ← forUpTo ((k.depth + 3) / 4) (depthStep isa k lp rp) acc
  let acc ← scaleBlock isa k row col acc
  let full := decide (rows = isa.kc ∧ cols = isa.kc)
  forUpTo cols (storeCol isa k full dp rows acc) b

/-- kernel_avx2_fma.cc:152-718: one iteration of the row loop, with the increment of `lhs_col_ptr`. -/
def rowStep (isa : Isa) (k : KParams) (offs : Option Reg) (col rp dp m : Nat) (b : Buf Int) :
    C (Buf Int) := do
  let b ← block isa k offs (k.startRow + isa.kc * m) col (k.lhsBase + m * (isa.kc * k.lhsStride)) rp
    (dp + isa.kc * m) b
  let _ ← C.int (isa.kc * k.lhsStride)
  .ok b

/-- kernel_avx2_fma.cc:136-725: one iteration of the column loop, with the increments of the
pointers, which are computed in bytes. -/
def colStep (isa : Isa) (k : KParams) (n : Nat) (b : Buf Int) : C (Buf Int) := do
  let col := k.startCol + isa.kc * n
  let offs ← rhsOffsets isa k col
  let b ← forUpTo ((k.endRow - k.startRow) / isa.kc) (rowStep isa k offs col
    (k.rhsBase + n * (isa.kc * k.rhsStride)) (k.dstBase + n * (isa.kc * k.dstStride))) b
  let _ ← C.int (isa.kc * (sizeOf k.dstType * k.dstStride))
  let _ ← C.int (isa.kc * (k.rhsSize * k.rhsStride))
  .ok b

/-- kernel_avx2_fma.cc:102-725: the loop conditions `col <= last_col` with
`last_col = end_col - kc` amount to this number of iterations. -/
def kernel (isa : Isa) (k : KParams) (b : Buf Int) : C (Buf Int) :=
  forUpTo ((k.endCol - k.startCol) / isa.kc) (colStep isa k) b

/-- Kernel::Run (kernel_x86.h:42-60, 100-118, 197-215) for other than single-column destinations. -/
def run (isa : Isa) (rt dt : ScalarType) (lhs rhs : PMat Int) (mp : MulParams Int)
    (start stop : SidePair Nat) (dst : Mul.Mat Int) : C (Mul.Mat Int) := do
  let k ← makeParams isa.kc rt dt lhs rhs mp start stop dst
  let b ← kernel isa k dst.data
  .ok { dst with data := b }

end Ruy.Simd.Kern

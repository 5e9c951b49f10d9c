import Verif.Simd.Kern
/-
The kernels for a destination of one column:
  Kernel8bitAvx2SingleColImpl   kernel_avx2_fma.cc:740-1017
  Kernel8bitAvxSingleColImpl    kernel_avx.cc:1170-1460
  Kernel8bitAvx512SingleCol     kernel_avx512.cc:628-871
and the choice among the kernels (kernel_x86.h:42-60, 66-84, 114-134, 140-158, 214-232).

The multiplier is applied by the same instructions as in the other kernels.
-/
namespace Ruy.Simd.Kern
open Ruy.Mat Ruy.Mul
open Ruy.Front (ScalarType MulParams)

/-- What distinguishes the single-column kernels. -/
structure Single where
  isa : Isa
  /-- bytes of the RHS loaded at a time -/
  rhsLoad : Nat
  /-- accum += lhs_low * dup_low; accum += lhs_high * dup_high -/
  mac : Reg → Reg → Reg → Reg → Reg → Reg
  /-- whether the pointers are advanced after the loop -/
  advance : Bool

def single2 : Single := ⟨avx2, 4, avx2.mac, true⟩

/-- kernel_avx.cc:1293-1300 with `mm256_add_epi32`, `mm256_madd_epi16` (62-73, 220-229). -/
def singleAvx : Single :=
  ⟨avx, 4, fun acc l h dl dh =>
    let madd (a b : Reg) : Reg := join 4 (madd16 (ext 8 a 1) (ext 8 b 1)) (madd16 (ext 8 a 0) (ext 8 b 0))
    Avx.halves 4 (map2 add32) (Avx.halves 4 (map2 add32) acc (madd l dl)) (madd h dh), true⟩

def single512 : Single := ⟨avx512, 16, avx512.mac, false⟩

/-- kernel_avx2_fma.cc:758-767, 800-803: `bias_ptr`; without bias it points to `zero_data`
(kernel_common.h:125, 153). -/
def singleBias (isa : Isa) (k : KParams) (m : Nat) : C Reg :=
  match k.bias with
  | none => .ok (set1 0)
  | some b => loadu isa.kc b (k.startRow + m * isa.kc)

/-- kernel_avx2_fma.cc:815-820. -/
def addProduct (isa : Isa) (k : KParams) (a : Reg) : Reg :=
  if k.prodZpDepth ≠ 0 then isa.add a (set1 k.prodZpDepth) else a

/-- kernel_avx2_fma.cc:822-828: `rhs_sums_offsets[0]`. -/
def subFirst (isa : Isa) (offs : Option Reg) (a : Reg) : Reg :=
  match offs with
  | none => a
  | some o => isa.sub a (set1 (o 0))

/-- kernel_avx2_fma.cc:832-885: one iteration of the depth loop; `rhs_data[0]` and `rhs_data[1]` are
two 16-bit elements each. -/
def singleStep (s : Single) (k : KParams) (lp rp n : Nat) (acc : Reg) : C Reg := do
  let l ← loadu (4 * s.isa.kc) k.lhs (lp + 4 * s.isa.kc * n)
  let r ← loadu (if k.rhsSize = 1 then s.rhsLoad else 4) k.rhs (rp + 4 * s.isa.kc * n)
  .ok (s.mac acc (s.isa.lhsLow l) (s.isa.lhsHigh l) (fun i => r (i % 2)) (fun i => r (2 + i % 2)))

/-- kernel_avx2_fma.cc:887-976. -/
def singleScale (isa : Isa) (k : KParams) (row : Nat) (acc : Reg) : C Reg :=
  if k.dstType = .int32 then .ok acc
  else do
    let channel := if k.perChannel then row else 0
    let m ← loadu isa.kc k.fixed channel
    let e ← loadu isa.kc k.exponent channel
    .ok (isa.mult false m e k.dstZp (fun _ => acc) 0)

/-- kernel_avx2_fma.cc:786-1011: one iteration of the row loop. -/
def singleRow (s : Single) (k : KParams) (offs : Option Reg) (m : Nat) (b : Buf Int) : C (Buf Int) := do
  let row := k.startRow + s.isa.kc * m
  let rows := min (k.dstRows - row) s.isa.kc
  let a ← singleBias s.isa k m
  let a ← subLhsSums s.isa k row a
  let a := subFirst s.isa offs (addProduct s.isa k a)
  let a ← forUpTo ((k.depth + 3) / 4) (singleStep s k (k.lhsBase + m * (s.isa.kc * k.lhsStride)) k.rhsBase) a
  let a ← singleScale s.isa k row a
  let b ← s.isa.store k.dstType false b (k.dstBase + s.isa.kc * m) rows (clampReg s.isa k a)
  let _ ← C.int (s.isa.kc * k.lhsStride)
  .ok b

/-- kernel_avx2_fma.cc:1013-1016. -/
def advance (s : Single) (k : KParams) : C Unit :=
  if s.advance = true then do
    let _ ← C.int (s.isa.kc * (sizeOf k.dstType * k.dstStride))
    let _ ← C.int (s.isa.kc * (k.rhsSize * k.rhsStride))
    .ok ()
  else .ok ()

/-- kernel_avx2_fma.cc:740-1017; `last_col = end_col - kc`. -/
def singleKernel (s : Single) (k : KParams) (b : Buf Int) : C (Buf Int) := do
  C.check (k.dstCols = 1)
  C.check (k.endCol = s.isa.kc)
  C.check (k.startCol = 0)
  let offs ← rhsOffsets s.isa k 0
  let b ← forUpTo ((k.endRow - k.startRow) / s.isa.kc) (singleRow s k offs) b
  let _ ← advance s k
  .ok b

/-- kernel_x86.h:52-58: the kernel called. -/
def choose (s : Single) (k : KParams) (one : Bool) (b : Buf Int) : C (Buf Int) :=
  if one = true then singleKernel s k b else kernel s.isa k b

/-- Kernel::Run (kernel_x86.h:42-60, 66-84, 114-134, 140-158, 214-232). -/
def runAll (s : Single) (rt dt : ScalarType) (lhs rhs : PMat Int) (mp : MulParams Int)
    (start stop : SidePair Nat) (dst : Mul.Mat Int) : C (Mul.Mat Int) := do
  let k ← makeParams s.isa.kc rt dt lhs rhs mp start stop dst
  let b ← choose s k (decide (dst.layout.cols = 1 ∧ mp.channelDim = .row)) dst.data
  .ok { dst with data := b }

end Ruy.Simd.Kern

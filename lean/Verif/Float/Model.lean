import Verif.Front.Lemmas
import Mathlib.Data.Rat.Defs
/-
Floating point: what the generic packing does to floats (pack_common.h:36-58), the memcpy-based
packing of row-major float sources (pack_common.h:101-141), and a model of IEEE-754 style
arithmetics in which the rounding function, the sign of exact zero sums and the propagation of NaN
payloads are parameters.

Simplification: zero points of float matrices are the literal 0 (validate.h:33-38 checks that they
compare equal to 0; the bit pattern of -0.0f is not distinguished).
-/
namespace Ruy.Float
open Ruy.Mat Ruy.Mul Ruy.Front

variable {A : Type}

/-- The operations of a floating-point type: no operation faults. -/
structure Ops (A : Type) where
  zero : A
  add : A → A → A
  sub : A → A → A
  mul : A → A → A
  lt : A → A → Bool
  /-- conversion of a (non-zero) int -/
  conv : Int → A

/-- The accumulator arithmetic of a floating-point type. -/
def Ops.arith (f : Ops A) : Arith A where
  zero := f.zero
  add x y := .ok (f.add x y)
  sub x y := .ok (f.sub x y)
  mul x y := .ok (f.mul x y)
  lt := f.lt
  ofInt n := if n = 0 then f.zero else f.conv n

/-- pack_common.h:55-58: `x - SymmetricZeroPoint<float>() + SymmetricZeroPoint<float>()`. -/
def Ops.pack (f : Ops A) (x : A) : A := f.add (f.sub x f.zero) f.zero

/-- Mul of float matrices.  DstScalar = AccumScalar = float, so there is no multiplier
(apply_multiplier.h:41-53) and the final conversion is the identity. -/
def floatScalars (f : Ops A) (isZero : A → Bool) : Scalars A where
  ar := f.arith
  ty := ⟨.float, .float⟩
  dstTy := .float
  pack := ⟨f.pack, f.pack⟩
  packZp := ⟨fun z => z, fun z => z⟩
  cast := fun x => x
  multiply := fun x _ _ => .ok x
  isZero := isZero

/-! ### memcpy-based packing -/

/-- `memcpy(dst + d, src + s, n * sizeof(float))`. -/
def memcpy (n : Nat) (src : Buf A) (s : Nat) (dst : Buf A) (d : Nat) : C (Buf A) :=
  forUpTo n (fun i b => do
    let x ← src.read (s + i)
    b.write (d + i) x) dst

/-- `memset(dst + d, 0, n * sizeof(float))`: the all-zero bit pattern is the float 0. -/
def memset (z : A) (n : Nat) (dst : Buf A) (d : Nat) : C (Buf A) :=
  forUpTo n (fun i b => b.write (d + i) z) dst

/-- pack_common.h:129-133: the rest of a row that is not a whole kernel width. -/
def memcpyTail (z : A) (kcols remaining : Nat) (src : Buf A) (s : Nat) (dst : Buf A) (d : Nat) :
    C (Buf A) :=
  if 0 < remaining then do
    let b ← memcpy remaining src s dst d
    memset z (kcols - remaining) b (d + remaining)
  else .ok dst

/-- pack_common.h:114-134: one iteration of the row loop; the state is packed_matrix->data.
The loop `for (col = 0; col <= src_cols - KernelCols; col += KernelCols)` makes
`src_cols / KernelCols` iterations; in iteration `i` the pointers have advanced by
`i * KernelCols * stride` and `i * KernelCols`. -/
def memcpyRow (z : A) (kcols : Nat) (src : Mul.Mat A) (l : PMatLayout) (startCol endCol row : Nat)
    (dst : Buf A) : C (Buf A) := do
  let s0 ← C.int (src.layout.stride * row)
  let d0 ← C.int (l.stride * startCol)
  let d1 ← C.int (kcols * row)
  let step ← C.int (kcols * l.stride)
  let srcCols := min endCol src.layout.cols - startCol
  let s := s0 + startCol
  let d := d0 + d1
  let b ← forUpTo (srcCols / kcols) (fun i b =>
    memcpy kcols src.data (s + i * kcols) b (d + i * step)) dst
  let n := srcCols / kcols
  memcpyTail z kcols (srcCols - n * kcols) src.data (s + n * kcols) b (d + n * step)

/-- pack_common.h:103-135 (`MemcpyRowMajorFloatPackImpl<ThePath, KernelCols>::Run`). -/
def memcpyPack (z : A) (kcols : Nat) (src : Mul.Mat A) (startCol endCol : Nat) (p : PMat A) :
    C (PMat A) := do
  C.check (src.layout.order = .rowMajor)
  C.check (p.layout.order = .colMajor)
  C.check (startCol % kcols = 0)
  let d ← forUpTo src.layout.rows (memcpyRow z kcols src p.layout startCol endCol) p.data
  .ok { p with data := d }

/-! ### IEEE-754 style arithmetic -/

/-- Floating-point values; `fin q` for non-zero finite numbers. -/
inductive Fl where
  | nan (payload : Nat)
  | inf (neg : Bool)
  | zero (neg : Bool)
  | fin (q : ℚ)
  deriving DecidableEq

/-- What varies between floating-point environments. -/
structure Env where
  /-- rounding of a non-zero exact result (may overflow, underflow or be flushed to zero) -/
  rnd : ℚ → Fl
  /-- the sign of an exact zero sum of values that are not zeros of the same sign: negative exactly
  when rounding towards minus infinity -/
  zsum : Bool
  /-- payload of the result of an operation with one NaN operand -/
  nan1 : Nat → Nat
  /-- payload of the result of an operation with two NaN operands -/
  nan2 : Nat → Nat → Nat
  /-- payload of the NaN produced by an invalid operation -/
  dnan : Nat

def Fl.neg : Fl → Fl
  | .nan p => .nan p
  | .inf s => .inf (!s)
  | .zero s => .zero (!s)
  | .fin q => .fin (-q)

def Env.add (e : Env) : Fl → Fl → Fl
  | .nan p, .nan q => .nan (e.nan2 p q)
  | .nan p, _ => .nan (e.nan1 p)
  | _, .nan q => .nan (e.nan1 q)
  | .inf s, .inf t => if s = t then .inf s else .nan e.dnan
  | .inf s, _ => .inf s
  | _, .inf t => .inf t
  | .zero s, .zero t => if s = t then .zero s else .zero e.zsum
  | .zero _, .fin q => e.rnd q
  | .fin q, .zero _ => e.rnd q
  | .fin p, .fin q => if p + q = 0 then .zero e.zsum else e.rnd (p + q)

def Env.mul (e : Env) : Fl → Fl → Fl
  | .nan p, .nan q => .nan (e.nan2 p q)
  | .nan p, _ => .nan (e.nan1 p)
  | _, .nan q => .nan (e.nan1 q)
  | .inf s, .inf t => .inf (s ^^ t)
  | .inf _, .zero _ => .nan e.dnan
  | .zero _, .inf _ => .nan e.dnan
  | .inf s, .fin q => .inf (s ^^ decide (q < 0))
  | .fin q, .inf s => .inf (s ^^ decide (q < 0))
  | .zero s, .zero t => .zero (s ^^ t)
  | .zero s, .fin q => .zero (s ^^ decide (q < 0))
  | .fin q, .zero s => .zero (s ^^ decide (q < 0))
  | .fin p, .fin q => e.rnd (p * q)

/-- `operator<`: false if an operand is a NaN; zeros compare equal. -/
def Fl.lt : Fl → Fl → Bool
  | .nan _, _ => false
  | _, .nan _ => false
  | .inf s, .inf t => s && !t
  | .inf s, _ => s
  | _, .inf t => !t
  | .zero _, .zero _ => false
  | .zero _, .fin q => decide (0 < q)
  | .fin q, .zero _ => decide (q < 0)
  | .fin p, .fin q => decide (p < q)

/-- The operations of an environment. -/
def Env.ops (e : Env) : Ops Fl where
  zero := .zero false
  add := e.add
  sub x y := e.add x y.neg
  mul := e.mul
  lt := Fl.lt
  conv n := e.rnd n

end Ruy.Float

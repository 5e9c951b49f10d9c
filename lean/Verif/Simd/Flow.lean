import Verif.Simd.Row
import Verif.Simd.KernSingle
import Verif.TrMul.Model
/-
Multiplication of 8-bit matrices on the x86 paths: packing and kernels together.

TrMul calls RunPack (trmul_params.h:63-65) and RunKernel (trmul_params.h:66-69) on blocks of columns
and rows.  The model runs a list of such calls, one after another.
-/
namespace Ruy.Simd.Flow
open Ruy.Mat Ruy.Mul
open Ruy.Front (ScalarType MulParams)
open Ruy.TrMul (Mem setSide)

/-- The pack functions and the kernels of a path. -/
structure Path where
  kernel : Kern.Single
  packCol : ScalarType → Mul.Mat Int → Nat → Nat → PMat Int → C (PMat Int)
  packRow : ScalarType → Mul.Mat Int → Nat → Nat → PMat Int → C (PMat Int)

/-- Path::kAvx2Fma, kAvx and kAvx512. -/
def path2 : Path := ⟨Kern.single2, Pack.avx2, Row.run Row.avx2⟩
def pathAvx : Path := ⟨Kern.singleAvx, Pack.avx, Row.run Row.avx⟩
def path512 : Path := ⟨Kern.single512, Pack.avx512, Row.run Row.avx512⟩

/-- pack.h:134-151 (`RunPack`). -/
def packSide (P : Path) (t : ScalarType) (src : Mul.Mat Int) (lo hi : Nat) (p : PMat Int) : C (PMat Int) :=
  if src.layout.order = .colMajor then P.packCol t src lo hi p else P.packRow t src lo hi p

/-- A call of RunPack for columns [lo, hi) of one side, or of RunKernel for a block. -/
inductive Op where
  | pack (s : Side) (lo hi : Nat)
  | kernel (start stop : SidePair Nat)

/-- What stays constant: source types, destination type, sources and MulParams. -/
structure Job where
  ty : SidePair ScalarType
  dt : ScalarType
  src : SidePair (Mul.Mat Int)
  mp : MulParams Int

/-- One call.  Packed elements are of type int8. -/
def step (P : Path) (jb : Job) (m : Mem Int) : Op → C (Mem Int)
  | .pack s lo hi => do
    let p ← packSide P (jb.ty.get s) (jb.src.get s) lo hi (m.packed.get s)
    .ok { m with packed := setSide m.packed s p }
  | .kernel start stop => do
    let d ← Kern.runAll P.kernel .int8 jb.dt m.packed.lhs m.packed.rhs jb.mp start stop m.dst
    .ok { m with dst := d }

/-- Calls one after another. -/
def runOps (P : Path) (jb : Job) : List Op → Mem Int → C (Mem Int)
  | [], m => .ok m
  | o :: os, m => do
    let m' ← step P jb m o
    runOps P jb os m'

/-- trmul.cc:337-356: the simple loop, no side prepacked. -/
def simpleLoop (P : Path) (jb : Job) (m : Mem Int) : C (Mem Int) :=
  runOps P jb [.pack .lhs 0 m.packed.lhs.layout.cols, .pack .rhs 0 m.packed.rhs.layout.cols,
    .kernel ⟨0, 0⟩ ⟨m.packed.lhs.layout.cols, m.packed.rhs.layout.cols⟩] m

end Ruy.Simd.Flow

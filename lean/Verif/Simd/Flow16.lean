import Verif.Simd.Flow
import Verif.Simd.Pack16
/-
Multiplication of an 8-bit LHS by an int16 RHS on AVX2 and AVX-512: packing and kernels together.

The kernels are the 8-bit ones with `rhs_scalar_size` 2 (kernel_x86.h:62-86, kernel_x86.h:136-159).  Calls are those of `Simd/Flow.lean`.
-/
namespace Ruy.Simd.Flow16
open Ruy.Mat Ruy.Mul
open Ruy.Front (ScalarType MulParams)
open Ruy.TrMul (Mem setSide)
open Ruy.Simd.Flow (Op Job Path path2 path512 packSide)

/-- The path of the LHS and of the kernel, and whether column-major int16 sources are packed by SIMD code. -/
structure Path16 where
  path : Path
  simd : Bool

/-- kernel_x86.h:136-159; pack_x86.h has no int16 specialisation for AVX2. -/
def avx2 : Path16 := ⟨path2, false⟩
/-- kernel_x86.h:62-86, pack_x86.h:281-320. -/
def avx512 : Path16 := ⟨path512, true⟩

/-- Width of the kernel. -/
abbrev Path16.kc (P : Path16) : Nat := P.path.kernel.isa.kc

/-- pack.h:134-151 for an int16 source: on AVX-512 column-major sources go to PackImpl of pack_x86.h:281-320, otherwise
there is no specialisation, and the general PackImpl (pack.h:104-132) is used, with int32 sums. -/
def packRhs (P : Path16) (src : Mul.Mat Int) (lo hi : Nat) (p : PMat Int) : C (PMat Int) :=
  if P.simd = true ∧ src.layout.order = .colMajor then Pack16.run src lo hi p
  else runPack Arith.int32 (Front.packInt .int16 .int16) src lo hi p

/-- One call.  Packed elements are of type int8 on the left, int16 on the right. -/
def step (P : Path16) (jb : Job) (m : Mem Int) : Op → C (Mem Int)
  | .pack .lhs lo hi => do
    let p ← packSide P.path jb.ty.lhs jb.src.lhs lo hi m.packed.lhs
    .ok { m with packed := setSide m.packed .lhs p }
  | .pack .rhs lo hi => do
    let p ← packRhs P jb.src.rhs lo hi m.packed.rhs
    .ok { m with packed := setSide m.packed .rhs p }
  | .kernel start stop => do
    let d ← Kern.runAll P.path.kernel .int16 jb.dt m.packed.lhs m.packed.rhs jb.mp start stop m.dst
    .ok { m with dst := d }

/-- Calls one after another. -/
def runOps (P : Path16) (jb : Job) : List Op → Mem Int → C (Mem Int)
  | [], m => .ok m
  | o :: os, m => do
    let m' ← step P jb m o
    runOps P jb os m'

/-- trmul.cc:337-356: the simple loop, no side prepacked. -/
def simpleLoop (P : Path16) (jb : Job) (m : Mem Int) : C (Mem Int) :=
  runOps P jb [.pack .lhs 0 m.packed.lhs.layout.cols, .pack .rhs 0 m.packed.rhs.layout.cols,
    .kernel ⟨0, 0⟩ ⟨m.packed.lhs.layout.cols, m.packed.rhs.layout.cols⟩] m

end Ruy.Simd.Flow16

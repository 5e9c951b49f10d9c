import Verif.Base.Fault
/-
Model of ScopedSuppressDenormals (denormal.h:24-50, denormal.cc:36-120) and of where it is used:
TrMul (trmul.cc:309-333; the packing of cached matrices happens before,
prepare_packed_matrices.cc:79-82, frontend.cc:25-35) and worker threads (thread_pool.cc:141-155).

The floating-point control register is 64 bits wide; on 32-bit registers the upper half is zero.
Floating-point instructions do not change control bits; they may change the status bits that live in
the same register (MXCSR bits 0-5; FPSCR bits 0-4, 7, 27-31; none in FPCR).
-/
namespace Ruy.Fpu

/-- What the preprocessor decides in denormal.cc. -/
inductive Platform where
  | x86
  | arm32
  | arm64
  | other
  deriving DecidableEq, Repr

abbrev Reg := BitVec 64

/-- Status bits in the register (not decided by ruy). -/
def Platform.status : Platform → Reg
  | .x86 => 0x3f#64
  | .arm32 => 0xf800009f#64
  | .arm64 => 0#64
  | .other => 0xffffffff#64

/-- denormal.cc:36-53; the fields are 32 bits wide on x86 and 32-bit ARM, and there is none on other
platforms. -/
def getState (pl : Platform) (r : Reg) : Reg :=
  match pl with
  | .x86 | .arm32 => (r.setWidth 32).setWidth 64
  | .arm64 => r
  | .other => 0#64

/-- denormal.cc:55-71: the new value of a register that holds `r`. -/
def setState (pl : Platform) (state r : Reg) : Reg :=
  match pl with
  | .x86 | .arm32 => (state.setWidth 32).setWidth 64
  | .arm64 => state
  | .other => r

/-- denormal.cc:73-112.  The two ORR instructions on 64-bit ARM operate on W registers, which
clears the upper half. -/
def disableDenormals (pl : Platform) (r : Reg) : Reg :=
  match pl with
  | .x86 => (r.setWidth 32 ||| 0x8040#32).setWidth 64
  | .arm32 => (r.setWidth 32 ||| 0x1000000#32).setWidth 64
  | .arm64 => ((r.setWidth 32 ||| 0x1000000#32) ||| 0x80000#32).setWidth 64
  | .other => r

/-- What a thread executes, as far as the register is concerned. -/
inductive Code where
  | skip
  /-- a floating-point instruction that leaves the status bits of `v` -/
  | float (v : Reg)
  | seq (a b : Code)
  /-- `{ ScopedSuppressDenormals s; a }` (denormal.cc:115-120) -/
  | scope (a : Code)

/-- The register after executing code, and its values at the floating-point instructions executed. -/
def exec (pl : Platform) : Code → Reg → Reg × List Reg
  | .skip, r => (r, [])
  | .float v, r => ((r &&& ~~~ pl.status) ||| (v &&& pl.status), [r])
  | .seq a b, r =>
    let x := exec pl a r
    let y := exec pl b x.1
    (y.1, x.2 ++ y.2)
  | .scope a, r =>
    let restore := getState pl r
    let x := exec pl a (disableDenormals pl r)
    (setState pl restore x.1, x.2)

/-- Mul on the calling thread (frontend.cc:25-35): packing of cached matrices, then TrMul. -/
def mulMain (packCached body : Code) : Code := .seq packCached (.scope body)

/-- A worker thread (thread_pool.cc:141-155) that runs the given tasks. -/
def worker (tasks : List Code) : Code := .scope (tasks.foldr .seq .skip)

end Ruy.Fpu

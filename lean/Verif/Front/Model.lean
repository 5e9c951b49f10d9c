import Verif.TrMul.Props
import Verif.Multiplier.Model
/-
Model of the front-end: ruy.h:36-48, frontend.h:45-95, frontend.cc:25-35, validate.h:33-83,
create_trmul_params.h:42-480, prepare_packed_matrices.cc:70-95 (matrices that are not cached),
pack_common.h:36-58, apply_multiplier.h:55-79.

The path is any path whose kernel and packing functions are the generic ones (kStandardCpp and the
internal variants), described by its two kernel layouts and its packed types.
Memory for packed matrices comes with arbitrary contents; allocation failure is not modelled here
(see Verif/Alloc).  Clearing of performance advisories is modelled in Verif/Ctx.
-/
namespace Ruy.Front
open Ruy.Mat Ruy.Mul

/-- The scalar types of matrices. -/
inductive ScalarType where
  | float
  | uint8
  | int8
  | int16
  | int32
  deriving DecidableEq, Repr

/-- std::numeric_limits<T>::lowest() of the integer types. -/
def ScalarType.lo : ScalarType → Int
  | .float => 0
  | .uint8 => 0
  | .int8 => -128
  | .int16 => -32768
  | .int32 => -2 ^ 31

/-- std::numeric_limits<T>::max() of the integer types. -/
def ScalarType.hi : ScalarType → Int
  | .float => 0
  | .uint8 => 255
  | .int8 => 127
  | .int16 => 32767
  | .int32 => 2 ^ 31 - 1

/-- pack_common.h:36-45 (`SymmetricZeroPoint`). -/
def ScalarType.symmetricZeroPoint : ScalarType → Int
  | .uint8 => 128
  | _ => 0

/-- Conversion of an int to an integer type (modular). -/
def ScalarType.wrap (t : ScalarType) (x : Int) : Int := (x - t.lo) % (t.hi - t.lo + 1) + t.lo

/-- The template arguments of Mul and what depends on them.  `pack` and `packZp` are
`Pack<PackedScalar, Scalar>` (pack_common.h:55-58) for the LHS and the RHS type. -/
structure Scalars (A : Type) where
  ar : Arith A
  ty : SidePair ScalarType
  dstTy : ScalarType
  pack : SidePair (A → A)
  packZp : SidePair (Int → Int)
  /-- static_cast<DstScalar> -/
  cast : A → A
  /-- MultiplyByQuantizedMultiplier (not called for floating point) -/
  multiply : A → Int → Int → C A
  isZero : A → Bool

/-- Mul with LhsScalar and RhsScalar exchanged. -/
def Scalars.swap {A : Type} (sc : Scalars A) : Scalars A :=
  { sc with ty := ⟨sc.ty.rhs, sc.ty.lhs⟩, pack := ⟨sc.pack.rhs, sc.pack.lhs⟩,
            packZp := ⟨sc.packZp.rhs, sc.packZp.lhs⟩ }

/-- pack_common.h:55-58 for integer types. -/
def packInt (src packed : ScalarType) (x : Int) : Int :=
  packed.wrap (x - src.symmetricZeroPoint + packed.symmetricZeroPoint)

/-- Integer multiplication: source types `ty`, packed types `packed`, destination type `dst`. -/
def intScalars (ar : Arith Int) (ty packed : SidePair ScalarType) (dst : ScalarType) :
    Scalars Int where
  ar := ar
  ty := ty
  dstTy := dst
  pack := ⟨packInt ty.lhs packed.lhs, packInt ty.rhs packed.rhs⟩
  packZp := ⟨packInt ty.lhs packed.lhs, packInt ty.rhs packed.rhs⟩
  cast := dst.wrap
  multiply := Multiplier.multiplyByQuantizedMultiplier
  isZero := (· == 0)

/-- The multiplier part of MulParams as reported by the getters (mul_params.h:109-150):
`some` only for int32 accumulators with a narrower destination. -/
structure Quant where
  fixed : Int
  exponent : Int
  fixedPerChannel : Option (Buf Int)
  exponentPerChannel : Option (Buf Int)

/-- MulParams as reported by the getters (mul_params.h:104-192). -/
structure MulParams (A : Type) where
  bias : Option (Buf A)
  quant : Option Quant
  channelDim : ChannelDim
  capacityRounding : Nat
  clampMin : A
  clampMax : A

variable {A : Type}

/-- `ptr ? ptr[channel] : value` (apply_multiplier.h:71-76). -/
def perChannel (b : Option (Buf Int)) (value : Int) (channel : Nat) : C Int :=
  match b with
  | some b => b.read channel
  | none => .ok value

/-- apply_multiplier.h:55-79. -/
def applyMultiplier (sc : Scalars A) (q : Option Quant) (channel : Nat) (acc : A) : C A :=
  match q with
  | none => .ok acc
  | some q => do
    let m ← perChannel q.fixedPerChannel q.fixed channel
    let e ← perChannel q.exponentPerChannel q.exponent channel
    sc.multiply acc m e

/-- What the kernel (and ReferenceMul) reads of MulParams. -/
def kernelParams (sc : Scalars A) (mp : MulParams A) : Mul.Params A where
  bias := mp.bias
  channelDim := mp.channelDim
  scale := applyMultiplier sc mp.quant
  clampMin := mp.clampMin
  clampMax := mp.clampMax
  cast := sc.cast

/-! ### Validation -/

/-- validate.h:33-38. -/
def checkZeroPoint (t : ScalarType) (zp : Int) : C Unit :=
  if t = .float then C.check (zp = 0) else .ok ()

/-- validate.h:40-83. -/
def validate (l r d : ScalarType) (lzp rzp dzp : Int) : C Unit := do
  checkZeroPoint l lzp
  checkZeroPoint r rzp
  checkZeroPoint d dzp
  C.check ((l = .int16 ∨ r = .int16) → lzp = 0 ∧ rzp = 0 ∧ dzp = 0)
  -- lowest() of floating-point types is not 0, so those pass
  C.check (¬ (l = .uint8 ∧ r = .uint8) →
    ¬ (l ≠ .float ∧ lzp = l.lo) ∨ ¬ (r ≠ .float ∧ rzp = r.lo))

/-! ### Per-channel buffers -/

/-- create_trmul_params.h:250-274 for one buffer. -/
def assertZeroTail {α : Type} (isZero : α → Bool) (b : Option (Buf α)) (userSize userCapacity : Nat) :
    C Unit :=
  match b with
  | none => .ok ()
  | some b => forRange userSize userCapacity (fun i _ => do
      let x ← b.read i
      C.check (isZero x = true)) ()

/-- create_trmul_params.h:294-302 (and 303-319, 338-346): memcpy of the user's values followed by
memset of the rest. -/
def growBuffer {α : Type} (zero : α) (b : Option (Buf α)) (userSize required : Nat) :
    C (Option (Buf α)) :=
  match b with
  | none => .ok none
  | some b => do
    C.require (userSize ≤ b.size)
    .ok (some ⟨required, fun i => if i < userSize then b.val i else zero⟩)

/-- create_trmul_params.h:276-321. -/
def growQuant (q : Option Quant) (userSize required : Nat) : C (Option Quant) :=
  match q with
  | none => .ok none
  | some q => do
    let f ← growBuffer 0 q.fixedPerChannel userSize required
    let e ← growBuffer 0 q.exponentPerChannel userSize required
    .ok (some { q with fixedPerChannel := f, exponentPerChannel := e })

/-- create_trmul_params.h:264-268, multiplier buffers. -/
def assertQuantTail (q : Option Quant) (userSize userCapacity : Nat) : C Unit :=
  match q with
  | none => .ok ()
  | some q => do
    assertZeroTail (· == 0) q.fixedPerChannel userSize userCapacity
    assertZeroTail (· == 0) q.exponentPerChannel userSize userCapacity

/-- create_trmul_params.h:350-373; also returns whether the performance advisory
kReallocatedPerChannelBuffer is raised.  `required` is the packed, `userSize` the source width of
the channel side. -/
def ensureBuffers (sc : Scalars A) (mp : MulParams A) (userSize required : Nat) :
    C (MulParams A × Bool) := do
  let userCapacity ← SizeUtil.nRoundUpPot userSize mp.capacityRounding
  assertZeroTail sc.isZero mp.bias userSize userCapacity
  assertQuantTail mp.quant userSize userCapacity
  if required ≤ userCapacity then .ok (mp, false)
  else do
    let b ← growBuffer sc.ar.zero mp.bias userSize required
    let q ← growQuant mp.quant userSize required
    .ok ({ mp with bias := b, quant := q }, true)

/-! ### Creating TrMulParams -/

/-- Initial contents of the memory allocated for a packed matrix. -/
structure Junk (A : Type) where
  data : SidePair (Nat → A)
  sums : SidePair (Nat → A)

/-- create_trmul_params.h:54-72 and prepare_packed_matrices.cc:87-92: a packed matrix with freshly
allocated buffers (Allocate returns null for size zero). -/
def newPacked (packZp : Int → Int) (k : KernelLayout) (src : Mul.Mat A) (data sums : Nat → A) :
    C (PMat A) := do
  let l ← createPackedLayout src.layout k
  C.check (pflatSize l ≠ 0)
  C.check (l.cols ≠ 0)
  .ok ⟨l, ⟨pflatSize l, data⟩, some ⟨l.cols, sums⟩, packZp src.zp⟩

/-- create_trmul_params.h:286-288, 357-361: the side along which channels run. -/
def channelSide : ChannelDim → Side
  | .row => .lhs
  | .col => .rhs

/-- create_trmul_params.h:405-442 + prepare_packed_matrices.cc:70-95 without caching. -/
def createColMajor (sc : Scalars A) (kern : SidePair KernelLayout) (lhs rhs dst : Mul.Mat A)
    (mp : MulParams A) (ch : ChannelDim) (junk : Junk A) :
    C (TrMul.Params A × TrMul.Mem A × Bool) := do
  C.check (dst.layout.order = .colMajor)
  let pl ← newPacked sc.packZp.lhs kern.lhs lhs junk.data.lhs junk.sums.lhs
  let pr ← newPacked sc.packZp.rhs kern.rhs rhs junk.data.rhs junk.sums.rhs
  let packed : SidePair (PMat A) := ⟨pl, pr⟩
  let src : SidePair (Mul.Mat A) := ⟨lhs, rhs⟩
  let e ← ensureBuffers sc { mp with channelDim := ch } (src.get (channelSide ch)).layout.cols
    (packed.get (channelSide ch)).layout.cols
  .ok (⟨sc.ar, kernelParams sc e.1, src, sc.pack, ⟨false, false⟩⟩, ⟨packed, dst⟩, e.2)

/-- create_trmul_params.h:465-480; `lhs` is already transposed. -/
def createTrMulParams (sc : Scalars A) (kern : SidePair KernelLayout) (lhs rhs dst : Mul.Mat A)
    (mp : MulParams A) (junk : Junk A) : C (TrMul.Params A × TrMul.Mem A × Bool) :=
  if dst.layout.order = .colMajor then createColMajor sc kern lhs rhs dst mp mp.channelDim junk
  else createColMajor sc.swap kern rhs lhs dst.transpose mp mp.channelDim.transpose junk

/-- frontend.h:47-71. -/
def frontEnd (sc : Scalars A) (kern : SidePair KernelLayout) (lhs rhs dst : Mul.Mat A)
    (mp : MulParams A) (junk : Junk A) : C (TrMul.Params A × TrMul.Mem A × Bool) := do
  validate sc.ty.lhs sc.ty.rhs sc.dstTy lhs.zp rhs.zp dst.zp
  createTrMulParams sc kern lhs.transpose rhs dst mp junk

/-- The destination as the user sees it: for a row-major destination, TrMul worked on its
transpose, which shares the data. -/
def userView (dst : Mul.Mat A) (d : Mul.Mat A) : Mul.Mat A :=
  if dst.layout.order = .colMajor then d else d.transpose

/-- `d` is a destination that ruy::Mul (ruy.h:36-48, frontend.h:80-95) may end with: for some
contents of fresh memory, and any way of running TrMul. -/
def Mul (sc : Scalars A) (kern : SidePair KernelLayout) (lhs rhs dst : Mul.Mat A)
    (mp : MulParams A) (d : Mul.Mat A) : Prop :=
  ∃ junk tp m adv d', frontEnd sc kern lhs rhs dst mp junk = .ok (tp, m, adv) ∧
    TrMul.Outcome tp m d' ∧ d = userView dst d'

/-- reference_mul.h:27-52. -/
def referenceMul (sc : Scalars A) (lhs rhs dst : Mul.Mat A) (mp : MulParams A) : C (Mul.Mat A) :=
  Mul.referenceMul sc.ar (kernelParams sc mp) lhs rhs dst

end Ruy.Front

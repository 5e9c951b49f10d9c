import Verif.Front.Model
/-
Model of MulParams<std::int32_t, DstScalar> with a narrow DstScalar: mul_params.h:97-214 and the
storage in mul_params.h:241-271.  For the other specialisations the multiplier fields are constants
and their setters do not compile (mul_params.h:231-238, 286-296).

`debug` says whether RUY_DCHECK is active.  Pointers are `Option P`, null being `none`; `P` is any
type of buffers.
-/
namespace Ruy.Params
open Ruy.Mul

variable {P : Type}

/-- RUY_DCHECK (check_macros.h). -/
def dcheck (debug : Bool) (p : Prop) [Decidable p] : C Unit := if debug then C.check p else .ok ()

/-- mul_params.h:249-270. -/
structure Storage (P : Type) where
  bias : Option P
  fixedPer : Option P
  fixed : Int
  exponentPer : Option P
  exponent : Int
  clampMin : Int
  clampMax : Int
  channelDim : ChannelDim
  perchannel : Bool
  roundingLog2 : Nat

/-- The default values (mul_params.h:249-270); `t` is the destination type. -/
def Storage.default (t : Front.ScalarType) : Storage P :=
  ⟨none, none, 0, none, 0, t.lo, t.hi, .row, false, 0⟩

/-- mul_params.h:201-213. -/
def Storage.setPerchannel (debug : Bool) (s : Storage P) (v : Bool) : C (Storage P) :=
  if s.perchannel = v then .ok s
  else if v then do
    dcheck debug (s.fixed = 0)
    dcheck debug (s.exponent = 0)
    .ok { s with perchannel := v }
  else do
    dcheck debug (s.fixedPer.isNone = true)
    dcheck debug (s.exponentPer.isNone = true)
    .ok { s with perchannel := v }

/-- Calls of setters. -/
inductive Op (P : Type) where
  | bias (p : Option P)
  | fixed (v : Int)
  | exponent (v : Int)
  | fixedPer (p : Option P)
  | exponentPer (p : Option P)
  | clampMin (v : Int)
  | clampMax (v : Int)
  | channelDim (d : ChannelDim)
  | rounding (v : BitVec 32)

/-- The setters, mul_params.h:105, 112-115, 121-124, 137-140, 147-150, 153, 156, 162-164, 193-196.
The rounding is stored as an int8, which holds every logarithm of an int. -/
def Storage.set (debug : Bool) (s : Storage P) : Op P → C (Storage P)
  | .bias p => .ok { s with bias := p }
  | .fixed v => do
    let s ← s.setPerchannel debug false
    .ok { s with fixed := v }
  | .exponent v => do
    let s ← s.setPerchannel debug false
    .ok { s with exponent := v }
  | .fixedPer p => do
    let s ← s.setPerchannel debug true
    .ok { s with fixedPer := p }
  | .exponentPer p => do
    let s ← s.setPerchannel debug true
    .ok { s with exponentPer := p }
  | .clampMin v => .ok { s with clampMin := v }
  | .clampMax v => .ok { s with clampMax := v }
  | .channelDim d => .ok { s with channelDim := d }
  | .rounding v => do
    let k ← if debug then SizeUtil.potLog2 v else SizeUtil.floorLog2 v
    .ok { s with roundingLog2 := k }

/-- mul_params.h:109-111. -/
def Storage.getFixed (s : Storage P) : Int := if s.perchannel then 0 else s.fixed
/-- mul_params.h:118-120. -/
def Storage.getExponent (s : Storage P) : Int := if s.perchannel then 0 else s.exponent
/-- mul_params.h:133-136. -/
def Storage.getFixedPer (s : Storage P) : Option P := if s.perchannel then s.fixedPer else none
/-- mul_params.h:143-146. -/
def Storage.getExponentPer (s : Storage P) : Option P := if s.perchannel then s.exponentPer else none
/-- mul_params.h:190-192; `1 << k` for int. -/
def Storage.getRounding (s : Storage P) : C (BitVec 32) := SizeUtil.shl1 32 s.roundingLog2

/-- A history of setter calls on a new object. -/
def run (debug : Bool) : List (Op P) → Storage P → C (Storage P)
  | [], s => .ok s
  | o :: h, s => do
    let s ← s.set debug o
    run debug h s

/-- What Mul sees of the object (through the getters). -/
def Storage.toFront (s : Storage (Buf Int)) : C (Front.MulParams Int) := do
  let r ← s.getRounding
  .ok ⟨s.bias, some ⟨s.getFixed, s.getExponent, s.getFixedPer, s.getExponentPer⟩, s.channelDim,
    r.toNat, s.clampMin, s.clampMax⟩

end Ruy.Params

import Verif.Base.Fault
/-
Model of ruy/size_util.h (lines 29-101).

`Integer` is a signed two's complement type of `w` bits (w = 32 or 64, static
asserts lines 31-33), represented by `BitVec w` read with `BitVec.toInt`.
Simplification: in the two-argument functions both arguments have the same
width (C++ converts the narrower one by sign extension first).
-/
namespace Ruy.SizeUtil

/-- `__builtin_clz` / `__builtin_clzll` (size_util.h:58,60): number of leading
zero bits.  The builtin is undefined on 0; `floorLog2` guards that. -/
def clz : {w : Nat} → BitVec w → Nat
  | 0, _ => 0
  | w + 1, x => if x.msb then 0 else 1 + clz (x.setWidth w)

/-- size_util.h:29-63. -/
def floorLog2 {w : Nat} (n : BitVec w) : C Nat := do
  C.check (1 ≤ n.toInt)
  C.require (n ≠ 0#w)              -- clz(0) is undefined
  pure (w - 1 - clz n)

/-- size_util.h:65-69. -/
def ceilLog2 {w : Nat} (n : BitVec w) : C Nat := do
  C.check (1 ≤ n.toInt)
  if n = 1#w then pure 0
  else do
    let k ← floorLog2 (n - 1#w)
    pure (k + 1)

/-- size_util.h:71-74. -/
def isPot {w : Nat} (n : BitVec w) : Bool :=
  decide (0 < n.toInt) && decide ((n &&& (n - 1#w)) = 0#w)

/-- size_util.h:76-80. -/
def potLog2 {w : Nat} (n : BitVec w) : C Nat := do
  C.check (isPot n = true)
  floorLog2 n

/-- `static_cast<Integer>(1) << k`: undefined if the result is not
representable in the signed type. -/
def shl1 (w k : Nat) : C (BitVec w) := do
  C.require (k + 1 < w)
  pure (1#w <<< k)

/-- size_util.h:82-85. -/
def roundDownPot1 {w : Nat} (v : BitVec w) : C (BitVec w) := do
  let k ← floorLog2 v
  shl1 w k

/-- size_util.h:87-90. -/
def roundUpPot1 {w : Nat} (v : BitVec w) : C (BitVec w) := do
  let k ← ceilLog2 v
  shl1 w k

/-- A signed `w`-bit result: undefined on overflow. -/
def signedFits (w : Nat) (x : Int) : Prop := -2 ^ (w - 1) ≤ x ∧ x < 2 ^ (w - 1)

instance (w : Nat) (x : Int) : Decidable (signedFits w x) := by
  unfold signedFits; infer_instance

/-- size_util.h:92-96. -/
def roundDownPot {w : Nat} (v m : BitVec w) : C (BitVec w) := do
  C.require (signedFits w (m.toInt - 1))
  C.check ((m &&& (m - 1#w)) = 0#w)
  pure (v &&& ~~~ (m - 1#w))

/-- size_util.h:98-101: `round_down_pot(value + modulo - 1, modulo)`, evaluated
left to right in the signed type. -/
def roundUpPot {w : Nat} (v m : BitVec w) : C (BitVec w) := do
  C.require (signedFits w (v.toInt + m.toInt))
  C.require (signedFits w (v.toInt + m.toInt - 1))
  roundDownPot (v + m - 1#w) m

end Ruy.SizeUtil

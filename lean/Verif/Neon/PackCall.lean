import Verif.Neon.PackJob
import Verif.Neon.Spec
import Verif.Base.Fault
/-
Packing of a column-major 8-bit matrix on AArch64, pack_arm.h:143-222: the loop over blocks of four columns
around the `asm` statements, and what it should leave in memory.
-/
namespace Ruy.Neon
open Simd (wrap8 wrap32)

/-- The arguments of `PackImpl::Run` (pack_arm.h:153-155).  `a55` is `tuning == kA55ish`, `unsigned` tells
whether `Scalar` is uint8_t.  The strides are those of the source and of the packed matrix. -/
structure PackCall where
  a55 : Bool
  unsigned : Bool
  rows : Nat
  cols : Nat
  stride : Nat
  zp : Int
  packedStride : Nat
  hasSums : Bool
  size : Region → Nat

namespace PackCall

/-- pack_arm.h:193-203. -/
def code (p : PackCall) : List Block := if p.a55 then packACode else packCode

/-- pack_arm.h:150-151. -/
def inputXor (p : PackCall) : Nat := if p.unsigned then 0x80 else 0

/-- Column `col + i` of the block at `col` is read from `zerobuf` (pack_arm.h:171-187). -/
def fromZero (p : PackCall) (col i : Nat) : Bool := decide (p.cols ≤ col + 3) && decide (p.cols ≤ col + i)

/-- The arguments of the call for the block at `col` (pack_arm.h:162-191); the two products are computed in
`int`. -/
def block (p : PackCall) (col : Nat) (m : Region → Nat → Byte) : C PJob := do
  let o ← C.int (p.stride * col)
  let q ← C.int (p.packedStride * col)
  pure
    { rows := p.rows, zp := p.zp, xor := p.inputXor
      reg := fun i => if p.fromZero col i then .zeros else .src
      off := fun i => if p.fromZero col i then 0 else o + p.stride * i
      inc := fun i => if p.fromZero col i then 0 else 16
      packedBase := q
      sumsAt := if p.hasSums then some (4 * col) else none
      size := fun r => if r = .zeros then 16 else p.size r
      m := m }

/-- The loop (pack_arm.h:162-203) from `col` on.  Registers that are not operands may hold anything when an
`asm` statement starts.  A statement that does not stop counts as an error. -/
inductive Loop (p : PackCall) (stop : Nat) : Nat → (Region → Nat → Byte) → C (Region → Nat → Byte) → Prop
  | done {col m} : stop ≤ col → Loop p stop col m (.ok m)
  | overflow {col m e} : col < stop → p.block col m = .error e → Loop p stop col m (.error e)
  | fault {col m j s s'} : col < stop → p.block col m = .ok j → j.Start s → Stops j.env p.code s s' → s'.bad = true →
      Loop p stop col m (.error .ub)
  | stuck {col m j s} : col < stop → p.block col m = .ok j → j.Start s → (∀ s', ¬Stops j.env p.code s s') →
      Loop p stop col m (.error .abort)
  | next {col m j s s' r} : col < stop → p.block col m = .ok j → j.Start s → Stops j.env p.code s s' → s'.bad = false →
      Loop p stop (col + 4) s'.m r → Loop p stop col m r

/-- pack_arm.h:160-161. -/
def cleared (p : PackCall) (m : Region → Nat → Byte) : Region → Nat → Byte :=
  fun r => if r = .zeros then fun _ => BitVec.ofInt 8 p.zp else m r

/-- pack_arm.h:153-222: a run that starts with memory `m` can end with `r`. -/
def Run (p : PackCall) (start stop : Nat) (m : Region → Nat → Byte) (r : C (Region → Nat → Byte)) : Prop :=
  if start % 4 = 0 then Loop p stop start (p.cleared m) r else r = .error .abort

/-! ### Specification -/

/-- An int8 in memory. -/
def int8 (b : Byte) : Int := b.toInt

/-- The element in row `k` and column `c` of the source. -/
def element (p : PackCall) (m : Region → Nat → Byte) (k c : Nat) : Int :=
  if p.unsigned then ((m .src (p.stride * c + k)).toNat : Int) else (m .src (p.stride * c + k)).toInt

/-- Packed elements are int8: 128 is subtracted from uint8. -/
def shift (p : PackCall) : Int := if p.unsigned then 128 else 0

/-- What belongs in row `k` and column `c` of the packed matrix: the element, or the zero point outside the
source. -/
def wanted (p : PackCall) (m : Region → Nat → Byte) (k c : Nat) : Int :=
  (if k < p.rows ∧ c < p.cols then p.element m k c else p.zp) - p.shift

/-- Rows of the packed matrix: multiple of 16. -/
def packedRows (p : PackCall) : Nat := 16 * ((p.rows + 15) / 16)

/-- Where row `k` and column `c` of the packed matrix are. -/
def place (p : PackCall) (k c : Nat) : Nat := p.packedStride * (4 * (c / 4)) + 64 * (k / 16) + 16 * (c % 4) + k % 16

/-- The buffers are large enough for columns [start, stop), and offsets are ints. -/
structure Fits (p : PackCall) (start stop : Nat) : Prop where
  order : start ≤ stop
  aligned : start % 4 = 0 ∧ stop % 4 = 0
  rows : p.rows < 2 ^ 31
  zp : if p.unsigned then 0 ≤ p.zp ∧ p.zp ≤ 255 else -128 ≤ p.zp ∧ p.zp ≤ 127
  stride : p.packedRows ≤ p.packedStride
  src : ∀ c, c < p.cols → ∀ k, k < p.rows → p.stride * c + k < p.size .src
  packed : p.packedStride * stop ≤ p.size .packed
  sums : p.hasSums = true → 4 * stop ≤ p.size .sums
  offsets : ∀ c, c < stop → p.stride * c < 2 ^ 31 ∧ p.packedStride * c < 2 ^ 31

/-- Memory after columns [start, stop) have been packed: the packed columns and their sums are there, and
nothing else has changed (except in `zerobuf`, whose lifetime ends). -/
structure Packed (p : PackCall) (start stop : Nat) (m m' : Region → Nat → Byte) : Prop where
  entry : ∀ c, start ≤ c → c < stop → ∀ k, k < p.packedRows → int8 (m' .packed (p.place k c)) = p.wanted m k c
  sum : p.hasSums = true → ∀ c, start ≤ c → c < stop → ∀ b, b < 4 → m' .sums (4 * c + b) =
    byteOf (wrap32 (∑ k ∈ Finset.range p.packedRows, p.wanted m k c)) b
  restPacked : ∀ o, (∀ c, start ≤ c → c < stop → ∀ k, k < p.packedRows → o ≠ p.place k c) → m' .packed o = m .packed o
  restSums : ∀ o, (p.hasSums = true → o < 4 * start ∨ 4 * stop ≤ o) → m' .sums o = m .sums o
  rest : ∀ r, r ≠ .packed → r ≠ .sums → r ≠ .zeros → m' r = m r

end PackCall
end Ruy.Neon

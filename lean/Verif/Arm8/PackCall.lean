import Verif.Arm8.PackJob
import Verif.Neon.PackCall
/-
Packing of a column-major 8-bit matrix on 32-bit ARM, pack_arm.h:143-222 and 228-277: the loops over blocks of four
columns, for the LHS, and of two columns, for the RHS, around the `asm` statements, and what they should leave in
memory.  Arguments and elements are those of `Neon.PackCall`; `tuning` is ignored (pack_arm.h:205).
-/
namespace Ruy.Arm8.Pack
open Ruy.Neon (PJob PackCall St Val Region Byte byteOf)
open Ruy.Neon.PackCall (int8)
open Simd (wrap8 wrap32)

/-- Column `col + i` of the block at `col` is read from `zerobuf`, pack_arm.h:171-187 and 248-257.  The outer test
for two columns is one column earlier than needed. -/
def fromZero (wide : Bool) (p : PackCall) (col i : Nat) : Bool :=
  decide (p.cols ≤ col + if wide then 3 else 2) && decide (p.cols ≤ col + i)

/-- The arguments of the call for the block at `col`, pack_arm.h:162-191, 206-214 and 242-268; the two products are
computed in `int`. -/
def block (wide : Bool) (p : PackCall) (col : Nat) (m : Region → Nat → Byte) : C PJob := do
  let o ← C.int (p.stride * col)
  let q ← C.int (p.packedStride * col)
  pure
    { rows := p.rows, zp := p.zp, xor := p.inputXor
      reg := fun i => if fromZero wide p col i then .zeros else .src
      off := fun i => if fromZero wide p col i then 0 else o + p.stride * i
      inc := fun i => if fromZero wide p col i then 0 else 16
      packedBase := q
      sumsAt := if p.hasSums then some (4 * col) else none
      size := fun r => if r = .zeros then 16 else p.size r
      m := m }

/-- The loop from `col` on.  Registers that are not operands may hold anything when an `asm` statement starts.  A
statement that does not stop counts as an error. -/
inductive Loop (wide : Bool) (p : PackCall) (stop : Nat) : Nat → (Region → Nat → Byte) → C (Region → Nat → Byte) → Prop
  | done {col m} : stop ≤ col → Loop wide p stop col m (.ok m)
  | overflow {col m e} : col < stop → block wide p col m = .error e → Loop wide p stop col m (.error e)
  | fault {col m j s s'} : col < stop → block wide p col m = .ok j → Start wide j s → Stops (env j) (code wide) s s' →
      s'.bad = true → Loop wide p stop col m (.error .ub)
  | stuck {col m j s} : col < stop → block wide p col m = .ok j → Start wide j s →
      (∀ s', ¬Stops (env j) (code wide) s s') → Loop wide p stop col m (.error .abort)
  | next {col m j s s' r} : col < stop → block wide p col m = .ok j → Start wide j s → Stops (env j) (code wide) s s' →
      s'.bad = false → Loop wide p stop (col + width wide) s'.m r → Loop wide p stop col m r

/-- pack_arm.h:153-222, 236-276: a run that starts with memory `m` can end with `r`. -/
def Run (wide : Bool) (p : PackCall) (start stop : Nat) (m : Region → Nat → Byte) (r : C (Region → Nat → Byte)) : Prop :=
  if start % width wide = 0 then Loop wide p stop start (p.cleared m) r else r = .error .abort

/-! ### Specification -/

/-- Where row `k` and column `c` of the packed matrix are. -/
def place (n : Nat) (p : PackCall) (k c : Nat) : Nat :=
  p.packedStride * (n * (c / n)) + 16 * n * (k / 16) + 16 * (c % n) + k % 16

/-- The buffers are large enough for columns [start, stop), and offsets are ints. -/
structure CallFits (n : Nat) (p : PackCall) (start stop : Nat) : Prop where
  order : start ≤ stop
  aligned : start % n = 0 ∧ stop % n = 0
  rows : p.rows < 2 ^ 31
  zp : if p.unsigned then 0 ≤ p.zp ∧ p.zp ≤ 255 else -128 ≤ p.zp ∧ p.zp ≤ 127
  stride : p.packedRows ≤ p.packedStride
  src : ∀ c, c < p.cols → ∀ k, k < p.rows → p.stride * c + k < p.size .src
  packed : p.packedStride * stop ≤ p.size .packed
  sums : p.hasSums = true → 4 * stop ≤ p.size .sums
  offsets : ∀ c, c < stop → c % n = 0 → p.stride * c < 2 ^ 31 ∧ p.packedStride * c < 2 ^ 31

/-- Memory after columns [start, stop) have been packed: the packed columns and their sums are there, and
nothing else has changed (except in `zerobuf`, whose lifetime ends). -/
structure Packed (n : Nat) (p : PackCall) (start stop : Nat) (m m' : Region → Nat → Byte) : Prop where
  entry : ∀ c, start ≤ c → c < stop → ∀ k, k < p.packedRows → int8 (m' .packed (place n p k c)) = p.wanted m k c
  sum : p.hasSums = true → ∀ c, start ≤ c → c < stop → ∀ b, b < 4 → m' .sums (4 * c + b) =
    byteOf (wrap32 (∑ k ∈ Finset.range p.packedRows, p.wanted m k c)) b
  restPacked : ∀ o, (∀ c, start ≤ c → c < stop → ∀ k, k < p.packedRows → o ≠ place n p k c) → m' .packed o = m .packed o
  restSums : ∀ o, (p.hasSums = true → o < 4 * start ∨ 4 * stop ≤ o) → m' .sums o = m .sums o
  rest : ∀ r, r ≠ .packed → r ≠ .sums → r ≠ .zeros → m' r = m r

end Ruy.Arm8.Pack

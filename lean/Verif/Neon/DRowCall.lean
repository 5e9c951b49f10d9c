import Verif.Neon.DRowJob
import Verif.Neon.PackCall
/-
Packing of a row-major 8-bit matrix for the dot-product kernels, pack_arm.h:497-571: the loop over groups of four
rows around the `asm` statement, and what it should leave in memory.  Pointer arithmetic on addresses that are
not dereferenced is not modelled.
-/
namespace Ruy.Neon
open Simd (wrap8 wrap32)

/-- The arguments of `PackImpl::Run`: type, layout, data and zero point of the source, layout, data and sums of
the packed matrix (`hasSums`: the pointer is not null), sizes of the buffers. -/
structure DRowCall where
  unsigned : Bool
  rows : Nat
  cols : Nat
  stride : Nat
  zp : Int
  packedRows : Nat
  packedStride : Nat
  hasSums : Bool
  size : Region → Nat

namespace DRowCall

/-- pack_arm.h:503-504. -/
def inputXor (p : DRowCall) : Nat := if p.unsigned then 0x80 else 0

/-- Row `row + i` of the group at `row` is read from `zerobuf` (pack_arm.h:540-557). -/
def fromZero (p : DRowCall) (row i : Nat) : Bool := decide (p.rows ≤ row + 3) && decide (p.rows ≤ row + i)

/-- The arguments of the call for the group at `row` (pack_arm.h:521-568); the three products are computed in
`int`. -/
def group (p : DRowCall) (start stop row : Nat) (m : Region → Nat → Byte) : C RJob := do
  let o ← C.int (p.stride * row)
  let q ← C.int (p.packedStride * start)
  let b ← C.int (8 * row)
  pure
    { cols := Job.u32 (min (stop : Int) p.cols - start), zp := p.zp, xor := p.inputXor
      reg := fun i => if p.fromZero row i then .zeros else .src
      off := fun i => if p.fromZero row i then 0 else o + start + p.stride * i
      inc := fun i => if p.fromZero row i then 0 else 8
      packedBase := q + b
      stride := p.packedStride
      sumsBase := 4 * start
      size := fun r => if r = .zeros then 8 else p.size r
      m := m }

/-- The loop (pack_arm.h:521-569) from `row` on.  Registers that are not operands may hold anything when an
`asm` statement starts.  A statement that does not stop counts as an error. -/
inductive Loop (p : DRowCall) (start stop : Nat) : Nat → (Region → Nat → Byte) → C (Region → Nat → Byte) → Prop
  | done {row m} : p.packedRows ≤ row → Loop p start stop row m (.ok m)
  | overflow {row m e} : row < p.packedRows → p.group start stop row m = .error e → Loop p start stop row m (.error e)
  | fault {row m j s s'} : row < p.packedRows → p.group start stop row m = .ok j → j.Start s →
      Stops j.env drowCode s s' → s'.bad = true → Loop p start stop row m (.error .ub)
  | stuck {row m j s} : row < p.packedRows → p.group start stop row m = .ok j → j.Start s →
      (∀ s', ¬Stops j.env drowCode s s') → Loop p start stop row m (.error .abort)
  | next {row m j s s' r} : row < p.packedRows → p.group start stop row m = .ok j → j.Start s →
      Stops j.env drowCode s s' → s'.bad = false → Loop p start stop (row + 4) s'.m r → Loop p start stop row m r

/-- pack_arm.h:512-515: the sums are cleared, `zerobuf` holds the zero point. -/
def cleared (p : DRowCall) (start stop : Nat) (m : Region → Nat → Byte) : Region → Nat → Byte :=
  fun r => if r = .zeros then fun _ => BitVec.ofInt 8 p.zp
    else if r = .sums then fun o => if 4 * start ≤ o ∧ o < 4 * stop then 0 else m r o
    else m r

/-- pack_arm.h:506-570: a run that starts with memory `m` can end with `r`.  The pointer to the sums is not
tested for null. -/
def Run (p : DRowCall) (start stop : Nat) (m : Region → Nat → Byte) (r : C (Region → Nat → Byte)) : Prop :=
  if start % 8 = 0 then
    if p.hasSums ∧ start ≤ stop ∧ 4 * stop ≤ p.size .sums then Loop p start stop 0 (p.cleared start stop m) r
    else r = .error .ub
  else r = .error .abort

/-! ### Specification -/

/-- The element in row `k` and column `c` of the source. -/
def element (p : DRowCall) (m : Region → Nat → Byte) (k c : Nat) : Int :=
  if p.unsigned then ((m .src (p.stride * k + c)).toNat : Int) else (m .src (p.stride * k + c)).toInt

/-- Packed elements are int8: 128 is subtracted from uint8. -/
def shift (p : DRowCall) : Int := if p.unsigned then 128 else 0

/-- What belongs in row `k` and column `c` of the packed matrix: the element, or the zero point outside the
source. -/
def wanted (p : DRowCall) (m : Region → Nat → Byte) (k c : Nat) : Int :=
  (if k < p.rows ∧ c < p.cols then p.element m k c else p.zp) - p.shift

/-- Where row `k` and column `c` of the packed matrix are. -/
def spot (p : DRowCall) (k c : Nat) : Nat := p.packedStride * (8 * (c / 8)) + 32 * (k / 4) + 4 * (c % 8) + k % 4

/-- The buffers are large enough for columns [start, stop), which are a nonempty part of the columns of the
source rounded up to a multiple of 8, and offsets are ints. -/
structure Fits (p : DRowCall) (start stop : Nat) : Prop where
  order : start < stop ∧ stop ≤ 8 * ((p.cols + 7) / 8)
  aligned : start % 8 = 0 ∧ stop % 8 = 0
  cols : p.cols < 2 ^ 31
  depth : p.packedRows % 4 = 0 ∧ 8 * p.packedRows < 2 ^ 31
  zp : if p.unsigned then 0 ≤ p.zp ∧ p.zp ≤ 255 else -128 ≤ p.zp ∧ p.zp ≤ 127
  stride : p.packedRows ≤ p.packedStride
  src : ∀ k, k < p.rows → ∀ c, c < p.cols → p.stride * k + c < p.size .src
  packed : p.packedStride * stop ≤ p.size .packed
  sums : p.hasSums = true ∧ 4 * stop ≤ p.size .sums
  offsets : (∀ k, k < p.packedRows → p.stride * k < 2 ^ 31) ∧ p.packedStride * start < 2 ^ 31

/-- Memory after the first `n` rows of columns [start, stop) have been packed: the packed columns and their sums
are there, and nothing else has changed (except in `zerobuf`, whose lifetime ends). -/
structure Filled (p : DRowCall) (start stop n : Nat) (m m' : Region → Nat → Byte) : Prop where
  entry : ∀ c, start ≤ c → c < stop → ∀ k, k < n → PackCall.int8 (m' .packed (p.spot k c)) = p.wanted m k c
  sum : ∀ c, start ≤ c → c < stop → ∀ b, b < 4 → m' .sums (4 * c + b) =
    byteOf (wrap32 (∑ k ∈ Finset.range n, p.wanted m k c)) b
  restPacked : ∀ o, (∀ c, start ≤ c → c < stop → ∀ k, k < n → o ≠ p.spot k c) → m' .packed o = m .packed o
  restSums : ∀ o, o < 4 * start ∨ 4 * stop ≤ o → m' .sums o = m .sums o
  rest : ∀ r, r ≠ .packed → r ≠ .sums → r ≠ .zeros → m' r = m r

/-- All rows. -/
def Packed (p : DRowCall) (start stop : Nat) (m m' : Region → Nat → Byte) : Prop :=
  p.Filled start stop p.packedRows m m'

end DRowCall
end Ruy.Neon

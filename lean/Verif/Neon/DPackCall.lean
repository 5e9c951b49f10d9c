import Verif.Neon.DPackJob
import Verif.Neon.PackCall
/-
Packing of a column-major 8-bit matrix for the dot-product kernels, pack_arm.h:275-338: the loop over blocks of
four columns around the `asm` statements, and what it should leave in memory.  The arguments are those of
`PackCall`; eight columns of the packed matrix are interleaved.
-/
namespace Ruy.Neon.DPack
open Simd (wrap8 wrap32)

/-- pack_arm.h:323-335. -/
def code (p : PackCall) : List Block := if p.a55 then dpackACode else dpackCode

/-- The arguments of the call for the block at `col` (pack_arm.h:292-322); the two products are computed in
`int`. -/
def block (p : PackCall) (col : Nat) (m : Region → Nat → Byte) : C PJob := do
  let o ← C.int (p.stride * col)
  let q ← C.int (p.packedStride * (8 * (col / 8)))
  pure
    { rows := p.rows, zp := p.zp, xor := p.inputXor
      reg := fun i => if p.fromZero col i then .zeros else .src
      off := fun i => if p.fromZero col i then 0 else o + p.stride * i
      inc := fun i => if p.fromZero col i then 0 else 16
      packedBase := q + (col &&& 4) * 4
      sumsAt := if p.hasSums then some (4 * col) else none
      size := fun r => if r = .zeros then 16 else p.size r
      m := m }

/-- The loop (pack_arm.h:292-336) from `col` on.  Registers that are not operands may hold anything when an
`asm` statement starts.  A statement that does not stop counts as an error. -/
inductive Loop (p : PackCall) (stop : Nat) : Nat → (Region → Nat → Byte) → C (Region → Nat → Byte) → Prop
  | done {col m} : stop ≤ col → Loop p stop col m (.ok m)
  | overflow {col m e} : col < stop → block p col m = .error e → Loop p stop col m (.error e)
  | fault {col m j s s'} : col < stop → block p col m = .ok j → j.Start s → Stops j.env (code p) s s' → s'.bad = true →
      Loop p stop col m (.error .ub)
  | stuck {col m j s} : col < stop → block p col m = .ok j → j.Start s → (∀ s', ¬Stops j.env (code p) s s') →
      Loop p stop col m (.error .abort)
  | next {col m j s s' r} : col < stop → block p col m = .ok j → j.Start s → Stops j.env (code p) s s' → s'.bad = false →
      Loop p stop (col + 4) s'.m r → Loop p stop col m r

/-- pack_arm.h:283-337: a run that starts with memory `m` can end with `r`. -/
def Run (p : PackCall) (start stop : Nat) (m : Region → Nat → Byte) (r : C (Region → Nat → Byte)) : Prop :=
  if start % 8 = 0 then Loop p stop start (p.cleared m) r else r = .error .abort

/-! ### Specification -/

/-- Rows of the packed matrix: multiple of 4. -/
def packedRows (p : PackCall) : Nat := 4 * ((p.rows + 3) / 4)

/-- Where row `k` and column `c` of the packed matrix are. -/
def spot (p : PackCall) (k c : Nat) : Nat := p.packedStride * (8 * (c / 8)) + 32 * (k / 4) + 4 * (c % 8) + k % 4

/-- The buffers are large enough for columns [start, stop), and offsets are ints. -/
structure CallFits (p : PackCall) (start stop : Nat) : Prop where
  order : start ≤ stop
  aligned : start % 8 = 0 ∧ stop % 8 = 0
  rows : p.rows < 2 ^ 31
  zp : if p.unsigned then 0 ≤ p.zp ∧ p.zp ≤ 255 else -128 ≤ p.zp ∧ p.zp ≤ 127
  stride : packedRows p ≤ p.packedStride
  src : ∀ c, c < p.cols → ∀ k, k < p.rows → p.stride * c + k < p.size .src
  packed : p.packedStride * stop ≤ p.size .packed
  sums : p.hasSums = true → 4 * stop ≤ p.size .sums
  offsets : ∀ c, c < stop → p.stride * c < 2 ^ 31 ∧ p.packedStride * c < 2 ^ 31

/-- Memory after columns [start, stop) have been packed: the packed columns and their sums are there, and
nothing else has changed (except in `zerobuf`, whose lifetime ends). -/
structure Packed (p : PackCall) (start stop : Nat) (m m' : Region → Nat → Byte) : Prop where
  entry : ∀ c, start ≤ c → c < stop → ∀ k, k < packedRows p → PackCall.int8 (m' .packed (spot p k c)) = p.wanted m k c
  sum : p.hasSums = true → ∀ c, start ≤ c → c < stop → ∀ b, b < 4 → m' .sums (4 * c + b) =
    byteOf (wrap32 (∑ k ∈ Finset.range (packedRows p), p.wanted m k c)) b
  restPacked : ∀ o, (∀ c, start ≤ c → c < stop → ∀ k, k < packedRows p → o ≠ spot p k c) → m' .packed o = m .packed o
  restSums : ∀ o, (p.hasSums = true → o < 4 * start ∨ 4 * stop ≤ o) → m' .sums o = m .sums o
  rest : ∀ r, r ≠ .packed → r ≠ .sums → r ≠ .zeros → m' r = m r

end Ruy.Neon.DPack

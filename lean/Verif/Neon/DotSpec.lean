import Verif.Neon.DotJob
import Verif.Neon.Spec
/-
What an AArch64 8-bit dot-product kernel with 8x8 blocks should leave in the destination, in terms of the
contents of the buffers.  The accumulator and the output stage are those of `Neon/Spec.lean`.
-/
namespace Ruy.Neon.Dot

/-- Sum of the products of row `r` of the LHS and column `c` of the RHS, both counted from the
start of the call. -/
def dotOf (j : Job) (r c : Nat) : Int := ∑ k ∈ Finset.range (depth j), lhsAt j r k * rhsAt j c k

/-- kernel_common.h:140-151: without a bias the kernel is given eight zeros, without channels eight
copies of the multiplier. -/
structure Args (j : Job) : Prop where
  noBias : j.hasBias = false → ∀ i, i < 8 → j.word .bias i = 0
  oneFix : j.perChannel = false → ∀ i, i < 8 → j.word .mulFix i = j.word .mulFix 0
  oneExp : j.perChannel = false → ∀ i, i < 8 → j.word .mulExp i = j.word .mulExp 0

/-- Entry (`r`, `c`), counted from the start of the call, belongs to the call and to the destination. -/
def Inside (j : Job) (r c : Nat) : Prop :=
  r < 8 * (j.rowSteps + 1) ∧ c < 8 * (j.colSteps + 1) ∧ j.startRow + r < j.dstRows ∧ j.startCol + c < j.dstCols

/-- A finished call: nothing undefined has happened, entry (`r`, `c`) of the call holds `v r c`, the rest of
the destination and the other buffers have not changed. -/
structure Result (j : Job) (v : Nat → Nat → Int) (s : St) : Prop where
  ok : s.bad = false
  inputs : ∀ r, r ≠ .dst → r ≠ .tmp → s.m r = j.m r
  entry : ∀ r c, Inside j r c → ∀ b, b < j.dt.size → s.m .dst (addr j r c + b) = byteOf (v r c) b
  rest : ∀ o, (∀ r c, Inside j r c → ∀ b, b < j.dt.size → o ≠ addr j r c + b) → s.m .dst o = j.m .dst o

end Ruy.Neon.Dot

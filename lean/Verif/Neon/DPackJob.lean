import Verif.Neon.DPackCode
import Verif.Neon.PackJob
/-
What a call of `Pack8bitColMajorForNeonDotprod` or of `Pack8bitColMajorForNeonDotprodA55ish` should leave in memory.
The arguments are those of the functions in `PackJob.lean` (pack_arm.cc:840-844, 1086-1091).
-/
namespace Ruy.Neon.DPack
open Simd (wrap8 wrap32)

/-- Groups of four rows that are stored. -/
def quads (j : PJob) : Nat := (j.rows + 3) / 4

/-- Where row `k` of column `c < 4` of the block is stored: four rows of the four columns, then a gap of 16
bytes for four other columns. -/
def place (j : PJob) (c k : Nat) : Nat := j.packedBase + 32 * (k / 4) + 4 * c + k % 4

/-- The buffers are large enough.  The last 16 bytes stored end 16 bytes before the end of the last 32. -/
structure Fits (j : PJob) : Prop where
  rows : j.rows < 2 ^ 31
  reg : ∀ c, c < 4 → j.reg c ≠ .packed ∧ j.reg c ≠ .sums
  src : ∀ c, c < 4 → ∀ k, k < j.rows → j.off c + j.inc c * (k / 16) + k % 16 < j.size (j.reg c)
  packed : j.packedBase + 32 * quads j ≤ j.size .packed + 16
  sums : ∀ o, j.sumsAt = some o → o + 16 ≤ j.size .sums

/-- The sum of the entries of column `c`, as an int32. -/
def colSum (j : PJob) (c : Nat) : Int := wrap32 (∑ k ∈ Finset.range (4 * quads j), wrap8 (j.entry c k).toNat)

/-- A finished call: nothing undefined has happened, the packed block and the sums are stored, nothing else has
changed. -/
structure Result (j : PJob) (s : St) : Prop where
  ok : s.bad = false
  entry : ∀ c, c < 4 → ∀ k, k < 4 * quads j → s.m .packed (place j c k) = j.entry c k
  sum : ∀ o, j.sumsAt = some o → ∀ c, c < 4 → ∀ b, b < 4 → s.m .sums (o + 4 * c + b) = byteOf (colSum j c) b
  restPacked : ∀ o, (∀ c, c < 4 → ∀ k, k < 4 * quads j → o ≠ place j c k) → s.m .packed o = j.m .packed o
  restSums : ∀ o, (∀ a, j.sumsAt = some a → o < a ∨ a + 16 ≤ o) → s.m .sums o = j.m .sums o
  rest : ∀ r, r ≠ .packed → r ≠ .sums → s.m r = j.m r

end Ruy.Neon.DPack

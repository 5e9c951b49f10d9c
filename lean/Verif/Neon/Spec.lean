import Verif.Neon.Job
import Verif.Simd.Mult
import Verif.Simd.Narrow
/-
What an AArch64 8-bit kernel should leave in the destination, in terms of the contents
of the buffers.
-/
namespace Ruy.Neon
open Simd (wrap8 wrap16 wrap32)

/-- Sum of the products of row `r` of the LHS and column `c` of the RHS, both counted from the
start of the call. -/
def dotOf (j : Job) (r c : Nat) : Int := ∑ k ∈ Finset.range j.depth, j.lhsAt r k * j.rhsAt c k

/-- The same with the sums of the products at depths `k` and `k + 8` (`k % 16 < 8`) reduced to int16. -/
def dot16Of (j : Job) (r c : Nat) : Int :=
  ∑ t ∈ Finset.range (j.depthSteps + 1), ∑ i ∈ Finset.range 8,
    wrap16 (j.lhsAt r (16 * t + i) * j.rhsAt c (16 * t + i) +
      j.lhsAt r (16 * t + 8 + i) * j.rhsAt c (16 * t + 8 + i))

/-- Row `r` of the LHS and column `c` of the RHS never both have -128 at two depths `k` and `k + 8` of a
group of 16. -/
def NoPair (j : Job) (r c : Nat) : Prop :=
  ∀ t, t ≤ j.depthSteps → ∀ i, i < 8 →
    ¬(j.lhsAt r (16 * t + i) = -128 ∧ j.rhsAt c (16 * t + i) = -128 ∧
      j.lhsAt r (16 * t + 8 + i) = -128 ∧ j.rhsAt c (16 * t + 8 + i) = -128)

/-- The channel of an entry. -/
def chanOf (j : Job) (r c : Nat) : Nat := if j.chanCol then j.startCol + c else j.startRow + r
def biasOf (j : Job) (r c : Nat) : Int := if j.hasBias then j.word .bias (chanOf j r c) else 0
def fixOf (j : Job) (r c : Nat) : Int := j.word .mulFix (if j.perChannel then chanOf j r c else 0)
def expOf (j : Job) (r c : Nat) : Int := j.word .mulExp (if j.perChannel then chanOf j r c else 0)

/-- The accumulator of an entry whose sum of products is `d`. -/
def accOf (j : Job) (d : Int) (r c : Nat) : Int :=
  wrap32 (d + biasOf j r c + j.prodZp - j.lhsZp * j.word .rhsSums (j.startCol + c) -
    j.rhsZp * j.word .lhsSums (j.startRow + r))

/-- The entry, from its accumulator. -/
def outOf (j : Job) (x : Int) (r c : Nat) : Int :=
  let y := Simd.Neon.apply x (fixOf j r c) (expOf j r c)
  match j.dt with
  | .u8 => Simd.Neon.storeU8 y j.dstZp j.clampMin j.clampMax
  | .i8 => Simd.Neon.storeS8 y j.dstZp j.clampMin j.clampMax
  | .i16 => Simd.Neon.storeS16 y j.dstZp j.clampMin j.clampMax
  | .i32 => x

/-- kernel_common.h:140-151: without a bias the kernel is given four zeros, without channels four
copies of the multiplier. -/
structure Args (j : Job) : Prop where
  noBias : j.hasBias = false → ∀ i, i < 4 → j.word .bias i = 0
  oneFix : j.perChannel = false → ∀ i, i < 4 → j.word .mulFix i = j.word .mulFix 0
  oneExp : j.perChannel = false → ∀ i, i < 4 → j.word .mulExp i = j.word .mulExp 0

/-- Entry (`r`, `c`), counted from the start of the call, belongs to the call and to the destination. -/
def Inside (j : Job) (r c : Nat) : Prop :=
  r < 4 * (j.rowSteps + 1) ∧ c < 4 * (j.colSteps + 1) ∧ j.startRow + r < j.dstRows ∧ j.startCol + c < j.dstCols

/-- Where an entry is in the destination. -/
def addr (j : Job) (r c : Nat) : Nat := j.dstBase + c * j.dstStride + r * j.dt.size

/-- The program started in `s` stops in `s'`. -/
def Stops (e : Env) (P : List Block) (s s' : St) : Prop :=
  ∃ N, ∀ n, N ≤ n → run e P n (0, s) = (P.length, s')

/-- A finished call: nothing undefined has happened, entry (`r`, `c`) of the call holds `v r c`, the rest of
the destination and the other buffers have not changed. -/
structure Result (j : Job) (v : Nat → Nat → Int) (s : St) : Prop where
  ok : s.bad = false
  inputs : ∀ r, r ≠ .dst → r ≠ .tmp → s.m r = j.m r
  entry : ∀ r c, Inside j r c → ∀ b, b < j.dt.size → s.m .dst (addr j r c + b) = byteOf (v r c) b
  rest : ∀ o, (∀ r c, Inside j r c → ∀ b, b < j.dt.size → o ≠ addr j r c + b) → s.m .dst o = j.m .dst o

end Ruy.Neon

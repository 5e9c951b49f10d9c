import Verif.Neon.PackCode
import Verif.Neon.Job
/-
What a call of `Pack8bitColMajorForNeon` is given, the registers at the start of its `asm`
statement, and what it should leave in memory.
-/
namespace Ruy.Neon
open Simd (wrap8 wrap32)

/-- The arguments of a call (pack_arm.cc:34-39).  Column `c < 4` is read from offset `off c` of region `reg c`,
either the source matrix or `zerobuf`, and the pointer advances by `inc c` for each 16 rows.
`sumsAt` is the offset of `sums_ptr`, unless it is null. -/
structure PJob where
  rows : Nat
  zp : Int
  xor : Nat
  reg : Nat → Region
  off : Nat → Nat
  inc : Nat → Nat
  packedBase : Nat
  sumsAt : Option Nat
  size : Region → Nat
  m : Region → Nat → Byte

namespace PJob

def env (j : PJob) : Env := ⟨fun _ => .int 0, j.size⟩

/-- Blocks of 16 rows that are stored. -/
def chunks (j : PJob) : Nat := (j.rows + 15) / 16

/-- The operands of the `asm` statement on entry, pack_arm.cc:200-208. -/
structure Start (j : PJob) (s : St) : Prop where
  src : ∀ c, c < 4 → s.x (48 + c) = .ptr (j.reg c) (j.off c)
  packed : s.x packedPtr = .ptr .packed j.packedBase
  sums : s.x sumsPtr = (match j.sumsAt with | some o => .ptr .sums o | none => .int 0)
  inc : ∀ c, c < 4 → s.x (54 + c) = .int (j.inc c)
  rows : s.x rRows = .int j.rows
  zp : s.x rZeroPoint = .int (Job.u32 j.zp)
  xor : s.x rInputXor = .int j.xor
  mem : s.m = j.m
  ok : s.bad = false

/-- Row `k` of column `c` of the source. -/
def raw (j : PJob) (c k : Nat) : Byte := j.m (j.reg c) (j.off c + j.inc c * (k / 16) + k % 16)

/-- The buffers are large enough. -/
structure Fits (j : PJob) : Prop where
  rows : j.rows < 2 ^ 31
  reg : ∀ c, c < 4 → j.reg c ≠ .packed ∧ j.reg c ≠ .sums
  src : ∀ c, c < 4 → ∀ k, k < j.rows → j.off c + j.inc c * (k / 16) + k % 16 < j.size (j.reg c)
  packed : j.packedBase + 64 * j.chunks ≤ j.size .packed
  sums : ∀ o, j.sumsAt = some o → o + 16 ≤ j.size .sums

/-- Row `k` of column `c` of the packed block: the source byte, or the zero point below the last row, with the
bits of `input_xor` flipped. -/
def entry (j : PJob) (c k : Nat) : Byte :=
  (if k < j.rows then j.raw c k else BitVec.ofInt 8 j.zp) ^^^ BitVec.ofNat 8 j.xor

/-- The sum of the entries of column `c`, as an int32. -/
def colSum (j : PJob) (c : Nat) : Int := wrap32 (∑ k ∈ Finset.range (16 * j.chunks), wrap8 (j.entry c k).toNat)

/-- A finished call: nothing undefined has happened, the packed block and the sums are stored, nothing else has
changed. -/
structure Result (j : PJob) (s : St) : Prop where
  ok : s.bad = false
  entry : ∀ c, c < 4 → ∀ k, k < 16 * j.chunks →
    s.m .packed (j.packedBase + 64 * (k / 16) + 16 * c + k % 16) = j.entry c k
  sum : ∀ o, j.sumsAt = some o → ∀ c, c < 4 → ∀ b, b < 4 → s.m .sums (o + 4 * c + b) = byteOf (j.colSum c) b
  restPacked : ∀ o, o < j.packedBase ∨ j.packedBase + 64 * j.chunks ≤ o → s.m .packed o = j.m .packed o
  restSums : ∀ o, (∀ a, j.sumsAt = some a → o < a ∨ a + 16 ≤ o) → s.m .sums o = j.m .sums o
  rest : ∀ r, r ≠ .packed → r ≠ .sums → s.m r = j.m r

end PJob
end Ruy.Neon

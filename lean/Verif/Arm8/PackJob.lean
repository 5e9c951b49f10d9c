import Verif.Arm8.PackCode
import Verif.Arm8.Job
import Verif.Neon.PackJob
/-
What a call of the ARM32 8-bit pack functions is given, the registers at the start of the `asm` statements, and what
they should leave in memory.  The arguments, and what belongs in the packed block, are as for AArch64
(`Neon/PackJob.lean`), but there are `2` or `4` columns.
-/
namespace Ruy.Arm8.Pack
open Ruy.Neon (PJob St Val Region Byte byteOf)

/-- Columns per call. -/
def width (wide : Bool) : Nat := if wide then 4 else 2

/-- The fields of `PackParams8bit` that the statements read. -/
def field (j : PJob) : Field → Val
  | .packRows => .int j.rows
  | .packZeroPoint => .int (Neon.Job.u32 j.zp)
  | .packXor => .int j.xor
  | .packSums => match j.sumsAt with | some o => .ptr .sums o | none => .int 0
  | _ => .int 0

def env (j : PJob) : Env := ⟨field j, j.size⟩

/-- The operands of the `asm` statement on entry, pack_arm.cc:254-262, 463-467 and 479-483, 604-606. -/
structure Start (wide : Bool) (j : PJob) (s : St) : Prop where
  src : ∀ c, c < width wide → s.x (48 + c) = .ptr (j.reg c) (j.off c)
  packed : s.x 52 = .ptr .packed j.packedBase
  inc : ∀ c, c < width wide → s.x (54 + c) = .int (j.inc c)
  mem : s.m = j.m
  ok : s.bad = false

/-- The buffers are large enough. -/
structure Fits (wide : Bool) (j : PJob) : Prop where
  rows : j.rows < 2 ^ 31
  reg : ∀ c, c < width wide → j.reg c ≠ .packed ∧ j.reg c ≠ .sums
  inc : ∀ c, c < width wide → j.inc c < 2 ^ 32
  src : ∀ c, c < width wide → ∀ k, k < j.rows → j.off c + j.inc c * (k / 16) + k % 16 < j.size (j.reg c)
  packed : j.packedBase + 16 * width wide * j.chunks ≤ j.size .packed
  sums : ∀ o, j.sumsAt = some o → o + 4 * width wide ≤ j.size .sums

/-- A finished call: nothing undefined has happened, the packed block and the sums are stored, nothing else has
changed. -/
structure Result (wide : Bool) (j : PJob) (s : St) : Prop where
  ok : s.bad = false
  entry : ∀ c, c < width wide → ∀ k, k < 16 * j.chunks →
    s.m .packed (j.packedBase + 16 * width wide * (k / 16) + 16 * c + k % 16) = j.entry c k
  sum : ∀ o, j.sumsAt = some o → ∀ c, c < width wide → ∀ b, b < 4 → s.m .sums (o + 4 * c + b) = byteOf (j.colSum c) b
  restPacked : ∀ o, o < j.packedBase ∨ j.packedBase + 16 * width wide * j.chunks ≤ o → s.m .packed o = j.m .packed o
  restSums : ∀ o, (∀ a, j.sumsAt = some a → o < a ∨ a + 4 * width wide ≤ o) → s.m .sums o = j.m .sums o
  rest : ∀ r, r ≠ .packed → r ≠ .sums → s.m r = j.m r

end Ruy.Arm8.Pack

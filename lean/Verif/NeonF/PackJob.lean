import Verif.NeonF.PackCode
import Verif.NeonF.Basic
/-
What a call of `PackFloatColMajorForNeon` or `PackFloatColMajorForNeonA55ish` is given, the registers
at the start of its `asm` statement, and what it should leave in memory.
-/
namespace Ruy.NeonF
open Ruy.Neon (packedPtr rRows)
variable {A : Type}

/-- The arguments of a call (pack_arm.cc:1738-1741, 2067-2072); offsets are in words here.  Column `c < 4` is read
from offset `off c` of region `reg c`, either the source matrix or `zerobuf`, and the pointer advances by
`inc c` words for each 4 rows. -/
structure PJob (A : Type) where
  rows : Nat
  reg : Nat → Region
  off : Nat → Nat
  inc : Nat → Nat
  packedBase : Nat
  size : Region → Nat
  ops : Ops A
  m : Region → Nat → A

namespace PJob

def env (j : PJob A) : Env A := ⟨fun _ => .int 0, j.size, j.ops⟩

/-- The operands of the `asm` statement on entry, pack_arm.cc:1866-1873, 2211-2214. -/
structure Start (j : PJob A) (s : St A) : Prop where
  src : ∀ c, c < 4 → s.x (48 + c) = .ptr (j.reg c) (4 * j.off c)
  packed : s.x packedPtr = .ptr .packed (4 * j.packedBase)
  inc : ∀ c, c < 4 → s.x (54 + c) = .int (4 * j.inc c)
  rows : s.x rRows = .int j.rows
  mem : s.m = j.m
  ok : s.bad = false

/-- Row `k` of column `c` of the source. -/
def raw (j : PJob A) (c k : Nat) : A := j.m (j.reg c) (j.off c + j.inc c * (k / 4) + k % 4)

/-- The buffers are large enough. -/
structure Fits (j : PJob A) : Prop where
  rows : j.rows < 2 ^ 31
  reg : ∀ c, c < 4 → j.reg c ≠ .packed
  src : ∀ c, c < 4 → ∀ k, k < j.rows → j.off c + j.inc c * (k / 4) + k % 4 < j.size (j.reg c)
  packed : ∀ k, k < j.rows → j.packedBase + 8 * k + 4 ≤ j.size .packed

/-- A finished call: nothing undefined has happened, every row of the four columns is stored, 8 words after the
one before, nothing else has changed. -/
structure Result (j : PJob A) (s : St A) : Prop where
  ok : s.bad = false
  entry : ∀ c, c < 4 → ∀ k, k < j.rows → s.m .packed (j.packedBase + 8 * k + c) = j.raw c k
  restPacked : ∀ o, (∀ k, k < j.rows → ∀ c, c < 4 → o ≠ j.packedBase + 8 * k + c) → s.m .packed o = j.m .packed o
  rest : ∀ r, r ≠ .packed → s.m r = j.m r

end PJob
end Ruy.NeonF

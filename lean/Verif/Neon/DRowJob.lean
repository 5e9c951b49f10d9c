import Verif.Neon.DPackCode
import Verif.Neon.Job
/-
What a call of `Pack8bitRowMajorForNeonDotprod` is given, the registers at the start of its `asm` statement, and
what it should leave in memory.
-/
namespace Ruy.Neon
open Simd (wrap8 wrap32)

/-- The arguments of a call (pack_arm.cc:1587-1594).  Row `r < 4` is read from offset `off r` of region `reg r`,
either the source matrix or `zerobuf`, and the pointer advances by `inc r` for each 8 columns. -/
structure RJob where
  cols : Nat
  zp : Int
  xor : Nat
  reg : Nat → Region
  off : Nat → Nat
  inc : Nat → Nat
  packedBase : Nat
  stride : Nat
  sumsBase : Nat
  size : Region → Nat
  m : Region → Nat → Byte

namespace RJob

def env (j : RJob) : Env := ⟨fun _ => .int 0, j.size⟩

/-- Blocks of 8 columns that are stored. -/
def blocks (j : RJob) : Nat := (j.cols + 7) / 8

/-- The operands of the `asm` statement on entry, pack_arm.cc:1722-1729. -/
structure Start (j : RJob) (s : St) : Prop where
  src : ∀ r, r < 4 → s.x (48 + r) = .ptr (j.reg r) (j.off r)
  packed : s.x packedPtr = .ptr .packed j.packedBase
  sums : s.x sumsPtr = .ptr .sums j.sumsBase
  inc : ∀ r, r < 4 → s.x (54 + r) = .int (j.inc r)
  cols : s.x rRows = .int j.cols
  zp : s.x rZeroPoint = .int (Job.u32 j.zp)
  xor : s.x rInputXor = .int j.xor
  stride : s.x rPackedStride = .int j.stride
  mem : s.m = j.m
  ok : s.bad = false

/-- Column `c` of row `r` of the source. -/
def raw (j : RJob) (r c : Nat) : Byte := j.m (j.reg r) (j.off r + j.inc r * (c / 8) + c % 8)

/-- Column `c` of row `r` of the packed rows: the source byte, or the zero point right of the last column, with
the bits of `input_xor` flipped. -/
def entry (j : RJob) (r c : Nat) : Byte :=
  (if c < j.cols then j.raw r c else BitVec.ofInt 8 j.zp) ^^^ BitVec.ofNat 8 j.xor

/-- Where it is stored: blocks of 8 columns are 8 times the stride apart. -/
def place (j : RJob) (r c : Nat) : Nat := j.packedBase + 8 * j.stride * (c / 8) + 4 * (c % 8) + r

/-- The sum of column `c` so far. -/
def old (j : RJob) (c : Nat) : Int := getS (fun b => j.m .sums (j.sumsBase + 4 * c + b)) 0

/-- The sum of column `c` with these four rows. -/
def colSum (j : RJob) (c : Nat) : Int := j.old c + ∑ r ∈ Finset.range 4, wrap8 (j.entry r c).toNat

/-- The buffers are large enough. -/
structure Fits (j : RJob) : Prop where
  cols : 0 < j.cols ∧ j.cols < 2 ^ 31
  reg : ∀ r, r < 4 → j.reg r ≠ .packed ∧ j.reg r ≠ .sums
  src : ∀ r, r < 4 → ∀ c, c < j.cols → j.off r + j.inc r * (c / 8) + c % 8 < j.size (j.reg r)
  inc : ∀ r, r < 4 → j.inc r < 2 ^ 31
  stride : 4 ≤ j.stride
  packed : ∀ n, n < j.blocks → j.packedBase + 8 * j.stride * n + 32 ≤ j.size .packed
  sums : j.sumsBase + 32 * j.blocks ≤ j.size .sums

/-- Memory when `n` blocks of 8 columns are packed: the entries and the new sums are there, nothing else has
changed. -/
structure Done (j : RJob) (n : Nat) (m : Region → Nat → Byte) : Prop where
  entry : ∀ r, r < 4 → ∀ c, c < 8 * n → m .packed (j.place r c) = j.entry r c
  sum : ∀ c, c < 8 * n → ∀ b, b < 4 → m .sums (j.sumsBase + 4 * c + b) = byteOf (j.colSum c) b
  restPacked : ∀ o, (∀ r, r < 4 → ∀ c, c < 8 * n → o ≠ j.place r c) → m .packed o = j.m .packed o
  restSums : ∀ o, o < j.sumsBase ∨ j.sumsBase + 32 * n ≤ o → m .sums o = j.m .sums o
  rest : ∀ g, g ≠ .packed → g ≠ .sums → m g = j.m g

/-- A finished call. -/
structure Result (j : RJob) (s : St) : Prop where
  ok : s.bad = false
  done : j.Done j.blocks s.m

end RJob
end Ruy.Neon

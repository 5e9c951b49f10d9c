import Verif.Arm32.PackCode
import Verif.Base.Fault
/-
What a call of the ARM32 `PackFloatColMajorForNeon` is given, the registers at the start of its `asm` statement, what
it should leave in memory, and the loops around it (pack_arm.h:362-489).
-/
namespace Ruy.Arm32.Pack
open Ruy.NeonF (St Val Region Ops)
variable {A : Type}

/-- The arguments of a call (pack_arm.cc:1885-1888); offsets are in words.  Column `c < 4` is read from offset `off c`
of region `reg c`, either the source matrix or `zerobuf`; `inc c` tells if the pointer advances after 4 rows.  Rows are
stored `width` words apart. -/
structure PJob (A : Type) where
  rows : Nat
  reg : Nat → Region
  off : Nat → Nat
  inc : Nat → Bool
  packedBase : Nat
  width : Nat
  size : Region → Nat
  ops : Ops A
  m : Region → Nat → A

namespace PJob

def env (j : PJob A) : Env A := ⟨fun _ => .int 0, j.size, j.ops⟩

/-- pack_arm.h:421-425, 477-481. -/
def srcInc (j : PJob A) : Nat :=
  (if j.inc 0 then 1 else 0) + (if j.inc 1 then 2 else 0) + (if j.inc 2 then 4 else 0) + (if j.inc 3 then 8 else 0)

/-- The operands of the `asm` statement on entry, pack_arm.cc:2055-2059. -/
structure Start (j : PJob A) (s : St A) : Prop where
  src : ∀ c, c < 4 → s.x (48 + c) = .ptr (j.reg c) (4 * j.off c)
  packed : s.x 52 = .ptr .packed (4 * j.packedBase)
  inc : s.x 54 = .int j.srcInc
  rows : s.x 58 = .int j.rows
  stride : s.x 59 = .int (4 * j.width)
  mem : s.m = j.m
  ok : s.bad = false

/-- Words between the blocks of a column. -/
def adv (j : PJob A) (c : Nat) : Nat := if j.inc c then 4 else 0

/-- Row `k` of column `c` of the source. -/
def raw (j : PJob A) (c k : Nat) : A := j.m (j.reg c) (j.off c + j.adv c * (k / 4) + k % 4)

/-- The buffers are large enough. -/
structure Fits (j : PJob A) : Prop where
  rows : j.rows < 2 ^ 31
  width : j.width = 4 ∨ j.width = 8
  reg : ∀ c, c < 4 → j.reg c ≠ .packed
  src : ∀ c, c < 4 → ∀ k, k < j.rows → j.off c + j.adv c * (k / 4) + k % 4 < j.size (j.reg c)
  packed : ∀ k, k < j.rows → j.packedBase + j.width * k + 4 ≤ j.size .packed

/-- A finished call: nothing undefined has happened, every row of the four columns is stored, `width` words after the
one before, nothing else has changed. -/
structure Result (j : PJob A) (s : St A) : Prop where
  ok : s.bad = false
  entry : ∀ c, c < 4 → ∀ k, k < j.rows → s.m .packed (j.packedBase + j.width * k + c) = j.raw c k
  restPacked : ∀ o, (∀ k, k < j.rows → ∀ c, c < 4 → o ≠ j.packedBase + j.width * k + c) → s.m .packed o = j.m .packed o
  rest : ∀ r, r ≠ .packed → s.m r = j.m r

end PJob

/-! ### The loop around it -/

/-- The arguments of `PackImpl::Run` for `FixedKernelLayout<kRowMajor, 1, 8>` (pack_arm.h:362-433) if `wide`, else for
`<…, 1, 4>` (pack_arm.h:435-488).  The strides are those of the source and of the packed matrix. -/
structure Call (A : Type) where
  wide : Bool
  rows : Nat
  cols : Nat
  stride : Nat
  packedStride : Nat
  size : Region → Nat
  ops : Ops A

/-- Columns of the kernel layout. -/
def Call.width (p : Call A) : Nat := if p.wide then 8 else 4

/-- Column `col + i` of the block at `col` is read from `zerobuf` (pack_arm.h:382-399, 457-474). -/
def fromZero (cols col i : Nat) : Bool := decide (cols ≤ col + 3) && decide (cols ≤ col + i)

/-- The arguments of the call for the block at `col` (pack_arm.h:373-430, 448-485); the two products are computed in
`int`. -/
def block (p : Call A) (col : Nat) (m : Region → Nat → A) : C (PJob A) := do
  let o ← C.int (p.stride * col)
  let q ← C.int (p.packedStride * (if p.wide then 8 * (col / 8) else col))
  pure
    { rows := p.rows
      reg := fun i => if fromZero p.cols col i then .zeros else .src
      off := fun i => if fromZero p.cols col i then 0 else o + p.stride * i
      inc := fun i => !fromZero p.cols col i
      packedBase := q + (if p.wide then col &&& 4 else 0)
      width := if p.wide then 8 else 4
      size := fun r => if r = .zeros then 4 else p.size r
      ops := p.ops
      m := m }

/-- The loop from `col` on.  Registers that are not operands may hold anything when an `asm` statement starts.  A
statement that does not stop counts as an error. -/
inductive Loop (p : Call A) (stop : Nat) : Nat → (Region → Nat → A) → C (Region → Nat → A) → Prop
  | done {col m} : stop ≤ col → Loop p stop col m (.ok m)
  | overflow {col m e} : col < stop → block p col m = .error e → Loop p stop col m (.error e)
  | fault {col m j s s'} : col < stop → block p col m = .ok j → j.Start s → Stops j.env code s s' → s'.bad = true →
      Loop p stop col m (.error .ub)
  | stuck {col m j s} : col < stop → block p col m = .ok j → j.Start s → (∀ s', ¬Stops j.env code s s') →
      Loop p stop col m (.error .abort)
  | next {col m j s s' r} : col < stop → block p col m = .ok j → j.Start s → Stops j.env code s s' → s'.bad = false →
      Loop p stop (col + 4) s'.m r → Loop p stop col m r

/-- pack_arm.h:371, 446: `const float zerobuf[4] = {0}`. -/
def cleared (p : Call A) (m : Region → Nat → A) : Region → Nat → A :=
  fun r => if r = .zeros then fun _ => p.ops.zero else m r

/-- A run that starts with memory `m` can end with `r`. -/
def Run (p : Call A) (start stop : Nat) (m : Region → Nat → A) (r : C (Region → Nat → A)) : Prop :=
  if start % p.width = 0 then Loop p stop start (cleared p m) r else r = .error .abort

/-! ### Specification -/

/-- What row `k` and column `c` of the packed matrix should be: the element of the source, zero beyond its last
column. -/
def wanted (p : Call A) (m : Region → Nat → A) (k c : Nat) : A :=
  if c < p.cols then m .src (p.stride * c + k) else p.ops.zero

/-- Where row `k` and column `c` of the packed matrix are: groups of eight or four columns, one row after the other in
each group. -/
def spot (p : Call A) (k c : Nat) : Nat := p.packedStride * (p.width * (c / p.width)) + p.width * k + c % p.width

/-- The buffers are large enough for columns [start, stop), and offsets are ints. -/
structure CallFits (p : Call A) (start stop : Nat) : Prop where
  order : start ≤ stop
  aligned : start % p.width = 0 ∧ stop % p.width = 0
  rows : p.rows < 2 ^ 31
  stride : p.rows ≤ p.packedStride
  src : ∀ c, c < p.cols → ∀ k, k < p.rows → p.stride * c + k < p.size .src
  packed : p.packedStride * stop ≤ p.size .packed
  offsets : ∀ c, c < stop → c % 4 = 0 → p.stride * c < 2 ^ 31 ∧ p.packedStride * c < 2 ^ 31

/-- Memory after columns [start, stop) have been packed: the packed columns are there, and nothing else has
changed (except in `zerobuf`, whose lifetime ends). -/
structure Packed (p : Call A) (start stop : Nat) (m m' : Region → Nat → A) : Prop where
  entry : ∀ c, start ≤ c → c < stop → ∀ k, k < p.rows → m' .packed (spot p k c) = wanted p m k c
  restPacked : ∀ o, (∀ c, start ≤ c → c < stop → ∀ k, k < p.rows → o ≠ spot p k c) → m' .packed o = m .packed o
  rest : ∀ r, r ≠ .packed → r ≠ .zeros → m' r = m r

end Ruy.Arm32.Pack

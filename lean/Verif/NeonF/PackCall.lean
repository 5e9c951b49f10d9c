import Verif.NeonF.PackJob
import Verif.Base.Fault
/-
Packing of a column-major float matrix on AArch64, pack_arm.h:362-433: the loop over blocks of four columns around
the `asm` statements, and what it should leave in memory.
-/
namespace Ruy.NeonF.FPack
variable {A : Type}

/-- The arguments of `PackImpl::Run` (pack_arm.h:366-367).  `a55` is `tuning == kA55ish`.  The strides are those of the
source and of the packed matrix; `size` are the numbers of floats in the buffers. -/
structure Call (A : Type) where
  a55 : Bool
  rows : Nat
  cols : Nat
  stride : Nat
  packedStride : Nat
  size : Region → Nat
  ops : Ops A

/-- pack_arm.h:404-412. -/
def codeOf (a55 : Bool) : List Block := if a55 then fpackACode else fpackCode

/-- Column `col + i` of the block at `col` is read from `zerobuf` (pack_arm.h:382-399). -/
def fromZero (cols col i : Nat) : Bool := decide (cols ≤ col + 3) && decide (cols ≤ col + i)

/-- The arguments of the call for the block at `col` (pack_arm.h:373-402); the two products are computed in `int`. -/
def block (p : Call A) (col : Nat) (m : Region → Nat → A) : C (PJob A) := do
  let o ← C.int (p.stride * col)
  let q ← C.int (p.packedStride * (8 * (col / 8)))
  pure
    { rows := p.rows
      reg := fun i => if fromZero p.cols col i then .zeros else .src
      off := fun i => if fromZero p.cols col i then 0 else o + p.stride * i
      inc := fun i => if fromZero p.cols col i then 0 else 4
      packedBase := q + (col &&& 4)
      size := fun r => if r = .zeros then 4 else p.size r
      ops := p.ops
      m := m }

/-- The loop (pack_arm.h:372-431) from `col` on.  Registers that are not operands may hold anything when an
`asm` statement starts.  A statement that does not stop counts as an error. -/
inductive Loop (p : Call A) (stop : Nat) : Nat → (Region → Nat → A) → C (Region → Nat → A) → Prop
  | done {col m} : stop ≤ col → Loop p stop col m (.ok m)
  | overflow {col m e} : col < stop → block p col m = .error e → Loop p stop col m (.error e)
  | fault {col m j s s'} : col < stop → block p col m = .ok j → j.Start s → Stops j.env (codeOf p.a55) s s' → s'.bad = true →
      Loop p stop col m (.error .ub)
  | stuck {col m j s} : col < stop → block p col m = .ok j → j.Start s → (∀ s', ¬Stops j.env (codeOf p.a55) s s') →
      Loop p stop col m (.error .abort)
  | next {col m j s s' r} : col < stop → block p col m = .ok j → j.Start s → Stops j.env (codeOf p.a55) s s' → s'.bad = false →
      Loop p stop (col + 4) s'.m r → Loop p stop col m r

/-- pack_arm.h:371: `const float zerobuf[4] = {0}`. -/
def cleared (p : Call A) (m : Region → Nat → A) : Region → Nat → A :=
  fun r => if r = .zeros then fun _ => p.ops.zero else m r

/-- pack_arm.h:366-432: a run that starts with memory `m` can end with `r`. -/
def Run (p : Call A) (start stop : Nat) (m : Region → Nat → A) (r : C (Region → Nat → A)) : Prop :=
  if start % 8 = 0 then Loop p stop start (cleared p m) r else r = .error .abort

/-! ### Specification -/

/-- What row `k` and column `c` of the packed matrix should be: the element of the source, zero beyond its last
column. -/
def wanted (p : Call A) (m : Region → Nat → A) (k c : Nat) : A :=
  if c < p.cols then m .src (p.stride * c + k) else p.ops.zero

/-- Where row `k` and column `c` of the packed matrix are: groups of eight columns, eight floats per row. -/
def spot (p : Call A) (k c : Nat) : Nat := p.packedStride * (8 * (c / 8)) + 8 * k + c % 8

/-- The buffers are large enough for columns [start, stop), and offsets are ints. -/
structure CallFits (p : Call A) (start stop : Nat) : Prop where
  order : start ≤ stop
  aligned : start % 8 = 0 ∧ stop % 8 = 0
  rows : p.rows < 2 ^ 31
  stride : p.rows ≤ p.packedStride
  src : ∀ c, c < p.cols → ∀ k, k < p.rows → p.stride * c + k < p.size .src
  packed : p.packedStride * stop ≤ p.size .packed
  offsets : ∀ c, c < stop → p.stride * c < 2 ^ 31 ∧ p.packedStride * c < 2 ^ 31

/-- Memory after columns [start, stop) have been packed: the packed columns are there, and nothing else has
changed (except in `zerobuf`, whose lifetime ends). -/
structure Packed (p : Call A) (start stop : Nat) (m m' : Region → Nat → A) : Prop where
  entry : ∀ c, start ≤ c → c < stop → ∀ k, k < p.rows → m' .packed (spot p k c) = wanted p m k c
  restPacked : ∀ o, (∀ c, start ≤ c → c < stop → ∀ k, k < p.rows → o ≠ spot p k c) → m' .packed o = m .packed o
  rest : ∀ r, r ≠ .packed → r ≠ .zeros → m' r = m r

end Ruy.NeonF.FPack

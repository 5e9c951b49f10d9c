import Verif.Neon.RowCall
/-
Packing of a row-major 8-bit matrix on 32-bit ARM: pack_arm.cc:2220-2476 (`Pack8bitRowMajorForNeon`, intrinsics) and
pack_arm.h:577-609 (`PackImpl::Run`), the code of `Neon/RowCall.lean` for any number of kernel columns.  On 32-bit ARM
`KernelCols` is 4 for the LHS and 2 for the RHS (kernel_arm.h:86-87).

Loads, sums and transposition are those of `Neon/RowCall.lean`; pointer arithmetic on addresses that are not
dereferenced is not modelled.
-/
namespace Ruy.Arm8.Row
open Ruy.Neon (RowCall Memory Region Vec Byte getS ofS byteOf)
open Ruy.Neon.RowCall (sums16 vaddw transposed combine)

/-- pack_arm.cc:2422-2423 and following: two vectors one after the other. -/
def store2 (a : RowCall) (m : Memory) (p : Nat) (w : Nat → Vec) (i : Nat) : C Memory :=
  forUpTo 2 (fun k m => a.st m .packed (p + 16 * k) 16 (combine (w (i + k)) (w (i + k + 8)))) m

/-- pack_arm.cc:2264-2435: 8 columns.  State: memory and `packed_ptr`. -/
def vecStep (cols : Nat) (a : RowCall) (br srcOff lo v : Nat) (s : Memory × Nat) : C (Memory × Nat) := do
  let col := lo + 8 * v
  let s0 ← a.ld s.1 .sums (4 * col) 16
  let s1 ← a.ld s.1 .sums (4 * (col + 4)) 16
  let vals ← a.loadRows s.1 br (srcOff + 8 * v)
  let t := sums16 vals
  let m ← a.st s.1 .sums (4 * col) 16 (vaddw s0 t 0)
  let m ← a.st m .sums (4 * (col + 4)) 16 (vaddw s1 t 1)
  let w := transposed vals
  let step ← C.int (4 * a.packedStride)
  let half ← if cols = 2 then C.int (2 * a.packedStride) else .ok 32
  let m ← store2 a m s.2 w 0
  let m ← store2 a m (s.2 + half) w 2
  let m ← store2 a m (s.2 + step) w 4
  let m ← store2 a m (s.2 + step + half) w 6
  .ok (m, s.2 + step + step)

/-- pack_arm.cc:2456-2458, 2467-2469: to the next block of columns. -/
def advance (cols : Nat) (a : RowCall) (col p : Nat) : C Nat :=
  if (col + 1) % cols = 0 then do
    let d ← C.int (cols * a.packedStride)
    .ok (p + d)
  else .ok p

/-- pack_arm.cc:2439-2459: one of the remaining source columns. -/
def scalarStep (cols : Nat) (a : RowCall) (br srcOff lo col : Nat) (s : Memory × Nat) : C (Memory × Nat) := do
  let r ← forUpTo 16 (fun r (t : Memory × Int) => do
    let v ← a.scalarVal t.1 br (srcOff + (col - lo)) r
    let acc ← C.i32 (t.2 + v.toInt)
    let m ← a.st t.1 .packed (s.2 + col % cols * 16 + r) 1 (fun _ => v)
    .ok (m, acc)) (s.1, 0)
  let w ← a.ld r.1 .sums (4 * col) 4
  let x ← C.i32 (getS w 0 + r.2)
  let m ← a.st r.1 .sums (4 * col) 4 (ofS fun _ => x)
  let p ← advance cols a col s.2
  .ok (m, p)

/-- pack_arm.cc:2464-2470: one column beyond the source. -/
def zeroStep (cols : Nat) (a : RowCall) (col : Nat) (s : Memory × Nat) : C (Memory × Nat) := do
  let m ← a.st s.1 .packed (s.2 + col % cols * 16) 16 (fun _ => 0)
  let p ← advance cols a col s.2
  .ok (m, p)

/-- pack_arm.h:592-605 and pack_arm.cc:2252-2471: 16 rows. -/
def blockRow (cols : Nat) (a : RowCall) (lo hi br : Nat) (m : Memory) : C Memory := do
  let o ← C.int (br * a.stride)
  let p1 ← C.int (lo * a.packedStride)
  let p2 ← C.int (br * cols)
  let stop := min hi a.cols
  let srcOff := o + lo
  let n := (stop - lo) / 8
  let s ← forUpTo n (vecStep cols a br srcOff lo) (m, p1 + p2)
  let s ← forRange (lo + 8 * n) stop (scalarStep cols a br srcOff lo) s
  let s ← forRange (max lo stop) hi (zeroStep cols a) s
  .ok s.1

/-- pack_arm.h:581-607.  The sums are cleared without a test for null. -/
def run (cols : Nat) (a : RowCall) (lo hi : Nat) (m : Memory) : C Memory := do
  C.check ((hi - lo) % cols = 0)
  if a.hasSums then do
    let m ← a.st m .sums (4 * lo) (4 * (hi - lo)) (fun _ => 0)
    forUpTo ((a.packedRows + 15) / 16) (fun n => blockRow cols a lo hi (16 * n)) m
  else .error .ub

/-! ### Specification for two kernel columns -/

/-- Where row `k` and column `c` of the packed matrix are. -/
def place (a : RowCall) (k c : Nat) : Nat := a.packedStride * (2 * (c / 2)) + 32 * (k / 16) + 16 * (c % 2) + k % 16

/-- The buffers are large enough for columns [lo, hi), offsets are ints, and so are sums. -/
structure Fits (a : RowCall) (lo hi : Nat) : Prop where
  order : lo ≤ hi
  aligned : lo % 2 = 0 ∧ hi % 2 = 0
  depth : a.packedRows % 16 = 0 ∧ a.packedRows < 2 ^ 24
  zp : -128 ≤ a.packedZp ∧ a.packedZp ≤ 127
  stride : a.packedRows ≤ a.packedStride
  src : ∀ k, k < a.rows → ∀ c, c < a.cols → a.stride * k + c < a.size .src
  packed : a.packedStride * hi ≤ a.size .packed
  sums : a.hasSums = true ∧ 4 * hi ≤ a.size .sums
  offsets : (∀ k, k < a.packedRows → a.stride * k < 2 ^ 31) ∧ a.packedStride * hi < 2 ^ 31

/-- Memory after columns [lo, hi) have been packed: the packed columns and their sums are there, and nothing
else has changed. -/
structure Packed (a : RowCall) (lo hi : Nat) (m m' : Memory) : Prop where
  entry : ∀ c, lo ≤ c → c < hi → ∀ k, k < a.packedRows → (m' .packed (place a k c)).toInt = a.wanted m k c
  sum : ∀ c, lo ≤ c → c < hi → ∀ b, b < 4 → m' .sums (4 * c + b) =
    byteOf (∑ k ∈ Finset.range a.packedRows, a.wanted m k c) b
  restPacked : ∀ o, (∀ c, lo ≤ c → c < hi → ∀ k, k < a.packedRows → o ≠ place a k c) → m' .packed o = m .packed o
  restSums : ∀ o, o < 4 * lo ∨ 4 * hi ≤ o → m' .sums o = m .sums o
  rest : ∀ r, r ≠ .packed → r ≠ .sums → m' r = m r

end Ruy.Arm8.Row

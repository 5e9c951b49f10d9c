import Verif.Neon.Isa
import Verif.Base.Loop
import Mathlib.Algebra.BigOperators.Group.Finset.Basic
/-
Packing of a row-major 8-bit matrix on AArch64: pack_arm.cc:2220-2476 (`Pack8bitRowMajorForNeon`, intrinsics)
and pack_arm.h:577-609 (`PackImpl::Run`).

KernelCols is 4, the value on AArch64 (kernel_arm.h:59-60).  Vectors of 8 bytes are the lower halves of
`Vec`; memory is split into regions as in `Isa.lean`, an access outside its region is undefined.  Pointer
arithmetic on addresses that are not dereferenced is not modelled.
-/
namespace Ruy.Neon
open Simd (wrap8 wrap32)

abbrev Memory := Region → Nat → Byte

/-- The arguments of `PackImpl::Run`: type, layout and data of the source, zero point, layout, data and sums
of the packed matrix (`hasSums`: the pointer is not null), sizes of the buffers. -/
structure RowCall where
  unsigned : Bool
  rows : Nat
  cols : Nat
  stride : Nat
  packedZp : Int
  packedRows : Nat
  packedStride : Nat
  hasSums : Bool
  size : Region → Nat

namespace RowCall

/-- pack_arm.h:585-586. -/
def inputXor (a : RowCall) : Nat := if a.unsigned then 0x80 else 0

/-- `vld1*`: `n` bytes. -/
def ld (a : RowCall) (m : Memory) (r : Region) (o n : Nat) : C Vec :=
  if o + n ≤ a.size r then .ok (fun b => m r (o + b)) else .error .ub

/-- `vst1*`, `memset`: `n` bytes. -/
def st (a : RowCall) (m : Memory) (r : Region) (o n : Nat) (v : Vec) : C Memory :=
  if o + n ≤ a.size r then .ok (wr m r o n v) else .error .ub

/-- pack_arm.cc:2303-2372: `val<r>`.  `addr` is `src_ptr`. -/
def loadRow (a : RowCall) (m : Memory) (br addr r : Nat) : C Vec :=
  if br + 16 ≤ a.rows ∨ br + r < a.rows then do
    let o ← C.int (r * a.stride)
    let v ← a.ld m .src (addr + o) 8
    .ok (fun i => BitVec.ofNat 8 a.inputXor ^^^ v i)
  else .ok (fun _ => BitVec.ofInt 8 a.packedZp)

/-- `val0` to `val15`. -/
def loadRows (a : RowCall) (m : Memory) (br addr : Nat) : C (Nat → Vec) :=
  forUpTo 16 (fun r t => do
    let v ← a.loadRow m br addr r
    .ok (fun k => if k = r then v else t k)) (fun _ _ => 0)

/-- `vaddl_s8`, `vaddq_s16`. -/
def vaddl (x y : Vec) : Vec := ofH fun i => getB x i + getB y i
def vaddq (x y : Vec) : Vec := ofH fun i => getH x i + getH y i

/-- pack_arm.cc:2375-2383: `sums16`. -/
def sums16 (v : Nat → Vec) : Vec :=
  let s0 := vaddl (v 0) (v 1)
  let s1 := vaddl (v 2) (v 3)
  let s0 := vaddq s0 (vaddl (v 4) (v 5))
  let s1 := vaddq s1 (vaddl (v 6) (v 7))
  let s0 := vaddq s0 (vaddl (v 8) (v 9))
  let s1 := vaddq s1 (vaddl (v 10) (v 11))
  let s0 := vaddq s0 (vaddl (v 12) (v 13))
  let s1 := vaddq s1 (vaddl (v 14) (v 15))
  vaddq s0 s1

/-- pack_arm.cc:2384-2385: `vaddw_s16` with the lower (`h` = 0) or upper (`h` = 1) half. -/
def vaddw (s t : Vec) (h : Nat) : Vec := ofS fun i => getS s i + getH t (4 * h + i)

/-- pack_arm.cc:2231-2249: TRN1 and TRN2 on groups of `g` bytes of registers `i` and `j`. -/
def trn (g : Nat) (v : Nat → Vec) (i j : Nat) : Nat → Vec := fun k =>
  if k = i then fun b => if b / g % 2 = 0 then v i b else v j (b - g)
  else if k = j then fun b => if b / g % 2 = 0 then v i (b + g) else v j b
  else v k

/-- pack_arm.cc:2396-2419. -/
def transposed (v : Nat → Vec) : Nat → Vec :=
  [(1, 0, 1), (1, 2, 3), (1, 4, 5), (1, 6, 7), (1, 8, 9), (1, 10, 11), (1, 12, 13), (1, 14, 15),
   (2, 0, 2), (2, 1, 3), (2, 4, 6), (2, 5, 7), (2, 8, 10), (2, 9, 11), (2, 12, 14), (2, 13, 15),
   (4, 0, 4), (4, 1, 5), (4, 2, 6), (4, 3, 7), (4, 8, 12), (4, 9, 13), (4, 10, 14), (4, 11, 15)].foldl
    (fun v (s : Nat × Nat × Nat) => trn s.1 v s.2.1 s.2.2) v

/-- `vcombine_s8`. -/
def combine (x y : Vec) : Vec := fun b => if b < 8 then x b else y (b - 8)

/-- pack_arm.cc:2264-2435: 8 columns.  State: memory and `packed_ptr`. -/
def vecStep (a : RowCall) (br srcOff lo v : Nat) (s : Memory × Nat) : C (Memory × Nat) := do
  let col := lo + 8 * v
  let s0 ← a.ld s.1 .sums (4 * col) 16
  let s1 ← a.ld s.1 .sums (4 * (col + 4)) 16
  let vals ← a.loadRows s.1 br (srcOff + 8 * v)
  let t := sums16 vals
  let m ← a.st s.1 .sums (4 * col) 16 (vaddw s0 t 0)
  let m ← a.st m .sums (4 * (col + 4)) 16 (vaddw s1 t 1)
  let w := transposed vals
  let step ← C.int (4 * a.packedStride)
  let m ← forUpTo 4 (fun i m => a.st m .packed (s.2 + 16 * i) 16 (combine (w i) (w (i + 8)))) m
  let m ← forUpTo 4 (fun i m => a.st m .packed (s.2 + step + 16 * i) 16 (combine (w (i + 4)) (w (i + 12)))) m
  .ok (m, s.2 + step + step)

/-- pack_arm.cc:2443-2447: `packed_val`. -/
def scalarVal (a : RowCall) (m : Memory) (br addr r : Nat) : C Byte :=
  if br + r < a.rows then do
    let o ← C.int (r * a.stride)
    let v ← a.ld m .src (addr + o) 1
    .ok (v 0 ^^^ BitVec.ofNat 8 a.inputXor)
  else .ok (BitVec.ofInt 8 a.packedZp)

/-- pack_arm.cc:2456-2458, 2467-2469: to the next block of four columns. -/
def advance (a : RowCall) (col p : Nat) : C Nat :=
  if (col + 1) % 4 = 0 then do
    let d ← C.int (4 * a.packedStride)
    .ok (p + d)
  else .ok p

/-- pack_arm.cc:2439-2459: one of the remaining source columns. -/
def scalarStep (a : RowCall) (br srcOff lo col : Nat) (s : Memory × Nat) : C (Memory × Nat) := do
  let r ← forUpTo 16 (fun r (t : Memory × Int) => do
    let v ← a.scalarVal t.1 br (srcOff + (col - lo)) r
    let acc ← C.i32 (t.2 + v.toInt)
    let m ← a.st t.1 .packed (s.2 + col % 4 * 16 + r) 1 (fun _ => v)
    .ok (m, acc)) (s.1, 0)
  let w ← a.ld r.1 .sums (4 * col) 4
  let x ← C.i32 (getS w 0 + r.2)
  let m ← a.st r.1 .sums (4 * col) 4 (ofS fun _ => x)
  let p ← a.advance col s.2
  .ok (m, p)

/-- pack_arm.cc:2464-2470: one column beyond the source. -/
def zeroStep (a : RowCall) (col : Nat) (s : Memory × Nat) : C (Memory × Nat) := do
  let m ← a.st s.1 .packed (s.2 + col % 4 * 16) 16 (fun _ => 0)
  let p ← a.advance col s.2
  .ok (m, p)

/-- pack_arm.h:592-605 and pack_arm.cc:2252-2471: 16 rows. -/
def blockRow (a : RowCall) (lo hi br : Nat) (m : Memory) : C Memory := do
  let o ← C.int (br * a.stride)
  let p1 ← C.int (lo * a.packedStride)
  let p2 ← C.int (br * 4)
  let stop := min hi a.cols
  let srcOff := o + lo
  let n := (stop - lo) / 8
  let s ← forUpTo n (a.vecStep br srcOff lo) (m, p1 + p2)
  let s ← forRange (lo + 8 * n) stop (a.scalarStep br srcOff lo) s
  let s ← forRange (max lo stop) hi a.zeroStep s
  .ok s.1

/-- pack_arm.h:581-607.  The sums are cleared without a test for null. -/
def run (a : RowCall) (lo hi : Nat) (m : Memory) : C Memory := do
  C.check ((hi - lo) % 4 = 0)
  if a.hasSums then do
    let m ← a.st m .sums (4 * lo) (4 * (hi - lo)) (fun _ => 0)
    forUpTo ((a.packedRows + 15) / 16) (fun n => a.blockRow lo hi (16 * n)) m
  else .error .ub

/-! ### Specification -/

/-- The element in row `k` and column `c` of the source. -/
def element (a : RowCall) (m : Memory) (k c : Nat) : Int :=
  if a.unsigned then ((m .src (a.stride * k + c)).toNat : Int) else (m .src (a.stride * k + c)).toInt

/-- What row `k` and column `c` of the packed matrix are to hold: in source columns the element as an int8 (128
less than a uint8), or the zero point of the packed matrix in rows beyond the source; in columns beyond the
source, 0. -/
def wanted (a : RowCall) (m : Memory) (k c : Nat) : Int :=
  if c < a.cols then
    if k < a.rows then a.element m k c - (if a.unsigned then 128 else 0) else a.packedZp
  else 0

/-- Where row `k` and column `c` of the packed matrix are. -/
def place (a : RowCall) (k c : Nat) : Nat := a.packedStride * (4 * (c / 4)) + 64 * (k / 16) + 16 * (c % 4) + k % 16

/-- The buffers are large enough for columns [lo, hi), offsets are ints, and so are sums. -/
structure Fits (a : RowCall) (lo hi : Nat) : Prop where
  order : lo ≤ hi
  aligned : lo % 4 = 0 ∧ hi % 4 = 0
  depth : a.packedRows % 16 = 0 ∧ a.packedRows < 2 ^ 24
  zp : -128 ≤ a.packedZp ∧ a.packedZp ≤ 127
  stride : a.packedRows ≤ a.packedStride
  src : ∀ k, k < a.rows → ∀ c, c < a.cols → a.stride * k + c < a.size .src
  packed : a.packedStride * hi ≤ a.size .packed
  sums : a.hasSums = true ∧ 4 * hi ≤ a.size .sums
  offsets : (∀ k, k < a.packedRows → a.stride * k < 2 ^ 31) ∧ a.packedStride * hi < 2 ^ 31

/-- Memory after columns [lo, hi) have been packed: the packed columns and their sums are there, and nothing
else has changed. -/
structure Packed (a : RowCall) (lo hi : Nat) (m m' : Memory) : Prop where
  entry : ∀ c, lo ≤ c → c < hi → ∀ k, k < a.packedRows → (m' .packed (a.place k c)).toInt = a.wanted m k c
  sum : ∀ c, lo ≤ c → c < hi → ∀ b, b < 4 → m' .sums (4 * c + b) =
    byteOf (∑ k ∈ Finset.range a.packedRows, a.wanted m k c) b
  restPacked : ∀ o, (∀ c, lo ≤ c → c < hi → ∀ k, k < a.packedRows → o ≠ a.place k c) → m' .packed o = m .packed o
  restSums : ∀ o, o < 4 * lo ∨ 4 * hi ≤ o → m' .sums o = m .sums o
  rest : ∀ r, r ≠ .packed → r ≠ .sums → m' r = m r

end RowCall
end Ruy.Neon

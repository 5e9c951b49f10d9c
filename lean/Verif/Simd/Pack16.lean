import Verif.Simd.PackRun
/-
Packing of 16-bit column-major sources for AVX-512: pack_avx512.cc:71-119, 477-662, 908-968
(Pack16bitColMajorForAvx512), pack_x86.h:281-320 (PackImpl::Run).

As for 8-bit sources (`Simd/Pack.lean`), with chunks of 16 rows in place of 32 and no XOR.  Registers
are functions on 16-bit lanes.  Source elements are read through an `int16_t*`, which is `wrap16`.
Pointer arithmetic on addresses that are not dereferenced is not modelled.
-/
namespace Ruy.Simd.Pack16
open Ruy.Mat Ruy.Mul
open Ruy.Simd.Pack (Col colOf loadCols zeroSums fillSums shiftSums)

/-! ### Instructions on 16-bit lanes -/

/-- VPUNPCKLQDQ (`h = 0`) and VPUNPCKHQDQ (`h = 4`): in each group of eight lanes, four lanes of `a`, then four of
`b`. -/
def unpack64 (h : Nat) (a b : Reg) : Reg := fun i =>
  if i % 8 < 4 then a (i - i % 8 + h + i % 4) else b (i - i % 8 + h + i % 4)

/-- VPERMQ with an immediate: in each group of sixteen lanes, the fours selected by `imm`. -/
def permutex (a : Reg) (imm : Nat) : Reg := fun i =>
  a (i - i % 16 + 4 * (imm / 4 ^ (i % 16 / 4) % 4) + i % 4)

/-- VPBLENDMQ: fours of `b` where the mask has a one. -/
def blend64 (mask : Nat) (a b : Reg) : Reg := fun i => if mask / 2 ^ (i / 4) % 2 = 1 then b i else a i

/-! ### One chunk -/

/-- pack_avx512.cc:92-99, 111-119 (`LoaduTwo`, `MaskLoaduTwo` concatenate two columns), 597-611, and the stores
613-620: the register stored at `dst_ptr + j * 16 * 4`. -/
def transpose (t : Nat → Reg) : Nat → Reg :=
  let t0 := join 16 (t 4) (t 0)
  let t1 := join 16 (t 5) (t 1)
  let t2 := join 16 (t 6) (t 2)
  let t3 := join 16 (t 7) (t 3)
  let r0 := unpack64 0 t0 t1
  let r2 := unpack64 4 t0 t1
  let r1 := unpack64 0 t2 t3
  let r3 := unpack64 4 t2 t3
  let r1 := permutex r1 0x4e
  let r3 := permutex r3 0x4e
  let t0 := blend64 0xcc r0 r1
  let t1 := blend64 0x33 r0 r1
  let t2 := blend64 0xcc r2 r3
  let t3 := blend64 0x33 r2 r3
  let t1 := permutex t1 0x4e
  let t3 := permutex t3 0x4e
  fun j => match j with
    | 0 => t0 | 1 => t2 | 2 => t1 | _ => t3

/-- pack_avx512.cc:622-631: t0, t1, t2, t3 are the blocks 0, 2, 1, 3. -/
def acc (s : Reg) (b : Nat → Reg) : Reg :=
  [0, 2, 1, 3].foldl (fun s j => map2 add32 s (madd16 (b j) (set1 1))) s

/-- `_mm256_loadu_si256(src_ptr_c)`, `k` rows into the column. -/
def loadFull (src : Buf Int) (zp : Int) (k : Nat) : Col → C Reg
  | .zerobuf => .ok (set1 zp)
  | .src off => do
    let r ← loadu 16 src (off + k)
    .ok (fun i => wrap16 (r i))

/-- `_mm256_mask_loadu_epi16` with the mask `(1 << avail) - 1` (pack_avx512.cc:111-119, 587-593): lanes that are masked out are
not accessed. -/
def loadMasked (src : Buf Int) (zp : Int) (avail k : Nat) : Col → C Reg
  | .zerobuf => .ok (set1 zp)
  | .src off => do
    let r ← loadu avail src (off + k)
    .ok (fun i => if i < avail then wrap16 (r i) else zp)

/-- pack_avx512.cc:613-620: the four stores; consecutive blocks are 64 elements apart. -/
def storeBlocks (b : Buf Int) (off : Nat) (blk : Nat → Reg) : C (Buf Int) :=
  [0, 2, 1, 3].foldlM (fun b j => storeu 32 b (off + j * 64) (blk j)) b

/-- What the loop over chunks changes. -/
structure St where
  data : Buf Int
  trailing : Buf Int
  acc : Reg
  adj : Int

/-- Arguments that stay the same: source buffer, zero point (`zerobuf[0]`), number of rows, offset in the packed buffer
and in the trailing buffer. -/
structure Args where
  src : Buf Int
  zp : Int
  rows : Nat
  poff : Nat
  toff : Nat

/-- pack_avx512.cc:560-632: one chunk, rows `16 * it` and following. -/
def chunk (a : Args) (cols : Nat → Col) (sums : Bool) (it : Nat) (st : St) : C St :=
  if 16 * it < a.rows then
    let avail := a.rows - 16 * it
    if 16 ≤ avail then do
      let t ← loadCols (loadFull a.src a.zp (16 * it)) cols
      let b := transpose t
      let d ← storeBlocks st.data (a.poff + it * 256) b
      .ok { st with data := d, acc := if sums then acc st.acc b else st.acc }
    else do
      C.check (avail / 4 < 16)
      let adj ← C.i32 (st.adj + -a.zp * 4 * (4 - ((avail + 3) / 4 : Nat)))
      let t ← loadCols (loadMasked a.src a.zp avail (16 * it)) cols
      let b := transpose t
      let tb ← storeBlocks st.trailing a.toff b
      .ok { st with trailing := tb, acc := if sums then acc st.acc b else st.acc, adj := adj }
  else .ok st

/-- HalfPack16bitAvx512 (pack_avx512.cc:477-662): two chunks per iteration; the sums at the end are those of
HalfPack8bitAvx512 (pack_avx512.cc:646-661). -/
def halfPacker (a : Args) (cols : Nat → Col) (data trailing : Buf Int)
    (sums : Option (Buf Int × Nat)) : C (Buf Int × Buf Int × Option (Buf Int × Nat)) := do
  let s ← zeroSums sums
  let st ← forUpTo ((a.rows + 31) / 32) (fun k st => do
    let _ ← C.int (32 * k + 32)
    forUpTo 2 (fun m => chunk a cols sums.isSome (2 * k + m)) st) ⟨data, trailing, set1 0, 0⟩
  let s ← Pack.finishSums Pack.Avx512.isa st.acc st.adj s
  .ok (st.data, st.trailing, s)

/-- pack_avx512.cc:957-967: copying the trailing buffer. -/
def copyTrailing (rows poff : Nat) (data trailing : Buf Int) : C (Buf Int) :=
  if 0 < rows % 16 then do
    let nonTrailing := rows - rows % 16
    let dstRows := (rows + 3) / 4 * 4
    let r ← loadu (16 * (dstRows - nonTrailing)) trailing 0
    storeu (16 * (dstRows - nonTrailing)) data (poff + 16 * nonTrailing) r
  else .ok data

/-- ZeroHalfAvx512 (pack_avx512.cc:71-90): element loops written as block stores. -/
def zeroHalf (rows : Nat) (v : Int) (poff : Nat) (data : Buf Int) : C (Buf Int) :=
  forUpTo ((rows - rows % 16) / 4) (fun k d => storeu 32 d (poff + 64 * k) (set1 v)) data

/-- Pack16bitColMajorForAvx512 (pack_avx512.cc:908-968): sixteen columns. -/
def pack16 (src : Buf Int) (zp : Int) (off stride : Nat) (remaining : Int)
    (rows poff : Nat) (data : Buf Int) (sums : Option (Buf Int × Nat)) :
    C (Buf Int × Option (Buf Int × Nat)) := do
  let r ← halfPacker ⟨src, zp, rows, poff, 0⟩ (colOf off stride remaining) data
    ⟨256, fun _ => 0⟩ sums
  let r ← if 8 < remaining then do
      let o8 ← C.int (stride * 8)
      halfPacker ⟨src, zp, rows, poff + 32, 32⟩
        (colOf (off + o8) stride (remaining - 8)) r.1 r.2.1 (shiftSums 8 r.2.2)
    else do
      let d ← zeroHalf rows zp (poff + 32) r.1
      let s ← fillSums (zp * ((rows + 3) / 4 * 4 : Nat)) (shiftSums 8 r.2.2)
      .ok (d, r.2.1, s)
  let d ← copyTrailing rows poff r.1 r.2.1
  .ok (d, r.2.2)

/-- PackImpl::Run (pack_x86.h:288-319). -/
def run (src : Mul.Mat Int) (startCol endCol : Nat) (p : PMat Int) : C (PMat Int) := do
  C.check (src.layout.order = .colMajor)
  C.check (p.layout.order = .colMajor)
  C.check ((endCol - startCol) % 16 = 0)
  C.check (startCol % 16 = 0)
  let zp := wrap16 p.zp
  forUpTo ((endCol - startCol) / 16) (fun n p => do
    let blockCol := startCol + 16 * n
    let off ← C.int (src.layout.stride * blockCol)
    let poff ← C.int (p.layout.stride * blockCol)
    let r ← pack16 src.data zp off src.layout.stride
      ((src.layout.cols : Int) - blockCol) src.layout.rows poff p.data
      (p.sums.map (fun b => (b, blockCol)))
    .ok { p with data := r.1, sums := r.2.map Prod.fst }) p

end Ruy.Simd.Pack16

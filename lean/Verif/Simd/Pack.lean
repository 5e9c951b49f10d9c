import Verif.Simd.Mem
import Verif.Mul.Model
import Verif.Front.Model
/-
Packing of 8-bit column-major sources on x86:
  pack_avx2_fma.cc:67-535, 546-583 (Pack8bitColMajorForAvx2), pack_avx.cc:65-673, 687-724
  (Pack8bitColMajorForAvx), pack_avx512.cc:71-475 and 840-906 (Pack8bitColMajorForAvx512),
  pack_x86.h:65-105, 112-152, 228-273 (PackImpl::Run), 488-507 (MaskLoadu).

The three packers have the same structure: columns are taken eight at a time, rows in chunks of 32;
a chunk is transposed to eight blocks of 4 rows x 8 columns.  What differs between the instruction
sets is `Isa`.

Source elements are values of the source type; the code reads them through an `int8_t*`, which is
`wrap8`.  Pointer arithmetic on addresses that are not dereferenced is not modelled.
-/
namespace Ruy.Simd.Pack
open Ruy.Mat Ruy.Mul

/-- The part that depends on the instruction set.  `Acc` holds the vector accumulators for the
column sums. -/
structure Isa where
  Acc : Type
  /-- transposition of 8 registers of 32 bytes into 8 blocks of 32 bytes, and XOR -/
  blocks : Int → (Nat → Reg) → Nat → Reg
  /-- load of fewer than 32 bytes: source, zero point, available rows, address -/
  mload : Buf Int → Int → Nat → Nat → C Reg
  /-- the accumulators before the loop -/
  zero : Acc
  /-- adding a chunk (given by its blocks) to the accumulators -/
  acc : Acc → (Nat → Reg) → Acc
  /-- adding the accumulators and the adjustment to the stored sums -/
  final : Acc → Int → Reg → Reg

/-- pack_x86.h:488-507 (`MaskLoadu`): memcpy over registers filled with the zero point. -/
def maskLoadu (src : Buf Int) (zp : Int) (avail addr : Nat) : C Reg := do
  C.check (avail < 32)
  if 16 ≤ avail then do
    let lo ← loadu 16 src addr
    let hi ← loadu (avail - 16) src (addr + 16)
    .ok (join 16 (fun i => if i < avail - 16 then wrap8 (hi i) else zp) (fun i => wrap8 (lo i)))
  else do
    let lo ← loadu avail src addr
    .ok (join 16 (set1 zp) (fun i => if i < avail then wrap8 (lo i) else zp))

/-- `_mm256_mask_loadu_epi8` with the mask `(1 << avail) - 1` (pack_avx512.cc:105, 349-350):
bytes that are masked out are not accessed. -/
def maskLoad512 (src : Buf Int) (zp : Int) (avail addr : Nat) : C Reg := do
  let r ← loadu avail src addr
  .ok (fun i => if i < avail then wrap8 (r i) else zp)

/-! ### AVX2 -/
namespace Avx2

/-- pack_avx2_fma.cc:171-201 (and 303-333, 389-419): the registers stored at
`packed_ptr + j * 8 * 4`. -/
def transpose (t : Nat → Reg) : Nat → Reg :=
  let r0 := unpackG 4 0 (t 0) (t 1)
  let r4 := unpackG 4 0 (t 4) (t 5)
  let r2 := unpackG 4 8 (t 0) (t 1)
  let r6 := unpackG 4 8 (t 4) (t 5)
  let r1 := unpackG 4 0 (t 2) (t 3)
  let r5 := unpackG 4 0 (t 6) (t 7)
  let r3 := unpackG 4 8 (t 2) (t 3)
  let r7 := unpackG 4 8 (t 6) (t 7)
  let t0 := unpackG 8 0 r0 r1
  let t4 := unpackG 8 0 r4 r5
  let t2 := unpackG 8 8 r0 r1
  let t6 := unpackG 8 8 r4 r5
  let t1 := unpackG 8 0 r2 r3
  let t5 := unpackG 8 0 r6 r7
  let t3 := unpackG 8 8 r2 r3
  let t7 := unpackG 8 8 r6 r7
  let r0 := permute2 16 t0 t4 0x20
  let r4 := permute2 16 t1 t5 0x20
  let r1 := permute2 16 t0 t4 0x31
  let r5 := permute2 16 t1 t5 0x31
  let r2 := permute2 16 t2 t6 0x20
  let r6 := permute2 16 t3 t7 0x20
  let r3 := permute2 16 t2 t6 0x31
  let r7 := permute2 16 t3 t7 0x31
  fun j => match j with
    | 0 => r0 | 1 => r2 | 2 => r4 | 3 => r6 | 4 => r1 | 5 => r3 | 6 => r5 | _ => r7

/-- pack_avx2_fma.cc:203-210 (and 335-342, 421-428): XOR with `_mm256_set1_epi8(input_xor)`. -/
def blocks (xor : Int) (t : Nat → Reg) (j : Nat) : Reg := map2 xor8 (transpose t j) (set1 xor)

/-- pack_avx2_fma.cc:212-234 (half 0) and 243-266 (half 1), also 430-476: the registers r0, r1, … are the blocks
0, 4, 1, 5, 2, 6, 3, 7; sign extension (VPMOVSXBW) does not change values. -/
def sum16 (b : Nat → Reg) (h : Nat) : Reg :=
  let c (j : Nat) : Reg := ext 16 (b j) h
  map2 add16 (map2 add16 (map2 add16 (map2 add16 (map2 add16 (map2 add16 (map2 add16
    (c 0) (c 4)) (c 1)) (c 5)) (c 2)) (c 6)) (c 3)) (c 7)

/-- pack_avx2_fma.cc:238-241, 268-271, 478-481 and the same for the lower half. -/
def acc (s : Reg × Reg) (b : Nat → Reg) : Reg × Reg :=
  (map2 add32 s.1 (madd16 (sum16 b 0) (set1 1)), map2 add32 s.2 (madd16 (sum16 b 1) (set1 1)))

/-- pack_avx2_fma.cc:513-531; `_mm256_set_epi32` lists the lanes from the last to the first. -/
def final (s : Reg × Reg) (adj : Int) (sums : Reg) : Reg :=
  let idx := setr [0, 2, 4, 6, 1, 3, 5, 7]
  let lo := permvar8 s.1 idx
  let hi := permvar8 s.2 idx
  let a := permute2 4 lo hi 0x20
  let b := permute2 4 lo hi 0x31
  map2 add32 (map2 add32 (map2 add32 sums (set1 adj)) a) b

def isa : Isa := ⟨Reg × Reg, blocks, maskLoadu, (set1 0, set1 0), acc, final⟩

end Avx2

/-! ### AVX: every 256-bit integer operation is made of two 128-bit ones -/
namespace Avx

/-- pack_avx.cc:107-185: a 256-bit operation by halves, with `n` lanes in each half of
the operands and `m` in each half of the result. -/
def halves (n m : Nat) (f : Reg → Reg → Reg) (a b : Reg) : Reg :=
  join m (f (ext n a 1) (ext n b 1)) (f (ext n a 0) (ext n b 0))

/-- pack_avx.cc:187-203 (`mm_permute_helper`). -/
def permuteHelper (n : Nat) (a b : Reg) (imm : Nat) : Reg :=
  if imm / 8 % 2 = 0 then
    match imm % 4 with
    | 0 => ext n a 0
    | 1 => ext n a 1
    | 2 => ext n b 0
    | _ => ext n b 1
  else set1 0

/-- pack_avx.cc:205-212. -/
def permute2 (n : Nat) (a b : Reg) (imm : Nat) : Reg :=
  join n (permuteHelper n a b (imm / 16 % 16)) (permuteHelper n a b (imm % 16))

/-- pack_avx.cc:65-81 (`PermuteEpi32EvenOdds`). -/
def evenOdds (a : Reg) : Reg :=
  let tlo := shuf32 (ext 4 a 0) 0xd8
  let thi := shuf32 (ext 4 a 1) 0xd8
  join 4 (unpackhi64 tlo thi) (unpacklo64 tlo thi)

/-- pack_avx.cc:95-99 (`mm256_cvtepi8_epi16`): the upper 8 bytes are moved down with
`_mm_unpackhi_epi64(a, 0)`. -/
def cvt8to16 (a : Reg) : Reg := join 8 (unpackG 8 8 a (set1 0)) a

/-- pack_avx.cc:320-350 (and 444-474, 530-560). -/
def transpose (t : Nat → Reg) : Nat → Reg :=
  let lo32 := halves 16 16 (unpackG 4 0)
  let hi32 := halves 16 16 (unpackG 4 8)
  let lo64 := halves 16 16 (unpackG 8 0)
  let hi64 := halves 16 16 (unpackG 8 8)
  let r0 := lo32 (t 0) (t 1)
  let r4 := lo32 (t 4) (t 5)
  let r2 := hi32 (t 0) (t 1)
  let r6 := hi32 (t 4) (t 5)
  let r1 := lo32 (t 2) (t 3)
  let r5 := lo32 (t 6) (t 7)
  let r3 := hi32 (t 2) (t 3)
  let r7 := hi32 (t 6) (t 7)
  let t0 := lo64 r0 r1
  let t4 := lo64 r4 r5
  let t2 := hi64 r0 r1
  let t6 := hi64 r4 r5
  let t1 := lo64 r2 r3
  let t5 := lo64 r6 r7
  let t3 := hi64 r2 r3
  let t7 := hi64 r6 r7
  let r0 := permute2 16 t0 t4 0x20
  let r4 := permute2 16 t1 t5 0x20
  let r1 := permute2 16 t0 t4 0x31
  let r5 := permute2 16 t1 t5 0x31
  let r2 := permute2 16 t2 t6 0x20
  let r6 := permute2 16 t3 t7 0x20
  let r3 := permute2 16 t2 t6 0x31
  let r7 := permute2 16 t3 t7 0x31
  fun j => match j with
    | 0 => r0 | 1 => r2 | 2 => r4 | 3 => r6 | 4 => r1 | 5 => r3 | 6 => r5 | _ => r7

/-- pack_avx.cc:352-359. -/
def blocks (xor : Int) (t : Nat → Reg) (j : Nat) : Reg :=
  halves 16 16 (map2 xor8) (transpose t j) (set1 xor)

/-- pack_avx.cc:361-376 (half 0), 385-407 (half 1). -/
def sum16 (b : Nat → Reg) (h : Nat) : Reg :=
  let add := halves 8 8 (map2 add16)
  let c (j : Nat) : Reg := cvt8to16 (ext 16 (b j) h)
  add (add (add (add (add (add (add (c 0) (c 4)) (c 1)) (c 5)) (c 2)) (c 6)) (c 3)) (c 7)

/-- pack_avx.cc:380-383, 409-412. -/
def acc (s : Reg × Reg) (b : Nat → Reg) : Reg × Reg :=
  let add := halves 4 4 (map2 add32)
  let madd := halves 8 4 madd16
  (add s.1 (madd (sum16 b 0) (set1 1)), add s.2 (madd (sum16 b 1) (set1 1)))

/-- pack_avx.cc:654-669. -/
def final (s : Reg × Reg) (adj : Int) (sums : Reg) : Reg :=
  let add := halves 4 4 (map2 add32)
  let lo := evenOdds s.1
  let hi := evenOdds s.2
  add (add (add sums (set1 adj)) (permute2 4 lo hi 0x20)) (permute2 4 lo hi 0x31)

def isa : Isa := ⟨Reg × Reg, blocks, maskLoadu, (set1 0, set1 0), acc, final⟩

end Avx

/-! ### AVX-512: two columns in one register -/
namespace Avx512

/-- pack_avx512.cc:92-109 (`LoaduTwo`, `MaskLoaduTwo` concatenate two columns), 219-237 and 244-251
(and 297-315, 370-388). -/
def transpose (t : Nat → Reg) : Nat → Reg :=
  let t0 := join 32 (t 4) (t 0)
  let t1 := join 32 (t 5) (t 1)
  let t2 := join 32 (t 6) (t 2)
  let t3 := join 32 (t 7) (t 3)
  let r0 := unpackG 4 0 t0 t1
  let r2 := unpackG 4 8 t0 t1
  let r1 := unpackG 4 0 t2 t3
  let r3 := unpackG 4 8 t2 t3
  let t0 := unpackG 8 0 r0 r1
  let t2 := unpackG 8 8 r0 r1
  let t1 := unpackG 8 0 r2 r3
  let t3 := unpackG 8 8 r2 r3
  let r0 := shuffle32x4 t0 t1 0x88
  let r1 := shuffle32x4 t0 t1 0xdd
  let r2 := shuffle32x4 t2 t3 0x88
  let r3 := shuffle32x4 t2 t3 0xdd
  fun j => match j with
    | 0 => ext 32 r0 0 | 1 => ext 32 r2 0 | 2 => ext 32 r0 1 | 3 => ext 32 r2 1
    | 4 => ext 32 r1 0 | 5 => ext 32 r3 0 | 6 => ext 32 r1 1 | _ => ext 32 r3 1

/-- pack_avx512.cc:239-242; the XOR is applied before the halves are extracted. -/
def blocks (xor : Int) (t : Nat → Reg) (j : Nat) : Reg := map2 xor8 (transpose t j) (set1 xor)

/-- pack_avx512.cc:253-268: r0_0, r0_1, r1_0, … are the blocks 0, 2, 4, 6, 1, 3, 5, 7. -/
def sum16 (b : Nat → Reg) : Reg :=
  map2 add16 (map2 add16 (map2 add16 (map2 add16 (map2 add16 (map2 add16 (map2 add16
    (b 0) (b 2)) (b 4)) (b 6)) (b 1)) (b 3)) (b 5)) (b 7)

/-- pack_avx512.cc:272-274, 423-425. -/
def acc (s : Reg) (b : Nat → Reg) : Reg := map2 add32 s (madd16 (sum16 b) (set1 1))

/-- pack_avx512.cc:458-471. -/
def final (s : Reg) (adj : Int) (sums : Reg) : Reg :=
  let idx := setr [0, 2, 4, 6, 8, 10, 12, 14, 1, 3, 5, 7, 9, 11, 13, 15]
  let s2 := permvar16 idx s
  map2 add32 (map2 add32 (map2 add32 sums (set1 adj)) (ext 8 s2 0)) (ext 8 s2 1)

def isa : Isa := ⟨Reg, blocks, maskLoad512, set1 0, acc, final⟩

end Avx512

/-! ### The packers -/

/-- Where column `c` of the eight is read from: the source, or `zerobuf` (with increment 0). -/
inductive Col where
  | src (off : Nat)
  | zerobuf

/-- pack_avx2_fma.cc:80-128 (the same text in the other packers). -/
def colOf (off stride : Nat) (remaining : Int) (c : Nat) : Col :=
  if remaining < 8 ∧ (remaining ≤ c ∨ c = 7) then .zerobuf else .src (off + c * stride)

/-- `_mm256_loadu_si256(src_ptr_c)`, `k` rows into the column. -/
def loadFull (src : Buf Int) (zp : Int) (k : Nat) : Col → C Reg
  | .zerobuf => .ok (set1 zp)
  | .src off => do
    let r ← loadu 32 src (off + k)
    .ok (fun i => wrap8 (r i))

/-- The masked load of `avail` bytes. -/
def loadMasked (isa : Isa) (src : Buf Int) (zp : Int) (avail k : Nat) : Col → C Reg
  | .zerobuf => .ok (set1 zp)
  | .src off => isa.mload src zp avail (off + k)

/-- The eight loads, in the order of pack_avx2_fma.cc:162-169 and 380-387. -/
def loadCols (f : Col → C Reg) (cols : Nat → Col) : C (Nat → Reg) := do
  let t0 ← f (cols 0)
  let t4 ← f (cols 4)
  let t1 ← f (cols 1)
  let t5 ← f (cols 5)
  let t2 ← f (cols 2)
  let t6 ← f (cols 6)
  let t3 ← f (cols 3)
  let t7 ← f (cols 7)
  .ok (fun c => match c with
    | 0 => t0 | 1 => t1 | 2 => t2 | 3 => t3 | 4 => t4 | 5 => t5 | 6 => t6 | _ => t7)

/-- pack_avx2_fma.cc:273-288, 344-359, 483-498 and pack_avx512.cc:276-291: the eight stores;
consecutive blocks are `bs` bytes apart. -/
def storeBlocks (bs : Nat) (b : Buf Int) (off : Nat) (blk : Nat → Reg) : C (Buf Int) :=
  [0, 2, 4, 6, 1, 3, 5, 7].foldlM (fun b j => storeu 32 b (off + j * bs) (blk j)) b

/-- What the loop over chunks changes. -/
structure St (isa : Isa) where
  data : Buf Int
  trailing : Buf Int
  acc : isa.Acc
  adj : Int

/-- Arguments of the packers that stay the same: source buffer, XOR mask, zero point byte
(`zerobuf[0]`), number of rows, block stride (32, or 64 for AVX-512), offset in the packed buffer
and in the trailing buffer. -/
structure Args where
  src : Buf Int
  xor : Int
  zp : Int
  rows : Nat
  bs : Nat
  poff : Nat
  toff : Nat

/-- pack_avx2_fma.cc:148-510: one iteration, rows `32 * it` and following.  Whether the sums are
computed in a complete chunk depends on `sums_ptr`; that changes nothing else. -/
def chunk (isa : Isa) (a : Args) (cols : Nat → Col) (sums : Bool) (it : Nat) (st : St isa) :
    C (St isa) :=
  if 32 * it + 32 ≤ a.rows then do
    let t ← loadCols (loadFull a.src a.zp (32 * it)) cols
    let b := isa.blocks a.xor t
    let d ← storeBlocks a.bs st.data (a.poff + it * (8 * a.bs)) b
    .ok { st with data := d, acc := if sums then isa.acc st.acc b else st.acc }
  else if 32 * it < a.rows then do
    let avail := a.rows - 32 * it
    let adj ← C.i32 (st.adj + -(xor8 a.zp a.xor) * 4 * (8 - ((avail + 3) / 4 : Nat)))
    let t ← loadCols (loadMasked isa a.src a.zp avail (32 * it)) cols
    let b := isa.blocks a.xor t
    let tb ← storeBlocks a.bs st.trailing a.toff b
    .ok { st with trailing := tb, acc := isa.acc st.acc b, adj := adj }
  else .ok st

/-- pack_avx2_fma.cc:132-137: `sums_ptr[i] = 0`. -/
def zeroSums (sums : Option (Buf Int × Nat)) : C (Option (Buf Int × Nat)) :=
  match sums with
  | none => .ok none
  | some (b, off) => do
    let b ← storeu 8 b off (set1 0)
    .ok (some (b, off))

/-- pack_avx2_fma.cc:512-534. -/
def finishSums (isa : Isa) (acc : isa.Acc) (adj : Int) (sums : Option (Buf Int × Nat)) :
    C (Option (Buf Int × Nat)) :=
  match sums with
  | none => .ok none
  | some (b, off) => do
    let s ← loadu 8 b off
    let b ← storeu 8 b off (isa.final acc adj s)
    .ok (some (b, off))

/-- Pack8bitColMajorForAvx2Packer (pack_avx2_fma.cc:67-535), Pack8bitColMajorForAvxPacker
(pack_avx.cc:214-673). -/
def packer (isa : Isa) (a : Args) (cols : Nat → Col) (data trailing : Buf Int)
    (sums : Option (Buf Int × Nat)) : C (Buf Int × Buf Int × Option (Buf Int × Nat)) := do
  let s ← zeroSums sums
  let st ← forUpTo ((a.rows + 31) / 32) (fun k st => do
    let _ ← C.int (32 * k + 32)
    chunk isa a cols sums.isSome k st) ⟨data, trailing, isa.zero, 0⟩
  let s ← finishSums isa st.acc st.adj s
  .ok (st.data, st.trailing, s)

/-- HalfPack8bitAvx512 (pack_avx512.cc:121-475): two chunks per iteration. -/
def halfPacker (isa : Isa) (a : Args) (cols : Nat → Col) (data trailing : Buf Int)
    (sums : Option (Buf Int × Nat)) : C (Buf Int × Buf Int × Option (Buf Int × Nat)) := do
  let s ← zeroSums sums
  let st ← forUpTo ((a.rows + 63) / 64) (fun k st => do
    let _ ← C.int (64 * k + 64)
    forUpTo 2 (fun m => chunk isa a cols sums.isSome (2 * k + m)) st) ⟨data, trailing, isa.zero, 0⟩
  let s ← finishSums isa st.acc st.adj s
  .ok (st.data, st.trailing, s)

/-- pack_avx2_fma.cc:571-582, pack_avx512.cc:895-905: copying the trailing buffer. -/
def copyTrailing (rows kcols poff : Nat) (data trailing : Buf Int) : C (Buf Int) :=
  if 0 < rows % 32 then do
    let nonTrailing := rows - rows % 32
    let dstRows := (rows + 3) / 4 * 4
    let r ← loadu (kcols * (dstRows - nonTrailing)) trailing 0
    storeu (kcols * (dstRows - nonTrailing)) data (poff + kcols * nonTrailing) r
  else .ok data

/-- Pack8bitColMajorForAvx2 (pack_avx2_fma.cc:546-583), Pack8bitColMajorForAvx
(pack_avx.cc:687-724): eight columns. -/
def pack8 (isa : Isa) (src : Buf Int) (xor zp : Int) (off stride : Nat) (remaining : Int)
    (rows poff : Nat) (data : Buf Int) (sums : Option (Buf Int × Nat)) :
    C (Buf Int × Option (Buf Int × Nat)) := do
  let r ← packer isa ⟨src, xor, zp, rows, 32, poff, 0⟩ (colOf off stride remaining) data
    ⟨256, fun _ => 0⟩ sums
  let d ← copyTrailing rows 8 poff r.1 r.2.1
  .ok (d, r.2.2)

/-- ZeroHalfAvx512 (pack_avx512.cc:71-90): element loops written as block stores. -/
def zeroHalf (rows : Nat) (v : Int) (poff : Nat) (data : Buf Int) : C (Buf Int) :=
  forUpTo ((rows - rows % 32) / 4) (fun k d => storeu 32 d (poff + 64 * k) (set1 v)) data

/-- pack_avx512.cc:889-893: the sums of the eight columns of the second half. -/
def fillSums (v : Int) (sums : Option (Buf Int × Nat)) : C (Option (Buf Int × Nat)) :=
  match sums with
  | none => .ok none
  | some (b, off) => do
    let v ← C.i32 v
    let b ← storeu 8 b off (set1 v)
    .ok (some (b, off))

/-- Pointer to the sums of the second half. -/
def shiftSums (n : Nat) (sums : Option (Buf Int × Nat)) : Option (Buf Int × Nat) :=
  sums.map (fun s => (s.1, s.2 + n))

/-- Pack8bitColMajorForAvx512 (pack_avx512.cc:840-906): sixteen columns. -/
def pack16 (isa : Isa) (src : Buf Int) (xor zp : Int) (off stride : Nat) (remaining : Int)
    (rows poff : Nat) (data : Buf Int) (sums : Option (Buf Int × Nat)) :
    C (Buf Int × Option (Buf Int × Nat)) := do
  let r ← halfPacker isa ⟨src, xor, zp, rows, 64, poff, 0⟩ (colOf off stride remaining) data
    ⟨512, fun _ => 0⟩ sums
  let r ← if 8 < remaining then do
      let o8 ← C.int (stride * 8)
      halfPacker isa ⟨src, xor, zp, rows, 64, poff + 32, 32⟩
        (colOf (off + o8) stride (remaining - 8)) r.1 r.2.1 (shiftSums 8 r.2.2)
    else do
      let d ← zeroHalf rows (xor8 zp xor) (poff + 32) r.1
      let s ← fillSums (xor8 zp xor * ((rows + 3) / 4 * 4 : Nat)) (shiftSums 8 r.2.2)
      .ok (d, r.2.1, s)
  let d ← copyTrailing rows 16 poff r.1 r.2.1
  .ok (d, r.2.2)

/-- `kInputXor` (pack_x86.h:73-74): 0x80 as an int8_t. -/
def inputXor (t : Front.ScalarType) : Int := if t = .int8 then 0 else -128

/-- PackImpl::Run (pack_x86.h:75-104, 122-151, 242-272); `kc` is 8 or 16. -/
def run (kc : Nat) (pk : Buf Int → Int → Int → Nat → Nat → Int → Nat → Nat → Buf Int →
      Option (Buf Int × Nat) → C (Buf Int × Option (Buf Int × Nat)))
    (t : Front.ScalarType) (src : Mul.Mat Int) (startCol endCol : Nat) (p : PMat Int) :
    C (PMat Int) := do
  C.check (src.layout.order = .colMajor)
  C.check (p.layout.order = .colMajor)
  C.check ((endCol - startCol) % kc = 0)
  C.check (startCol % kc = 0)
  let zp := xor8 p.zp (inputXor t)
  forUpTo ((endCol - startCol) / kc) (fun n p => do
    let blockCol := startCol + kc * n
    let off ← C.int (src.layout.stride * blockCol)
    let poff ← C.int (p.layout.stride * blockCol)
    let r ← pk src.data (inputXor t) zp off src.layout.stride
      ((src.layout.cols : Int) - blockCol) src.layout.rows poff p.data
      (p.sums.map (fun b => (b, blockCol)))
    .ok { p with data := r.1, sums := r.2.map Prod.fst }) p

/-- Packing 8-bit column-major matrices for kAvx2Fma, kAvx and kAvx512. -/
def avx2 := run 8 (pack8 Avx2.isa)
def avx := run 8 (pack8 Avx.isa)
def avx512 := run 16 (pack16 Avx512.isa)

end Ruy.Simd.Pack

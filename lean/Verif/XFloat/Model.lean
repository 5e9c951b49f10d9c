import Verif.Simd.Flow
import Verif.Float.Model
/-
Multiplication of float matrices on the x86 paths:
  pack_x86.h:158-185, 191-218, 325-352 (PackImpl::Run for column-major sources), 470-486, 512-703
  (PackFloatColMajorForAvxCommonPacker), pack_avx.cc:675-683, 726-745, pack_avx2_fma.cc:538-542, 590-611,
  pack_avx512.cc:664-836, 970-995, pack_common.h:101-141 (row-major sources, `Float.memcpyPack`),
  kernel_common.h:216-281, kernel_x86.h:89-110, 161-182, 188-209 (Kernel::Run), 287-293, 599-912,
  kernel_avx.cc:432-439, kernel_avx2_fma.cc:70-75, kernel_avx512.cc:872-1318.

The type of floats and their operations are parameters.  A register is a function from lanes to floats.  Pointers
are offsets into the buffers, in floats; offsets computed from strides that went through an int32 can be negative.
Pointer arithmetic on addresses that are not dereferenced is not modelled.
-/
namespace Ruy.XFloat
open Ruy.Mat Ruy.Mul
open Ruy.Front (MulParams)
open Ruy.TrMul (Mem setSide)

/-- Float operations of a path. -/
structure VOps (A : Type) where
  zero : A
  /-- a lane of MulAdd(a, b, c): `a * b + c` -/
  madd : A → A → A → A
  /-- ordered, non-signalling `<` -/
  lt : A → A → Bool

variable {A : Type}

/-- VMINPS: the second operand unless the first is less. -/
def VOps.min (o : VOps A) (a b : A) : A := if o.lt a b then a else b
/-- VMAXPS: the second operand unless the first is greater. -/
def VOps.max (o : VOps A) (a b : A) : A := if o.lt b a then a else b

/-- kernel_avx.cc:434-439: multiplication and addition, each rounded. -/
def VOps.unfused (f : Float.Ops A) : VOps A := ⟨f.zero, fun a b c => f.add (f.mul a b) c, f.lt⟩
/-- kernel_avx2_fma.cc:72-75, `_mm512_fmadd_ps`. -/
def VOps.fused (f : Float.Ops A) (fma : A → A → A → A) : VOps A := ⟨f.zero, fma, f.lt⟩

/-! ### Registers and memory -/

abbrev FReg (A : Type) := Nat → A

def bcast1 (x : A) : FReg A := fun _ => x

/-- Load of `n` consecutive floats. -/
def load (n : Nat) (b : Buf A) (off : Int) : C (FReg A) :=
  if 0 ≤ off ∧ off + n ≤ b.size then .ok (fun i => b.val (off.toNat + i)) else .error .ub

/-- Store of the first `n` lanes (vector store, masked store with mask `(1 << n) - 1`, mm256_n_storeu_ps, memcpy). -/
def store (n : Nat) (b : Buf A) (off : Int) (r : FReg A) : C (Buf A) :=
  if 0 ≤ off ∧ off + n ≤ b.size then
    .ok ⟨b.size, fun o => if off.toNat ≤ o ∧ o < off.toNat + n then r (o - off.toNat) else b.val o⟩
  else .error .ub

/-- VUNPCKLPS/VUNPCKHPS (g = 1) and VUNPCKLPD/VUNPCKHPD (g = 2) on 32-bit lanes; h = 0: low, h = 2: high. -/
def unpack (g h : Nat) (a b : FReg A) : FReg A := fun i =>
  let src := i - i % 4 + h + i % 4 / g / 2 * g + i % 4 % g
  if i % 4 / g % 2 = 0 then a src else b src

/-- VPERM2F128, for selectors without the zeroing bit. -/
def permute2f128 (a b : FReg A) (imm : Nat) : FReg A := fun i =>
  let s := if i < 4 then imm % 4 else imm / 16 % 4
  if s < 2 then a (4 * s + i % 4) else b (4 * (s - 2) + i % 4)

/-- VSHUFF32X4. -/
def shuffle32x4 (a b : FReg A) (imm : Nat) : FReg A := fun i =>
  let s := imm / 4 ^ (i / 4) % 4
  if i < 8 then a (4 * s + i % 4) else b (4 * s + i % 4)

/-- VPERMILPS with an immediate. -/
def permute (a : FReg A) (imm : Nat) : FReg A := fun i => a (i - i % 4 + imm / 4 ^ (i % 4) % 4)

/-- VINSERTF32X8 into the upper half. -/
def join8 (lo hi : FReg A) : FReg A := fun i => if i < 8 then lo i else hi (i - 8)
/-- VEXTRACTF32X8. -/
def ext8 (a : FReg A) (h : Nat) : FReg A := fun i => a (8 * h + i)

/-! ### Packing -/

/-- pack_x86.h:570-608 and 622-658, 474-483: eight columns to eight rows of a 8x8 block. -/
def transpose8 (t : Nat → FReg A) : Nat → FReg A :=
  let r0 := unpack 1 0 (t 0) (t 1)
  let r4 := unpack 1 0 (t 4) (t 5)
  let r2 := unpack 1 2 (t 0) (t 1)
  let r6 := unpack 1 2 (t 4) (t 5)
  let r1 := unpack 1 0 (t 2) (t 3)
  let r5 := unpack 1 0 (t 6) (t 7)
  let r3 := unpack 1 2 (t 2) (t 3)
  let r7 := unpack 1 2 (t 6) (t 7)
  let t0 := unpack 2 0 r0 r1
  let t4 := unpack 2 0 r4 r5
  let t2 := unpack 2 2 r0 r1
  let t6 := unpack 2 2 r4 r5
  let t1 := unpack 2 0 r2 r3
  let t5 := unpack 2 0 r6 r7
  let t3 := unpack 2 2 r2 r3
  let t7 := unpack 2 2 r6 r7
  let r0 := permute2f128 t0 t4 0x20
  let r4 := permute2f128 t1 t5 0x20
  let r1 := permute2f128 t0 t4 0x31
  let r5 := permute2f128 t1 t5 0x31
  let r2 := permute2f128 t2 t6 0x20
  let r6 := permute2f128 t3 t7 0x20
  let r3 := permute2f128 t2 t6 0x31
  let r7 := permute2f128 t3 t7 0x31
  fun j => match j with
    | 0 => r0 | 1 => r2 | 2 => r4 | 3 => r6 | 4 => r1 | 5 => r3 | 6 => r5 | _ => r7

/-- pack_avx512.cc:664-685 and 745-777, 780-811: two columns in one register. -/
def transpose16 (t : Nat → FReg A) : Nat → FReg A :=
  let t0 := join8 (t 0) (t 4)
  let t1 := join8 (t 1) (t 5)
  let t2 := join8 (t 2) (t 6)
  let t3 := join8 (t 3) (t 7)
  let r0 := unpack 1 0 t0 t1
  let r2 := unpack 1 2 t0 t1
  let r1 := unpack 1 0 t2 t3
  let r3 := unpack 1 2 t2 t3
  let t0 := unpack 2 0 r0 r1
  let t2 := unpack 2 2 r0 r1
  let t1 := unpack 2 0 r2 r3
  let t3 := unpack 2 2 r2 r3
  let r0 := shuffle32x4 t0 t1 0x88
  let r1 := shuffle32x4 t0 t1 0xdd
  let r2 := shuffle32x4 t2 t3 0x88
  let r3 := shuffle32x4 t2 t3 0xdd
  fun j => match j with
    | 0 => ext8 r0 0 | 1 => ext8 r2 0 | 2 => ext8 r0 1 | 3 => ext8 r2 1
    | 4 => ext8 r1 0 | 5 => ext8 r3 0 | 6 => ext8 r1 1 | _ => ext8 r3 1

/-- pack_avx2_fma.cc:539-542: the lanes of the mask as int32. -/
def cmpgt (a b : Int) : Int := if b < a then -1 else 0

/-- pack_avx.cc:677-683: `_mm256_cmp_ps` gives all ones, as a float a NaN, which `_mm256_cvtps_epi32` converts to
the integer indefinite. -/
def cmpgtAvx (a b : Int) : Int := if b < a then -2 ^ 31 else 0

/-- VMASKMOVPS: lanes whose mask has the sign bit; other lanes are zero and not accessed.  The mask of the packers
selects the first `avail` lanes (pack_x86.h:613-615). -/
def maskLoad (gt : Int → Int → Int) (z : A) (b : Buf A) (off : Int) (avail : Nat) : C (FReg A) :=
  if ∀ i : Nat, i < 8 → gt avail i < 0 → 0 ≤ off + i ∧ off + i < b.size then
    .ok (fun i => if gt avail i < 0 then b.val (off + i).toNat else z)
  else .error .ub

/-- `_mm256_maskz_loadu_ps` with the mask `(1 << avail) - 1` (pack_avx512.cc:780-781). -/
def maskzLoad (z : A) (b : Buf A) (off : Int) (avail : Nat) : C (FReg A) := do
  let r ← load avail b off
  .ok (fun i => if (2 ^ avail - 1).testBit i then r i else z)

/-- Where column `c` of the eight is read from: the source, or `zerobuf` (with increment 0). -/
inductive Col where
  | src (off : Nat)
  | zerobuf

/-- pack_x86.h:525-573, pack_avx512.cc:691-738. -/
def colOf (off stride : Nat) (remaining : Int) (c : Nat) : Col :=
  if remaining < 8 ∧ (remaining ≤ c ∨ c = 7) then .zerobuf else .src (off + c * stride)

/-- The part of the packers that depends on the instruction set. -/
structure PackIsa (A : Type) where
  transpose : (Nat → FReg A) → Nat → FReg A
  /-- zero, buffer, address, available rows -/
  mload : A → Buf A → Int → Nat → C (FReg A)

def packAvx : PackIsa A := ⟨transpose8, maskLoad cmpgtAvx⟩
def packAvx2 : PackIsa A := ⟨transpose8, maskLoad cmpgt⟩
def packAvx512 : PackIsa A := ⟨transpose16, maskzLoad⟩

/-- `_mm256_loadu_ps(src_ptr_c)`, `k` rows into the column. -/
def loadFull (z : A) (src : Buf A) (k : Nat) : Col → C (FReg A)
  | .zerobuf => .ok (bcast1 z)
  | .src off => load 8 src (off + k : Nat)

/-- The load of `avail` rows. -/
def loadMasked (isa : PackIsa A) (z : A) (src : Buf A) (avail k : Nat) : Col → C (FReg A)
  | .zerobuf => .ok (bcast1 z)
  | .src off => isa.mload z src (off + k : Nat) avail

/-- The eight loads, in the order of pack_x86.h:583-590. -/
def loadCols (f : Col → C (FReg A)) (cols : Nat → Col) : C (Nat → FReg A) := do
  let t0 ← f (cols 0)
  let t4 ← f (cols 4)
  let t1 ← f (cols 1)
  let t5 ← f (cols 5)
  let t2 ← f (cols 2)
  let t6 ← f (cols 6)
  let t3 ← f (cols 3)
  let t7 ← f (cols 7)
  .ok (fun c => match c with
    | 0 => t0 | 1 => t1 | 2 => t2 | 3 => t3 | 4 => t4 | 5 => t5 | 6 => t6 | _ => t7)

/-- Stores of rows of eight floats, `kc` floats apart. -/
def storeRows (kc : Nat) (rows : List Nat) (b : Buf A) (off : Nat) (r : Nat → FReg A) : C (Buf A) :=
  rows.foldlM (fun b j => store 8 b (off + j * kc : Nat) (r j)) b

/-- Arguments of a packer that stay the same: source buffer, `zerobuf[0]`, number of rows, kernel width, offset in
the packed buffer and in the trailing buffer. -/
structure Args (A : Type) where
  src : Buf A
  z : A
  rows : Nat
  kc : Nat
  poff : Nat
  toff : Nat

/-- Packed buffer and trailing buffer. -/
structure PSt (A : Type) where
  data : Buf A
  trailing : Buf A

/-- pack_x86.h:576-702, pack_avx512.cc:741-833: rows `8 * it` and following.  The trailing buffer has no place for an
eighth row. -/
def chunk (isa : PackIsa A) (a : Args A) (cols : Nat → Col) (it : Nat) (st : PSt A) : C (PSt A) :=
  if 8 * it + 8 ≤ a.rows then do
    let t ← loadCols (loadFull a.z a.src (8 * it)) cols
    let d ← storeRows a.kc [0, 2, 4, 6, 1, 3, 5, 7] st.data (a.poff + it * (8 * a.kc)) (isa.transpose t)
    .ok { st with data := d }
  else if 8 * it < a.rows then do
    let t ← loadCols (loadMasked isa a.z a.src (a.rows - 8 * it) (8 * it)) cols
    let tb ← storeRows a.kc [0, 2, 4, 6, 1, 3, 5] st.trailing a.toff (isa.transpose t)
    .ok { st with trailing := tb }
  else .ok st

/-- pack_avx.cc:738-744, pack_avx512.cc:988-994: `memcpy` of the trailing rows. -/
def copyTrailing (kc rows poff : Nat) (st : PSt A) : C (Buf A) :=
  if 0 < rows % 8 then do
    let v ← load (kc * (rows % 8)) st.trailing 0
    store (kc * (rows % 8)) st.data (poff + kc * (rows - rows % 8) : Nat) v
  else .ok st.data

/-- pack_avx.cc:726-745, pack_avx2_fma.cc:590-611 and pack_x86.h:512-703: one block of eight columns.  `junk` is what
an uninitialised trailing buffer holds. -/
def pack8 (isa : PackIsa A) (z : A) (src : Buf A) (junk : Nat → A) (stride rows : Nat) (remaining : Int)
    (soff poff : Nat) (d : Buf A) : C (Buf A) := do
  let tb : Buf A := ⟨56, if remaining < 8 then bcast1 z else junk⟩
  let st ← forUpTo ((rows + 7) / 8) (chunk isa ⟨src, z, rows, 8, poff, 0⟩ (colOf soff stride remaining)) ⟨d, tb⟩
  copyTrailing 8 rows poff st

/-- pack_avx512.cc:687-826 (`HalfPackFloatAvx512`). -/
def half16 (isa : PackIsa A) (a : Args A) (cols : Nat → Col) (st : PSt A) : C (PSt A) :=
  forUpTo ((a.rows + 15) / 16) (fun q st => forUpTo 2 (fun m st => chunk isa a cols (2 * q + m) st) st) st

/-- pack_avx512.cc:828-836 (`ZeroHalfFloatAvx512`). -/
def zeroHalf (z : A) (rows poff : Nat) (d : Buf A) : C (Buf A) :=
  forUpTo (rows - rows % 8) (fun k d => forUpTo 8 (fun j d => d.write (poff + k * 16 + j) z) d) d

/-- pack_avx512.cc:970-995 (`PackFloatColMajorForAvx512`). -/
def pack16 (isa : PackIsa A) (z : A) (src : Buf A) (junk : Nat → A) (stride rows : Nat) (remaining : Int)
    (soff poff : Nat) (d : Buf A) : C (Buf A) := do
  let st ← if 8 < remaining then do
      let st ← half16 isa ⟨src, z, rows, 16, poff, 0⟩ (colOf soff stride remaining) ⟨d, ⟨112, junk⟩⟩
      let s8 ← C.int (stride * 8)
      half16 isa ⟨src, z, rows, 16, poff + 8, 8⟩ (colOf (soff + s8) stride (remaining - 8)) st
    else do
      let st ← half16 isa ⟨src, z, rows, 16, poff, 0⟩ (colOf soff stride remaining) ⟨d, ⟨112, bcast1 z⟩⟩
      let d ← zeroHalf z rows (poff + 8) st.data
      .ok { st with data := d }
  copyTrailing 16 rows poff st

/-- The packer of one block of columns: `zerobuf[0]`, source, junk, stride, rows, remaining columns, offset in the source and
in the packed buffer. -/
abbrev Packer (A : Type) :=
  A → Buf A → (Nat → A) → Nat → Nat → Int → Nat → Nat → Buf A → C (Buf A)

/-- One iteration of the loop over blocks (pack_x86.h:170-183, 203-216, 336-350). -/
def packBlock (kc : Nat) (pk : Packer A) (z : A) (src : Mul.Mat A) (junk : Nat → Nat → A) (l : PMatLayout) (col : Nat)
    (d : Buf A) : C (Buf A) := do
  let s ← C.int (src.layout.stride * col)
  let p ← C.int (l.stride * (col / kc * kc))
  pk z src.data (junk col) src.layout.stride src.layout.rows (src.layout.cols - col : Int) s p d

/-- pack_x86.h:161-184, 194-217, 327-351 (`PackImpl::Run`). -/
def packCols (kc : Nat) (pk : Packer A) (z : A) (src : Mul.Mat A) (junk : Nat → Nat → A) (lo hi : Nat) (p : PMat A) :
    C (PMat A) := do
  C.check (src.layout.order = .colMajor)
  C.check (p.layout.order = .colMajor)
  C.check ((hi - lo) % kc = 0)
  C.check (lo % kc = 0)
  let d ← forUpTo ((hi - lo) / kc) (fun n d => packBlock kc pk z src junk p.layout (lo + kc * n) d) p.data
  .ok { p with data := d }

/-! ### Kernels -/

/-- kernel_common.h:216-238 (`KernelParamsFloat`); `endRow`, `endCol` are `last_row + kc`, `last_col + kc`.  The strides
are those of the structure, in bytes. -/
structure KParams (A : Type) where
  lhs : Buf A
  rhs : Buf A
  bias : Buf A
  /-- RUY_ASM_FLAG_HAS_BIAS -/
  hasBias : Bool
  /-- RUY_ASM_FLAG_CHANNEL_DIMENSION_IS_COL -/
  channelCol : Bool
  lhsBase : Nat
  rhsBase : Nat
  dstBase : Nat
  startRow : Nat
  startCol : Nat
  endRow : Nat
  endCol : Nat
  dstRows : Nat
  dstCols : Nat
  lhsBytes : Int
  rhsBytes : Int
  dstBytes : Int
  depth : Nat
  clampMin : A
  clampMax : A

/-- kernel_common.h:268-270: `sizeof(float) * stride` converted to int32. -/
def strideBytes (stride : Nat) : Int := Simd.wrap32 (4 * stride)

/-- kernel_common.h:238-281 (`MakeKernelParamsFloat`) with LhsCols = RhsCols = kc. -/
def makeParams (kc : Nat) (z : A) (lhs rhs : PMat A) (mp : MulParams A) (start stop : SidePair Nat) (dst : Mul.Mat A) :
    C (KParams A) := do
  C.check (start.lhs % kc = 0)
  C.check (start.rhs % kc = 0)
  C.check (stop.lhs % kc = 0)
  C.check (stop.rhs % kc = 0)
  let lb ← C.int (start.lhs * lhs.layout.stride)
  let rb ← C.int (start.rhs * rhs.layout.stride)
  let db ← C.int (start.rhs * dst.layout.stride)
  C.check (stop.lhs < dst.layout.rows + kc)
  C.check (stop.rhs < dst.layout.cols + kc)
  .ok {
    lhs := lhs.data, rhs := rhs.data, bias := mp.bias.getD ⟨kc, bcast1 z⟩, hasBias := mp.bias.isSome,
    channelCol := decide (mp.channelDim = .col), lhsBase := lb, rhsBase := rb, dstBase := db + start.lhs,
    startRow := start.lhs, startCol := start.rhs, endRow := stop.lhs, endCol := stop.rhs,
    dstRows := dst.layout.rows, dstCols := dst.layout.cols, lhsBytes := strideBytes lhs.layout.stride,
    rhsBytes := strideBytes rhs.layout.stride, dstBytes := strideBytes dst.layout.stride, depth := lhs.layout.rows,
    clampMin := mp.clampMin, clampMax := mp.clampMax }

/-- kernel_x86.h:601-603, kernel_avx512.cc:876-878: `params.lhs_stride >> 2`. -/
def KParams.ls (k : KParams A) : Int := k.lhsBytes / 4
def KParams.rs (k : KParams A) : Int := k.rhsBytes / 4
def KParams.ds (k : KParams A) : Int := k.dstBytes / 4

/-- kernel_x86.h:605: `bias_ptr_block_increment`. -/
def KParams.inc (k : KParams A) : Nat := if k.hasBias then 1 else 0

/-- kernel_x86.h:607-608. -/
def KParams.rowEnd (k : KParams A) : Nat := min k.dstRows k.endRow
def KParams.colEnd (k : KParams A) : Nat := min k.dstCols k.endCol

/-- kernel_x86.h:610-616, 629-636: `lhs_col_ptr`, `rhs_col_ptr` and `dst_ptr`. -/
def KParams.lp (k : KParams A) (row : Nat) : Int := k.lhsBase - k.startRow * k.ls + row * k.ls
def KParams.rp (k : KParams A) (col : Nat) : Int := k.rhsBase - k.startCol * k.rs + col * k.rs
def KParams.dp (k : KParams A) (row col : Nat) : Int := k.dstBase - k.startCol * k.ds - k.startRow + col * k.ds + row

/-- The part of the kernels that depends on the instruction set. -/
structure Isa (A : Type) where
  kc : Nat
  ops : VOps A
  /-- eight consecutive floats, each in all lanes of a register -/
  bcast8 : Buf A → Int → C (Nat → FReg A)

/-- kernel_x86.h:658-692: broadcasts of four floats to both halves, and permutations by 0, 85, 170, 255. -/
def bcastAvx (b : Buf A) (off : Int) : C (Nat → FReg A) := do
  let lo ← load 4 b off
  let hi ← load 4 b (off + 4)
  let rhs03 : FReg A := fun i => lo (i % 4)
  let rhs47 : FReg A := fun i => hi (i % 4)
  .ok (fun j => permute (if j < 4 then rhs03 else rhs47) (85 * (j % 4)))

/-- kernel_avx512.cc:957-972: `_mm512_set1_ps(rhs_data[j])`. -/
def bcast512 (b : Buf A) (off : Int) : C (Nat → FReg A) := do
  let r ← load 8 b off
  .ok (fun j => bcast1 (r j))

/-- kernel_x86.h:638-652, kernel_avx512.cc:922-948: eight accumulators for columns from `col`. -/
def initial (isa : Isa A) (k : KParams A) (row col : Nat) : C (Nat → FReg A) :=
  if k.channelCol then do
    let v ← load 8 k.bias (col * k.inc : Nat)
    .ok (fun j => bcast1 (v j))
  else do
    let v ← load isa.kc k.bias (row * k.inc : Nat)
    .ok (fun _ => v)

/-- kernel_x86.h:656-697, kernel_avx512.cc:952-973: one iteration of the depth loop. -/
def depthStep (isa : Isa A) (k : KParams A) (lp rp : Int) (d : Nat) (acc : Nat → FReg A) : C (Nat → FReg A) := do
  let l ← load isa.kc k.lhs (lp + isa.kc * d)
  let r ← isa.bcast8 k.rhs (rp + isa.kc * d)
  .ok (fun j i => isa.ops.madd (l i) (r j i) (acc j i))

/-- kernel_x86.h:699-715: clamping. -/
def clamp (isa : Isa A) (k : KParams A) (v : FReg A) : FReg A := fun i =>
  isa.ops.max (isa.ops.min (v i) k.clampMax) k.clampMin

/-- One column of the eight: `dp` is the address of the first. -/
def storeCol (isa : Isa A) (k : KParams A) (rows : Nat) (dp : Int) (acc : Nat → FReg A) (j : Nat) (b : Buf A) : C (Buf A) :=
  store rows b (dp + j * k.ds) (clamp isa k (acc j))

/-- The depth loop.  `peeled`: its last iteration is outside of the loop, and unconditional
(kernel_avx512.cc:953-991). -/
def accumulate (isa : Isa A) (k : KParams A) (peeled : Bool) (lp rp : Int) (acc : Nat → FReg A) : C (Nat → FReg A) :=
  if peeled then do
    let acc ← forUpTo (k.depth - 1) (depthStep isa k lp rp) acc
    depthStep isa k lp rp (k.depth - 1) acc
  else forUpTo k.depth (depthStep isa k lp rp) acc

/-- Eight columns from `col + 8 * half` of the block at (row, col), of which `cols` are stored. -/
def eight (isa : Isa A) (k : KParams A) (peeled : Bool) (row col half rows cols : Nat) (b : Buf A) : C (Buf A) := do
  let acc ← initial isa k row (col + 8 * half)
  let acc ← accumulate isa k peeled (k.lp row) (k.rp col + 8 * half) acc
  forUpTo cols (storeCol isa k rows (k.dp row col + (half * 8) * k.ds) acc) b

/-- kernel_x86.h:632-717 and 737-803: the row loop for `cols` columns. -/
def rowLoop8 (isa : Isa A) (k : KParams A) (col cols : Nat) (b : Buf A) : C (Buf A) :=
  forUpTo ((k.rowEnd - k.startRow + 7) / 8) (fun m b =>
    let row := k.startRow + 8 * m
    eight isa k false row col 0 (min (k.rowEnd - row) 8) cols b) b

/-- kernel_x86.h:599-805 (`KernelFloatAvxCommon`). -/
def kernel8 (isa : Isa A) (k : KParams A) (b : Buf A) : C (Buf A) := do
  let n := (k.colEnd - k.startCol) / 8
  let b ← forUpTo n (fun c b => rowLoop8 isa k (k.startCol + 8 * c) 8 b) b
  let col := k.startCol + 8 * n
  if col < k.colEnd then do
    C.check (k.colEnd - col < 8)
    rowLoop8 isa k col (min (k.colEnd - col) 8) b
  else .ok b

/-- kernel_avx512.cc:906-1010: full blocks of rows and the remaining rows, for a full block of columns. -/
def fullCols16 (isa : Isa A) (k : KParams A) (col : Nat) (b : Buf A) : C (Buf A) := do
  let n := (k.rowEnd - k.startRow) / 16
  let b ← forUpTo n (fun m b =>
    forUpTo 2 (fun half b => eight isa k true (k.startRow + 16 * m) col half 16 8 b) b) b
  let row := k.startRow + 16 * n
  if row < k.rowEnd then
    forUpTo 2 (fun half b => eight isa k true row col half (k.rowEnd - row) 8 b) b
  else .ok b

/-- kernel_avx512.cc:1149-1235: the remaining columns. -/
def restCols16 (isa : Isa A) (k : KParams A) (col : Nat) (b : Buf A) : C (Buf A) :=
  forUpTo ((k.rowEnd - k.startRow + 15) / 16) (fun m b =>
    let row := k.startRow + 16 * m
    forUpTo 2 (fun half b =>
      eight isa k false row col half (min (k.rowEnd - row) 16) (min (k.colEnd - col - 8 * half) 8) b) b) b

/-- kernel_avx512.cc:872-1236 (`KernelFloatAvx512`). -/
def kernel16 (isa : Isa A) (k : KParams A) (b : Buf A) : C (Buf A) := do
  let n := (k.colEnd - k.startCol) / 16
  let b ← forUpTo n (fun c b => fullCols16 isa k (k.startCol + 16 * c) b) b
  let col := k.startCol + 16 * n
  if col < k.colEnd then do
    C.check (k.colEnd - col < 16)
    restCols16 isa k col b
  else .ok b

/-- kernel_x86.h:845-873: one multiply-add of the kernels for one column. -/
def singleStep (isa : Isa A) (k : KParams A) (lp : Int) (d : Nat) (acc : FReg A) : C (FReg A) := do
  let l ← load isa.kc k.lhs (lp + isa.kc * d)
  let r ← load 1 k.rhs (k.rhsBase + isa.kc * d)
  .ok (fun i => isa.ops.madd (l i) (r 0) (acc i))

/-- kernel_x86.h:843-884: four at a time, then the rest. -/
def unrolled4 (isa : Isa A) (k : KParams A) (lp : Int) (acc : FReg A) : C (FReg A) := do
  let acc ← forUpTo (k.depth / 4) (fun q acc => do
    let acc ← singleStep isa k lp (4 * q) acc
    let acc ← singleStep isa k lp (4 * q + 1) acc
    let acc ← singleStep isa k lp (4 * q + 2) acc
    singleStep isa k lp (4 * q + 3) acc) acc
  forUpTo (k.depth - k.depth / 4 * 4) (fun d acc => singleStep isa k lp (k.depth / 4 * 4 + d) acc) acc

/-- The depth loop for one column. -/
def singleDot (isa : Isa A) (k : KParams A) (unroll : Bool) (lp : Int) (acc : FReg A) : C (FReg A) :=
  if unroll then unrolled4 isa k lp acc else forUpTo k.depth (singleStep isa k lp) acc

/-- A block of rows: kernel_x86.h:833-889, 892-911, kernel_avx512.cc:1268-1291, 1294-1317. -/
def singleBlock (isa : Isa A) (k : KParams A) (unroll : Bool) (row rows : Nat) (b : Buf A) : C (Buf A) := do
  let acc ← load isa.kc k.bias (row * k.inc : Nat)
  let acc ← singleDot isa k unroll (k.lp row) acc
  store rows b (k.dstBase - k.startRow + row : Int) (clamp isa k acc)

/-- kernel_x86.h:808-912 (`KernelFloatAvxCommonSingleCol`, `unroll`) and kernel_avx512.cc:1238-1318. -/
def singleCol (isa : Isa A) (unroll : Bool) (k : KParams A) (b : Buf A) : C (Buf A) := do
  C.check (k.dstCols = 1)
  C.check (k.endCol = isa.kc)
  C.check (k.startCol = 0)
  let n := (k.rowEnd - k.startRow) / isa.kc
  let b ← forUpTo n (fun m b => singleBlock isa k unroll (k.startRow + isa.kc * m) isa.kc b) b
  let row := k.startRow + isa.kc * n
  if row < k.rowEnd then do
    C.check (1 ≤ k.rowEnd - row)
    C.check (k.rowEnd - row < isa.kc)
    singleBlock isa k false row (k.rowEnd - row) b
  else .ok b

/-! ### Paths -/

/-- Pack functions and kernels of a path. -/
structure Path (A : Type) where
  isa : Isa A
  packer : Packer A
  kernel : KParams A → Buf A → C (Buf A)
  single : KParams A → Buf A → C (Buf A)

/-- Path::kAvx. -/
def pathAvx (o : VOps A) : Path A :=
  let isa : Isa A := ⟨8, o, bcastAvx⟩
  ⟨isa, pack8 packAvx, kernel8 isa, singleCol isa true⟩
/-- Path::kAvx2Fma. -/
def pathAvx2 (o : VOps A) : Path A :=
  let isa : Isa A := ⟨8, o, bcastAvx⟩
  ⟨isa, pack8 packAvx2, kernel8 isa, singleCol isa true⟩
/-- Path::kAvx512. -/
def pathAvx512 (o : VOps A) : Path A :=
  let isa : Isa A := ⟨16, o, bcast512⟩
  ⟨isa, pack16 packAvx512, kernel16 isa, singleCol isa false⟩

/-- kernel_x86.h:96-109, 168-181, 195-208 (`Kernel::Run`). -/
def runKernel (P : Path A) (lhs rhs : PMat A) (mp : MulParams A) (start stop : SidePair Nat) (dst : Mul.Mat A) :
    C (Mul.Mat A) := do
  let k ← makeParams P.isa.kc P.isa.ops.zero lhs rhs mp start stop dst
  let d ← if dst.layout.cols = 1 ∧ mp.channelDim = .row then P.single k dst.data else P.kernel k dst.data
  .ok { dst with data := d }

/-- pack.h:134-151 (`RunPack`), pack_common.h:101-141 for row-major sources. -/
def packSide (P : Path A) (src : Mul.Mat A) (junk : Nat → Nat → A) (lo hi : Nat) (p : PMat A) : C (PMat A) :=
  if src.layout.order = .colMajor then packCols P.isa.kc P.packer P.isa.ops.zero src junk lo hi p
  else Float.memcpyPack P.isa.ops.zero P.isa.kc src lo hi p

/-- What stays constant: sources, MulParams, and what uninitialised trailing buffers hold. -/
structure Job (A : Type) where
  src : SidePair (Mul.Mat A)
  mp : MulParams A
  junk : Side → Nat → Nat → A

/-- One call of RunPack or RunKernel. -/
def step (P : Path A) (jb : Job A) (m : Mem A) : Simd.Flow.Op → C (Mem A)
  | .pack s lo hi => do
    let p ← packSide P (jb.src.get s) (jb.junk s) lo hi (m.packed.get s)
    .ok { m with packed := setSide m.packed s p }
  | .kernel start stop => do
    let d ← runKernel P m.packed.lhs m.packed.rhs jb.mp start stop m.dst
    .ok { m with dst := d }

/-- Calls one after another. -/
def runOps (P : Path A) (jb : Job A) : List Simd.Flow.Op → Mem A → C (Mem A)
  | [], m => .ok m
  | o :: os, m => do
    let m' ← step P jb m o
    runOps P jb os m'

/-- trmul.cc:337-356: the simple loop, no side prepacked. -/
def simpleLoop (P : Path A) (jb : Job A) (m : Mem A) : C (Mem A) :=
  runOps P jb [.pack .lhs 0 m.packed.lhs.layout.cols, .pack .rhs 0 m.packed.rhs.layout.cols,
    .kernel ⟨0, 0⟩ ⟨m.packed.lhs.layout.cols, m.packed.rhs.layout.cols⟩] m

end Ruy.XFloat

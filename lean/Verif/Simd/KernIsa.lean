import Verif.Simd.Mem
import Verif.Simd.Mult
import Verif.Front.Model
/-
Registers of the 8-bit x86 kernels:
  kernel_avx2_fma.cc:62-353, 416-650, kernel_avx.cc:60-400, 600-720, kernel_avx512.cc:255-325,
  kernel_x86.h:303-591.

Bytes and 16-bit lanes hold signed values, so that sign extension does not change them.  Storing to
`rhs_data_buf` and loading from it again is the identity.
-/
namespace Ruy.Simd.Kern
open Ruy.Front (ScalarType)

/-- What a kernel does with registers. -/
structure Isa where
  /-- columns of a block of the LHS and of the RHS -/
  kc : Nat
  add : Reg → Reg → Reg
  sub : Reg → Reg → Reg
  mullo : Reg → Reg → Reg
  min : Reg → Reg → Reg
  max : Reg → Reg → Reg
  /-- broadcast of a lane of the bias vector -/
  bcast : Reg → Nat → Reg
  /-- the two registers of 16-bit lanes made of the LHS bytes -/
  lhsLow : Reg → Reg
  lhsHigh : Reg → Reg
  /-- 16-bit lanes of `rhs_data`, from the bytes loaded -/
  expand : Reg → Reg
  /-- 16-bit lanes multiplied for column `j`, with the low and the high LHS register -/
  dupLow : Reg → Nat → Reg
  dupHigh : Reg → Nat → Reg
  /-- accum += lhs_low * dup_low; accum += lhs_high * dup_high -/
  mac : Reg → Reg → Reg → Reg → Reg → Reg
  /-- multiplier and zero point; the first argument tells whether channels are columns -/
  mult : Bool → Reg → Reg → Int → (Nat → Reg) → Nat → Reg
  /-- storing the lanes of `n` rows; the second argument tells whether the block is full -/
  store : ScalarType → Bool → Buf Int → Nat → Nat → Reg → C (Buf Int)

/-! ### Shuffles -/

/-- VPSHUFB: within each group of 16 bytes; a negative index gives 0. -/
def shuffle8 (a idx : Reg) : Reg := fun i =>
  if idx i < 0 then 0 else a (i / 16 * 16 + (idx i % 16).toNat)

/-- Bytes of 32-bit and of 64-bit lanes (little endian). -/
def bytes32 (r : Reg) : Reg := fun i => wrap8 (r (i / 4) / 256 ^ (i % 4))
def bytes64 (r : Reg) : Reg := fun i => wrap8 (r (i / 8) / 256 ^ (i % 8))
/-- 16-bit lanes made of bytes. -/
def words8 (b : Reg) : Reg := fun i => wrap16 (b (2 * i) % 256 + 256 * b (2 * i + 1))
/-- Low 16-bit lanes of 32-bit lanes. -/
def words32 (r : Reg) : Reg := fun i => wrap16 (r (i / 2) / 65536 ^ (i % 2))

/-- VPSHUFD on 16-bit lanes. -/
def shuffle32 (a : Reg) (imm : Nat) : Reg := fun i =>
  a (i / 8 * 8 + (imm / 4 ^ (i % 8 / 2) % 4 * 2 + i % 2))

/-- VUNPCKLPS (h = 0), VUNPCKHPS (h = 2) on 32-bit lanes. -/
def unpackPs (h : Nat) (a b : Reg) : Reg := fun i =>
  if i % 2 = 0 then a (i / 4 * 4 + h + i % 4 / 2) else b (i / 4 * 4 + h + i % 4 / 2)

/-- VSHUFPS: two lanes selected from `a`, two from `b`, within each group of four. -/
def shufflePs (a b : Reg) (imm : Nat) : Reg := fun i =>
  if i % 4 < 2 then a (i / 4 * 4 + imm / 4 ^ (i % 4) % 4) else b (i / 4 * 4 + imm / 4 ^ (i % 4) % 4)

/-- kernel_x86.h:553-581, 584-593 (`mm256_transpose8x8_ps`, `mm256_transpose8x8_epi32`);
_MM_SHUFFLE(1, 0, 1, 0) = 0x44, _MM_SHUFFLE(3, 2, 3, 2) = 0xee. -/
def transpose8 (v : Nat → Reg) (j : Nat) : Reg :=
  let t0 := unpackPs 0 (v 0) (v 1)
  let t1 := unpackPs 2 (v 0) (v 1)
  let t2 := unpackPs 0 (v 2) (v 3)
  let t3 := unpackPs 2 (v 2) (v 3)
  let t4 := unpackPs 0 (v 4) (v 5)
  let t5 := unpackPs 2 (v 4) (v 5)
  let t6 := unpackPs 0 (v 6) (v 7)
  let t7 := unpackPs 2 (v 6) (v 7)
  let q0 := shufflePs t0 t2 0x44
  let q1 := shufflePs t0 t2 0xee
  let q2 := shufflePs t1 t3 0x44
  let q3 := shufflePs t1 t3 0xee
  let q4 := shufflePs t4 t6 0x44
  let q5 := shufflePs t4 t6 0xee
  let q6 := shufflePs t5 t7 0x44
  let q7 := shufflePs t5 t7 0xee
  match j with
  | 0 => permute2 4 q0 q4 0x20
  | 1 => permute2 4 q1 q5 0x20
  | 2 => permute2 4 q2 q6 0x20
  | 3 => permute2 4 q3 q7 0x20
  | 4 => permute2 4 q0 q4 0x31
  | 5 => permute2 4 q1 q5 0x31
  | 6 => permute2 4 q2 q6 0x31
  | _ => permute2 4 q3 q7 0x31

/-- kernel_avx2_fma.cc:105-110, kernel_avx.cc:446-451. -/
def splitter : Reg :=
  setr [0, 1, 4, 5, 8, 9, 12, 13, 2, 3, 6, 7, 10, 11, 14, 15,
        0, 1, 4, 5, 8, 9, 12, 13, 2, 3, 6, 7, 10, 11, 14, 15]

/-! ### Stores -/

/-- A store of `n` elements at `dst + o`; `cv` is the value of a byte or 16-bit word in the
destination type. -/
def put (cv : Int → Int) (off n o : Nat) (r : Reg) (b : Buf Int) : C (Buf Int) :=
  storeu n b (off + o) (fun i => cv (r i))

/-- kernel_x86.h:354-408 (`mm256_n_storeu_cvtepi32_epi8`). -/
def nStore8 (sh : Reg → Reg → Reg) (cv : Int → Int) (b : Buf Int) (off rows : Nat) (v : Reg) :
    C (Buf Int) :=
  let s := sh (bytes32 v) (bytes32 (set1 0x0c080400))
  match rows with
  | 0 => .ok b
  | 1 => put cv off 1 0 (bytes32 v) b
  | 2 => put cv off 2 0 (ext 16 s 0) b
  | 3 => do
    let b ← put cv off 2 0 (ext 16 s 0) b
    put cv off 1 2 (fun _ => ext 16 s 0 2) b
  | 4 => put cv off 4 0 (ext 16 s 0) b
  | 5 => do
    let b ← put cv off 4 0 (ext 16 s 0) b
    put cv off 1 4 (fun _ => s 16) b
  | 6 => do
    let b ← put cv off 4 0 (ext 16 s 0) b
    put cv off 2 4 (ext 16 s 1) b
  | 7 => do
    let b ← put cv off 4 0 (ext 16 s 0) b
    let b ← put cv off 2 4 (ext 16 s 1) b
    put cv off 1 6 (fun _ => ext 16 s 1 2) b
  | 8 => do
    let b ← put cv off 4 0 (ext 16 s 0) b
    put cv off 4 4 (ext 16 s 1) b
  | _ => .error .abort

/-- kernel_x86.h:410-417, 426-433 (`mm256_storeu_cvtepi32_epi8`). -/
def store8 (sh : Reg → Reg → Reg) (cv : Int → Int) (b : Buf Int) (off : Nat) (v : Reg) :
    C (Buf Int) := do
  let s := sh (bytes32 v) (bytes32 (set1 0x0c080400))
  let b ← put cv off 4 0 (ext 16 s 0) b
  put cv off 4 4 (ext 16 s 1) b

/-- kernel_x86.h:435-490 (`mm256_n_storeu_cvtepi32_epi16`). -/
def nStore16 (sh : Reg → Reg → Reg) (b : Buf Int) (off rows : Nat) (v : Reg) : C (Buf Int) :=
  let s := words8 (sh (bytes32 v) (bytes64 (set1 0x0d0c090805040100)))
  match rows with
  | 0 => .ok b
  | 1 => put id off 1 0 (words32 v) b
  | 2 => put id off 2 0 (ext 8 s 0) b
  | 3 => do
    let b ← put id off 2 0 (ext 8 s 0) b
    put id off 1 2 (fun _ => ext 8 s 0 2) b
  | 4 => put id off 4 0 (ext 8 s 0) b
  | 5 => do
    let b ← put id off 4 0 (ext 8 s 0) b
    put id off 1 4 (fun _ => s 8) b
  | 6 => do
    let b ← put id off 4 0 (ext 8 s 0) b
    put id off 2 4 (ext 8 s 1) b
  | 7 => do
    let b ← put id off 4 0 (ext 8 s 0) b
    let b ← put id off 2 4 (ext 8 s 1) b
    put id off 1 6 (fun _ => ext 8 s 1 2) b
  | 8 => do
    let b ← put id off 4 0 (ext 8 s 0) b
    put id off 4 4 (ext 8 s 1) b
  | _ => .error .abort

/-- kernel_x86.h:492-500 (`mm256_storeu_cvtepi32_epi16`). -/
def store16 (sh : Reg → Reg → Reg) (b : Buf Int) (off : Nat) (v : Reg) : C (Buf Int) := do
  let s := words8 (sh (bytes32 v) (bytes64 (set1 0x0d0c090805040100)))
  let b ← put id off 4 0 (ext 8 s 0) b
  put id off 4 4 (ext 8 s 1) b

/-- kernel_x86.h:502-545 (`mm256_n_storeu_epi32`). -/
def nStore32 (b : Buf Int) (off rows : Nat) (v : Reg) : C (Buf Int) :=
  match rows with
  | 0 => .ok b
  | 1 => put id off 1 0 (ext 4 v 0) b
  | 2 => put id off 2 0 (ext 4 v 0) b
  | 3 => do
    let b ← put id off 2 0 (ext 4 v 0) b
    put id off 1 2 (fun _ => ext 4 v 0 2) b
  | 4 => put id off 4 0 (ext 4 v 0) b
  | 5 => do
    let b ← put id off 4 0 (ext 4 v 0) b
    put id off 1 4 (fun _ => v 4) b
  | 6 => do
    let b ← put id off 4 0 (ext 4 v 0) b
    put id off 2 4 (ext 4 v 1) b
  | 7 => do
    let b ← put id off 4 0 (ext 4 v 0) b
    let b ← put id off 2 4 (ext 4 v 1) b
    put id off 1 6 (fun _ => ext 4 v 1 2) b
  | 8 => put id off 8 0 v b
  | _ => .error .abort

/-- A byte as a value of the 8-bit destination type. -/
def byteAs (t : ScalarType) (x : Int) : Int := if t = .uint8 then x % 256 else x

/-- kernel_avx2_fma.cc:532-715, kernel_avx.cc:920-1170; RUY_DCHECK(false) for other types. -/
def store256 (sh : Reg → Reg → Reg) (t : ScalarType) (full : Bool) (b : Buf Int) (off rows : Nat)
    (v : Reg) : C (Buf Int) :=
  match t with
  | .int8 | .uint8 => if full then store8 sh (byteAs t) b off v else nStore8 sh (byteAs t) b off rows v
  | .int16 => if full then store16 sh b off v else nStore16 sh b off rows v
  | .int32 => if full then put id off 8 0 v b else nStore32 b off rows v
  | .float => .error .abort

/-- Masked store of 16 lanes: lanes that are not selected are not accessed. -/
def maskStore (mask : Nat) (b : Buf Int) (off : Nat) (r : Reg) : C (Buf Int) :=
  if ∀ i, i < 16 → mask.testBit i = true → off + i < b.size then
    .ok ⟨b.size, fun o => if off ≤ o ∧ o < off + 16 ∧ mask.testBit (o - off) = true then r (o - off)
      else b.val o⟩
  else .error .ub

/-- VPMOVDB, VPMOVDW: truncation of 32-bit lanes. -/
def narrow (t : ScalarType) (v : Reg) : Reg := fun i =>
  match t with
  | .int8 | .uint8 => byteAs t (wrap8 (v i))
  | .int16 => wrap16 (v i)
  | _ => v i

/-- kernel_avx512.cc:115-116 (`row_mask`), 532-618. -/
def store512 (t : ScalarType) (full : Bool) (b : Buf Int) (off rows : Nat) (v : Reg) : C (Buf Int) :=
  if t = .float then .error .abort
  else if full then storeu 16 b off (narrow t v)
  else maskStore (2 ^ rows - 1) b off (narrow t v)

/-! ### AVX2 -/

/-- kernel_avx2_fma.cc:289-301 (for AVX with emulated intrinsics): the splitter separates bytes
0, 1, 4, 5, … from bytes 2, 3, 6, 7, … -/
def splitLow (sh : Reg → Reg → Reg) (cvt : Reg → Reg) (lhs : Reg) : Reg :=
  let s := sh lhs splitter
  permute2 8 (cvt (ext 16 s 0)) (cvt (ext 16 s 1)) 0x20
def splitHigh (sh : Reg → Reg → Reg) (cvt : Reg → Reg) (lhs : Reg) : Reg :=
  let s := sh lhs splitter
  permute2 8 (cvt (ext 16 s 0)) (cvt (ext 16 s 1)) 0x31

/-- kernel_avx2_fma.cc:303-314: `rhs0_3`, `rhs4_7`, `rhs8_11`, `rhs12_15`. -/
def rhsQuad (r : Reg) (q : Nat) : Reg :=
  let rhs0 := ext 16 r 0
  let rhs1 := ext 16 r 1
  match q with
  | 0 => permute2 8 rhs0 rhs0 0
  | 1 => permute2 8 rhs0 rhs0 0x11
  | 2 => permute2 8 rhs1 rhs1 0
  | _ => permute2 8 rhs1 rhs1 17

/-- kernel_avx2_fma.cc:323-347: `tmp0` and `tmp2`, `tmp1` and `tmp3`. -/
def dupLow8 (r : Reg) (j : Nat) : Reg :=
  match j with
  | 0 => shuffle32 (rhsQuad r 0) 0
  | 1 => shuffle32 (rhsQuad r 0) 0xaa
  | 2 => shuffle32 (rhsQuad r 1) 0
  | 3 => shuffle32 (rhsQuad r 1) 0xaa
  | 4 => shuffle32 (rhsQuad r 2) 0
  | 5 => shuffle32 (rhsQuad r 2) 0xaa
  | 6 => shuffle32 (rhsQuad r 3) 0
  | _ => shuffle32 (rhsQuad r 3) 0xaa
def dupHigh8 (r : Reg) (j : Nat) : Reg :=
  match j with
  | 0 => shuffle32 (rhsQuad r 0) 0x55
  | 1 => shuffle32 (rhsQuad r 0) 0xff
  | 2 => shuffle32 (rhsQuad r 1) 0x55
  | 3 => shuffle32 (rhsQuad r 1) 0xff
  | 4 => shuffle32 (rhsQuad r 2) 0x55
  | 5 => shuffle32 (rhsQuad r 2) 0xff
  | 6 => shuffle32 (rhsQuad r 3) 0x55
  | _ => shuffle32 (rhsQuad r 3) 0xff

/-- kernel_avx2_fma.cc:430-441, 493-527: the multiplier, with transposition around it. -/
def mult8 (apply : Reg → Reg → Reg → Int → Reg) (tr : Bool) (m e : Reg) (dzp : Int) (acc : Nat → Reg) :
    Nat → Reg :=
  if tr then transpose8 (fun j => apply (transpose8 acc j) m e dzp)
  else fun j => apply (acc j) m e dzp

/-- Kernel8bitAvx2Impl. -/
def avx2 : Isa where
  kc := 8
  add := map2 add32
  sub := map2 sub32
  mullo := map2 mullo32
  min := map2 Min.min
  max := map2 Max.max
  bcast b j := permvar8 b (set1 j)
  lhsLow := splitLow shuffle8 id
  lhsHigh := splitHigh shuffle8 id
  expand d := join 16 (ext 16 d 1) (ext 16 d 0)
  dupLow := dupLow8
  dupHigh := dupHigh8
  mac acc l h dl dh := map2 add32 (map2 add32 acc (madd16 l dl)) (madd16 h dh)
  mult := mult8 Avx2.apply
  store := store256 shuffle8

/-! ### AVX -/

/-- kernel_avx.cc:89-94 (`mm256_cvtepi8_epi16`). -/
def cvtAvx (a : Reg) : Reg := join 8 (fun i => if i < 8 then a (8 + i) else 0) a

/-- kernel_avx.cc:214-218 (macro `mm256_shuffle_epi32`), on 16-bit lanes. -/
def shuffle32Avx (a : Reg) (imm : Nat) : Reg :=
  join 8 (shuffle32 (ext 8 a 1) imm) (shuffle32 (ext 8 a 0) imm)

/-- kernel_avx.cc:676-708. -/
def dupLowAvx (r : Reg) (j : Nat) : Reg :=
  match j with
  | 0 => shuffle32Avx (rhsQuad r 0) 0
  | 1 => shuffle32Avx (rhsQuad r 0) 0xaa
  | 2 => shuffle32Avx (rhsQuad r 1) 0
  | 3 => shuffle32Avx (rhsQuad r 1) 0xaa
  | 4 => shuffle32Avx (rhsQuad r 2) 0
  | 5 => shuffle32Avx (rhsQuad r 2) 0xaa
  | 6 => shuffle32Avx (rhsQuad r 3) 0
  | _ => shuffle32Avx (rhsQuad r 3) 0xaa
def dupHighAvx (r : Reg) (j : Nat) : Reg :=
  match j with
  | 0 => shuffle32Avx (rhsQuad r 0) 0x55
  | 1 => shuffle32Avx (rhsQuad r 0) 0xff
  | 2 => shuffle32Avx (rhsQuad r 1) 0x55
  | 3 => shuffle32Avx (rhsQuad r 1) 0xff
  | 4 => shuffle32Avx (rhsQuad r 2) 0x55
  | 5 => shuffle32Avx (rhsQuad r 2) 0xff
  | 6 => shuffle32Avx (rhsQuad r 3) 0x55
  | _ => shuffle32Avx (rhsQuad r 3) 0xff

/-- kernel_avx.cc:650-674 (`process_column`). -/
def macAvx (acc l h dl dh : Reg) : Reg :=
  let lo := map2 add32 (ext 4 acc 0) (madd16 (ext 8 l 0) (ext 8 dl 0))
  let hi := map2 add32 (ext 4 acc 1) (madd16 (ext 8 l 1) (ext 8 dl 1))
  let lo := map2 add32 lo (madd16 (ext 8 h 0) (ext 8 dh 0))
  let hi := map2 add32 hi (madd16 (ext 8 h 1) (ext 8 dh 1))
  join 4 hi lo

/-- Kernel8bitAvxImpl; the 256-bit integer operations are done on the two halves
(kernel_avx.cc:62-73, 132-194, 377-381, 521-555).  Bias values are loaded one by one, which is
modelled as one load. -/
def avx : Isa where
  kc := 8
  add := Avx.halves 4 (map2 add32)
  sub := Avx.halves 4 (map2 sub32)
  mullo := Avx.halves 4 (map2 mullo32)
  min := Avx.halves 4 (map2 Min.min)
  max := Avx.halves 4 (map2 Max.max)
  bcast b j := set1 (b j)
  lhsLow := splitLow (Avx.halves 16 shuffle8) cvtAvx
  lhsHigh := splitHigh (Avx.halves 16 shuffle8) cvtAvx
  expand d := join 16 (cvtAvx (ext 16 d 1)) (cvtAvx (ext 16 d 0))
  dupLow := dupLowAvx
  dupHigh := dupHighAvx
  mac := macAvx
  mult := mult8 Avx.apply
  store := store256 (Avx.halves 16 shuffle8)

/-! ### AVX-512 -/

/-- VPMOVDW on bytes: the low two bytes of every group of four. -/
def cvt32to16 (r : Reg) : Reg := fun i => r (i / 2 * 4 + i % 2)
/-- VPSRLD by 16 on bytes. -/
def srl16 (r : Reg) : Reg := fun i => if i % 4 < 2 then r (i + 2) else 0

/-- Kernel8bitAvx512: kernel_avx512.cc:255-325. -/
def avx512 : Isa where
  kc := 16
  add := map2 add32
  sub := map2 sub32
  mullo := map2 mullo32
  min := map2 Min.min
  max := map2 Max.max
  bcast b j := permvar16 (set1 j) b
  lhsLow := cvt32to16
  lhsHigh r := cvt32to16 (srl16 r)
  expand d := join 32 (ext 32 d 1) (ext 32 d 0)
  dupLow r j := fun i => r (2 * (2 * j) + i % 2)
  dupHigh r j := fun i => r (2 * (2 * j + 1) + i % 2)
  mac acc l h dl dh := map2 add32 (map2 add32 acc (madd16 l dl)) (madd16 h dh)
  mult col m e dzp acc j := if col then Avx512.applyCol (acc j) m e dzp j else Avx512.apply (acc j) m e dzp
  store := store512

end Ruy.Simd.Kern

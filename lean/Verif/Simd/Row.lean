import Verif.Simd.Pack
/-
Packing of 8-bit row-major sources on x86:
  pack_avx2_fma.cc:607-686 (Pack8bitRowMajorForAvx2), pack_avx.cc:748-827
  (Pack8bitRowMajorForAvx), pack_avx512.cc:995-1094 (Pack8bitRowMajorForAvx512),
  pack_x86.h:361-388, 396-423, 431-458 (PackImpl::Run).

Rows are taken four at a time.  Source elements are read through a `uint8_t*`; as only the low eight
bits of what is computed from them are used, they are represented by `wrap8` as elsewhere.
Pointer arithmetic on addresses that are not dereferenced is not modelled.
-/
namespace Ruy.Simd.Row
open Ruy.Mat Ruy.Mul

/-- What depends on the instruction set: the width of a vector of columns, the bytes stored for four
rows of them (as groups of 16 bytes), and adding four rows to the sums. -/
structure Isa where
  kc : Nat
  quad : (Nat → Reg) → Nat → Reg
  sums : Reg → (Nat → Reg) → Reg

/-- pack_avx2_fma.cc:645-650; sign extension does not change values. -/
def sum16 (v : Nat → Reg) : Reg :=
  map2 add16 (map2 add16 (v 0) (v 1)) (map2 add16 (v 2) (v 3))

/-- pack_avx2_fma.cc:656-661: 4x4 transposition. -/
def quad8 (v : Nat → Reg) (j : Nat) : Reg :=
  let t20 := unpackG 1 0 (v 0) (v 1)
  let t21 := unpackG 1 0 (v 2) (v 3)
  match j with
  | 0 => unpackG 2 0 t20 t21
  | _ => unpackG 2 8 t20 t21

/-- pack_avx2_fma.cc:651-654. -/
def avx2 : Isa := ⟨8, quad8, fun s v => map2 add32 s (sum16 v)⟩

/-- pack_avx.cc:101-105 (`mm256_cvtepi16_epi32`), on 16-bit lanes: the upper four are moved down
with `_mm_unpackhi_epi64(a, 0)`. -/
def cvt16to32 (a : Reg) : Reg := join 4 (fun i => if i < 4 then a (4 + i) else 0) a

/-- pack_avx.cc:786-802. -/
def avx : Isa := ⟨8, quad8, fun s v => Pack.Avx.halves 4 4 (map2 add32) s (cvt16to32 (sum16 v))⟩

/-- pack_avx512.cc:1051-1057 (`zip`): `_mm256_permutexvar_epi64` with indices 0, 2, 1, 3.  The upper
half of the argument is undefined: lanes beyond 15 of `a`. -/
def perm64 (a : Reg) : Reg := fun i =>
  if i < 8 then a i else if i < 16 then a (i + 8) else if i < 24 then a (i - 8) else a i
def zip (x y : Reg) : Reg := unpackG 1 0 (perm64 x) (perm64 y)

/-- pack_avx512.cc:1058-1069. -/
def quad16 (v : Nat → Reg) (j : Nat) : Reg :=
  let t20 := zip (v 0) (v 1)
  let t21 := zip (v 2) (v 3)
  match j with
  | 0 => ext 16 (unpackG 2 0 t20 t21) 0
  | 1 => ext 16 (unpackG 2 8 t20 t21) 0
  | 2 => ext 16 (unpackG 2 0 t20 t21) 1
  | _ => ext 16 (unpackG 2 8 t20 t21) 1

/-- pack_avx512.cc:1041-1050. -/
def avx512 : Isa := ⟨16, quad16, fun s v => map2 add32 s (sum16 v)⟩

/-- Arguments that do not change: source, its stride, rows and columns, `src_zero_point`,
`input_xor`, packed stride, columns [lo, hi). -/
structure Args where
  src : Buf Int
  stride : Nat
  rows : Nat
  cols : Nat
  zp : Int
  xor : Int
  pstride : Nat
  lo : Nat
  hi : Nat

/-- `src_end_col` -/
def Args.stop (a : Args) : Nat := min a.hi a.cols

/-- pack_avx2_fma.cc:618-643: row `r` of a vector of columns, after the XOR.  `addr` is `src_ptr`. -/
def loadRow (isa : Isa) (a : Args) (br addr r : Nat) : C Reg :=
  if br + 4 ≤ a.rows ∨ br + r < a.rows then do
    let o ← C.int (r * a.stride)
    let v ← loadu isa.kc a.src (addr + o)
    .ok (fun i => xor8 (wrap8 (v i)) a.xor)
  else .ok (fun _ => xor8 (wrap8 a.zp) a.xor)

/-- `val0` to `val3`. -/
def four (v0 v1 v2 v3 : Reg) (r : Nat) : Reg :=
  match r with | 0 => v0 | 1 => v1 | 2 => v2 | _ => v3

/-- pack_avx2_fma.cc:615-664: one iteration of the vector loop; state: packed data, sums, `packed_ptr`. -/
def vecStep (isa : Isa) (a : Args) (br srcOff v : Nat) (st : Buf Int × Buf Int × Nat) :
    C (Buf Int × Buf Int × Nat) := do
  let addr := srcOff + isa.kc * v
  let col := a.lo + isa.kc * v
  let v0 ← loadRow isa a br addr 0
  let v1 ← loadRow isa a br addr 1
  let v2 ← loadRow isa a br addr 2
  let v3 ← loadRow isa a br addr 3
  let vals := four v0 v1 v2 v3
  let s ← loadu isa.kc st.2.1 col
  let sums ← storeu isa.kc st.2.1 col (isa.sums s vals)
  let data ← forUpTo (isa.kc / 4) (fun j d => storeu 16 d (st.2.2 + 16 * j) (isa.quad vals j)) st.1
  let step ← C.int (a.pstride * isa.kc)
  .ok (data, sums, st.2.2 + step)

/-- pack_avx2_fma.cc:668-673: `packed_val`. -/
def scalarVal (a : Args) (br addr r : Nat) : C Int :=
  if br + r < a.rows then do
    let o ← C.int (r * a.stride)
    let x ← a.src.read (addr + o)
    .ok (xor8 x a.xor)
  else .ok (xor8 a.zp a.xor)

/-- pack_avx2_fma.cc:665-681: one iteration of the loop over the remaining source columns. -/
def scalarStep (a : Args) (br srcOff col : Nat) (st : Buf Int × Buf Int × Nat) :
    C (Buf Int × Buf Int × Nat) := do
  let r ← forUpTo 4 (fun r (s : Buf Int × Int) => do
    let v ← scalarVal a br (srcOff + (col - a.lo)) r
    let acc ← C.i32 (s.2 + v)
    let d ← s.1.write (st.2.2 + r) v
    .ok (d, acc)) (st.1, 0)
  let s ← st.2.1.read col
  let s ← C.i32 (s + r.2)
  let sums ← st.2.1.write col s
  .ok (r.1, sums, st.2.2 + 4)

/-- pack_avx2_fma.cc:682-685: one padding column. -/
def zeroStep (st : Buf Int × Buf Int × Nat) : C (Buf Int × Buf Int × Nat) := do
  let d ← storeu 4 st.1 st.2.2 (set1 0)
  .ok (d, st.2.1, st.2.2 + 4)

/-- pack_x86.h:375-386 and the function it calls: four rows. -/
def blockRow (isa : Isa) (a : Args) (br : Nat) (st : Buf Int × Buf Int) : C (Buf Int × Buf Int) := do
  let o ← C.int (br * a.stride)
  let p1 ← C.int (a.lo * a.pstride)
  let p2 ← C.int (br * isa.kc)
  let srcOff := o + a.lo
  let nvec := (a.stop - a.lo) / isa.kc
  let st ← forUpTo nvec (vecStep isa a br srcOff) (st.1, st.2, p1 + p2)
  let st ← forRange (a.lo + isa.kc * nvec) a.stop (scalarStep a br srcOff) st
  let st ← forUpTo (a.hi - max a.lo a.stop) (fun _ => zeroStep) st
  .ok (st.1, st.2.1)

/-- `kInputXor`: 0x80 as an int. -/
def inputXor (t : Front.ScalarType) : Int := if t = .int8 then 0 else 128

/-- pack_x86.h:361-388, 396-423, 431-458 (`PackImpl::Run`).  The sums are accessed without a test for
null; there are as many iterations as blocks of four packed rows. -/
def run (isa : Isa) (t : Front.ScalarType) (src : Mul.Mat Int) (lo hi : Nat) (p : PMat Int) :
    C (PMat Int) := do
  C.check (src.layout.order = .rowMajor)
  match p.sums with
  | none => .error .ub
  | some sums => do
    let sums ← storeu (hi - lo) sums lo (set1 0)
    let a : Args := ⟨src.data, src.layout.stride, src.layout.rows, src.layout.cols, src.zp, inputXor t,
      p.layout.stride, lo, hi⟩
    let st ← forUpTo ((p.layout.rows + 3) / 4) (fun n => blockRow isa a (4 * n)) (p.data, sums)
    .ok { p with data := st.1, sums := some st.2 }

end Ruy.Simd.Row

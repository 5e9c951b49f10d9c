import Verif.Simd.Lane
/-
Register-level x86 operations: lanes of 128-bit halves, shuffles, blends, and
views of a register with a different lane width.
-/
namespace Ruy.Simd

def set1 (x : Int) : Reg := fun _ => x
def map2 (f : Int → Int → Int) (a b : Reg) : Reg := fun i => f (a i) (b i)
def map3 (f : Int → Int → Int → Int) (a b c : Reg) : Reg := fun i => f (a i) (b i) (c i)

/-- VEXTRACTI128/VEXTRACTF128/VEXTRACTI32X8: the `h`-th group of `n` lanes. -/
def ext (n : Nat) (r : Reg) (h : Nat) : Reg := fun i => r (n * h + i)
/-- _mm256_set_m128i(hi, lo), VINSERTI32X8: concatenation, `n` lanes in `lo`. -/
def join (n : Nat) (hi lo : Reg) : Reg := fun i => if i < n then lo i else hi (i - n)

/-- Reading a register of 64-bit lanes as 32-bit lanes (little endian). -/
def as32 (r : Reg) : Reg := fun i =>
  if i % 2 = 0 then wrap32 (r (i / 2)) else wrap32 (r (i / 2) / 4294967296)
/-- VPMOVSXDQ: sign extension does not change values. -/
def cvt32to64 (r : Reg) : Reg := r
/-- VPMOVQD: truncation. -/
def cvt64to32 (r : Reg) : Reg := fun i => wrap32 (r i)
/-- VPSLLQ by an immediate. -/
def slli64 (r : Reg) (n : Nat) : Reg := fun i => wrap64 (r i * 2 ^ n)
/-- VPBLENDD / VBLENDPS: bit i of the immediate selects lane i of `b`. -/
def blend (a b : Reg) (imm : Nat) : Reg := fun i => if imm.testBit i then b i else a i
/-- VPERMD (`_mm256_permutevar8x32_epi32`). -/
def permvar8 (r idx : Reg) : Reg := fun i => r (idx i % 8).toNat
/-- VPERMD on 512 bits (`_mm512_permutexvar_epi32(idx, r)`), VPERMQ on 512 bits. -/
def permvar16 (idx r : Reg) : Reg := fun i => r (idx i % 16).toNat
def permvar8q (idx r : Reg) : Reg := fun i => r (idx i % 8).toNat
/-- `_mm256_setr_epi32`. -/
def setr (l : List Int) : Reg := fun i => l.getD i 0

/-! 128-bit operations on 32-bit lanes. -/

/-- PSLLD with a register count: the low 64 bits of the count register. -/
def sll32 (a count : Reg) : Reg := fun i =>
  let n := cnt32 (count 0) + 4294967296 * cnt32 (count 1)
  if n < 32 then wrap32 (a i * 2 ^ n) else 0
/-- PSRAD by a count. -/
def srai32 (a : Reg) (count : Int) : Reg := fun i => srav32 (a i) count
/-- PSHUFD / VPERMILPS. -/
def shuf32 (a : Reg) (imm : Nat) : Reg := fun i => a (imm / 4 ^ i % 4)
/-- PUNPCKLDQ, PUNPCKHDQ. -/
def unpacklo32 (a b : Reg) : Reg := fun i => if i % 2 = 0 then a (i / 2) else b (i / 2)
def unpackhi32 (a b : Reg) : Reg := fun i => if i % 2 = 0 then a (2 + i / 2) else b (2 + i / 2)
/-- PUNPCKLQDQ, PUNPCKHQDQ on 32-bit lanes. -/
def unpacklo64 (a b : Reg) : Reg := fun i => if i < 2 then a i else b (i - 2)
def unpackhi64 (a b : Reg) : Reg := fun i => if i < 2 then a (i + 2) else b i

/-! 128-bit operations on 64-bit lanes. -/

/-- PSRLQ with a register count: lane 0 of the count register. -/
def srl64 (a count : Reg) : Reg := fun i => srlv64 (a i) (count 0)
/-- PUNPCKLQDQ, PUNPCKHQDQ on 64-bit lanes. -/
def unpackloQ (a b : Reg) : Reg := fun i => if i = 0 then a 0 else b 0
def unpackhiQ (a b : Reg) : Reg := fun i => if i = 0 then a 1 else b 1
/-- VPERMILPD on 128 bits. -/
def permPd (a : Reg) (imm : Nat) : Reg := fun i => a (imm / 2 ^ i % 2)

end Ruy.Simd

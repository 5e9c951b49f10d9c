import Verif.Base.Loop
import Verif.Simd.Regs
/-
Vector loads and stores, memcpy and memset on buffers, and the byte-granular
register operations used for packing.
-/
namespace Ruy.Simd

/-- Load of `n` consecutive elements. -/
def loadu (n : Nat) (b : Buf Int) (off : Nat) : C Reg :=
  if off + n ≤ b.size then .ok (fun i => b.val (off + i)) else .error .ub

/-- Store of the first `n` elements of `r` (vector store, memcpy, memset). -/
def storeu (n : Nat) (b : Buf Int) (off : Nat) (r : Reg) : C (Buf Int) :=
  if off + n ≤ b.size then
    .ok ⟨b.size, fun o => if off ≤ o ∧ o < off + n then r (o - off) else b.val o⟩
  else .error .ub

/-- Bytes: the low 8 bits of the exclusive or, as a signed value. -/
def xor8 (a b : Int) : Int := wrap8 (((a % 256).toNat ^^^ (b % 256).toNat : Nat) : Int)

/-- VPUNPCKL and VPUNPCKH with granules of `g` bytes, on byte lanes: within each group of
16 bytes, granules of the lower (`h = 0`) or upper (`h = 8`) half of `a` and `b` alternate. -/
def unpackG (g h : Nat) (a b : Reg) : Reg := fun i =>
  let src := i - i % 16 + h + i % 16 / g / 2 * g + i % 16 % g
  if i % 16 / g % 2 = 0 then a src else b src

/-- VPERM2I128 on registers of two groups of `n` lanes (n = 16: bytes, n = 4: 32-bit lanes);
bit 3 of a selector gives zero. -/
def permute2 (n : Nat) (a b : Reg) (imm : Nat) : Reg := fun i =>
  let s := if i < n then imm % 16 else imm / 16 % 16
  let j := if i < n then i else i - n
  if 8 ≤ s then 0 else if s % 4 = 0 then a j else if s % 4 = 1 then a (n + j)
  else if s % 4 = 2 then b j else b (n + j)

/-- VPSHUFI32X4 on byte lanes: four groups of 16 bytes, the first two selected from `a`, the
others from `b`. -/
def shuffle32x4 (a b : Reg) (imm : Nat) : Reg := fun i =>
  let s := imm / 4 ^ (i / 16) % 4
  if i < 32 then a (16 * s + i % 16) else b (16 * s + i % 16)

/-- VPADDW. -/
def add16 (a b : Int) : Int := wrap16 (a + b)

/-- VPMADDWD: pairs of products, added with wrap-around. -/
def madd16 (a b : Reg) : Reg := fun i =>
  wrap32 (a (2 * i) * b (2 * i) + a (2 * i + 1) * b (2 * i + 1))

end Ruy.Simd

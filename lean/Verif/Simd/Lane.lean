import Mathlib.Tactic.Ring
/-
Arithmetic of SIMD lanes.

A lane of w bits is represented by its *signed* value, an `Int` in
[-2^(w-1), 2^(w-1)).  The instruction semantics below are transcribed from the
Intel and Arm instruction descriptions and are part of the trusted base; each
is total and says what happens for every register content.

A register is a function from lane numbers to lane values; only the lanes that
exist (8 32-bit lanes of a 256-bit register, …) are meaningful.
-/
namespace Ruy.Simd

abbrev Reg := Nat → Int

/-- Two's complement wrap-around to 8, 16, 32 and 64 bits. -/
def wrap8 (x : Int) : Int := (x + 128) % 256 - 128
def wrap16 (x : Int) : Int := (x + 32768) % 65536 - 32768
def wrap32 (x : Int) : Int := (x + 2147483648) % 4294967296 - 2147483648
def wrap64 (x : Int) : Int :=
  (x + 9223372036854775808) % 18446744073709551616 - 9223372036854775808

/-- Saturation to [lo, hi]. -/
def sat (lo hi x : Int) : Int := if x < lo then lo else if hi < x then hi else x

def satS8 (x : Int) : Int := sat (-128) 127 x
def satU8 (x : Int) : Int := sat 0 255 x
def satS16 (x : Int) : Int := sat (-32768) 32767 x
def satS32 (x : Int) : Int := sat (-2147483648) 2147483647 x

/-! ### x86 (per lane) -/

/-- VPADDD, VPSUBD, VPMULLD: wrap around. -/
def add32 (a b : Int) : Int := wrap32 (a + b)
def sub32 (a b : Int) : Int := wrap32 (a - b)
def mullo32 (a b : Int) : Int := wrap32 (a * b)
def add64 (a b : Int) : Int := wrap64 (a + b)
def sub64 (a b : Int) : Int := wrap64 (a - b)

/-- Shift count read as unsigned 32-bit or 64-bit number. -/
def cnt32 (n : Int) : Nat := (n % 4294967296).toNat
def cnt64 (n : Int) : Nat := (n % 18446744073709551616).toNat

/-- VPSLLVD: counts of 32 and more give 0. -/
def sllv32 (a n : Int) : Int := if cnt32 n < 32 then wrap32 (a * 2 ^ cnt32 n) else 0
/-- VPSRAVD: counts of 32 and more give copies of the sign bit. -/
def srav32 (a n : Int) : Int :=
  if cnt32 n < 32 then a / 2 ^ cnt32 n else if a < 0 then -1 else 0
/-- VPSLLVQ. -/
def sllv64 (a n : Int) : Int := if cnt64 n < 64 then wrap64 (a * 2 ^ cnt64 n) else 0
/-- VPSRLVQ: logical, i.e. of the unsigned value. -/
def srlv64 (a n : Int) : Int :=
  if cnt64 n < 64 then wrap64 ((a % 18446744073709551616) / 2 ^ cnt64 n) else 0
/-- VPSRAVQ. -/
def srav64 (a n : Int) : Int :=
  if cnt64 n < 64 then a / 2 ^ cnt64 n else if a < 0 then -1 else 0
/-- VPMULDQ: product of the sign-extended low halves of 64-bit lanes. -/
def muldq (a b : Int) : Int := wrap32 a * wrap32 b
/-- VPCMPGTD: all ones or all zeros. -/
def cmpgt (a b : Int) : Int := if b < a then -1 else 0
/-- VBLENDVPS: by the sign bit of the mask. -/
def blendv (a b mask : Int) : Int := if mask < 0 then b else a

/-! ### Arm NEON (per lane) -/

/-- SSHL by a register: the count is the signed low byte; no saturation. -/
def sshl32 (x s : Int) : Int :=
  if 0 ≤ wrap8 s then wrap32 (x * 2 ^ (wrap8 s).toNat) else x / 2 ^ (-wrap8 s).toNat
/-- SRSHL by a register: like SSHL, right shifts round to nearest (ties up); the
sum with the rounding constant is formed without overflow. -/
def srshl32 (x s : Int) : Int :=
  if 0 ≤ wrap8 s then wrap32 (x * 2 ^ (wrap8 s).toNat)
  else wrap32 ((x + 2 ^ ((-wrap8 s).toNat - 1)) / 2 ^ (-wrap8 s).toNat)
/-- SQDMULH: high half of the doubled product, saturating. -/
def sqdmulh32 (a b : Int) : Int := satS32 (2 * a * b / 2 ^ 32)
/-- SQXTN .4h ← .4s. -/
def sqxtn16 (x : Int) : Int := satS16 x
/-- SQADD .8h. -/
def sqadd16 (a b : Int) : Int := satS16 (a + b)
/-- SQXTUN .8b ← .8h (unsigned saturation) and SQXTN .8b ← .8h. -/
def sqxtun8 (x : Int) : Int := satU8 x
def sqxtn8 (x : Int) : Int := satS8 x
/-- SADDW .4s ← .4s + .4h. -/
def saddw (a b : Int) : Int := wrap32 (a + b)

theorem wrap32_of {x : Int} (h1 : -2147483648 ≤ x) (h2 : x < 2147483648) : wrap32 x = x := by
  unfold wrap32; omega

theorem wrap64_of {x : Int} (h1 : -9223372036854775808 ≤ x) (h2 : x < 9223372036854775808) :
    wrap64 x = x := by
  unfold wrap64; omega

theorem wrap32_range (x : Int) : -2147483648 ≤ wrap32 x ∧ wrap32 x < 2147483648 := by
  unfold wrap32; omega

theorem wrap32_wrap32 (x : Int) : wrap32 (wrap32 x) = wrap32 x := by
  unfold wrap32; omega

end Ruy.Simd

import Verif.Base.Fault
/-
Model of ruy/apply_multiplier.cc:48-65.
-/
namespace Ruy.Multiplier

/-- apply_multiplier.cc:48-65 (`MultiplyByQuantizedMultiplier`).
`x`, `m` are int32 values, `shift` an int.  `1 << (total_shift - 1)` is
undefined if the count is negative; `result >> total_shift` is an arithmetic
shift. -/
def multiplyByQuantizedMultiplier (x m shift : Int) : C Int := do
  C.check (-31 ≤ shift)
  let totalShift := 31 - shift
  C.require (0 ≤ totalShift - 1 ∧ totalShift - 1 < 63)
  let p ← C.i64 (x * m)
  let result ← C.i64 (p + 2 ^ (totalShift - 1).toNat)
  let r := result / 2 ^ totalShift.toNat
  C.check (-2 ^ 31 ≤ r)
  C.check (r ≤ 2 ^ 31 - 1)
  pure r

end Ruy.Multiplier

import Verif.Multiplier.Model
import Mathlib.Data.Rat.Floor
import Mathlib.Tactic.Linarith
import Mathlib.Tactic.FieldSimp
import Mathlib.Tactic.Ring
import Mathlib.Tactic.NormNum
/-
Property C24: the reference multiplier is one correctly rounded scaling.

Specification: `scaled x m e = ⌊ x · m · 2^(e-31) + 1/2 ⌋` over the rationals.
-/
namespace Ruy.Multiplier

/-- Specification: x·m·2^(e-31) rounded to nearest, ties towards +∞. -/
def scaled (x m e : Int) : Int := ⌊(x * m : ℚ) * 2 ^ (e - 31) + 1 / 2⌋

def isI32 (x : Int) : Prop := -2 ^ 31 ≤ x ∧ x < 2 ^ 31

instance (x : Int) : Decidable (isI32 x) := by unfold isI32; infer_instance

/-- The integer expression computed is the rational rounding. -/
theorem ediv_eq_scaled (x m e : Int) (h2 : e ≤ 30) :
    (x * m + 2 ^ (31 - e - 1).toNat) / 2 ^ (31 - e).toNat = scaled x m e := by
  obtain ⟨n, hn⟩ : ∃ n : Nat, 31 - e = n + 1 := ⟨(30 - e).toNat, by omega⟩
  have e1 : (31 - e - 1).toNat = n := by omega
  have e2 : (31 - e).toNat = n + 1 := by omega
  have e3 : e - 31 = -((n + 1 : Nat) : Int) := by push_cast; omega
  rw [e1, e2]
  unfold scaled
  rw [e3, zpow_neg, zpow_natCast]
  have hp : (0 : ℚ) < 2 ^ (n + 1) := by positivity
  have : ((x * m : ℚ) * (2 ^ (n + 1))⁻¹ + 1 / 2) =
      ((x * m + 2 ^ n : Int) : ℚ) / ((2 ^ (n + 1) : Nat) : ℚ) := by
    push_cast
    rw [pow_succ]
    field_simp
  rw [this, Rat.floor_intCast_div_natCast]
  norm_cast

theorem mul_bound {x m : Int} (hx : isI32 x) (hm : isI32 m) :
    -2 ^ 62 ≤ x * m ∧ x * m ≤ 2 ^ 62 := by
  unfold isI32 at hx hm
  constructor <;> nlinarith [hx.1, hx.2, hm.1, hm.2]

/-- The function returns the specified value whenever it is an int32, and stops
with a failing check otherwise. -/
theorem mqm_eq (x m e : Int) (hx : isI32 x) (hm : isI32 m) (h1 : -31 ≤ e) (h2 : e ≤ 30) :
    multiplyByQuantizedMultiplier x m e =
      if isI32 (scaled x m e) then .ok (scaled x m e) else .error .abort := by
  unfold multiplyByQuantizedMultiplier
  have hb := mul_bound hx hm
  have hle : (31 - e - 1).toNat ≤ 61 := by omega
  have hr : (2 : Int) ^ (31 - e - 1).toNat ≤ 2 ^ 61 := by
    exact_mod_cast Nat.pow_le_pow_right (by omega) hle
  have hr0 : (0 : Int) < 2 ^ (31 - e - 1).toNat := by positivity
  rw [C.check_of h1]
  simp only [C.ok_bind]
  rw [C.require_of (by omega), C.ok_bind, C.i64_of (by omega) (by omega), C.ok_bind,
    C.i64_of (by omega) (by omega)]
  simp only [C.ok_bind]
  rw [ediv_eq_scaled x m e h2]
  unfold C.check
  by_cases ha : -2 ^ 31 ≤ scaled x m e
  · by_cases hb : scaled x m e < 2 ^ 31
    · rw [if_pos ha, if_pos (show scaled x m e ≤ 2 ^ 31 - 1 by omega), if_pos (show isI32 _ from ⟨ha, hb⟩)]; rfl
    · rw [if_pos ha, if_neg (show ¬ scaled x m e ≤ 2 ^ 31 - 1 by omega), if_neg (fun h : isI32 _ => hb h.2)]
      rfl
  · rw [if_neg ha, if_neg (fun h : isI32 _ => ha h.1)]; rfl

/-- C24 (value): for all int32 accumulators and multipliers and every shift in
the supported range, whenever the correctly rounded product is an int32 it is
what the function returns. -/
theorem c24_single_rounding (x m e : Int) (hx : isI32 x) (hm : isI32 m) (h1 : -31 ≤ e)
    (h2 : e ≤ 30) (hfit : isI32 (scaled x m e)) :
    multiplyByQuantizedMultiplier x m e = .ok (scaled x m e) := by
  rw [mqm_eq x m e hx hm h1 h2, if_pos hfit]

/-- C24 (overflow): if the rounded product is not an int32, the debug check fails
rather than a wrong value being returned. -/
theorem c24_overflow_detected (x m e : Int) (hx : isI32 x) (hm : isI32 m) (h1 : -31 ≤ e)
    (h2 : e ≤ 30) (hfit : ¬ isI32 (scaled x m e)) :
    multiplyByQuantizedMultiplier x m e = .error .abort := by
  rw [mqm_eq x m e hx hm h1 h2, if_neg hfit]

/-- C24 (shifts outside [-31, 30] are not supported: check failure / undefined shift). -/
theorem c24_shift_range (x m e : Int) (h : e < -31 ∨ 30 < e) :
    multiplyByQuantizedMultiplier x m e = if e < -31 then .error .abort else .error .ub := by
  unfold multiplyByQuantizedMultiplier C.check
  rcases h with h | h
  · rw [if_neg (show ¬ -31 ≤ e by omega), if_pos h]; rfl
  · rw [if_pos (show -31 ≤ e by omega), if_neg (show ¬ e < -31 by omega)]
    simp only [C.ok_bind]
    unfold C.require
    rw [if_neg (by omega)]; rfl

/-- C24 (range): with a non-negative multiplier and shift ≤ 0 (multiplier below
one) the result always fits. -/
theorem c24_fits (x m e : Int) (hx : isI32 x) (hm : isI32 m) (hm0 : 0 ≤ m) (h2 : e ≤ 0) :
    isI32 (scaled x m e) := by
  rw [← ediv_eq_scaled x m e (by omega)]
  obtain ⟨n, hn⟩ : ∃ n : Nat, 31 - e = n + 31 := ⟨(-e).toNat, by omega⟩
  have e1 : (31 - e - 1).toNat = n + 30 := by omega
  have e2 : (31 - e).toNat = n + 31 := by omega
  rw [e1, e2]
  have hp : (1 : Int) ≤ 2 ^ n := by exact_mod_cast Nat.one_le_two_pow
  have hq : (2 : Int) ^ (n + 31) = 2 ^ n * 2 ^ 31 := by rw [pow_add]
  have hh : (2 : Int) ^ (n + 30) = 2 ^ n * 2 ^ 30 := by rw [pow_add]
  have hpos : (0 : Int) < 2 ^ (n + 31) := by positivity
  unfold isI32 at *
  rw [hh]
  constructor
  · rw [Int.le_ediv_iff_mul_le hpos, hq]
    nlinarith [hx.1, hm.2]
  · rw [Int.ediv_lt_iff_lt_mul hpos, hq]
    nlinarith [hx.2, hm.2]

/-- C24 (monotone): for a non-negative multiplier, larger accumulators never give
smaller results. -/
theorem c24_monotone (x y m e rx ry : Int) (hxy : x ≤ y) (hm0 : 0 ≤ m)
    (hx : multiplyByQuantizedMultiplier x m e = .ok rx)
    (hy : multiplyByQuantizedMultiplier y m e = .ok ry) : rx ≤ ry := by
  have inv : ∀ z r, multiplyByQuantizedMultiplier z m e = .ok r →
      r = (z * m + 2 ^ (31 - e - 1).toNat) / 2 ^ (31 - e).toNat := by
    intro z r h
    unfold multiplyByQuantizedMultiplier at h
    obtain ⟨_, _, h⟩ := C.bind_ok h
    obtain ⟨_, _, h⟩ := C.bind_ok h
    obtain ⟨p, hp, h⟩ := C.bind_ok h
    obtain ⟨q, hq, h⟩ := C.bind_ok h
    obtain ⟨_, _, h⟩ := C.bind_ok h
    obtain ⟨_, _, h⟩ := C.bind_ok h
    cases h
    rw [(C.i64_ok hq).1, (C.i64_ok hp).1]
  rw [inv x rx hx, inv y ry hy]
  apply Int.ediv_le_ediv (by positivity)
  nlinarith

/-- Rounding is to nearest with ties upwards: 3/2 ↦ 2, -3/2 ↦ -1. -/
example : multiplyByQuantizedMultiplier 3 (2 ^ 30) 0 = .ok 2 ∧
    multiplyByQuantizedMultiplier (-3) (2 ^ 30) 0 = .ok (-1) ∧
    isI32 3 ∧ isI32 (2 ^ 30) ∧
    multiplyByQuantizedMultiplier 123456789 1518500250 (-7) = .ok 682009 ∧
    multiplyByQuantizedMultiplier (2 ^ 30) (2 ^ 30) 2 = .error .abort ∧
    multiplyByQuantizedMultiplier 1 1 31 = .error .ub := by decide

end Ruy.Multiplier

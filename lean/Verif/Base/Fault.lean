/-
Outcomes of modelled C++ code.

`Fault.ub`    : undefined behaviour (signed overflow, bad shift, clz(0),
                out-of-bounds access, use after free).
`Fault.abort` : a failing RUY_CHECK (check_macros.h) or, in debug builds,
                RUY_DCHECK.
-/
namespace Ruy

inductive Fault where
  | ub
  | abort
  deriving DecidableEq, Repr

/-- The monad of modelled C++ computations. -/
abbrev C := Except Fault

instance instDecidableEqC {α : Type _} [DecidableEq α] : DecidableEq (C α) := fun a b =>
  match a, b with
  | .ok x, .ok y =>
    if h : x = y then .isTrue (h ▸ rfl) else .isFalse (fun h' => h (Except.ok.inj h'))
  | .error x, .error y =>
    if h : x = y then .isTrue (h ▸ rfl) else .isFalse (fun h' => h (Except.error.inj h'))
  | .ok _, .error _ => .isFalse (fun h => by cases h)
  | .error _, .ok _ => .isFalse (fun h => by cases h)

namespace C

/-- Undefined behaviour unless `p`. -/
def require (p : Prop) [Decidable p] : C Unit := if p then .ok () else .error .ub

/-- RUY_CHECK / RUY_DCHECK (check_macros.h:30-120). -/
def check (p : Prop) [Decidable p] : C Unit := if p then .ok () else .error .abort

/-- A non-negative value computed in a (signed, 32-bit) `int`: overflow is UB. -/
def int (n : Nat) : C Nat := if n < 2 ^ 31 then .ok n else .error .ub

/-- A possibly negative value computed in `int`/`int32_t`: overflow is UB. -/
def i32 (x : Int) : C Int := if -2 ^ 31 ≤ x ∧ x < 2 ^ 31 then .ok x else .error .ub

/-- A value computed in `int64_t`: overflow is UB. -/
def i64 (x : Int) : C Int := if -2 ^ 63 ≤ x ∧ x < 2 ^ 63 then .ok x else .error .ub

@[simp] theorem require_of {p : Prop} [Decidable p] (h : p) : require p = .ok () := by
  simp [require, h]
@[simp] theorem check_of {p : Prop} [Decidable p] (h : p) : check p = .ok () := by
  simp [check, h]
theorem int_of {n : Nat} (h : n < 2 ^ 31) : int n = .ok n := by simp [int, h]
theorem i32_of {x : Int} (h₁ : -2 ^ 31 ≤ x) (h₂ : x < 2 ^ 31) : i32 x = .ok x := by
  unfold i32; rw [if_pos ⟨h₁, h₂⟩]
theorem i64_of {x : Int} (h₁ : -2 ^ 63 ≤ x) (h₂ : x < 2 ^ 63) : i64 x = .ok x := by
  unfold i64; rw [if_pos ⟨h₁, h₂⟩]

theorem require_ok {p : Prop} [Decidable p] {u : Unit} (h : require p = .ok u) : p := by
  unfold require at h; split at h
  · assumption
  · cases h
theorem check_ok {p : Prop} [Decidable p] {u : Unit} (h : check p = .ok u) : p := by
  unfold check at h; split at h
  · assumption
  · cases h
theorem int_ok {n m : Nat} (h : int n = .ok m) : m = n ∧ n < 2 ^ 31 := by
  unfold int at h; split at h
  · cases h; exact ⟨rfl, by assumption⟩
  · cases h
theorem i32_ok {x y : Int} (h : i32 x = .ok y) : y = x ∧ -2 ^ 31 ≤ x ∧ x < 2 ^ 31 := by
  unfold i32 at h; split at h
  · cases h; exact ⟨rfl, by assumption⟩
  · cases h
theorem i64_ok {x y : Int} (h : i64 x = .ok y) : y = x ∧ -2 ^ 63 ≤ x ∧ x < 2 ^ 63 := by
  unfold i64 at h; split at h
  · cases h; exact ⟨rfl, by assumption⟩
  · cases h

/-- Inversion of sequencing. -/
theorem bind_ok {α β : Type _} {m : C α} {f : α → C β} {b : β} (h : (m >>= f) = .ok b) :
    ∃ a, m = .ok a ∧ f a = .ok b := by
  cases m with
  | error e => cases h
  | ok a => exact ⟨a, rfl, h⟩

@[simp] theorem ok_bind {α β : Type _} (a : α) (f : α → C β) :
    ((Except.ok a : C α) >>= f) = f a := rfl
@[simp] theorem error_bind {α β : Type _} (e : Fault) (f : α → C β) :
    ((Except.error e : C α) >>= f) = Except.error e := rfl
@[simp] theorem pure_eq {α : Type _} (a : α) : (pure a : C α) = .ok a := rfl

end C
end Ruy

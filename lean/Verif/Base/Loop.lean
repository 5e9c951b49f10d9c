import Verif.Base.Fault
/-
Counted loops and buffers, shared by the models.
-/
namespace Ruy

/-- `for (int i = 0; i < n; i++) s = body(i, s);` -/
def forUpTo {σ : Type _} (n : Nat) (body : Nat → σ → C σ) (s : σ) : C σ :=
  match n with
  | 0 => .ok s
  | n + 1 => do
    let s' ← forUpTo n body s
    body n s'

/-- `for (int i = lo; i < hi; i++) s = body(i, s);` -/
def forRange {σ : Type _} (lo hi : Nat) (body : Nat → σ → C σ) (s : σ) : C σ :=
  forUpTo (hi - lo) (fun i => body (lo + i)) s

/-- Partial correctness of a counted loop: an invariant kept by every iteration that returns. -/
theorem forUpTo_inv {σ : Type _} {n : Nat} {body : Nat → σ → C σ} {s s' : σ}
    (P : Nat → σ → Prop) (h0 : P 0 s)
    (step : ∀ i t t', i < n → P i t → body i t = .ok t' → P (i + 1) t')
    (h : forUpTo n body s = .ok s') : P n s' := by
  induction n generalizing s' with
  | zero => cases h; exact h0
  | succ n ih =>
    obtain ⟨t, h1, h2⟩ := C.bind_ok h
    exact step n t s' (by omega) (ih (fun i t t' hi => step i t t' (by omega)) h1) h2

/-- Total correctness of a counted loop. -/
theorem forUpTo_total {σ : Type _} {n : Nat} {body : Nat → σ → C σ} {s : σ}
    (P : Nat → σ → Prop) (h0 : P 0 s)
    (step : ∀ i t, i < n → P i t → ∃ t', body i t = .ok t' ∧ P (i + 1) t') :
    ∃ s', forUpTo n body s = .ok s' ∧ P n s' := by
  induction n with
  | zero => exact ⟨s, rfl, h0⟩
  | succ n ih =>
    obtain ⟨t, h1, h2⟩ := ih (fun i t hi => step i t (by omega))
    obtain ⟨t', h3, h4⟩ := step n t (by omega) h2
    exact ⟨t', by rw [forUpTo, h1]; exact h3, h4⟩

/-- If a loop returns, so do its first `k` iterations. -/
theorem forUpTo_prefix {σ : Type _} {n k : Nat} {body : Nat → σ → C σ} {s s' : σ} (hk : k ≤ n)
    (h : forUpTo n body s = .ok s') : ∃ t, forUpTo k body s = .ok t := by
  induction n generalizing s' with
  | zero => rw [Nat.le_zero.1 hk]; exact ⟨s', h⟩
  | succ n ih =>
    by_cases hkn : k = n + 1
    · subst hkn; exact ⟨s', h⟩
    · obtain ⟨t, h1, _⟩ := C.bind_ok h
      exact ih (by omega) h1

theorem forUpTo_congr {σ : Type _} {n : Nat} {b1 b2 : Nat → σ → C σ} {s : σ}
    (h : ∀ i t, i < n → b1 i t = b2 i t) : forUpTo n b1 s = forUpTo n b2 s := by
  induction n with
  | zero => rfl
  | succ n ih =>
    rw [forUpTo, forUpTo, ih (fun i t hi => h i t (by omega))]
    cases forUpTo n b2 s with
    | error e => rfl
    | ok t => exact h n t (by omega)

theorem forUpTo_add {σ : Type _} {m n : Nat} {body : Nat → σ → C σ} {s : σ} :
    forUpTo (m + n) body s =
      (forUpTo m body s >>= fun t => forUpTo n (fun i => body (m + i)) t) := by
  induction n with
  | zero => cases forUpTo m body s <;> simp [forUpTo]
  | succ n ih =>
    rw [← Nat.add_assoc, forUpTo, ih]
    cases forUpTo m body s with
    | error e => rfl
    | ok t => rfl

/-- A memory area of `size` elements. -/
structure Buf (α : Type _) where
  size : Nat
  val : Nat → α

namespace Buf
variable {α : Type _}

/-- A load: undefined outside the area. -/
def read (b : Buf α) (i : Nat) : C α := if i < b.size then .ok (b.val i) else .error .ub

/-- A store: undefined outside the area. -/
def write (b : Buf α) (i : Nat) (x : α) : C (Buf α) :=
  if i < b.size then .ok ⟨b.size, fun j => if j = i then x else b.val j⟩ else .error .ub

theorem read_ok {b : Buf α} {i : Nat} {x : α} (h : b.read i = .ok x) :
    i < b.size ∧ x = b.val i := by
  unfold read at h; split at h
  · cases h; exact ⟨by assumption, rfl⟩
  · cases h

theorem read_of {b : Buf α} {i : Nat} (h : i < b.size) : b.read i = .ok (b.val i) := by
  simp [read, h]

theorem write_ok {b b' : Buf α} {i : Nat} {x : α} (h : b.write i x = .ok b') :
    i < b.size ∧ b'.size = b.size ∧ b'.val i = x ∧ ∀ j, j ≠ i → b'.val j = b.val j := by
  unfold write at h; split at h
  · cases h
    refine ⟨by assumption, rfl, by simp, fun j hj => by simp [hj]⟩
  · cases h

theorem write_of {b : Buf α} {i : Nat} {x : α} (h : i < b.size) :
    ∃ b', b.write i x = .ok b' := by
  simp [write, h]

end Buf
end Ruy

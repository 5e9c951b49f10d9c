import Verif.Mul.KernelLemmas
import Mathlib.Algebra.BigOperators.Ring.Finset
import Mathlib.Algebra.BigOperators.Intervals
import Mathlib.Tactic.Ring
import Mathlib.Tactic.LinearCombination
/-
The value of the accumulator in any commutative ring the accumulator arithmetic
maps to (ℤ for int32 without overflow, ℤ/2^32 for wrap-around).
-/
namespace Ruy.Mul
open Ruy.Mat

variable {A : Type}

/-- `φ` maps the accumulator arithmetic (where it does not fault) to ring operations. -/
structure Arith.Hom (ar : Arith A) {R : Type} [CommRing R] (φ : A → R) : Prop where
  zero : φ ar.zero = 0
  add : ∀ {x y z}, ar.add x y = .ok z → φ z = φ x + φ y
  sub : ∀ {x y z}, ar.sub x y = .ok z → φ z = φ x - φ y
  mul : ∀ {x y z}, ar.mul x y = .ok z → φ z = φ x * φ y
  ofInt : ∀ n : Int, φ (ar.ofInt n) = (n : R)

/-- An element of a matrix, as its memory contents at the documented address. -/
def Mat.at (m : Mat A) (row col : Nat) : A := m.data.val (off m.layout row col)

theorem elem_at {m : Mat A} {r c : Nat} {v : A} (h : m.elem r c = .ok v) : v = m.at r c := by
  unfold Mat.elem at h
  obtain ⟨o, ho, h⟩ := C.bind_ok h
  rw [(Buf.read_ok h).2, offset_ok ho]; rfl

/-- The element packed at (row, col). -/
def Operand.at (ar : Arith A) (o : Operand A) (row col : Nat) : A :=
  if col < o.src.layout.cols ∧ row < o.src.layout.rows then o.pack (o.src.at row col)
  else ar.ofInt o.zp

theorem val_at {ar : Arith A} {o : Operand A} {r c : Nat} {v : A} (h : o.val ar r c = .ok v) :
    v = o.at ar r c := by
  unfold Operand.val packedVal at h
  unfold Operand.at
  split at h
  · obtain ⟨x, hx, h⟩ := C.bind_ok h
    cases h
    rename_i hc
    rw [if_pos hc, elem_at hx]
  · rename_i hc
    cases h
    rw [if_neg hc]

section
variable {R : Type} [CommRing R] {φ : A → R} {ar : Arith A}

theorem colSum_value (h : ar.Hom φ) {o : Operand A} {n c : Nat} {s : A}
    (hs : colSum ar o.pack o.src o.zp n c = .ok s) :
    φ s = ∑ k ∈ Finset.range n, φ (o.at ar k c) := by
  unfold colSum at hs
  refine forUpTo_inv (P := fun n s => φ s = ∑ k ∈ Finset.range n, φ (o.at ar k c)) (by simp [h.zero]) ?_ hs
  intro k t t' _ ih hstep
  obtain ⟨v, hv, hstep⟩ := C.bind_ok hstep
  rw [Finset.sum_range_succ, h.add hstep, ih, val_at (o := o) hv]

theorem opDot_value (h : ar.Hom φ) {l r : Operand A} {n i j : Nat} {s : A}
    (hs : forUpTo n (opDotStep ar l r i j) ar.zero = .ok s) :
    φ s = ∑ k ∈ Finset.range n, φ (l.at ar k i) * φ (r.at ar k j) := by
  refine forUpTo_inv
    (P := fun n s => φ s = ∑ k ∈ Finset.range n, φ (l.at ar k i) * φ (r.at ar k j))
    (by simp [h.zero]) ?_ hs
  intro k t t' _ ih hstep
  obtain ⟨x, hx, hstep⟩ := C.bind_ok hstep
  obtain ⟨y, hy, hstep⟩ := C.bind_ok hstep
  obtain ⟨z, hz, hstep⟩ := C.bind_ok hstep
  rw [Finset.sum_range_succ, h.add hstep, ih, h.mul hz, val_at hx, val_at hy]

/-- The bias of a channel (0 if there is none). -/
def biasOf (φ : A → R) (bias : Option (Buf A)) (ch : Nat) : R :=
  match bias with
  | none => 0
  | some b => φ (b.val ch)

theorem addBias_value (h : ar.Hom φ) {bias : Option (Buf A)} {ch : Nat} {a a' : A}
    (hs : addBias ar bias ch a = .ok a') : φ a' = φ a + biasOf φ bias ch := by
  unfold addBias at hs
  unfold biasOf
  cases bias with
  | none => cases hs; simp
  | some b =>
    obtain ⟨x, hx, hs⟩ := C.bind_ok hs
    rw [h.add hs, (Buf.read_ok hx).2]

theorem opSubSum_value (h : ar.Hom φ) {zp : Int} {o : Operand A} {c : Nat} {a a' : A}
    (hs : opSubSum ar zp o c a = .ok a') :
    φ a' = φ a - (zp : R) * ∑ k ∈ Finset.range o.depth, φ (o.at ar k c) := by
  unfold opSubSum at hs
  split at hs
  · cases hs
    rename_i hz
    simp [hz]
  · obtain ⟨s, h1, hs⟩ := C.bind_ok hs
    obtain ⟨t, h2, hs⟩ := C.bind_ok hs
    rw [h.sub hs, h.mul h2, h.ofInt, colSum_value h h1]

theorem addZpProduct_value (h : ar.Hom φ) {lzp rzp : Int} {d : Nat} {a a' : A}
    (hs : addZpProduct ar lzp rzp d a = .ok a') :
    φ a' = φ a + (lzp : R) * (rzp : R) * (d : R) := by
  unfold addZpProduct at hs
  split at hs
  · rename_i hz
    cases hs
    rcases hz with hz | hz <;> simp [hz]
  · obtain ⟨t, h1, hs⟩ := C.bind_ok hs
    obtain ⟨u, h2, hs⟩ := C.bind_ok hs
    rw [h.add hs, h.mul h2, h.mul h1, h.ofInt, h.ofInt, h.ofInt]
    simp

/-- An operand faithfully encodes its source: the packed values minus the packed
zero point are the source values minus the source zero point. -/
structure Encodes (ar : Arith A) (φ : A → R) (o : Operand A) : Prop where
  enc : ∀ k c, k < o.src.layout.rows → c < o.src.layout.cols →
    φ (o.pack (o.src.at k c)) - (o.zp : R) = φ (o.src.at k c) - (o.src.zp : R)
  depth : o.src.layout.rows ≤ o.depth

theorem Encodes.diff (h : ar.Hom φ) {o : Operand A} (he : Encodes ar φ o) {k c : Nat}
    (hc : c < o.src.layout.cols) :
    φ (o.at ar k c) - (o.zp : R) =
      if k < o.src.layout.rows then φ (o.src.at k c) - (o.src.zp : R) else 0 := by
  unfold Operand.at
  by_cases hk : k < o.src.layout.rows
  · rw [if_pos ⟨hc, hk⟩, if_pos hk, he.enc k c hk hc]
  · rw [if_neg (fun h => hk h.2), if_neg hk, h.ofInt]; ring

/-- The accumulator of an entry inside the destination. -/
theorem opAccum_value (h : ar.Hom φ) {mp : Params A} {l r : Operand A} {i j : Nat} {a : A}
    (hl : Encodes ar φ l) (hr : Encodes ar φ r) (hd : l.depth = r.depth)
    (hsd : l.src.layout.rows = r.src.layout.rows)
    (hi : i < l.src.layout.cols) (hj : j < r.src.layout.cols)
    (hs : opAccum ar mp l r i j = .ok a) :
    φ a = biasOf φ mp.bias (channelOf mp.channelDim i j) +
      ∑ k ∈ Finset.range l.src.layout.rows,
        (φ (l.src.at k i) - (l.src.zp : R)) * (φ (r.src.at k j) - (r.src.zp : R)) := by
  unfold opAccum at hs
  obtain ⟨a0, h0, hs⟩ := C.bind_ok hs
  obtain ⟨a1, h1, hs⟩ := C.bind_ok hs
  obtain ⟨a2, h2, hs⟩ := C.bind_ok hs
  obtain ⟨a3, h3, hs⟩ := C.bind_ok hs
  have e : ∑ k ∈ Finset.range l.depth,
      (φ (l.at ar k i) - (l.zp : R)) * (φ (r.at ar k j) - (r.zp : R)) =
      ∑ k ∈ Finset.range l.src.layout.rows,
        (φ (l.src.at k i) - (l.src.zp : R)) * (φ (r.src.at k j) - (r.src.zp : R)) := by
    have hsub : Finset.range l.src.layout.rows ⊆ Finset.range l.depth :=
      Finset.range_mono hl.depth
    rw [← Finset.sum_subset hsub]
    · refine Finset.sum_congr rfl (fun k hk => ?_)
      rw [Finset.mem_range] at hk
      rw [hl.diff h hi, hr.diff h hj, if_pos hk, if_pos (by omega)]
    · intro k _ hk
      rw [Finset.mem_range] at hk
      rw [hl.diff h hi, if_neg hk, zero_mul]
  have e2 : ∑ k ∈ Finset.range l.depth,
      (φ (l.at ar k i) - (l.zp : R)) * (φ (r.at ar k j) - (r.zp : R)) =
      ∑ k ∈ Finset.range l.depth, φ (l.at ar k i) * φ (r.at ar k j)
        - (l.zp : R) * ∑ k ∈ Finset.range l.depth, φ (r.at ar k j)
        - (r.zp : R) * ∑ k ∈ Finset.range l.depth, φ (l.at ar k i)
        + (l.zp : R) * (r.zp : R) * (l.depth : R) := by
    rw [Finset.mul_sum, Finset.mul_sum]
    have hc : (l.zp : R) * (r.zp : R) * (l.depth : R) =
        ∑ _k ∈ Finset.range l.depth, (l.zp : R) * (r.zp : R) := by
      rw [Finset.sum_const, Finset.card_range, nsmul_eq_mul]; ring
    rw [hc, ← Finset.sum_sub_distrib, ← Finset.sum_sub_distrib, ← Finset.sum_add_distrib]
    exact Finset.sum_congr rfl (fun k _ => by ring)
  rw [← e, e2, addZpProduct_value h hs, opSubSum_value h h3, opSubSum_value h h2,
    addBias_value h h1, opDot_value h h0, ← hd]
  ring

/-- The accumulator ReferenceMul computes. -/
def refAccum (ar : Arith A) (mp : Params A) (lhs rhs : Mat A) (i j : Nat) : C A := do
  let a0 ← forUpTo lhs.layout.cols (refDotStep ar lhs rhs i j) ar.zero
  addBias ar mp.bias (channelOf mp.channelDim i j) a0

theorem refEntry_eq (ar : Arith A) (mp : Params A) (lhs rhs : Mat A) (dzp : Int) (i j : Nat) :
    refEntry ar mp lhs rhs dzp i j =
      (refAccum ar mp lhs rhs i j >>= finish ar mp dzp (channelOf mp.channelDim i j)) := by
  unfold refEntry refAccum
  simp only [bind_assoc]

theorem refAccum_value (h : ar.Hom φ) {mp : Params A} {lhs rhs : Mat A} {i j : Nat} {a : A}
    (hs : refAccum ar mp lhs rhs i j = .ok a) :
    φ a = biasOf φ mp.bias (channelOf mp.channelDim i j) +
      ∑ k ∈ Finset.range lhs.layout.cols,
        (φ (lhs.at i k) - (lhs.zp : R)) * (φ (rhs.at k j) - (rhs.zp : R)) := by
  unfold refAccum at hs
  obtain ⟨a0, h0, hs⟩ := C.bind_ok hs
  have : φ a0 = ∑ k ∈ Finset.range lhs.layout.cols,
        (φ (lhs.at i k) - (lhs.zp : R)) * (φ (rhs.at k j) - (rhs.zp : R)) := by
    refine forUpTo_inv
      (P := fun n s => φ s = ∑ k ∈ Finset.range n,
        (φ (lhs.at i k) - (lhs.zp : R)) * (φ (rhs.at k j) - (rhs.zp : R)))
      (by simp [h.zero]) ?_ h0
    intro k t t' _ ih hstep
    obtain ⟨x, hx, hstep⟩ := C.bind_ok hstep
    obtain ⟨y, hy, hstep⟩ := C.bind_ok hstep
    obtain ⟨x', hx', hstep⟩ := C.bind_ok hstep
    obtain ⟨y', hy', hstep⟩ := C.bind_ok hstep
    obtain ⟨z, hz, hstep⟩ := C.bind_ok hstep
    rw [Finset.sum_range_succ, h.add hstep, ih, h.mul hz, h.sub hx', h.sub hy', h.ofInt, h.ofInt,
      elem_at hx, elem_at hy]
  rw [addBias_value h hs, this]; ring

end
end Ruy.Mul

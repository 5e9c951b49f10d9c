import Verif.Mat.Lemmas
/-
Property C32: matrix addressing is injective and in bounds.

A user matrix is *valid* if its stride covers the contiguous dimension and its
extent (last element + 1) is an `int`; `extent` is what its buffer must hold.
-/
namespace Ruy.Mat

/-- Specification: number of elements spanned by a matrix with `outer` runs of
`inner` contiguous elements, `stride` apart. -/
def extent (inner outer stride : Nat) : Nat :=
  if inner = 0 ∨ outer = 0 then 0 else (outer - 1) * stride + inner

/-- Specification: the documented meaning of a layout (matrix.h:24-29): element
(row, col) is the `row`-th element of the `col`-th column (resp. vice versa),
columns (rows) being `stride` elements apart. -/
def address (l : MatLayout) (row col : Nat) : Nat :=
  match l.order with
  | .colMajor => l.stride * col + row
  | .rowMajor => l.stride * row + col

/-- C32, plain matrices: for a stride covering the contiguous dimension and an
extent representable as int, every element's offset is computed without
overflow, is the documented address, lies within the extent (hence within
FlatSize), and distinct elements have distinct offsets. -/
theorem c32_plain_offsets (l : MatLayout) (inner outer : Nat)
    (hshape : (inner, outer) = match l.order with
      | .colMajor => (l.rows, l.cols)
      | .rowMajor => (l.cols, l.rows))
    (hs : inner ≤ l.stride) (hfit : extent inner outer l.stride < 2 ^ 31) :
    (∀ r c, r < l.rows → c < l.cols → offset l r c = .ok (address l r c) ∧
      address l r c < extent inner outer l.stride ∧ address l r c < flatSize l) ∧
    (∀ r c r' c', r < l.rows → c < l.cols → r' < l.rows → c' < l.cols →
      address l r c = address l r' c' → r = r' ∧ c = c') := by
  have hadr : ∀ r c, address l r c = off l r c := by
    intro r c; unfold address off
    cases l.order <;> dsimp only
    · rw [Nat.mul_comm]; omega
    · rw [Nat.mul_comm]
  have hso : StrideOk l := by
    unfold StrideOk
    cases ho : l.order <;> rw [ho] at hshape <;> simp only [Prod.mk.injEq] at hshape ⊢ <;> omega
  refine ⟨fun r c hr hc => ?_, fun r c r' c' hr hc hr' hc' h => ?_⟩
  · have hext : address l r c < extent inner outer l.stride := by
      unfold extent address
      cases ho : l.order <;> rw [ho] at hshape <;> simp only [Prod.mk.injEq] at hshape ⊢ <;>
        rw [hshape.1, hshape.2, if_neg (by omega)]
      · have := Nat.mul_le_mul_left l.stride (show c ≤ l.cols - 1 by omega)
        rw [Nat.mul_comm (l.cols - 1)]; omega
      · have := Nat.mul_le_mul_left l.stride (show r ≤ l.rows - 1 by omega)
        rw [Nat.mul_comm (l.rows - 1)]; omega
    refine ⟨?_, hext, by rw [hadr]; exact off_lt hso hr hc⟩
    rw [offset_eq, ← hadr]
    exact C.int_of (by omega)
  · rw [hadr, hadr] at h
    exact off_inj hso hr hc hr' hc' h

/-- A 100 × 7 column-major matrix with stride 128. -/
example : let l : MatLayout := ⟨100, 7, 128, .colMajor⟩
    extent 100 7 l.stride = 868 ∧ offset l 99 6 = .ok 867 ∧ flatSize l = 896 := by decide

/-- C32 fails for matrices whose extent is not an int: for a 40000 × 60000 int8
matrix (2.4 GB) the offset of the last element overflows (mat.h:369), although
FlatSize is computed in 64 bits. -/
theorem c32_plain_overflow :
    offset ⟨40000, 60000, 40000, .colMajor⟩ 39999 59999 = .error .ub ∧
      flatSize ⟨40000, 60000, 40000, .colMajor⟩ = 2400000000 := by decide

/-- C32, packed matrices: for every layout made by CreatePackedLayout (any
power-of-two kernel block of either inner order) whose FlatSize is at most
2^31, offsets are computed without overflow, lie inside FlatSize (the allocated
size), are pairwise distinct, and fill the allocated area completely. -/
theorem c32_packed_offsets (src : MatLayout) (k : KernelLayout) (l : PMatLayout)
    (h : createPackedLayout src k = .ok l) (hfit : pflatSize l ≤ 2 ^ 31) :
    pflatSize l = l.rows * l.cols ∧
    (∀ r c, r < l.rows → c < l.cols → ∃ o, poffset l r c = .ok o ∧ o < pflatSize l) ∧
    (∀ r c r' c' o, r < l.rows → c < l.cols → r' < l.rows → c' < l.cols →
      poffset l r c = .ok o → poffset l r' c' = .ok o → r = r' ∧ c = c') ∧
    (∀ o, o < pflatSize l → ∃ r c, r < l.rows ∧ c < l.cols ∧ poffset l r c = .ok o) := by
  obtain ⟨hp, ho, hst, _⟩ := createPackedLayout_ok h
  refine ⟨?_, fun r c hr hc => ?_, fun r c r' c' o hr hc hr' hc' h1 h2 => ?_, fun o hlt => ?_⟩
  · unfold pflatSize; rw [ho, hst]
  · have := poff_lt hp hr hc
    exact ⟨_, by rw [poffset_eq hp.kernel]; exact C.int_of (by omega), this⟩
  · exact poff_inj hp hr hc hr' hc' ((poffset_ok h1).2.symm.trans (poffset_ok h2).2)
  · obtain ⟨r, c, hr, hc, he⟩ := poff_surj hp ho hst hlt
    exact ⟨r, c, hr, hc, by rw [poffset_eq hp.kernel, he]; exact C.int_of (by omega)⟩

/-- The layout made for a 37 × 11 source with a row-major 4 × 8 kernel block. -/
example : ∃ l, createPackedLayout ⟨37, 11, 50, .rowMajor⟩ ⟨.rowMajor, 4, 8⟩ = .ok l ∧
    pflatSize l = 640 ∧ poffset l 5 9 = .ok 361 := by
  refine ⟨_, rfl, ?_⟩; decide

/-- What CreatePackedLayout makes: dimensions rounded up to the kernel block by
less than one block. -/
theorem c32_packed_shape (src : MatLayout) (k : KernelLayout) (l : PMatLayout)
    (h : createPackedLayout src k = .ok l) :
    k.rows ∣ l.rows ∧ k.cols ∣ l.cols ∧ src.rows ≤ l.rows ∧ l.rows < src.rows + k.rows ∧
      src.cols ≤ l.cols ∧ l.cols < src.cols + k.cols := by
  obtain ⟨hp, _, _, hk, h1, h2, h3, h4⟩ := createPackedLayout_ok h
  subst hk
  exact ⟨hp.rows, hp.cols, h1, h2, h3, h4⟩

end Ruy.Mat

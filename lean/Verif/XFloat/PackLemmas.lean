import Verif.XFloat.Part
import Verif.Float.PackLemmas
/-
What the float packing of the x86 paths writes.
-/
namespace Ruy.XFloat
open Ruy.Mat Ruy.Mul

variable {A : Type}

/-! ### Registers -/

theorem transpose8_ok (t : Nat → FReg A) {i j : Nat} (hi : i < 8) (hj : j < 8) : transpose8 t j i = t i j := by
  interval_cases i <;> interval_cases j <;> rfl

theorem transpose16_ok (t : Nat → FReg A) {i j : Nat} (hi : i < 8) (hj : j < 8) : transpose16 t j i = t i j := by
  interval_cases i <;> interval_cases j <;> rfl

/-- What the packers need of an instruction set. -/
structure PackOk (isa : PackIsa A) : Prop where
  transpose : ∀ (t : Nat → FReg A) i j, i < 8 → j < 8 → isa.transpose t j i = t i j
  mload : ∀ (z : A) (b : Buf A) (o avail : Nat), o + avail ≤ b.size → avail < 8 →
    ∃ r, isa.mload z b o avail = .ok r ∧ ∀ i, i < 8 → r i = if i < avail then b.val (o + i) else z

theorem maskLoad_ok {gt : Int → Int → Int} (hgt : ∀ a b, gt a b < 0 ↔ b < a) (z : A) (b : Buf A) (o avail : Nat)
    (h : o + avail ≤ b.size) :
    ∃ r, maskLoad gt z b o avail = .ok r ∧ ∀ i, i < 8 → r i = if i < avail then b.val (o + i) else z := by
  unfold maskLoad
  rw [if_pos (fun i _ hi => by have := (hgt _ _).1 hi; omega)]
  refine ⟨_, rfl, fun i _ => ?_⟩
  by_cases hi : i < avail
  · rw [if_pos ((hgt _ _).2 (by omega)), if_pos hi]
    congr 1
  · rw [if_neg (fun h => hi (by have := (hgt _ _).1 h; omega)), if_neg hi]

theorem packAvx_ok : PackOk (packAvx : PackIsa A) where
  transpose t i j hi hj := transpose8_ok t hi hj
  mload z b o avail h _ := maskLoad_ok (fun a b => by unfold cmpgtAvx; split <;> simp_all) z b o avail h

theorem packAvx2_ok : PackOk (packAvx2 : PackIsa A) where
  transpose t i j hi hj := transpose8_ok t hi hj
  mload z b o avail h _ := maskLoad_ok (fun a b => by unfold cmpgt; split <;> simp_all) z b o avail h

theorem packAvx512_ok : PackOk (packAvx512 : PackIsa A) where
  transpose t i j hi hj := transpose16_ok t hi hj
  mload z b o avail h _ := by
    show ∃ r, maskzLoad z b o avail = .ok r ∧ _
    unfold maskzLoad
    rw [load_of rfl h, C.ok_bind]
    refine ⟨_, rfl, fun i _ => ?_⟩
    dsimp only
    rw [Nat.testBit_two_pow_sub_one]
    by_cases hi : i < avail <;> simp [hi]

/-! ### Eight columns -/

/-- Column `c` of the eight holds `V c`, followed by zeros. -/
def ColIs (a : Args A) (V : Nat → A) : Col → Prop
  | .zerobuf => ∀ j, V j = a.z
  | .src off => off + a.rows ≤ a.src.size ∧ (∀ j, j < a.rows → V j = a.src.val (off + j)) ∧ ∀ j, a.rows ≤ j → V j = a.z

theorem loadCols_of {f : Col → C (FReg A)} {cols : Nat → Col} {W : Nat → Nat → A}
    (h : ∀ c, c < 8 → ∃ r, f (cols c) = .ok r ∧ ∀ i, i < 8 → r i = W c i) :
    ∃ t, loadCols f cols = .ok t ∧ ∀ c i, c < 8 → i < 8 → t c i = W c i := by
  obtain ⟨r0, e0, h0⟩ := h 0 (by omega)
  obtain ⟨r1, e1, h1⟩ := h 1 (by omega)
  obtain ⟨r2, e2, h2⟩ := h 2 (by omega)
  obtain ⟨r3, e3, h3⟩ := h 3 (by omega)
  obtain ⟨r4, e4, h4⟩ := h 4 (by omega)
  obtain ⟨r5, e5, h5⟩ := h 5 (by omega)
  obtain ⟨r6, e6, h6⟩ := h 6 (by omega)
  obtain ⟨r7, e7, h7⟩ := h 7 (by omega)
  unfold loadCols
  simp only [e0, e1, e2, e3, e4, e5, e6, e7, C.ok_bind]
  refine ⟨_, rfl, fun c i hc hi => ?_⟩
  interval_cases c
  · exact h0 i hi
  · exact h1 i hi
  · exact h2 i hi
  · exact h3 i hi
  · exact h4 i hi
  · exact h5 i hi
  · exact h6 i hi
  · exact h7 i hi

theorem loadFull_of {a : Args A} {V : Nat → A} {c : Col} {k : Nat} (h : ColIs a V c) (hk : k + 8 ≤ a.rows) :
    ∃ r, loadFull a.z a.src k c = .ok r ∧ ∀ i, i < 8 → r i = V (k + i) := by
  cases c with
  | zerobuf => exact ⟨_, rfl, fun i _ => (h _).symm⟩
  | src off =>
    obtain ⟨h1, h2, _⟩ := h
    unfold loadFull
    dsimp only
    rw [load_of rfl (by omega)]
    exact ⟨_, rfl, fun i hi => by rw [h2 _ (by omega), Nat.add_assoc]⟩

theorem loadMasked_of {isa : PackIsa A} (ok : PackOk isa) {a : Args A} {V : Nat → A} {c : Col} {k : Nat}
    (h : ColIs a V c) (hk : k < a.rows) (hk' : a.rows < k + 8) :
    ∃ r, loadMasked isa a.z a.src (a.rows - k) k c = .ok r ∧ ∀ i, i < 8 → r i = V (k + i) := by
  cases c with
  | zerobuf => exact ⟨_, rfl, fun i _ => (h _).symm⟩
  | src off =>
    obtain ⟨h1, h2, h3⟩ := h
    obtain ⟨r, e, hr⟩ := ok.mload a.z a.src (off + k) (a.rows - k) (by omega) (by omega)
    refine ⟨r, e, fun i hi => ?_⟩
    rw [hr i hi]
    split
    · rw [h2 _ (by omega), Nat.add_assoc]
    · rw [h3 _ (by omega)]

theorem storeRows_part {kc base l0 j0 : Nat} {V : Nat → Nat → A} {r : Nat → FReg A} {off : Nat}
    (ho : off = base + j0 * kc + l0) (hl : l0 + 8 ≤ kc) (rows : List Nat) {b : Buf A}
    (hb : ∀ k, k ∈ rows → base + (j0 + k) * kc + kc ≤ b.size)
    (hr : ∀ k i, k ∈ rows → i < 8 → r k i = V (l0 + i) (j0 + k)) :
    ∃ b', storeRows kc rows b off r = .ok b' ∧
      Part base kc V (fun i j => l0 ≤ i ∧ i < l0 + 8 ∧ ∃ k, k ∈ rows ∧ j = j0 + k) b b' := by
  induction rows generalizing b with
  | nil => exact ⟨b, rfl, (Part.refl b).iff (fun i j _ => by simp)⟩
  | cons k ks ih =>
    have h1 := hb k (by simp)
    have e : (off + k * kc : Nat) = base + (j0 + k) * kc + l0 := by rw [ho, Nat.add_mul]; omega
    obtain ⟨b1, e1, p1⟩ := store_part (b := b) (base := base) (st := kc) (V := V) (n := 8) (i0 := l0) (j0 := j0 + k)
      (off := (off + k * kc : Nat)) (r := r k) (by rw [e]) hl (by omega) (fun i hi => hr k i (by simp) hi)
    obtain ⟨b2, e2, p2⟩ := ih (b := b1) (fun m hm => by rw [p1.size]; exact hb m (by simp [hm]))
      (fun m i hm hi => hr m i (by simp [hm]) hi)
    refine ⟨b2, ?_, (p1.trans p2).iff (fun i j _ => ?_)⟩
    · unfold storeRows at e2 ⊢
      rw [List.foldlM_cons]
      show (store 8 b _ _ >>= _) = _
      rw [e1, C.ok_bind]; exact e2
    · simp only [List.mem_cons, exists_eq_or_imp]
      constructor
      · rintro (⟨h1, h2, h3⟩ | ⟨h1, h2, h3⟩)
        · exact ⟨h1, by omega, Or.inl h3⟩
        · exact ⟨h1, h2, Or.inr h3⟩
      · rintro ⟨h1, h2, h3 | h3⟩
        · exact Or.inl ⟨h1, by omega, h3⟩
        · exact Or.inr ⟨h1, h2, h3⟩

/-! ### Chunks of rows -/

/-- Both buffers: the places in `S` hold `V`, in the packed buffer up to the last multiple of eight rows, the rest in
the trailing buffer. -/
structure PPart (base kc rows : Nat) (V : Nat → Nat → A) (S : Nat → Nat → Prop) (st st' : PSt A) : Prop where
  data : Part base kc V (fun i j => S i j ∧ j < rows / 8 * 8) st.data st'.data
  trailing : Part 0 kc (fun i j => V i (rows / 8 * 8 + j))
    (fun i j => j < 7 ∧ 0 < rows % 8 ∧ S i (rows / 8 * 8 + j)) st.trailing st'.trailing

section
variable {base kc rows : Nat} {V : Nat → Nat → A} {S T : Nat → Nat → Prop} {s s' s'' : PSt A}

theorem PPart.refl (s : PSt A) : PPart base kc rows V (fun _ _ => False) s s :=
  ⟨(Part.refl _).iff (fun _ _ _ => by simp), (Part.refl _).iff (fun _ _ _ => by simp)⟩

theorem PPart.trans (h : PPart base kc rows V S s s') (h' : PPart base kc rows V T s' s'') :
    PPart base kc rows V (fun i j => S i j ∨ T i j) s s'' :=
  ⟨(h.data.trans h'.data).iff (fun _ _ _ => by tauto), (h.trailing.trans h'.trailing).iff (fun _ _ _ => by tauto)⟩

theorem PPart.iff (h : PPart base kc rows V S s s') (hST : ∀ i j, S i j ↔ T i j) : PPart base kc rows V T s s' :=
  ⟨h.data.iff (fun i j _ => by rw [hST]), h.trailing.iff (fun i j _ => by rw [hST])⟩

theorem ppart_loop {n : Nat} {body : Nat → PSt A → C (PSt A)} {S : Nat → Nat → Nat → Prop}
    (h : ∀ k t, k < n → t.data.size = s.data.size → t.trailing.size = s.trailing.size →
      ∃ t', body k t = .ok t' ∧ PPart base kc rows V (S k) t t') :
    ∃ s', forUpTo n body s = .ok s' ∧ PPart base kc rows V (fun i j => ∃ k, k < n ∧ S k i j) s s' := by
  obtain ⟨b', e, hp⟩ := forUpTo_total (n := n) (s := s) (body := body)
    (fun m t => PPart base kc rows V (fun i j => ∃ k, k < m ∧ S k i j) s t)
    ((PPart.refl s).iff (fun i j => ⟨False.elim, fun ⟨_, hk, _⟩ => by omega⟩))
    (by
      intro k t hk ht
      obtain ⟨t', e, hp⟩ := h k t hk ht.data.size ht.trailing.size
      refine ⟨t', e, (ht.trans hp).iff (fun i j => ⟨?_, ?_⟩)⟩
      · rintro (⟨m, h1, h2⟩ | h2)
        · exact ⟨m, by omega, h2⟩
        · exact ⟨k, by omega, h2⟩
      · rintro ⟨m, h1, h2⟩
        by_cases hm : m = k
        · subst hm; exact Or.inr h2
        · exact Or.inl ⟨m, by omega, h2⟩)
  exact ⟨b', e, hp⟩

/-- Eight columns at lane `l0` of a block with `kc` lanes. -/
structure EightOk (base l0 : Nat) (V : Nat → Nat → A) (a : Args A) (cols : Nat → Col) : Prop where
  fit : l0 + 8 ≤ a.kc
  poff : a.poff = base + l0
  toff : a.toff = l0
  col : ∀ c, c < 8 → ColIs a (V (l0 + c)) (cols c)

theorem chunk_part {isa : PackIsa A} (ok : PackOk isa) {l0 it : Nat} {a : Args A} {cols : Nat → Col}
    (h : EightOk base l0 V a cols) (hd : base + a.kc * a.rows ≤ s.data.size) (ht : a.kc * 7 ≤ s.trailing.size) :
    ∃ s', chunk isa a cols it s = .ok s' ∧ PPart base a.kc a.rows V
      (fun i j => l0 ≤ i ∧ i < l0 + 8 ∧ 8 * it ≤ j ∧ j < 8 * it + 8) s s' := by
  have hfit := h.fit
  unfold chunk
  by_cases h1 : 8 * it + 8 ≤ a.rows
  · rw [if_pos h1]
    obtain ⟨t, e, hw⟩ := loadCols_of (f := loadFull a.z a.src (8 * it)) (cols := cols)
      (W := fun c i => V (l0 + c) (8 * it + i)) (fun c hc => loadFull_of (h.col c hc) h1)
    rw [e, C.ok_bind]
    obtain ⟨b', e', hp⟩ := storeRows_part (kc := a.kc) (base := base) (l0 := l0) (j0 := 8 * it) (V := V)
      (r := isa.transpose t) (off := a.poff + it * (8 * a.kc)) (by rw [h.poff]; ring) h.fit [0, 2, 4, 6, 1, 3, 5, 7]
      (b := s.data) (fun k hk => by
        have hk : k < 8 := by revert hk; simp; omega
        have : (8 * it + k + 1) * a.kc ≤ a.rows * a.kc := Nat.mul_le_mul_right _ (by omega)
        rw [Nat.mul_comm a.rows, Nat.succ_mul] at this
        omega)
      (fun k i hk hi => by
        have hk : k < 8 := by revert hk; simp; omega
        rw [ok.transpose t i k hi hk, hw i k hi hk])
    rw [e', C.ok_bind]
    refine ⟨_, rfl, hp.iff (fun i j _ => ?_), (Part.refl _).iff (fun i j _ => ?_)⟩
    · simp only [List.mem_cons, List.not_mem_nil, or_false]
      constructor
      · rintro ⟨a1, a2, k, a3, rfl⟩
        omega
      · rintro ⟨⟨a1, a2, a3, a4⟩, a5⟩
        exact ⟨a1, a2, j - 8 * it, by omega, by omega⟩
    · constructor
      · exact False.elim
      · rintro ⟨a1, a2, a3, a4, a5, a6⟩
        omega
  · rw [if_neg h1]
    by_cases h2 : 8 * it < a.rows
    · rw [if_pos h2]
      have hq : a.rows / 8 * 8 = 8 * it := by omega
      obtain ⟨t, e, hw⟩ := loadCols_of (f := loadMasked isa a.z a.src (a.rows - 8 * it) (8 * it)) (cols := cols)
        (W := fun c i => V (l0 + c) (8 * it + i)) (fun c hc => loadMasked_of ok (h.col c hc) h2 (by omega))
      rw [e, C.ok_bind]
      obtain ⟨b', e', hp⟩ := storeRows_part (kc := a.kc) (base := 0) (l0 := l0) (j0 := 0)
        (V := fun i j => V i (a.rows / 8 * 8 + j))
        (r := isa.transpose t) (off := a.toff) (by rw [h.toff]; omega) h.fit [0, 2, 4, 6, 1, 3, 5]
        (b := s.trailing) (fun k hk => by
          have hk : k < 7 := by revert hk; simp; omega
          have : (0 + k + 1) * a.kc ≤ 7 * a.kc := Nat.mul_le_mul_right _ (by omega)
          rw [Nat.mul_comm 7, Nat.succ_mul] at this
          omega)
        (fun k i hk hi => by
          have hk : k < 8 := by revert hk; simp; omega
          rw [ok.transpose t i k hi hk, hw i k hi hk, hq, Nat.zero_add])
      rw [e', C.ok_bind]
      refine ⟨_, rfl, (Part.refl _).iff (fun i j _ => ?_), hp.iff (fun i j _ => ?_)⟩
      · constructor
        · exact False.elim
        · rintro ⟨⟨a1, a2, a3, a4⟩, a5⟩
          omega
      · simp only [List.mem_cons, List.not_mem_nil, or_false]
        constructor
        · rintro ⟨a1, a2, k, a3, rfl⟩
          omega
        · rintro ⟨a0, a1, a2, a3, a4, a5⟩
          exact ⟨a2, a3, j, by omega, by omega⟩
    · rw [if_neg h2]
      refine ⟨s, rfl, (Part.refl _).iff (fun i j _ => ?_), (Part.refl _).iff (fun i j _ => ?_)⟩
      · constructor
        · exact False.elim
        · rintro ⟨⟨a1, a2, a3, a4⟩, a5⟩
          omega
      · constructor
        · exact False.elim
        · rintro ⟨a1, a2, a3, a4, a5, a6⟩
          omega

theorem chunks8 {isa : PackIsa A} (ok : PackOk isa) {l0 : Nat} {a : Args A} {cols : Nat → Col}
    (h : EightOk base l0 V a cols) (hd : base + a.kc * a.rows ≤ s.data.size) (ht : a.kc * 7 ≤ s.trailing.size) :
    ∃ s', forUpTo ((a.rows + 7) / 8) (chunk isa a cols) s = .ok s' ∧ PPart base a.kc a.rows V
      (fun i j => l0 ≤ i ∧ i < l0 + 8 ∧ j < (a.rows + 7) / 8 * 8) s s' := by
  obtain ⟨s', e, hp⟩ := ppart_loop (s := s) (n := (a.rows + 7) / 8) (body := chunk isa a cols) (base := base) (kc := a.kc)
    (rows := a.rows) (V := V) (S := fun it i j => l0 ≤ i ∧ i < l0 + 8 ∧ 8 * it ≤ j ∧ j < 8 * it + 8)
    (fun k t _ h1 h2 => chunk_part ok h (by omega) (by omega))
  refine ⟨s', e, hp.iff (fun i j => ⟨?_, ?_⟩)⟩
  · rintro ⟨k, h1, h2, h3, h4, h5⟩
    omega
  · rintro ⟨h1, h2, h3⟩
    exact ⟨j / 8, by omega, h1, h2, by omega, by omega⟩

theorem half16_part {isa : PackIsa A} (ok : PackOk isa) {l0 : Nat} {a : Args A} {cols : Nat → Col}
    (h : EightOk base l0 V a cols) (hd : base + a.kc * a.rows ≤ s.data.size) (ht : a.kc * 7 ≤ s.trailing.size) :
    ∃ s', half16 isa a cols s = .ok s' ∧ PPart base a.kc a.rows V
      (fun i j => l0 ≤ i ∧ i < l0 + 8 ∧ j < (a.rows + 15) / 16 * 16) s s' := by
  unfold half16
  obtain ⟨s', e, hp⟩ := ppart_loop (s := s) (n := (a.rows + 15) / 16)
    (body := fun q st => forUpTo 2 (fun m st => chunk isa a cols (2 * q + m) st) st) (base := base) (kc := a.kc)
    (rows := a.rows) (V := V) (S := fun q i j => ∃ m, m < 2 ∧ (l0 ≤ i ∧ i < l0 + 8 ∧ 8 * (2 * q + m) ≤ j ∧
      j < 8 * (2 * q + m) + 8))
    (fun k t _ h1 h2 => ppart_loop (fun m t' _ h3 h4 => chunk_part ok h (by omega) (by omega)))
  refine ⟨s', e, hp.iff (fun i j => ⟨?_, ?_⟩)⟩
  · rintro ⟨k, h1, m, h2, h3, h4, h5, h6⟩
    omega
  · rintro ⟨h1, h2, h3⟩
    exact ⟨j / 16, by omega, j / 8 % 2, by omega, h1, h2, by omega, by omega⟩

end

/-! ### Blocks of columns -/

/-- Lane `i` of row `r` of the packed block at column `col`. -/
def laneVal (z : A) (src : Mul.Mat A) (col i r : Nat) : A :=
  if r < src.layout.rows then Float.rowVal z src r (col + i) else z

theorem colIs_of {src : Mul.Mat A} (ho : src.layout.order = .colMajor) (hf : DFits src) {z : A}
    {kc poff toff col l0 c soff : Nat} {remaining : Int} (hs : soff = src.layout.stride * (col + l0)) (hc : c < 8)
    (hr : remaining = src.layout.cols - (col + l0 : Nat)) :
    ColIs ⟨src.data, z, src.layout.rows, kc, poff, toff⟩ (laneVal z src col (l0 + c))
      (colOf soff src.layout.stride remaining c) ∨ src.layout.rows = 0 := by
  by_cases h0 : src.layout.rows = 0
  · exact Or.inr h0
  left
  unfold colOf
  by_cases h : remaining ≤ c
  · rw [if_pos ⟨by omega, Or.inl h⟩]
    intro j
    unfold laneVal Float.rowVal
    rw [if_neg (show ¬ col + (l0 + c) < src.layout.cols by omega), ite_self]
  · rw [if_neg (by omega)]
    have hcol : col + (l0 + c) < src.layout.cols := by omega
    have hat : ∀ j, soff + c * src.layout.stride + j = off src.layout j (col + (l0 + c)) := by
      intro j
      unfold off
      rw [ho, hs]
      dsimp only
      ring
    refine ⟨?_, fun j hj => ?_, fun j hj => ?_⟩
    · have := (hf (src.layout.rows - 1) (col + (l0 + c)) (by omega) hcol).2
      rw [← hat] at this
      dsimp only
      omega
    · unfold laneVal Float.rowVal
      rw [if_pos hj, if_pos hcol, hat]
      rfl
    · unfold laneVal
      rw [if_neg (Nat.not_lt.2 hj)]

theorem half16_rows0 {isa : PackIsa A} {a : Args A} {cols : Nat → Col} {s : PSt A} (h : a.rows = 0) :
    half16 isa a cols s = .ok s := by
  unfold half16
  rw [h]
  rfl

/-- Nothing is written for a source without rows. -/
theorem part_rows0 {base kc : Nat} {V : Nat → Nat → A} (b : Buf A) {rows : Nat} (h : rows = 0) :
    Part base kc V (fun _ j => j < rows) b b := (Part.refl b).iff (fun _ _ _ => by simp [h])

theorem copyTrailing_part {base kc rows : Nat} {V : Nat → Nat → A} {b : Buf A} {st : PSt A} (h0 : 0 < kc)
    (hb : base + kc * rows ≤ b.size) (htr : kc * 7 ≤ st.trailing.size)
    (hd : Part base kc V (fun _ j => j < rows / 8 * 8) b st.data)
    (ht : 0 < rows % 8 → ∀ i j, i < kc → j < 7 → st.trailing.val (j * kc + i) = V i (rows / 8 * 8 + j)) :
    ∃ b', copyTrailing kc rows base st = .ok b' ∧ Part base kc V (fun _ j => j < rows) b b' := by
  unfold copyTrailing
  by_cases h : 0 < rows % 8
  · rw [if_pos h]
    have hq : rows - rows % 8 = rows / 8 * 8 := by omega
    have hk : kc * (rows % 8) ≤ kc * 7 := Nat.mul_le_mul_left _ (by omega)
    have hk2 : kc * rows = rows / 8 * 8 * kc + kc * (rows % 8) := by
      conv_lhs => rw [show rows = rows / 8 * 8 + rows % 8 by omega]
      ring
    have hs := hd.size
    rw [load_of (off := 0) (o := 0) rfl (by omega), C.ok_bind]
    obtain ⟨b', e, hp⟩ := store_rows (b := st.data) (base := base) (st := kc) (V := V) (n := rows % 8) (j0 := rows / 8 * 8)
      (off := (base + kc * (rows - rows % 8) : Nat)) (r := fun i => st.trailing.val (0 + i)) h0
      (by rw [hq, Nat.mul_comm kc]) (by omega) (fun i j hi hj => by
        rw [Nat.zero_add, ht h i j hi (by omega)])
    refine ⟨b', e, (hd.trans hp).iff (fun i j _ => by omega)⟩
  · rw [if_neg h]
    exact ⟨_, rfl, hd.iff (fun i j _ => by omega)⟩

/-- What is required of a packer: it writes the rows of the source, followed by zero columns. -/
def PackerOk (kc : Nat) (pk : Packer A) : Prop :=
  ∀ (z : A) (src : Mul.Mat A) (junk : Nat → A) (col soff poff : Nat) (d : Buf A),
    src.layout.order = .colMajor → DFits src → (0 < src.layout.rows → col < src.layout.cols) →
    (src.layout.cols ≤ col + 8 ∨ src.layout.stride * 8 < 2 ^ 31) →
    soff = src.layout.stride * col → poff + kc * src.layout.rows ≤ d.size →
    ∃ d', pk z src.data junk src.layout.stride src.layout.rows (src.layout.cols - col : Int) soff poff d = .ok d' ∧
      Part poff kc (laneVal z src col) (fun _ j => j < src.layout.rows) d d'

theorem pack8_ok {isa : PackIsa A} (ok : PackOk isa) : PackerOk 8 (pack8 isa) := by
  intro z src junk col soff poff d ho hf hc _ hs hp
  unfold pack8
  by_cases h0 : src.layout.rows = 0
  · rw [h0]
    exact ⟨d, rfl, part_rows0 d rfl⟩
  have hcol := hc (by omega)
  have he : EightOk poff 0 (laneVal z src col) ⟨src.data, z, src.layout.rows, 8, poff, 0⟩
      (colOf soff src.layout.stride (src.layout.cols - col : Int)) :=
    ⟨by show 0 + 8 ≤ 8; omega, rfl, rfl, fun c h8 =>
      (colIs_of ho hf (l0 := 0) hs h8 (by push_cast; omega)).resolve_right h0⟩
  obtain ⟨s', e, hpp⟩ := chunks8 ok he (s := ⟨d, ⟨56, if (src.layout.cols - col : Int) < 8 then bcast1 z else junk⟩⟩)
    hp (by show 8 * 7 ≤ 56; omega)
  dsimp only at e ⊢
  rw [e, C.ok_bind]
  have htr := hpp.trailing.size
  dsimp only at htr
  refine copyTrailing_part (by omega) hp (by omega) (hpp.data.iff (fun i j hi => ?_)) (fun hm i j hi hj => ?_)
  · dsimp only at hi ⊢; omega
  · have := hpp.trailing.inn i j hi ⟨hj, hm, by omega, by omega, by dsimp only; omega⟩
    rw [Nat.zero_add] at this
    exact this

theorem zeroHalf_part {base rows : Nat} {z : A} {V : Nat → Nat → A} {b : Buf A} (hb : base + 16 * rows ≤ b.size)
    (hV : ∀ i j, 8 ≤ i → V i j = z) :
    ∃ b', zeroHalf z rows (base + 8) b = .ok b' ∧
      Part base 16 V (fun i j => 8 ≤ i ∧ i < 16 ∧ j < rows / 8 * 8) b b' := by
  unfold zeroHalf
  obtain ⟨b', e, hp⟩ := part_loop (b := b) (n := rows - rows % 8) (base := base) (st := 16) (V := V)
    (body := fun k d => forUpTo 8 (fun j d => d.write (base + 8 + k * 16 + j) z) d)
    (S := fun k i j => ∃ m, m < 8 ∧ (i = 8 + m ∧ j = k))
    (fun k t hk ht => part_loop (fun m t' hm ht' => by
      obtain ⟨t2, e2⟩ := Buf.write_of (b := t') (x := z) (show base + 8 + k * 16 + m < t'.size by omega)
      obtain ⟨_, w2, w3, w4⟩ := Buf.write_ok e2
      refine ⟨t2, e2, w2, ?_, fun o ho => w4 o ?_⟩
      · rintro i j hi ⟨rfl, rfl⟩
        rw [hV _ _ (by omega), ← w3]
        congr 1; omega
      · have := ho (8 + m) k (by omega) ⟨rfl, rfl⟩
        omega))
  refine ⟨b', e, hp.iff (fun i j _ => ⟨?_, ?_⟩)⟩
  · rintro ⟨k, h1, m, h2, rfl, rfl⟩
    omega
  · rintro ⟨h1, h2, h3⟩
    exact ⟨j, by omega, i - 8, by omega, by omega, rfl⟩

theorem pack16_ok {isa : PackIsa A} (ok : PackOk isa) : PackerOk 16 (pack16 isa) := by
  intro z src junk col soff poff d ho hf hc hst hs hp
  unfold pack16
  by_cases hr : (8 : Int) < src.layout.cols - col
  · rw [if_pos hr, C.int_of (by omega)]
    by_cases h0 : src.layout.rows = 0
    · rw [h0, half16_rows0 rfl, C.ok_bind, C.ok_bind, half16_rows0 rfl, C.ok_bind]
      exact ⟨d, rfl, part_rows0 d rfl⟩
    have he : EightOk poff 0 (laneVal z src col) ⟨src.data, z, src.layout.rows, 16, poff, 0⟩
        (colOf soff src.layout.stride (src.layout.cols - col : Int)) :=
      ⟨by show 0 + 8 ≤ 16; omega, rfl, rfl, fun c h8 =>
        (colIs_of ho hf (l0 := 0) hs h8 (by push_cast; omega)).resolve_right h0⟩
    have he' : EightOk poff 8 (laneVal z src col) ⟨src.data, z, src.layout.rows, 16, poff + 8, 8⟩
        (colOf (soff + src.layout.stride * 8) src.layout.stride (src.layout.cols - col - 8 : Int)) :=
      ⟨by show 8 + 8 ≤ 16; omega, rfl, rfl, fun c h8 =>
        (colIs_of ho hf (l0 := 8) (by rw [hs]; ring) h8 (by push_cast; omega)).resolve_right h0⟩
    obtain ⟨s1, e1, p1⟩ := half16_part ok he (s := ⟨d, ⟨112, junk⟩⟩) hp (by show 16 * 7 ≤ 112; omega)
    have hsz := p1.data.size
    have htz := p1.trailing.size
    dsimp only at hsz htz
    obtain ⟨s2, e2, p2⟩ := half16_part ok he' (s := s1) (by dsimp only; omega) (by dsimp only; omega)
    have htz2 := p2.trailing.size
    rw [e1, C.ok_bind, C.ok_bind, e2, C.ok_bind]
    have p3 := p1.trans p2
    dsimp only at p3
    refine copyTrailing_part (by omega) hp (by omega) (p3.data.iff (fun i j hi => ?_)) (fun hm i j hi hj => ?_)
    · omega
    · have := p3.trailing.inn i j hi ⟨hj, hm, by omega⟩
      rw [Nat.zero_add] at this
      exact this
  · rw [if_neg hr]
    by_cases h0 : src.layout.rows = 0
    · rw [h0, half16_rows0 rfl, C.ok_bind]
      exact ⟨d, rfl, part_rows0 d rfl⟩
    have he : EightOk poff 0 (laneVal z src col) ⟨src.data, z, src.layout.rows, 16, poff, 0⟩
        (colOf soff src.layout.stride (src.layout.cols - col : Int)) :=
      ⟨by show 0 + 8 ≤ 16; omega, rfl, rfl, fun c h8 =>
        (colIs_of ho hf (l0 := 0) hs h8 (by push_cast; omega)).resolve_right h0⟩
    have hz : ∀ i j, 8 ≤ i → laneVal z src col i j = z := by
      intro i j hi
      unfold laneVal Float.rowVal
      rw [if_neg (show ¬ col + i < src.layout.cols by omega), ite_self]
    obtain ⟨s1, e1, p1⟩ := half16_part ok he (s := ⟨d, ⟨112, bcast1 z⟩⟩) hp (by show 16 * 7 ≤ 112; omega)
    have hsz := p1.data.size
    have htz := p1.trailing.size
    dsimp only at hsz htz
    obtain ⟨d2, e2, p2⟩ := zeroHalf_part (base := poff) (rows := src.layout.rows) (V := laneVal z src col) (b := s1.data)
      (by omega) hz
    rw [e1, C.ok_bind, e2, C.ok_bind, C.ok_bind]
    refine copyTrailing_part (by omega) hp (by dsimp only; omega) ((p1.data.trans p2).iff (fun i j hi => ?_))
      (fun hm i j hi hj => ?_)
    · dsimp only at hi ⊢; omega
    · dsimp only
      by_cases h8 : i < 8
      · have := p1.trailing.inn i j hi ⟨hj, hm, by dsimp only; omega⟩
        rw [Nat.zero_add] at this
        exact this
      · rw [hz _ _ (by omega), p1.trailing.out]
        · rfl
        · rintro i' j' hi' ⟨_, _, h1, h2, _⟩ he
          dsimp only at hi' he
          obtain ⟨rfl, rfl⟩ := radix_inj (st := 16) (i := i) (j := j) (i' := i') (j' := j') hi hi' (by omega)
          omega

end Ruy.XFloat

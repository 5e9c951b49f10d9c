import Verif.XFloat.Part
/-
What the float kernels of the x86 paths store.
-/
namespace Ruy.XFloat
open Ruy.Mat Ruy.Mul

variable {A : Type}

/-! ### Specification of an entry -/

/-- Multiply-adds one after another, in the order of the depth. -/
def dot (madd : A → A → A → A) (init : A) (f g : Nat → A) : Nat → A
  | 0 => init
  | n + 1 => madd (f n) (g n) (dot madd init f g n)

/-- Clamped accumulator. -/
def clamped (o : VOps A) (cmin cmax x : A) : A := o.max (o.min x cmax) cmin

/-- Entry (i, j) given the packed operands and the bias. -/
def entryOf (o : VOps A) (k : KParams A) (L R B : Nat → Nat → A) (i j : Nat) : A :=
  clamped o k.clampMin k.clampMax (dot o.madd (B i j) (fun d => L d i) (fun d => R d j) k.depth)

/-! ### Conditions -/

/-- What the kernels need of an instruction set. -/
structure IsaOk (isa : Isa A) : Prop where
  kc : isa.kc = 8 ∨ isa.kc = 16
  bcast : ∀ (b : Buf A) (o : Nat), o + 8 ≤ b.size →
    ∃ r, isa.bcast8 b o = .ok r ∧ ∀ j i, j < 8 → r j i = b.val (o + j)

theorem bcastAvx_ok (b : Buf A) (o : Nat) (h : o + 8 ≤ b.size) :
    ∃ r, bcastAvx b o = .ok r ∧ ∀ j i, j < 8 → r j i = b.val (o + j) := by
  unfold bcastAvx
  rw [load_of rfl (show o + 4 ≤ b.size by omega), C.ok_bind, load_of (o := o + 4) (by push_cast; rfl) (by omega), C.ok_bind]
  refine ⟨_, rfl, fun j i hj => ?_⟩
  have hd : 85 * (j % 4) / 4 ^ (i % 4) % 4 = j % 4 := by
    have h1 : j % 4 < 4 := Nat.mod_lt _ (by omega)
    have h2 : i % 4 < 4 := Nat.mod_lt _ (by omega)
    generalize j % 4 = x at *
    generalize i % 4 = y at *
    interval_cases x <;> interval_cases y <;> rfl
  unfold permute
  rw [hd]
  by_cases h4 : j < 4
  · simp only [h4, if_true]
    congr 1; omega
  · simp only [h4, if_false]
    congr 1; omega

theorem bcast512_ok (b : Buf A) (o : Nat) (h : o + 8 ≤ b.size) :
    ∃ r, bcast512 b o = .ok r ∧ ∀ j i, j < 8 → r j i = b.val (o + j) := by
  unfold bcast512
  rw [load_of rfl h, C.ok_bind]
  exact ⟨_, rfl, fun j i _ => rfl⟩

/-- A kernel call whose operands are packed at strides `sl`, `sr` and whose destination has stride `st`. -/
structure KOk (isa : Isa A) (k : KParams A) (sl sr st size : Nat) (L R B : Nat → Nat → A) : Prop where
  ls : k.ls = sl
  rs : k.rs = sr
  ds : k.ds = st
  lbase : k.lhsBase = k.startRow * sl
  rbase : k.rhsBase = k.startCol * sr
  dbase : k.dstBase = k.startCol * st + k.startRow
  startRow : k.startRow % isa.kc = 0
  startCol : k.startCol % isa.kc = 0
  endRow : k.endRow % isa.kc = 0
  endCol : k.endCol % isa.kc = 0
  lhs : ∀ row d, row % isa.kc = 0 → row + isa.kc ≤ k.endRow → d < k.depth →
    row * sl + isa.kc * d + isa.kc ≤ k.lhs.size ∧ ∀ i, i < isa.kc → k.lhs.val (row * sl + isa.kc * d + i) = L d (row + i)
  rhs : ∀ col d, col % isa.kc = 0 → col + isa.kc ≤ k.endCol → d < k.depth →
    col * sr + isa.kc * d + isa.kc ≤ k.rhs.size ∧ ∀ j, j < isa.kc → k.rhs.val (col * sr + isa.kc * d + j) = R d (col + j)
  biasCol : k.channelCol = true → ∀ col, col + 8 ≤ k.endCol →
    col * k.inc + 8 ≤ k.bias.size ∧ ∀ i j, j < 8 → k.bias.val (col * k.inc + j) = B i (col + j)
  biasRow : k.channelCol = false → ∀ row, row + isa.kc ≤ k.endRow →
    row * k.inc + isa.kc ≤ k.bias.size ∧ ∀ i j, i < isa.kc → k.bias.val (row * k.inc + i) = B (row + i) j
  dst : ∀ i j, i < k.dstRows → j < k.dstCols → j * st + i < size
  rows : k.dstRows ≤ st

section
variable {isa : Isa A} {k : KParams A} {sl sr st size : Nat} {L R B : Nat → Nat → A}

theorem KOk.lp (h : KOk isa k sl sr st size L R B) (row : Nat) : k.lp row = (row * sl : Nat) := by
  unfold KParams.lp
  rw [h.ls, h.lbase]
  push_cast
  ring

theorem KOk.rp (h : KOk isa k sl sr st size L R B) (col : Nat) : k.rp col = (col * sr : Nat) := by
  unfold KParams.rp
  rw [h.rs, h.rbase]
  push_cast
  ring

theorem KOk.dp (h : KOk isa k sl sr st size L R B) (row col : Nat) : k.dp row col = (col * st + row : Nat) := by
  unfold KParams.dp
  rw [h.ds, h.dbase]
  push_cast
  ring

/-! ### Eight columns -/

theorem initial_of (h : KOk isa k sl sr st size L R B) {row col : Nat} (hr : row + isa.kc ≤ k.endRow)
    (hc : col + 8 ≤ k.endCol) :
    ∃ acc, initial isa k row col = .ok acc ∧ ∀ j i, j < 8 → i < isa.kc → acc j i = B (row + i) (col + j) := by
  unfold initial
  cases hch : k.channelCol with
  | true =>
    obtain ⟨h1, h2⟩ := h.biasCol hch col hc
    rw [if_pos rfl, load_of rfl h1, C.ok_bind]
    exact ⟨_, rfl, fun j i hj _ => h2 _ j hj⟩
  | false =>
    obtain ⟨h1, h2⟩ := h.biasRow hch row hr
    rw [if_neg (by simp), load_of rfl h1, C.ok_bind]
    exact ⟨_, rfl, fun j i _ hi => h2 i _ hi⟩

theorem depthStep_of (ok : IsaOk isa) (h : KOk isa k sl sr st size L R B) {row col half d : Nat}
    (hr0 : row % isa.kc = 0) (hr : row + isa.kc ≤ k.endRow) (hc0 : col % isa.kc = 0) (hc : col + isa.kc ≤ k.endCol)
    (hh : 8 * half + 8 ≤ isa.kc) (hd : d < k.depth) (acc : Nat → FReg A) :
    ∃ acc', depthStep isa k (k.lp row) (k.rp col + 8 * half) d acc = .ok acc' ∧ ∀ j i, j < 8 → i < isa.kc →
      acc' j i = isa.ops.madd (L d (row + i)) (R d (col + 8 * half + j)) (acc j i) := by
  obtain ⟨l1, l2⟩ := h.lhs row d hr0 hr hd
  obtain ⟨r1, r2⟩ := h.rhs col d hc0 hc hd
  unfold depthStep
  rw [h.lp, h.rp, load_of (o := row * sl + isa.kc * d) (by push_cast; rfl) l1, C.ok_bind]
  obtain ⟨r, e, hr⟩ := ok.bcast k.rhs (col * sr + 8 * half + isa.kc * d) (by omega)
  rw [show ((col * sr : Nat) : Int) + 8 * half + isa.kc * d = (col * sr + 8 * half + isa.kc * d : Nat) by push_cast; rfl,
    e, C.ok_bind]
  refine ⟨_, rfl, fun j i hj hi => ?_⟩
  dsimp only
  rw [l2 i hi, hr j i hj, show col * sr + 8 * half + isa.kc * d + j = col * sr + isa.kc * d + (8 * half + j) by omega,
    r2 _ (by omega), Nat.add_assoc col]

theorem depth_of (ok : IsaOk isa) (h : KOk isa k sl sr st size L R B) {row col half : Nat}
    (hr0 : row % isa.kc = 0) (hr : row + isa.kc ≤ k.endRow) (hc0 : col % isa.kc = 0) (hc : col + isa.kc ≤ k.endCol)
    (hh : 8 * half + 8 ≤ isa.kc) {n : Nat} (hn : n ≤ k.depth) (acc : Nat → FReg A) :
    ∃ acc', forUpTo n (depthStep isa k (k.lp row) (k.rp col + 8 * half)) acc = .ok acc' ∧ ∀ j i, j < 8 → i < isa.kc →
      acc' j i = dot isa.ops.madd (acc j i) (fun d => L d (row + i)) (fun d => R d (col + 8 * half + j)) n := by
  obtain ⟨t, e, ht⟩ := forUpTo_total (n := n) (s := acc) (body := depthStep isa k (k.lp row) (k.rp col + 8 * half))
    (fun m t => ∀ j i, j < 8 → i < isa.kc →
      t j i = dot isa.ops.madd (acc j i) (fun d => L d (row + i)) (fun d => R d (col + 8 * half + j)) m)
    (fun _ _ _ _ => rfl)
    (by
      intro m t hm ht
      obtain ⟨t', e, h'⟩ := depthStep_of ok h hr0 hr hc0 hc hh (show m < k.depth by omega) t
      exact ⟨t', e, fun j i hj hi => by rw [h' j i hj hi, ht j i hj hi]; rfl⟩)
  exact ⟨t, e, ht⟩

theorem eight_of (ok : IsaOk isa) (h : KOk isa k sl sr st size L R B) {peeled : Bool} {row col half rows cols : Nat}
    (hr0 : row % isa.kc = 0) (hr : row + isa.kc ≤ k.endRow) (hc0 : col % isa.kc = 0) (hc : col + isa.kc ≤ k.endCol)
    (hh : 8 * half + 8 ≤ isa.kc) (hp : peeled = true → 0 < k.depth) (h0 : 0 < rows) (hrows : rows ≤ isa.kc)
    (hrd : row + rows ≤ k.dstRows) (hcols : cols ≤ 8) (hcd : cols = 0 ∨ col + 8 * half + cols ≤ k.dstCols)
    {b : Buf A} (hb : b.size = size) :
    ∃ b', eight isa k peeled row col half rows cols b = .ok b' ∧ Part 0 st (entryOf isa.ops k L R B)
      (fun i j => row ≤ i ∧ i < row + rows ∧ col + 8 * half ≤ j ∧ j < col + 8 * half + cols) b b' := by
  obtain ⟨acc0, e0, a0⟩ := initial_of h (row := row) (col := col + 8 * half) hr (by omega)
  have hacc : ∃ acc, accumulate isa k peeled (k.lp row) (k.rp col + 8 * half) acc0 = .ok acc ∧
      ∀ j i, j < 8 → i < isa.kc → acc j i = dot isa.ops.madd (B (row + i) (col + 8 * half + j))
        (fun d => L d (row + i)) (fun d => R d (col + 8 * half + j)) k.depth := by
    unfold accumulate
    cases peeled with
    | false =>
      obtain ⟨acc, e, ha⟩ := depth_of ok h hr0 hr hc0 hc hh (Nat.le_refl _) acc0
      exact ⟨acc, by rw [if_neg (by simp)]; exact e, fun j i hj hi => by rw [ha j i hj hi, a0 j i hj hi]⟩
    | true =>
      have hd := hp rfl
      obtain ⟨acc1, e1, h1⟩ := depth_of ok h hr0 hr hc0 hc hh (n := k.depth - 1) (by omega) acc0
      obtain ⟨acc2, e2, h2⟩ := depthStep_of ok h hr0 hr hc0 hc hh (show k.depth - 1 < k.depth by omega) acc1
      refine ⟨acc2, by rw [if_pos rfl, e1, C.ok_bind]; exact e2, fun j i hj hi => ?_⟩
      rw [h2 j i hj hi, h1 j i hj hi, a0 j i hj hi]
      conv_rhs => rw [show k.depth = k.depth - 1 + 1 by omega]
      rfl
  obtain ⟨acc, e, ha⟩ := hacc
  unfold eight
  rw [e0, C.ok_bind, e, C.ok_bind]
  obtain ⟨b', e', hP⟩ := part_loop (b := b) (n := cols) (base := 0) (st := st) (V := entryOf isa.ops k L R B)
    (body := storeCol isa k rows (k.dp row col + (half * 8) * k.ds) acc)
    (S := fun c i j => row ≤ i ∧ i < row + rows ∧ j = col + 8 * half + c)
    (fun c t hcc ht => by
      have hlast := h.dst (row + rows - 1) (col + 8 * half + c) (by omega) (by omega)
      have hst := h.rows
      unfold storeCol
      refine store_part ?_ (by omega) (by omega) (fun i hi => ?_)
      · rw [h.dp, h.ds]; push_cast; ring
      · unfold clamp entryOf clamped
        rw [ha c i (by omega) (by omega)])
  refine ⟨b', e', hP.iff (fun i j _ => ⟨?_, ?_⟩)⟩
  · rintro ⟨c, h1, h2, h3, h4⟩
    omega
  · rintro ⟨h1, h2, h3, h4⟩
    exact ⟨j - (col + 8 * half), by omega, h1, h2, by omega⟩

/-! ### Kernels -/

/-- The block of the call, cut to the destination. -/
def inBlock (k : KParams A) (i j : Nat) : Prop :=
  k.startRow ≤ i ∧ i < k.rowEnd ∧ k.startCol ≤ j ∧ j < k.colEnd

theorem rowEnd_le (k : KParams A) : k.rowEnd ≤ k.dstRows ∧ k.rowEnd ≤ k.endRow := by
  unfold KParams.rowEnd; omega
theorem colEnd_le (k : KParams A) : k.colEnd ≤ k.dstCols ∧ k.colEnd ≤ k.endCol := by
  unfold KParams.colEnd; omega

theorem rowLoop8_of (ok : IsaOk isa) (hkc : isa.kc = 8) (h : KOk isa k sl sr st size L R B) {col cols : Nat}
    (hc0 : col % 8 = 0) (hc : col + 8 ≤ k.endCol) (hcols : cols ≤ 8) (hcd : col + cols ≤ k.dstCols)
    {b : Buf A} (hb : b.size = size) :
    ∃ b', rowLoop8 isa k col cols b = .ok b' ∧ Part 0 st (entryOf isa.ops k L R B)
      (fun i j => k.startRow ≤ i ∧ i < k.rowEnd ∧ col ≤ j ∧ j < col + cols) b b' := by
  obtain ⟨re1, re2⟩ := rowEnd_le k
  have s1 := h.startRow
  have s2 := h.endRow
  rw [hkc] at s1 s2
  unfold rowLoop8
  obtain ⟨b', e, hP⟩ := part_loop (b := b) (n := (k.rowEnd - k.startRow + 7) / 8) (base := 0) (st := st)
    (V := entryOf isa.ops k L R B)
    (body := fun m b =>
      let row := k.startRow + 8 * m
      eight isa k false row col 0 (min (k.rowEnd - row) 8) cols b)
    (S := fun m i j => k.startRow + 8 * m ≤ i ∧ i < k.startRow + 8 * m + min (k.rowEnd - (k.startRow + 8 * m)) 8 ∧
      col + 8 * 0 ≤ j ∧ j < col + 8 * 0 + cols)
    (fun m t hm ht => eight_of ok h (by rw [hkc]; omega) (by rw [hkc]; omega) (by rw [hkc]; exact hc0)
      (by rw [hkc]; exact hc) (by rw [hkc]) (by simp) (by omega) (by rw [hkc]; omega) (by omega) hcols (Or.inr (by omega))
      (ht.trans hb))
  refine ⟨b', e, hP.iff (fun i j _ => ⟨?_, ?_⟩)⟩
  · rintro ⟨m, h1, h2, h3, h4, h5⟩
    omega
  · rintro ⟨h1, h2, h3, h4⟩
    exact ⟨(i - k.startRow) / 8, by omega, by omega, by omega, by omega, by omega⟩

theorem kernel8_of (ok : IsaOk isa) (hkc : isa.kc = 8) (h : KOk isa k sl sr st size L R B) {b : Buf A}
    (hb : b.size = size) :
    ∃ b', kernel8 isa k b = .ok b' ∧ Part 0 st (entryOf isa.ops k L R B) (inBlock k) b b' := by
  obtain ⟨ce1, ce2⟩ := colEnd_le k
  have s1 := h.startCol
  have s2 := h.endCol
  rw [hkc] at s1 s2
  unfold kernel8 inBlock
  dsimp only
  obtain ⟨b1, e1, p1⟩ := part_loop (b := b) (n := (k.colEnd - k.startCol) / 8) (base := 0) (st := st)
    (V := entryOf isa.ops k L R B) (body := fun c b => rowLoop8 isa k (k.startCol + 8 * c) 8 b)
    (S := fun c i j => k.startRow ≤ i ∧ i < k.rowEnd ∧ k.startCol + 8 * c ≤ j ∧ j < k.startCol + 8 * c + 8)
    (fun c t hc ht => rowLoop8_of ok hkc h (by omega) (by omega) (by omega) (by omega) (ht.trans hb))
  rw [e1, C.ok_bind]
  by_cases hlt : k.startCol + 8 * ((k.colEnd - k.startCol) / 8) < k.colEnd
  · rw [if_pos hlt, C.check_of (by omega), C.ok_bind]
    obtain ⟨b2, e2, p2⟩ := rowLoop8_of ok hkc h (col := k.startCol + 8 * ((k.colEnd - k.startCol) / 8))
      (cols := min (k.colEnd - (k.startCol + 8 * ((k.colEnd - k.startCol) / 8))) 8) (by omega) (by omega) (by omega)
      (by omega) (b := b1) (p1.size.trans hb)
    refine ⟨b2, e2, (p1.trans p2).iff (fun i j _ => ⟨?_, ?_⟩)⟩
    · rintro (⟨c, h1, h2, h3, h4, h5⟩ | ⟨h1, h2, h3, h4⟩) <;> omega
    · rintro ⟨h1, h2, h3, h4⟩
      by_cases hj : j < k.startCol + 8 * ((k.colEnd - k.startCol) / 8)
      · exact Or.inl ⟨(j - k.startCol) / 8, by omega, h1, h2, by omega, by omega⟩
      · exact Or.inr (by omega)
  · rw [if_neg hlt]
    refine ⟨b1, rfl, p1.iff (fun i j _ => ⟨?_, ?_⟩)⟩
    · rintro ⟨c, h1, h2, h3, h4, h5⟩; omega
    · rintro ⟨h1, h2, h3, h4⟩
      exact ⟨(j - k.startCol) / 8, by omega, h1, h2, by omega, by omega⟩

theorem halves_of (ok : IsaOk isa) (hkc : isa.kc = 16) (h : KOk isa k sl sr st size L R B) {peeled : Bool}
    {row col rows : Nat} {cols : Nat → Nat} (hr0 : row % 16 = 0) (hr : row + 16 ≤ k.endRow) (hc0 : col % 16 = 0)
    (hc : col + 16 ≤ k.endCol) (hp : peeled = true → 0 < k.depth) (h0 : 0 < rows) (hrows : rows ≤ 16)
    (hrd : row + rows ≤ k.dstRows) (hcols : ∀ half, half < 2 → cols half ≤ 8)
    (hcd : ∀ half, half < 2 → cols half = 0 ∨ col + 8 * half + cols half ≤ k.dstCols) {b : Buf A} (hb : b.size = size) :
    ∃ b', forUpTo 2 (fun half b => eight isa k peeled row col half rows (cols half) b) b = .ok b' ∧
      Part 0 st (entryOf isa.ops k L R B) (fun i j => row ≤ i ∧ i < row + rows ∧
        ∃ half, half < 2 ∧ col + 8 * half ≤ j ∧ j < col + 8 * half + cols half) b b' := by
  obtain ⟨b', e, hP⟩ := part_loop (b := b) (n := 2) (base := 0) (st := st) (V := entryOf isa.ops k L R B)
    (body := fun half b => eight isa k peeled row col half rows (cols half) b)
    (S := fun half i j => row ≤ i ∧ i < row + rows ∧ col + 8 * half ≤ j ∧ j < col + 8 * half + cols half)
    (fun m t hm ht => eight_of ok h (by rw [hkc]; exact hr0) (by rw [hkc]; exact hr) (by rw [hkc]; exact hc0)
      (by rw [hkc]; exact hc) (by rw [hkc]; omega) hp h0 (by rw [hkc]; exact hrows) hrd (hcols m hm) (hcd m hm)
      (ht.trans hb))
  exact ⟨b', e, hP.iff (fun i j _ => ⟨fun ⟨m, h1, h2, h3, h4⟩ => ⟨h2, h3, m, h1, h4⟩,
    fun ⟨h2, h3, m, h1, h4⟩ => ⟨m, h1, h2, h3, h4⟩⟩)⟩

theorem fullCols16_of (ok : IsaOk isa) (hkc : isa.kc = 16) (h : KOk isa k sl sr st size L R B) (hdepth : 0 < k.depth)
    {col : Nat} (hc0 : col % 16 = 0) (hc : col + 16 ≤ k.colEnd) {b : Buf A} (hb : b.size = size) :
    ∃ b', fullCols16 isa k col b = .ok b' ∧ Part 0 st (entryOf isa.ops k L R B)
      (fun i j => k.startRow ≤ i ∧ i < k.rowEnd ∧ col ≤ j ∧ j < col + 16) b b' := by
  obtain ⟨re1, re2⟩ := rowEnd_le k
  obtain ⟨ce1, ce2⟩ := colEnd_le k
  have s1 := h.startRow
  have s2 := h.endRow
  rw [hkc] at s1 s2
  unfold fullCols16
  dsimp only
  obtain ⟨b1, e1, p1⟩ := part_loop (b := b) (n := (k.rowEnd - k.startRow) / 16) (base := 0) (st := st)
    (V := entryOf isa.ops k L R B)
    (body := fun m b => forUpTo 2 (fun half b => eight isa k true (k.startRow + 16 * m) col half 16 8 b) b)
    (S := fun m i j => k.startRow + 16 * m ≤ i ∧ i < k.startRow + 16 * m + 16 ∧
        ∃ half, half < 2 ∧ col + 8 * half ≤ j ∧ j < col + 8 * half + 8)
    (fun m t hm ht => halves_of ok hkc h (cols := fun _ => 8) (by omega) (by omega) hc0 (by omega) (fun _ => hdepth)
      (by omega) (by omega) (by omega) (fun _ _ => Nat.le_refl _) (fun half hh => Or.inr (by omega)) (ht.trans hb))
  rw [e1, C.ok_bind]
  have hhalf : ∀ j, (∃ half, half < 2 ∧ col + 8 * half ≤ j ∧ j < col + 8 * half + 8) ↔ col ≤ j ∧ j < col + 16 := by
    intro j
    constructor
    · rintro ⟨half, h1, h2, h3⟩; omega
    · rintro ⟨h1, h2⟩; exact ⟨(j - col) / 8, by omega, by omega, by omega⟩
  simp only [hhalf] at p1
  by_cases hlt : k.startRow + 16 * ((k.rowEnd - k.startRow) / 16) < k.rowEnd
  · rw [if_pos hlt]
    obtain ⟨b2, e2, p2⟩ := halves_of ok hkc h (peeled := true) (cols := fun _ => 8) (col := col)
      (row := k.startRow + 16 * ((k.rowEnd - k.startRow) / 16))
      (rows := k.rowEnd - (k.startRow + 16 * ((k.rowEnd - k.startRow) / 16)))
      (by omega) (by omega) hc0 (by omega) (fun _ => hdepth)
      (by omega) (by omega) (by omega) (fun _ _ => Nat.le_refl _) (fun half hh => Or.inr (by omega))
      (b := b1) (p1.size.trans hb)
    simp only [hhalf] at p2
    refine ⟨b2, e2, (p1.trans p2).iff (fun i j _ => ⟨?_, ?_⟩)⟩
    · rintro (⟨c, h1, h2, h3, h4, h5⟩ | ⟨h1, h2, h3, h4⟩) <;> omega
    · rintro ⟨h1, h2, h3, h4⟩
      by_cases hj : i < k.startRow + 16 * ((k.rowEnd - k.startRow) / 16)
      · exact Or.inl ⟨(i - k.startRow) / 16, by omega, by omega, by omega, h3, h4⟩
      · exact Or.inr (by omega)
  · rw [if_neg hlt]
    refine ⟨b1, rfl, p1.iff (fun i j _ => ⟨?_, ?_⟩)⟩
    · rintro ⟨c, h1, h2, h3, h4, h5⟩; omega
    · rintro ⟨h1, h2, h3, h4⟩
      exact ⟨(i - k.startRow) / 16, by omega, by omega, by omega, h3, h4⟩

theorem restCols16_of (ok : IsaOk isa) (hkc : isa.kc = 16) (h : KOk isa k sl sr st size L R B)
    {col : Nat} (hc0 : col % 16 = 0) (hc : col < k.colEnd) (hc' : k.colEnd < col + 16) {b : Buf A} (hb : b.size = size) :
    ∃ b', restCols16 isa k col b = .ok b' ∧ Part 0 st (entryOf isa.ops k L R B)
      (fun i j => k.startRow ≤ i ∧ i < k.rowEnd ∧ col ≤ j ∧ j < k.colEnd) b b' := by
  obtain ⟨re1, re2⟩ := rowEnd_le k
  obtain ⟨ce1, ce2⟩ := colEnd_le k
  have s1 := h.startRow
  have s2 := h.endRow
  have s3 := h.endCol
  rw [hkc] at s1 s2 s3
  unfold restCols16
  obtain ⟨b1, e1, p1⟩ := part_loop (b := b) (n := (k.rowEnd - k.startRow + 15) / 16) (base := 0) (st := st)
    (V := entryOf isa.ops k L R B)
    (body := fun m b =>
      let row := k.startRow + 16 * m
      forUpTo 2 (fun half b =>
        eight isa k false row col half (min (k.rowEnd - row) 16) (min (k.colEnd - col - 8 * half) 8) b) b)
    (S := fun m i j => k.startRow + 16 * m ≤ i ∧ i < k.startRow + 16 * m + min (k.rowEnd - (k.startRow + 16 * m)) 16 ∧
        ∃ half, half < 2 ∧ col + 8 * half ≤ j ∧ j < col + 8 * half + min (k.colEnd - col - 8 * half) 8)
    (fun m t hm ht => halves_of ok hkc h (cols := fun half => min (k.colEnd - col - 8 * half) 8) (by omega) (by omega) hc0
      (by omega) (by simp) (by omega) (by omega) (by omega) (fun _ _ => by omega) (fun half hh => by omega)
      (ht.trans hb))
  refine ⟨b1, e1, p1.iff (fun i j _ => ⟨?_, ?_⟩)⟩
  · rintro ⟨c, h1, h2, h3, half, h4, h5, h6⟩; omega
  · rintro ⟨h1, h2, h3, h4⟩
    exact ⟨(i - k.startRow) / 16, by omega, by omega, by omega, (j - col) / 8, by omega, by omega, by omega⟩

theorem kernel16_of (ok : IsaOk isa) (hkc : isa.kc = 16) (h : KOk isa k sl sr st size L R B) (hdepth : 0 < k.depth)
    {b : Buf A} (hb : b.size = size) :
    ∃ b', kernel16 isa k b = .ok b' ∧ Part 0 st (entryOf isa.ops k L R B) (inBlock k) b b' := by
  have s1 := h.startCol
  rw [hkc] at s1
  unfold kernel16 inBlock
  dsimp only
  obtain ⟨b1, e1, p1⟩ := part_loop (b := b) (n := (k.colEnd - k.startCol) / 16) (base := 0) (st := st)
    (V := entryOf isa.ops k L R B) (body := fun c b => fullCols16 isa k (k.startCol + 16 * c) b)
    (S := fun c i j => k.startRow ≤ i ∧ i < k.rowEnd ∧ k.startCol + 16 * c ≤ j ∧ j < k.startCol + 16 * c + 16)
    (fun c t hc ht => fullCols16_of ok hkc h hdepth (by omega) (by omega) (ht.trans hb))
  rw [e1, C.ok_bind]
  by_cases hlt : k.startCol + 16 * ((k.colEnd - k.startCol) / 16) < k.colEnd
  · rw [if_pos hlt, C.check_of (by omega), C.ok_bind]
    obtain ⟨b2, e2, p2⟩ := restCols16_of ok hkc h (col := k.startCol + 16 * ((k.colEnd - k.startCol) / 16))
      (by omega) (by omega) (by omega) (b := b1) (p1.size.trans hb)
    refine ⟨b2, e2, (p1.trans p2).iff (fun i j _ => ⟨?_, ?_⟩)⟩
    · rintro (⟨c, h1, h2, h3, h4, h5⟩ | ⟨h1, h2, h3, h4⟩) <;> omega
    · rintro ⟨h1, h2, h3, h4⟩
      by_cases hj : j < k.startCol + 16 * ((k.colEnd - k.startCol) / 16)
      · exact Or.inl ⟨(j - k.startCol) / 16, by omega, h1, h2, by omega, by omega⟩
      · exact Or.inr (by omega)
  · rw [if_neg hlt]
    refine ⟨b1, rfl, p1.iff (fun i j _ => ⟨?_, ?_⟩)⟩
    · rintro ⟨c, h1, h2, h3, h4, h5⟩; omega
    · rintro ⟨h1, h2, h3, h4⟩
      exact ⟨(j - k.startCol) / 16, by omega, h1, h2, by omega, by omega⟩

/-! ### One column -/

theorem singleStep_of (h : KOk isa k sl sr st size L R B) (h0 : k.startCol = 0) (hk : 0 < isa.kc)
    (he : isa.kc ≤ k.endCol) {row d : Nat} (hr0 : row % isa.kc = 0)
    (hr : row + isa.kc ≤ k.endRow) (hd : d < k.depth) (acc : FReg A) :
    ∃ acc', singleStep isa k (k.lp row) d acc = .ok acc' ∧ ∀ i, i < isa.kc →
      acc' i = isa.ops.madd (L d (row + i)) (R d 0) (acc i) := by
  obtain ⟨l1, l2⟩ := h.lhs row d hr0 hr hd
  obtain ⟨r1, r2⟩ := h.rhs 0 d (Nat.zero_mod _) (by omega) hd
  unfold singleStep
  rw [h.lp, h.rbase, h0, load_of (o := row * sl + isa.kc * d) (by push_cast; rfl) l1, C.ok_bind,
    load_of (o := 0 * sr + isa.kc * d) (by push_cast; rfl) (by omega), C.ok_bind]
  refine ⟨_, rfl, fun i hi => ?_⟩
  dsimp only
  rw [l2 i hi, r2 0 hk]

theorem singleLoop_of (h : KOk isa k sl sr st size L R B) (h0 : k.startCol = 0) (hk : 0 < isa.kc)
    (he : isa.kc ≤ k.endCol) {row : Nat} (hr0 : row % isa.kc = 0)
    (hr : row + isa.kc ≤ k.endRow) (acc : FReg A) :
    ∃ acc', forUpTo k.depth (singleStep isa k (k.lp row)) acc = .ok acc' ∧ ∀ i, i < isa.kc →
      acc' i = dot isa.ops.madd (acc i) (fun d => L d (row + i)) (fun d => R d 0) k.depth := by
  obtain ⟨t, e, ht⟩ := forUpTo_total (n := k.depth) (s := acc) (body := singleStep isa k (k.lp row))
    (fun m t => ∀ i, i < isa.kc → t i = dot isa.ops.madd (acc i) (fun d => L d (row + i)) (fun d => R d 0) m)
    (fun _ _ => rfl)
    (by
      intro m t hm ht
      obtain ⟨t', e, h'⟩ := singleStep_of h h0 hk he hr0 hr hm t
      exact ⟨t', e, fun i hi => by rw [h' i hi, ht i hi]; rfl⟩)
  exact ⟨t, e, ht⟩

theorem unrolled4_of (h : KOk isa k sl sr st size L R B) (h0 : k.startCol = 0) (hk : 0 < isa.kc)
    (he : isa.kc ≤ k.endCol) {row : Nat} (hr0 : row % isa.kc = 0)
    (hr : row + isa.kc ≤ k.endRow) (acc : FReg A) :
    ∃ acc', unrolled4 isa k (k.lp row) acc = .ok acc' ∧ ∀ i, i < isa.kc →
      acc' i = dot isa.ops.madd (acc i) (fun d => L d (row + i)) (fun d => R d 0) k.depth := by
  unfold unrolled4
  obtain ⟨t, e, ht⟩ := forUpTo_total (n := k.depth / 4) (s := acc)
    (body := fun q acc => do
      let acc ← singleStep isa k (k.lp row) (4 * q) acc
      let acc ← singleStep isa k (k.lp row) (4 * q + 1) acc
      let acc ← singleStep isa k (k.lp row) (4 * q + 2) acc
      singleStep isa k (k.lp row) (4 * q + 3) acc)
    (fun m t => ∀ i, i < isa.kc → t i = dot isa.ops.madd (acc i) (fun d => L d (row + i)) (fun d => R d 0) (4 * m))
    (fun _ _ => rfl)
    (by
      intro m t hm ht
      obtain ⟨t1, e1, h1⟩ := singleStep_of h h0 hk he hr0 hr (show 4 * m < k.depth by omega) t
      obtain ⟨t2, e2, h2⟩ := singleStep_of h h0 hk he hr0 hr (show 4 * m + 1 < k.depth by omega) t1
      obtain ⟨t3, e3, h3⟩ := singleStep_of h h0 hk he hr0 hr (show 4 * m + 2 < k.depth by omega) t2
      obtain ⟨t4, e4, h4⟩ := singleStep_of h h0 hk he hr0 hr (show 4 * m + 3 < k.depth by omega) t3
      refine ⟨t4, ?_, fun i hi => ?_⟩
      · simp only [e1, e2, e3, e4, C.ok_bind]
      · rw [h4 i hi, h3 i hi, h2 i hi, h1 i hi, ht i hi]; rfl)
  rw [e, C.ok_bind]
  obtain ⟨t', e', ht'⟩ := forUpTo_total (n := k.depth - k.depth / 4 * 4) (s := t)
    (body := fun d acc => singleStep isa k (k.lp row) (k.depth / 4 * 4 + d) acc)
    (fun m t => ∀ i, i < isa.kc →
      t i = dot isa.ops.madd (acc i) (fun d => L d (row + i)) (fun d => R d 0) (k.depth / 4 * 4 + m))
    (fun i hi => by rw [ht i hi, Nat.mul_comm]; rfl)
    (by
      intro m t hm ht
      obtain ⟨t', e, h'⟩ := singleStep_of h h0 hk he hr0 hr (show k.depth / 4 * 4 + m < k.depth by omega) t
      exact ⟨t', e, fun i hi => by rw [h' i hi, ht i hi]; rfl⟩)
  refine ⟨t', e', fun i hi => ?_⟩
  rw [ht' i hi]
  congr 1; omega

theorem singleBlock_of (h : KOk isa k sl sr st size L R B) (hch : k.channelCol = false) (h0 : k.startCol = 0)
    (hk : 0 < isa.kc) (he : isa.kc ≤ k.endCol) (hdc : 0 < k.dstCols) {unroll : Bool} {row rows : Nat}
    (hr0 : row % isa.kc = 0) (hr : row + isa.kc ≤ k.endRow) (hp : 0 < rows) (hrows : rows ≤ isa.kc)
    (hrd : row + rows ≤ k.dstRows) {b : Buf A} (hb : b.size = size) :
    ∃ b', singleBlock isa k unroll row rows b = .ok b' ∧ Part 0 st (entryOf isa.ops k L R B)
      (fun i j => row ≤ i ∧ i < row + rows ∧ j = 0) b b' := by
  obtain ⟨b1, b2⟩ := h.biasRow hch row hr
  unfold singleBlock
  rw [load_of rfl b1, C.ok_bind]
  have hacc : ∀ acc0 : FReg A, ∃ acc, singleDot isa k unroll (k.lp row) acc0 = .ok acc ∧ ∀ i, i < isa.kc →
        acc i = dot isa.ops.madd (acc0 i) (fun d => L d (row + i)) (fun d => R d 0) k.depth := by
    intro acc0
    cases unroll with
    | true => exact unrolled4_of h h0 hk he hr0 hr acc0
    | false => exact singleLoop_of h h0 hk he hr0 hr acc0
  obtain ⟨acc, e, ha⟩ := hacc (fun i => k.bias.val (row * k.inc + i))
  rw [e, C.ok_bind]
  have hlast := h.dst (row + rows - 1) 0 (by omega) hdc
  have hst := h.rows
  refine store_part ?_ (by omega) (by omega) (fun i hi => ?_)
  · rw [h.dbase, h0]; push_cast; ring
  · unfold clamp entryOf clamped
    rw [ha i (by omega), b2 i 0 (by omega)]

theorem singleCol_of (ok : IsaOk isa) (h : KOk isa k sl sr st size L R B) {unroll : Bool} (hch : k.channelCol = false)
    (hd : k.dstCols = 1) (hs : k.startCol = 0) (he : k.endCol = isa.kc) {b : Buf A} (hb : b.size = size) :
    ∃ b', singleCol isa unroll k b = .ok b' ∧ Part 0 st (entryOf isa.ops k L R B) (inBlock k) b b' := by
  obtain ⟨re1, re2⟩ := rowEnd_le k
  have hk : 0 < isa.kc := by rcases ok.kc with h | h <;> omega
  have s1 := h.startRow
  have s2 := h.endRow
  have hce : k.colEnd = 1 := by unfold KParams.colEnd; omega
  unfold singleCol inBlock
  rw [C.check_of hd, C.ok_bind, C.check_of he, C.ok_bind, C.check_of hs, C.ok_bind]
  dsimp only
  obtain ⟨b1, e1, p1⟩ := part_loop (b := b) (n := (k.rowEnd - k.startRow) / isa.kc) (base := 0) (st := st)
    (V := entryOf isa.ops k L R B)
    (body := fun m b => singleBlock isa k unroll (k.startRow + isa.kc * m) isa.kc b)
    (S := fun m i j => k.startRow + isa.kc * m ≤ i ∧ i < k.startRow + isa.kc * m + isa.kc ∧ j = 0)
    (fun m t hm ht => singleBlock_of h hch hs hk (by omega) (by omega) (by rcases ok.kc with hh | hh <;> simp only [hh] at * <;> omega)
      (by rcases ok.kc with hh | hh <;> simp only [hh] at * <;> omega) hk (Nat.le_refl _)
      (by rcases ok.kc with hh | hh <;> simp only [hh] at * <;> omega) (ht.trans hb))
  rw [e1, C.ok_bind]
  rw [hs, hce]
  by_cases hlt : k.startRow + isa.kc * ((k.rowEnd - k.startRow) / isa.kc) < k.rowEnd
  · rw [if_pos hlt, C.check_of (by omega), C.ok_bind, C.check_of (by rcases ok.kc with hh | hh <;> simp only [hh] at * <;> omega),
      C.ok_bind]
    obtain ⟨b2, e2, p2⟩ := singleBlock_of h hch hs hk (by omega) (by omega) (unroll := false)
      (row := k.startRow + isa.kc * ((k.rowEnd - k.startRow) / isa.kc))
      (rows := k.rowEnd - (k.startRow + isa.kc * ((k.rowEnd - k.startRow) / isa.kc)))
      (by rcases ok.kc with hh | hh <;> simp only [hh] at * <;> omega)
      (by rcases ok.kc with hh | hh <;> simp only [hh] at * <;> omega) (by omega)
      (by rcases ok.kc with hh | hh <;> simp only [hh] at * <;> omega)
      (by omega) (b := b1) (p1.size.trans hb)
    refine ⟨b2, e2, (p1.trans p2).iff (fun i j _ => ⟨?_, ?_⟩)⟩
    · rintro (⟨c, h1, h2, h3, h4⟩ | ⟨h1, h2, h3⟩)
      · rcases ok.kc with hh | hh <;> simp only [hh] at * <;> omega
      · omega
    · rintro ⟨h1, h2, h3, h4⟩
      by_cases hj : i < k.startRow + isa.kc * ((k.rowEnd - k.startRow) / isa.kc)
      · left
        refine ⟨(i - k.startRow) / isa.kc, ?_⟩
        rcases ok.kc with hh | hh <;> simp only [hh] at * <;> omega
      · exact Or.inr (by omega)
  · rw [if_neg hlt]
    refine ⟨b1, rfl, p1.iff (fun i j _ => ⟨?_, ?_⟩)⟩
    · rintro ⟨c, h1, h2, h3, h4⟩
      rcases ok.kc with hh | hh <;> simp only [hh] at * <;> omega
    · rintro ⟨h1, h2, h3, h4⟩
      refine ⟨(i - k.startRow) / isa.kc, ?_⟩
      rcases ok.kc with hh | hh <;> simp only [hh] at * <;> omega

end

end Ruy.XFloat

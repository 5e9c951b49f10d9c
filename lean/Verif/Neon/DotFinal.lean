import Verif.Neon.DotWhole
import Verif.Neon.DotSpec
import Verif.Neon.Final
/-
The whole `asm` statement of the dot-product kernels: the entries of the destination after
each block, and at the end.
-/
namespace Ruy.Neon.Dot
open Simd (wrap8 wrap16 wrap32)

theorem started {P : List Block} (hP : Prog P) {j : Job} (hf : Fits j) {s : St} (h : j.Start s) :
    ∃ s', Reach (env j) P (0, s) (1, s') ∧ s'.m = s.m ∧ Head j 0 0 s' := by
  have f1 := hf.row
  have f2 := hf.col
  have f3 := hf.lstride
  have f4 := hf.rstride
  have f5 := hf.dstride
  have f6 := hf.deep
  have lr : lastRow j = j.startRow + 8 * j.rowSteps := rfl
  obtain ⟨a1, a2, x1, x5, x6, x7, x8, x9, x10, x11, x12, xl, xr, ab, al, ar, az⟩ := b0 j s
  have n1 : Reach (env j) P (0, s) (1, exec (env j) dot0.body s) := Reach.block (b := dot0) hP.first rfl
  generalize exec (env j) dot0.body s = s1 at *
  rw [Nat.mod_eq_of_lt (by omega)] at x6 x7 x8 x9 x10 x11 x12
  have mem : ∀ r, r ≠ .dst → r ≠ .tmp → s.m r = j.m r := fun r _ h2 => h.mem r h2
  have rd := readable hf (Nat.zero_le _) (Nat.zero_le _) mem
  have el : lhsBlk j 0 = j.lhsBase := by unfold lhsBlk; omega
  have er : rhsBlk j 0 = j.rhsBase := by unfold rhsBlk; omega
  have sl := rd.sl
  have sr := rd.sr
  rw [el] at sl
  rw [er] at sr
  have bl : ∀ i, i < 2 → bytes s (addN (s.x lhsPtr) i) 0 = j.vec .lhs (lhsBlk j 0 + 16 * i) := fun i _ => by
    rw [h.lhsP, addN_ptr, el]; exact bytes_eq rd.ml rfl
  have br : ∀ i, i < 2 → bytes s (addN (s.x rhsPtr) i) 0 = j.vec .rhs (rhsBlk j 0 + 16 * i) := fun i _ => by
    rw [h.rhsP, addN_ptr, er]; exact bytes_eq rd.mr rfl
  have ol : ∀ i, i < 2 → out (env j) (addN (s.x lhsPtr) i) 0 16 = false := fun i hi => by
    rw [h.lhsP, addN_ptr]
    exact out_ptr (by show _ ≤ j.size .lhs; omega)
  have or' : ∀ i, i < 2 → out (env j) (addN (s.x rhsPtr) i) 0 16 = false := fun i hi => by
    rw [h.rhsP, addN_ptr]
    exact out_ptr (by show _ ≤ j.size .rhs; omega)
  rw [h.ok, ol 0 (by omega), ol 1 (by omega), or' 0 (by omega), or' 1 (by omega)] at ab
  rw [h.lhsP, addN_ptr] at xl
  rw [h.rhsP, addN_ptr] at xr
  refine ⟨s1, n1, a2, ?_⟩
  exact {
    mid := {
      x8 := x8, x9 := x9, x10 := x10, x11 := x11, x12 := x12
      dc := ((a1.get (by decide)).trans h.dstCol).trans (congrArg (Val.ptr _) (by ring))
      dp := ((a1.get (by decide)).trans h.dstP).trans (congrArg (Val.ptr _) (by ring))
      row := (a1.get (by decide)).trans h.row
      col := (a1.get (by decide)).trans h.col
      rows := (a1.get (by decide)).trans h.rows
      cols := (a1.get (by decide)).trans h.cols
      tmp := (a1.get (by decide)).trans h.tmp
      type := (a1.get (by decide)).trans h.type
      mem := fun r h1 h2 => by rw [a2]; exact mem r h1 h2
      ok := ab }
    x5 := x5
    x6 := x6
    x7 := x7
    lc := ((a1.get (by decide)).trans h.lhsCol).trans (by rw [el])
    rc := ((a1.get (by decide)).trans h.rhsCol).trans (by rw [er])
    loop := start_loop x1 ab (xl.trans (by rw [el])) (xr.trans (by rw [er]))
      (fun u hu i hi => by
        obtain rfl : u = 0 := by omega
        rw [Nat.mul_zero, Nat.zero_add, Nat.zero_add, Nat.add_zero, Nat.add_zero, al i hi, ar i hi,
          bl i hi, br i hi]
        exact ⟨rfl, rfl⟩)
      (fun q hq k hk u hu => by
        have e1 := al 0 (by omega)
        have e2 := ar 0 (by omega)
        rw [Nat.add_zero] at e2
        rw [az q hq k hk u hu, e1, e2]) }

/-! ### Entries of the destination -/

def entryAt (j : Job) (r c : Nat) : Int := valAt j (r / 8) (c / 8) (r % 8) (c % 8)

/-- The entries in `D` are computed, nothing else has changed. -/
def Filled (j : Job) (D : Nat → Nat → Prop) (m : Nat → Byte) : Prop :=
  (∀ r c, Inside j r c → D r c → ∀ b, b < j.dt.size → m (addr j r c + b) = byteOf (entryAt j r c) b) ∧
  (∀ o, (∀ r c, Inside j r c → D r c → ∀ b, b < j.dt.size → o ≠ addr j r c + b) → m o = j.m .dst o)

theorem Filled.congr {j : Job} {D D' : Nat → Nat → Prop} {m : Nat → Byte} (h : Filled j D m)
    (hd : ∀ r c, Inside j r c → (D r c ↔ D' r c)) : Filled j D' m :=
  ⟨fun r c hi h' => h.1 r c hi ((hd r c hi).2 h'),
    fun o ho => h.2 o (fun r c hi h' => ho r c hi ((hd r c hi).1 h'))⟩

theorem in_column {j : Job} (hf : Fits j) {r : Nat} (h : j.startRow + r < j.dstRows) {b : Nat} (hb : b < j.dt.size) :
    r * j.dt.size + b < j.dstStride := by
  have h1 := hf.columns
  have h2 : (r + 1) * j.dt.size ≤ (j.dstRows - j.startRow) * j.dt.size := Nat.mul_le_mul_right _ (by omega)
  rw [Nat.succ_mul] at h2
  omega

/-- One more block. -/
theorem Filled.step {j : Job} (hf : Fits j) {p q : Nat} (hp : p ≤ j.rowSteps) (hq : q ≤ j.colSteps)
    {D : Nat → Nat → Prop} {M : Region → Nat → Byte} (hD : Filled j D (M .dst))
    (hn : ∀ r c, D r c → ¬(r / 8 = p ∧ c / 8 = q)) {T : Nat → Byte}
    (hT : ∀ u, u < 8 → ∀ w, w < 8 → ∀ b, b < j.dt.size →
      T (8 * j.dt.size * w + (j.dt.size * u + b)) = byteOf (valAt j p q u w) b) :
    Filled j (fun r c => D r c ∨ (r / 8 = p ∧ c / 8 = q))
      (cols M T (dstBlk j p q) j.dstStride (j.dt.size * rowsIn j p) (8 * j.dt.size) (colsIn j q) .dst) := by
  have hk := size_cases j
  have r4 : rowsIn j p ≤ 8 := by unfold rowsIn; omega
  have c4 : colsIn j q ≤ 8 := by unfold colsIn; omega
  have hrp := rows_pos hf hp
  have hn0 : j.dt.size * rowsIn j p ≤ j.dstStride := by
    have h1 := hf.columns
    have : rowsIn j p * j.dt.size ≤ (j.dstRows - j.startRow) * j.dt.size :=
      Nat.mul_le_mul_right _ (by unfold rowsIn; omega)
    rw [Nat.mul_comm]; omega
  -- where a byte written for column `i` is
  have at' : ∀ i, i < colsIn j q → ∀ x, x < j.dt.size * rowsIn j p →
      dstBlk j p q + i * j.dstStride + x = addr j (8 * p + x / j.dt.size) (8 * q + i) + x % j.dt.size ∧
        Inside j (8 * p + x / j.dt.size) (8 * q + i) ∧ x / j.dt.size < 8 := by
    intro i hi x hx
    have hd : x / j.dt.size < rowsIn j p := by
      rw [Nat.div_lt_iff_lt_mul (by omega), Nat.mul_comm]; exact hx
    refine ⟨?_, ⟨by omega, by omega, ?_, ?_⟩, by omega⟩
    · unfold dstBlk addr
      have := Nat.div_add_mod x j.dt.size
      conv_lhs => rw [← this]
      ring
    · generalize x / j.dt.size = y at hd; unfold rowsIn at hd; omega
    · unfold colsIn at hi; omega
  refine ⟨fun r c hi hd b hb => ?_, fun o ho => ?_⟩
  · by_cases hb' : r / 8 = p ∧ c / 8 = q
    · obtain ⟨rfl, rfl⟩ := hb'
      have e : addr j r c + b = dstBlk j (r / 8) (c / 8) + c % 8 * j.dstStride + (j.dt.size * (r % 8) + b) := by
        unfold addr dstBlk
        conv_lhs => rw [← Nat.div_add_mod r 8, ← Nat.div_add_mod c 8]
        ring
      obtain ⟨i1, i2, i3, i4⟩ := hi
      have hr : r % 8 < rowsIn j (r / 8) := by unfold rowsIn; omega
      have hc : c % 8 < colsIn j (c / 8) := by unfold colsIn; omega
      rw [e, cols_at hn0 hc]
      · exact hT _ (by omega) _ (by omega) _ hb
      · have : j.dt.size * (r % 8 + 1) ≤ j.dt.size * rowsIn j (r / 8) := Nat.mul_le_mul_left _ hr
        rw [Nat.mul_succ] at this
        omega
    · have hd' : D r c := hd.resolve_right hb'
      rw [cols_not]
      · exact hD.1 r c hi hd' b hb
      · intro i h1 x h2 he
        obtain ⟨e1, e2, e3⟩ := at' i h1 x h2
        rw [e1] at he
        unfold addr at he
        have hm : x % j.dt.size < j.dt.size := Nat.mod_lt _ (by omega)
        obtain ⟨k1, k2⟩ := col_unique (S := j.dstStride) (c := c) (x := r * j.dt.size + b) (c' := 8 * q + i)
          (x' := (8 * p + x / j.dt.size) * j.dt.size + x % j.dt.size) (by omega) (in_column hf hi.2.2.1 hb)
          (in_column hf e2.2.2.1 hm)
        obtain ⟨k3, k4⟩ := col_unique k2 hb hm
        generalize x / j.dt.size = y at *
        exact hb' ⟨by omega, by omega⟩
  · rw [cols_not]
    · exact hD.2 o (fun r c hi hd => ho r c hi (.inl hd))
    · intro i h1 x h2 he
      obtain ⟨e1, e2, e3⟩ := at' i h1 x h2
      have hm : x % j.dt.size < j.dt.size := Nat.mod_lt _ (by omega)
      refine ho _ _ e2 (.inr ⟨?_, by omega⟩) _ hm (he.trans e1)
      generalize x / j.dt.size = y at e3
      omega

/-! ### All blocks -/

def Before (p q r c : Nat) : Prop := c / 8 < q ∨ (c / 8 = q ∧ r / 8 < p)

/-- From block (`p`, `q`) to the end. -/
theorem finish {P : List Block} (hP : Prog P) {j : Job} (hf : Fits j) (n : Nat) : ∀ {p q : Nat}, p ≤ j.rowSteps → q ≤ j.colSteps →
    (j.colSteps - q) * (j.rowSteps + 1) + (j.rowSteps - p) = n → ∀ {s : St}, Head j p q s →
    Filled j (Before p q) (s.m .dst) →
    ∃ s', Reach (env j) P (1, s) (65, s') ∧ s'.bad = false ∧ (∀ r, r ≠ .dst → r ≠ .tmp → s'.m r = j.m r) ∧
      Filled j (fun _ _ => True) (s'.m .dst) := by
  induction n using Nat.strong_induction_on with
  | _ n ih =>
    intro p q hp hq hn s h hd
    obtain ⟨s1, s2, r1, m1, md, nx, st⟩ := block_stored hP hf hp hq h
    obtain ⟨s3, m3, ok3, nxt⟩ := advanced hP hf hp hq md nx st
    obtain ⟨T, hT, hm⟩ := st.dst
    have hd' : Filled j (fun r c => Before p q r c ∨ (r / 8 = p ∧ c / 8 = q)) (s3.m .dst) := by
      rw [m3, hm]
      refine Filled.step hf hp hq (by rw [m1]; exact hd) (fun r c hb => ?_) hT
      unfold Before at hb
      omega
    have keepm : ∀ r, r ≠ .dst → r ≠ .tmp → s3.m r = j.m r := fun r a b => by
      rw [m3, st.m r a b]; exact md.mem r a b
    by_cases h1 : p < j.rowSteps
    · rw [if_pos h1] at nxt
      obtain ⟨r2, h2⟩ := nxt
      obtain ⟨s', r3, h3⟩ := ih _ (by omega) (p := p + 1) (by omega) hq rfl h2
        (hd'.congr (fun r c _ => by unfold Before; omega))
      exact ⟨s', (r1.trans r2).trans r3, h3⟩
    · rw [if_neg h1] at nxt
      by_cases h2 : q < j.colSteps
      · rw [if_pos h2] at nxt
        obtain ⟨r2, h2'⟩ := nxt
        have e : (j.colSteps - q) * (j.rowSteps + 1) =
            (j.colSteps - (q + 1)) * (j.rowSteps + 1) + (j.rowSteps + 1) := by
          rw [← Nat.succ_mul]; congr 1; omega
        obtain ⟨s', r3, h3⟩ := ih _ (by omega) (p := 0) (q := q + 1) (by omega) (by omega) rfl h2'
          (hd'.congr (fun r c hi => by unfold Before; obtain ⟨i1, i2, _⟩ := hi; omega))
        exact ⟨s', (r1.trans r2).trans r3, h3⟩
      · rw [if_neg h2] at nxt
        exact ⟨s3, r1.trans nxt, ok3, keepm,
          hd'.congr (fun r c hi => by unfold Before; obtain ⟨i1, i2, _⟩ := hi; simp only [iff_true]; omega)⟩

/-- The whole statement. -/
theorem finished {P : List Block} (hP : Prog P) {j : Job} (hf : Fits j) {s : St} (h : j.Start s) :
    ∃ s', Reach (env j) P (0, s) (65, s') ∧ s'.bad = false ∧ (∀ r, r ≠ .dst → r ≠ .tmp → s'.m r = j.m r) ∧
      Filled j (fun _ _ => True) (s'.m .dst) := by
  obtain ⟨s1, r1, m1, h1⟩ := started hP hf h
  obtain ⟨s', r2, h2⟩ := finish hP hf _ (Nat.zero_le _) (Nat.zero_le _) rfl h1
    ⟨fun r c _ hb => by unfold Before at hb; omega, fun o _ => by rw [m1, h.mem .dst (by decide)]⟩
  exact ⟨s', r1.trans r2, h2⟩

end Ruy.Neon.Dot

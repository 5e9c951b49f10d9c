import Verif.NeonF.Block
/-
The AArch64 float kernels: clamping, and the stores of an 8x8 tile (labels 7, 30, 31, 50, 51, up to 41).
-/
namespace Ruy.NeonF
open Ruy.Neon (lhsColPtr rhsColPtr lhsPtr rhsPtr dstColPtr dstPtr rRow rCol rDstRows rDstCols tmpBuf sgn sgn_of)
variable {A : Type}

/-! ### Columns written one after another -/

/-- A pointer after `w` steps. -/
def ptrN (P : Val A) (S : Nat) : Nat → Val A
  | 0 => P
  | w + 1 => addVal (ptrN P S w) S

theorem ptrN_ptr (r : Region) (o S w : Nat) :
    ptrN (.ptr r (4 * o) : Val A) (4 * S * 2 ^ 0) w = .ptr r (4 * (o + w * S)) := by
  induction w with
  | zero => simp [ptrN]
  | succ w ih =>
    rw [ptrN, ih, addVal, Nat.add_mul, Nat.one_mul]
    exact congrArg _ (by omega)

/-- Memory after writing `w` columns, each with two stores of four words. -/
def paired (M : Region → Nat → A) (P : Val A) (S : Nat) (g : Nat → Vec A) : Nat → Region → Nat → A
  | 0 => M
  | w + 1 => wr (wr (paired M P S g w) (ptrN P S w).region (((ptrN P S w).off + 0) / 4) 4 (g (2 * w)))
      (ptrN P S w).region (((ptrN P S w).off + 16) / 4) 4 (g (2 * w + 1))

theorem paired_succ (M : Region → Nat → A) (r : Region) (o S : Nat) (g : Nat → Vec A) (w : Nat) :
    paired M (.ptr r (4 * o)) (4 * S * 2 ^ 0) g (w + 1) =
      wr (paired M (.ptr r (4 * o)) (4 * S * 2 ^ 0) g w) r (o + w * S) 8 (fun b => g (2 * w + b / 4) (b % 4)) := by
  rw [paired, ptrN_ptr]
  simp only [Val.region, Val.off]
  rw [Nat.add_zero, Nat.mul_div_cancel_left _ (by omega), show (4 * (o + w * S) + 16) / 4 = o + w * S + 4 by omega,
    ← wr_append (a := 4) (b := 4),
    wr_congr (f := g (2 * w)) (g := fun b => g (2 * w + b / 4) (b % 4)) (fun b hb => by
      rw [show b / 4 = 0 by omega, show b % 4 = b by omega, Nat.add_zero]),
    wr_congr (f := g (2 * w + 1)) (g := fun b => g (2 * w + (4 + b) / 4) ((4 + b) % 4)) (fun b hb => by
      rw [show (4 + b) / 4 = 1 by omega, show (4 + b) % 4 = b by omega])]

theorem paired_cols {M : Region → Nat → A} {o S : Nat} {g : Nat → Vec A} {T : Nat → A} {w : Nat}
    (h : ∀ i, i < w → ∀ b, b < 8 → g (2 * i + b / 4) (b % 4) = T (8 * i + b)) :
    paired M (.ptr .dst (4 * o)) (4 * S * 2 ^ 0) g w = cols M T o S 8 w := by
  induction w with
  | zero => rfl
  | succ w ih =>
    rw [paired_succ, cols, ih (fun i hi b hb => h i (by omega) b hb)]
    exact wr_congr (fun b hb => h w (by omega) b hb)

theorem paired_other {M : Region → Nat → A} {r r' : Region} {o S : Nat} {g : Nat → Vec A} {w : Nat}
    (h : r' ≠ r) : paired M (.ptr r (4 * o)) (4 * S * 2 ^ 0) g w r' = M r' := by
  induction w with
  | zero => rfl
  | succ w ih => rw [paired_succ, wr_other h, ih]

theorem paired_at {M : Region → Nat → A} {r : Region} {o S : Nat} {g : Nat → Vec A} {w : Nat} (hn : 8 ≤ S)
    {i : Nat} (hi : i < w) {b : Nat} (hb : b < 8) :
    paired M (.ptr r (4 * o)) (4 * S * 2 ^ 0) g w r (o + i * S + b) = g (2 * i + b / 4) (b % 4) := by
  induction w with
  | zero => omega
  | succ w ih =>
    rw [paired_succ]
    unfold wr
    rcases Nat.lt_or_ge i w with h | h
    · have : (i + 1) * S ≤ w * S := Nat.mul_le_mul_right _ h
      rw [Nat.add_mul, Nat.one_mul] at this
      rw [if_neg (by omega)]
      exact ih h
    · obtain rfl : i = w := by omega
      rw [if_pos ⟨rfl, by omega, by omega⟩, show o + i * S + b - (o + i * S) = b by omega]

/-- The accesses of `paired`. -/
def badP (e : Env A) (b : Bool) (P : Val A) (S : Nat) (r : Bool) : Nat → Bool
  | 0 => b || out e P 0 4 || out e P 16 4
  | w + 1 => badP e b P S r w || (ptrN P S w).isData || r || out e (ptrN P S (w + 1)) 0 4 || out e (ptrN P S (w + 1)) 16 4

theorem badP_ok {e : Env A} {b : Bool} {r : Region} {o S : Nat} {w : Nat} (hb : b = false)
    (h : ∀ i, i ≤ w → o + i * S + 8 ≤ e.size r) : badP e b (.ptr r (4 * o)) (4 * S * 2 ^ 0) false w = false := by
  induction w with
  | zero =>
    have := h 0 (by omega)
    rw [badP, hb, out_ptr rfl (by omega), out_ptr rfl (by omega)]; rfl
  | succ w ih =>
    have := h (w + 1) (by omega)
    rw [badP, ih (fun i hi => h i (by omega)), ptrN_ptr, ptrN_ptr, out_ptr rfl (by omega), out_ptr rfl (by omega)]; rfl

/-! ### The loops that copy a part of a tile -/

theorem b15 (e : Env A) (s : St A) : Same keepCopy s (exec e fx15.body s) ∧
    (exec e fx15.body s).m = s.m ∧ (exec e fx15.body s).bad = s.bad ∧ (exec e fx15.body s).v = s.v ∧
    Same [3, 4, 6] s (exec e fx15.body s) ∧ (exec e fx15.body s).x 5 = .int 0 := by
  cases s; exact ⟨by keep, rfl, rfl, rfl, by keep, rfl⟩

theorem b17 (e : Env A) (s : St A) : Same keepCopy s (exec e fx17.body s) ∧
    (exec e fx17.body s).m = s.m ∧
    (exec e fx17.body s).bad = (s.bad || !(s.x 6).isInt || (s.x 3).isData || (s.x 4).isData || !(s.x 11).isInt ||
      false || !(s.x 2).isInt) ∧
    (exec e fx17.body s).v = s.v ∧
    (exec e fx17.body s).x 6 = .int (((s.x 6).num + 1) % 2 ^ 32) ∧
    (exec e fx17.body s).x 3 = addVal (s.x 3) 32 ∧
    (exec e fx17.body s).x 4 = addVal (s.x 4) ((s.x 11).num * 2 ^ 0) ∧
    (exec e fx17.body s).lt =
      decide (sgn (Val.int (((s.x 6).num + 1) % 2 ^ 32) : Val A).num < sgn (s.x 2).num) := by
  cases s; exact ⟨by keep, rfl, rfl, rfl, rfl, rfl, rfl, rfl⟩

theorem b16 (e : Env A) (s : St A) : Same keepCopy s (exec e fx16.body s) ∧
    (exec e fx16.body s).m = store s (s.x 4) (4 * (s.x 5).num) 1 (fun _ => words s (s.x 3) (4 * (s.x 5).num) 0) ∧
    (exec e fx16.body s).bad = (s.bad || !(s.x 5).isInt || out e (s.x 3) (4 * (s.x 5).num) 1 || false ||
      !(s.x 5).isInt || out e (s.x 4) (4 * (s.x 5).num) 1 || !(s.x 5).isInt || false || !(s.x 1).isInt) ∧
    (exec e fx16.body s).v = s.v ∧ Same [3, 4, 6] s (exec e fx16.body s) ∧
    (exec e fx16.body s).x 5 = .int (((s.x 5).num + 1) % 2 ^ 32) ∧
    (exec e fx16.body s).lt =
      decide (sgn (Val.int (((s.x 5).num + 1) % 2 ^ 32) : Val A).num < sgn (s.x 1).num) := by
  cases s; exact ⟨by keep, rfl, rfl, rfl, by keep, rfl, rfl⟩

theorem sgn_lt_succ {i w : Nat} (hi : i < 2 ^ 30) (hw : w < 2 ^ 31) :
    decide (sgn (Val.int ((i + 1) % 2 ^ 32) : Val A).num < sgn (Val.int w : Val A).num) = decide (i + 1 < w) := by
  rw [Nat.mod_eq_of_lt (show i + 1 < 2 ^ 32 by omega)]
  exact sgn_lt (by omega) hw

/-- One entry. -/
theorem one_entry {e : Env A} {s : St A} {o3 o4 i w1 : Nat}
    (h1 : s.x 1 = .int w1) (h3 : s.x 3 = .ptr .tmp (4 * o3)) (h4 : s.x 4 = .ptr .dst (4 * o4))
    (h5 : s.x 5 = .int i) (hi : i < w1) (hw : w1 ≤ 8) (st : o3 + i + 1 ≤ e.size .tmp)
    (sd : o4 + i + 1 ≤ e.size .dst) (ok : s.bad = false) :
    Same keepCopy s (exec e fx16.body s) ∧
    (exec e fx16.body s).m = wr s.m .dst (o4 + i) 1 (fun b => s.m .tmp (o3 + (i + b))) ∧
    (exec e fx16.body s).bad = false ∧
    (exec e fx16.body s).v = s.v ∧ Same [3, 4, 6] s (exec e fx16.body s) ∧
    (exec e fx16.body s).x 5 = .int (i + 1) ∧
    (exec e fx16.body s).lt = decide (i + 1 < w1) := by
  obtain ⟨a1, a2, a3, a4, a5, a6, a7⟩ := b16 e s
  refine ⟨a1, ?_, ?_, a4, a5, ?_, ?_⟩
  · rw [a2, h3, h4, h5]
    unfold store words
    simp only [Val.region, Val.off, Val.num]
    rw [show (4 * o4 + 4 * i) / 4 = o4 + i by omega, show (4 * o3 + 4 * i) / 4 = o3 + i by omega]
    exact wr_congr (fun b hb => congrArg _ (by omega))
  · rw [a3, ok, h1, h3, h4, h5]
    simp only [Val.num]
    rw [out_ptr (by omega) (by omega), out_ptr (by omega) (by omega)]; rfl
  · rw [a6, h5]
    exact congrArg Val.int (by simp only [Val.num]; omega)
  · rw [a7, h1, h5]
    exact sgn_lt_succ (i := i) (by omega) (by omega)

/-- State while column `w` is copied, `i` entries of it done. -/
structure Col (w1 dp stride : Nat) (s : St A) (w i : Nat) (s' : St A) : Prop where
  same : Same keepCopy s s'
  v : s'.v = s.v
  x6 : s'.x 6 = .int w
  x3 : s'.x 3 = .ptr .tmp (4 * (8 * w))
  x4 : s'.x 4 = .ptr .dst (4 * (dp + w * stride))
  m : s'.m = wr (cols s.m (s.m .tmp) dp stride w1 w) .dst (dp + w * stride) i (fun b => s.m .tmp (8 * w + b))
  ok : s'.bad = false

theorem Col.next {w1 dp stride : Nat} {s s' s'' : St A} {w i : Nat} (hc : Col w1 dp stride s w i s')
    (a1 : Same keepCopy s' s'') (a2 : s''.m = wr s'.m .dst (dp + w * stride + i) 1 (fun b => s'.m .tmp (8 * w + (i + b))))
    (a3 : s''.bad = false) (a4 : s''.v = s'.v) (a5 : Same [3, 4, 6] s' s'') : Col w1 dp stride s w (i + 1) s'' :=
  ⟨hc.same.trans a1, a4.trans hc.v, (a5.get (by decide)).trans hc.x6,
    (a5.get (by decide)).trans hc.x3, (a5.get (by decide)).trans hc.x4, (by
      rw [a2, hc.m, wr_other (by decide), cols_other (by decide)]
      exact wr_append _ _ _ _ _ (fun b => s.m .tmp (8 * w + b))), a3⟩

section
variable {P : List Block} {o : Nat} {cnt : Nat → Nat} {ord : Nat → List Nat} (hP : Prog P o cnt ord)
include hP

theorem inner {e : Env A} {w1 dp stride : Nat} {s : St A}
    (h1 : s.x 1 = .int w1) (hw : w1 ≤ 8) {w : Nat} (hw2 : w < 8)
    (st : 64 ≤ e.size .tmp)
    (sd : ∀ i, i < w1 → dp + w * stride + i + 1 ≤ e.size .dst) :
    ∀ d i s', i + 1 + d = w1 → Col w1 dp stride s w i s' → s'.x 5 = .int i →
      ∃ s'', Reach e P (o + 13, s') (o + 14, s'') ∧ Col w1 dp stride s w w1 s'' := by
  intro d
  induction d with
  | zero =>
    intro i s' hd hc h5
    have hx1 : s'.x 1 = .int w1 := (hc.same.get (by decide)).trans h1
    obtain ⟨a1, a2, a3, a4, a5, a6, a7⟩ := one_entry hx1 hc.x3 hc.x4 h5 (by omega) hw (by omega) (sd i (by omega)) hc.ok
    have := hc.next a1 a2 a3 a4 a5
    rw [show i + 1 = w1 by omega] at this
    refine ⟨_, hP.block (b := fx16) rfl ?_, this⟩
    show (bif (exec e fx16.body s').lt then o + 13 else o + 14) = o + 14
    rw [a7, decide_eq_false (by omega)]; rfl
  | succ d ih =>
    intro i s' hd hc h5
    have hx1 : s'.x 1 = .int w1 := (hc.same.get (by decide)).trans h1
    obtain ⟨a1, a2, a3, a4, a5, a6, a7⟩ := one_entry hx1 hc.x3 hc.x4 h5 (by omega) hw (by omega) (sd i (by omega)) hc.ok
    obtain ⟨s'', r, hcol⟩ := ih (i + 1) _ (by omega) (hc.next a1 a2 a3 a4 a5) a6
    refine ⟨s'', Reach.trans (hP.block (b := fx16) rfl ?_) r, hcol⟩
    show (bif (exec e fx16.body s').lt then o + 13 else o + 14) = o + 13
    rw [a7, decide_eq_true (by omega)]; rfl

/-- Both loops: `w2` columns of `w1` entries. -/
theorem copied {e : Env A} {w1 w2 dp stride : Nat} {s : St A}
    (h1 : s.x 1 = .int w1) (h2 : s.x 2 = .int w2) (h11 : s.x 11 = .int (4 * stride))
    (h3 : s.x 3 = .ptr .tmp 0) (h4 : s.x 4 = .ptr .dst (4 * dp)) (h6 : s.x 6 = .int 0)
    (hw : w1 ≤ 8) (hw' : w2 ≤ 8) (hp1 : 0 < w1) (hp2 : 0 < w2)
    (st : 64 ≤ e.size .tmp)
    (sd : ∀ w, w < w2 → ∀ i, i < w1 → dp + w * stride + i + 1 ≤ e.size .dst) (ok : s.bad = false) :
    ∃ s', Reach e P (o + 12, s) (o + 15, s') ∧ Same keepCopy s s' ∧ s'.v = s.v ∧ s'.bad = false ∧
      s'.m = cols s.m (s.m .tmp) dp stride w1 w2 := by
  have key : ∀ d w s', w + 1 + d = w2 → Col w1 dp stride s w 0 s' →
      ∃ s'', Reach e P (o + 12, s') (o + 15, s'') ∧ Same keepCopy s s'' ∧ s''.v = s.v ∧ s''.bad = false ∧
        s''.m = cols s.m (s.m .tmp) dp stride w1 w2 := by
    intro d
    have one : ∀ w s', w + 1 ≤ w2 → Col w1 dp stride s w 0 s' →
        ∃ s'', Reach e P (o + 12, s') (bif decide (w + 1 < w2) then o + 12 else o + 15, s'') ∧
          Col w1 dp stride s (w + 1) 0 s'' := by
      intro w s' hd hc
      obtain ⟨a1, a2, a3, a4, a5, a6⟩ := b15 e s'
      have r1 : Reach e P (o + 12, s') (o + 13, exec e fx15.body s') := hP.block (b := fx15) rfl rfl
      obtain ⟨s2, r2, c2⟩ := inner hP h1 hw (w := w) (by omega) st
        (fun i hi => sd w (by omega) i hi) (w1 - 1) 0 (exec e fx15.body s') (by omega)
        ⟨hc.same.trans a1, a4.trans hc.v, (a5.get (by decide)).trans hc.x6, (a5.get (by decide)).trans hc.x3,
          (a5.get (by decide)).trans hc.x4, a2.trans hc.m, a3.trans hc.ok⟩ a6
      obtain ⟨d1, d2, d3, d4, d5, d6, d7, d8⟩ := b17 e s2
      have hx2 : s2.x 2 = .int w2 := (c2.same.get (by decide)).trans h2
      have hx11 : s2.x 11 = .int (4 * stride) := (c2.same.get (by decide)).trans h11
      refine ⟨exec e fx17.body s2, (r1.trans r2).trans (hP.block (b := fx17) rfl ?_), ⟨c2.same.trans d1, d4.trans c2.v,
        ?_, ?_, ?_, ?_, ?_⟩⟩
      · show (bif (exec e fx17.body s2).lt then o + 12 else o + 15) = _
        rw [d8, c2.x6, hx2]
        exact congrArg (fun b => bif b then o + 12 else o + 15) (sgn_lt_succ (i := w) (by omega) (by omega))
      · rw [d5, c2.x6]
        exact congrArg Val.int (by simp only [Val.num]; omega)
      · rw [d6, c2.x3]
        exact congrArg (Val.ptr _) (by omega)
      · rw [d7, c2.x4, hx11]
        simp only [addVal, Val.num]
        rw [Nat.add_mul, Nat.one_mul]
        exact congrArg (Val.ptr _) (by omega)
      · rw [d2, c2.m, wr_zero, cols]
      · rw [d3, c2.ok, c2.x6, c2.x3, c2.x4, hx2, hx11]; rfl
    induction d with
    | zero =>
      intro w s' hd hc
      obtain ⟨s2, r2, c2⟩ := one w s' (by omega) hc
      rw [decide_eq_false (by omega)] at r2
      refine ⟨s2, r2, c2.same, c2.v, c2.ok, ?_⟩
      rw [c2.m, wr_zero, show w + 1 = w2 by omega]
    | succ d ih =>
      intro w s' hd hc
      obtain ⟨s2, r2, c2⟩ := one w s' (by omega) hc
      rw [decide_eq_true (by omega)] at r2
      obtain ⟨s3, r3, h3⟩ := ih (w + 1) s2 (by omega) c2
      exact ⟨s3, r2.trans r3, h3⟩
  exact key (w2 - 1) 0 s (by omega) ⟨Same.refl _ _, rfl, h6, h3, by rw [h4, Nat.zero_mul, Nat.add_zero],
    by rw [wr_zero]; rfl, ok⟩

end

/-! ### Sizes of the part of a tile inside the destination -/

/-- SUB, CMP, CSEL. -/
def leftE (R r : Val A) : Val A := .int ((R.num + 2 ^ 32 - r.num % 2 ^ 32) % 2 ^ 32)
def atMost8 (w : Val A) : Val A :=
  .int ((bif (decide (sgn w.num = sgn 8) || decide (sgn w.num < sgn 8)) then w.num else (Val.int 8 : Val A).num) % 2 ^ 32)
def widthE (R r : Val A) : Val A := atMost8 (leftE R r)

theorem widthE_eq {R r : Nat} (hR : R < 2 ^ 31) (hr : r < R) : widthE (.int R : Val A) (.int r) = .int (min 8 (R - r)) := by
  have h : leftE (.int R : Val A) (.int r) = .int (R - r) := by
    unfold leftE
    simp only [Val.num]
    exact congrArg Val.int (by omega)
  have h1 : decide (sgn (Val.int (R - r) : Val A).num = sgn 8) = decide (R - r = 8) :=
    sgn_eq (A := A) (b := 8) (by omega) (by omega)
  have h2 : decide (sgn (Val.int (R - r) : Val A).num < sgn 8) = decide (R - r < 8) :=
    sgn_lt (A := A) (b := 8) (by omega) (by omega)
  unfold widthE
  rw [h]
  unfold atMost8
  rw [h1, h2]
  rcases Nat.lt_trichotomy (R - r) 8 with h4 | h4 | h4
  · rw [decide_eq_true h4, Bool.or_true, cond_true]
    exact congrArg Val.int (by simp only [Val.num]; omega)
  · rw [decide_eq_true h4, Bool.true_or, cond_true]
    exact congrArg Val.int (by simp only [Val.num]; omega)
  · rw [decide_eq_false (by omega), decide_eq_false (by omega)]
    simp only [Bool.or_self, cond_false, Val.num]
    exact congrArg Val.int (by omega)

/-- Rows and columns of block (`p`, `q`) inside the destination. -/
def rowsIn (j : Job A) (p : Nat) : Nat := min 8 (j.dstRows - (j.startRow + 8 * p))
def colsIn (j : Job A) (q : Nat) : Nat := min 8 (j.dstCols - (j.startCol + 8 * q))

theorem dst_bound {j : Job A} (hf : j.Fits) {p q : Nat} (hp : p ≤ j.rowSteps) (hq : q ≤ j.colSteps)
    {w i : Nat} (hw : w < colsIn j q) (hi : i < rowsIn j p) :
    dstBlk j p q + w * j.dstStride + i + 1 ≤ j.size .dst := by
  unfold colsIn at hw
  unfold rowsIn at hi
  have h := hf.dst (8 * p + i) (8 * q + w) (by omega) (by omega) (by omega) (by omega)
  unfold dstBlk
  have e1 : (8 * q + w) * j.dstStride = q * (8 * j.dstStride) + w * j.dstStride := by ring
  rw [e1] at h
  omega

theorem rows_pos {j : Job A} (hf : j.Fits) {p : Nat} (hp : p ≤ j.rowSteps) : 0 < rowsIn j p := by
  have := hf.rowIn
  unfold Job.lastRow at this
  unfold rowsIn; omega
theorem cols_pos {j : Job A} (hf : j.Fits) {q : Nat} (hq : q ≤ j.colSteps) : 0 < colsIn j q := by
  have := hf.colIn
  unfold Job.lastCol at this
  unfold colsIn; omega

/-! ### Clamping -/

set_option maxRecDepth 8000 in
theorem b10v (j : Job A) (s : St A) :
    (∀ i, i < 4 → (exec j.env fx10.body s).v i = s.v i) ∧
    (∀ i, i < 16 → (exec j.env fx10.body s).v (16 + i) =
      fun l => j.ops.min (j.ops.max (s.v (16 + i) l) j.clampMin) j.clampMax) := by
  cases s
  refine ⟨?_, ?_⟩
  · intro i hi; interval_cases i <;> rfl
  · intro i hi; interval_cases i <;> rfl

set_option maxRecDepth 8000 in
theorem b10x (j : Job A) (s : St A) : Same keepStore s (exec j.env fx10.body s) ∧
    (exec j.env fx10.body s).m = s.m ∧
    (exec j.env fx10.body s).bad = (s.bad || false || false || false || false || false || false || !(s.x rDstRows).isInt ||
      !(s.x rRow).isInt || !(s.x rDstCols).isInt || !(s.x rCol).isInt || false || false || false || false || false ||
      false || false || false || false || false) ∧
    (exec j.env fx10.body s).x dstPtr = s.x dstPtr ∧
    (exec j.env fx10.body s).x 1 = widthE (s.x rDstRows) (s.x rRow) ∧
    (exec j.env fx10.body s).x 2 = widthE (s.x rDstCols) (s.x rCol) ∧
    (exec j.env fx10.body s).z = (decide (sgn (widthE (s.x rDstRows) (s.x rRow)).num = sgn (Val.int 8 : Val A).num) &&
      decide (sgn (widthE (s.x rDstCols) (s.x rCol)).num = sgn (Val.int 8 : Val A).num)) := by
  cases s
  exact ⟨by keep, rfl, rfl, rfl, rfl, rfl, rfl⟩

/-- The value of an entry. -/
def valAt (ord : Nat → List Nat) (j : Job A) (p q u w : Nat) : A :=
  j.ops.min (j.ops.max (biasedAt ord j p q u w) j.clampMin) j.clampMax

/-- After the clamp. -/
structure Clamped (j : Job A) (p q : Nat) (f : Nat → Nat → A) (s s' : St A) : Prop where
  same : Same keepStore s s'
  m : s'.m = s.m
  ok : s'.bad = false
  x37 : s'.x dstPtr = s.x dstPtr
  x1 : s'.x 1 = .int (rowsIn j p)
  x2 : s'.x 2 = .int (colsIn j q)
  z : s'.z = decide (rowsIn j p = 8 ∧ colsIn j q = 8)
  v : ∀ i, i < 4 → s'.v i = s.v i
  tile : Tile f s'

theorem clamped {j : Job A} (hf : j.Fits) {p q : Nat} (hp : p ≤ j.rowSteps) (hq : q ≤ j.colSteps) {f : Nat → Nat → A}
    {s : St A} (h : Work j p q f s) :
    Clamped j p q (fun u w => j.ops.min (j.ops.max (f u w) j.clampMin) j.clampMax) s (exec j.env fx10.body s) := by
  have fr := hf.rows
  have fc := hf.cols
  have fr' := hf.rowIn
  have fc' := hf.colIn
  unfold Job.lastRow at fr'
  unfold Job.lastCol at fc'
  obtain ⟨v1, v2⟩ := b10v j s
  obtain ⟨k1, k2, k3, k4, k5, k6, k7⟩ := b10x j s
  have e1 : widthE (s.x rDstRows) (s.x rRow) = .int (rowsIn j p) := by
    rw [h.mid.rows, h.mid.row]; exact widthE_eq fr (by omega)
  have e2 : widthE (s.x rDstCols) (s.x rCol) = .int (colsIn j q) := by
    rw [h.mid.cols, h.mid.col]; exact widthE_eq fc (by omega)
  have r4 : rowsIn j p ≤ 8 := by unfold rowsIn; omega
  have c4 : colsIn j q ≤ 8 := by unfold colsIn; omega
  rw [e1, e2, sgn_eq (by omega) (by omega), sgn_eq (by omega) (by omega), ← Bool.decide_and] at k7
  rw [e1] at k5
  rw [e2] at k6
  refine ⟨k1, k2, ?_, k4, k5, k6, k7, v1, ?_⟩
  · rw [k3, h.mid.ok, h.mid.rows, h.mid.row, h.mid.cols, h.mid.col]; rfl
  · intro w hw u hu i hi
    rw [Nat.add_assoc, v2 _ (by omega), ← Nat.add_assoc]
    show j.ops.min (j.ops.max (s.v (16 + 2 * w + u) i) j.clampMin) j.clampMax = _
    rw [h.tile w hw u hu i hi]

/-! ### The stores -/

theorem b11 (e : Env A) (s : St A) : Same keepCopy s (exec e fx11.body s) ∧ (exec e fx11.body s).m = s.m ∧
    (exec e fx11.body s).v = s.v ∧ (exec e fx11.body s).bad = s.bad ∧ (exec e fx11.body s).z = s.z ∧
    (exec e fx11.body s).x 3 = s.x tmpBuf ∧ (exec e fx11.body s).x 4 = .int 32 := by
  cases s; exact ⟨by keep, rfl, rfl, rfl, rfl, rfl, rfl⟩

theorem b12 (e : Env A) (s : St A) : Same keepCopy s (exec e fx12.body s) ∧ (exec e fx12.body s).m = s.m ∧
    (exec e fx12.body s).v = s.v ∧ (exec e fx12.body s).bad = s.bad ∧ (exec e fx12.body s).z = s.z ∧
    (exec e fx12.body s).x 3 = s.x dstPtr ∧ (exec e fx12.body s).x 4 = s.x 11 := by
  cases s; exact ⟨by keep, rfl, rfl, rfl, rfl, rfl, rfl⟩

theorem b14 (e : Env A) (s : St A) : Same keepCopy s (exec e fx14.body s) ∧ (exec e fx14.body s).m = s.m ∧
    (exec e fx14.body s).v = s.v ∧ (exec e fx14.body s).bad = s.bad ∧ (exec e fx14.body s).x 3 = s.x tmpBuf ∧
    (exec e fx14.body s).x 4 = s.x dstPtr ∧ (exec e fx14.body s).x 6 = .int 0 := by
  cases s; exact ⟨by keep, rfl, rfl, rfl, rfl, rfl, rfl⟩

/-- The accumulators at the start of the next block. -/
def Fresh (z : A) (s s' : St A) : Prop :=
  (∀ i, i < 4 → s'.v i = s.v i) ∧ ∀ i, i < 16 → s'.v (16 + i) = fun _ => z

set_option maxRecDepth 8000 in
theorem b13 (e : Env A) (s : St A) : Same keepCopy s (exec e fx13.body s) ∧
    (exec e fx13.body s).z = s.z ∧ Fresh e.ops.zero s (exec e fx13.body s) ∧
    (exec e fx13.body s).bad = badP e s.bad (s.x 3) ((s.x 4).num * 2 ^ 0) (!(s.x 4).isInt) 7 ∧
    (exec e fx13.body s).m = paired s.m (s.x 3) ((s.x 4).num * 2 ^ 0) (fun i => s.v (16 + i)) 8 := by
  cases s
  refine ⟨by keep, rfl, ⟨?_, ?_⟩, rfl, rfl⟩
  · intro i hi; interval_cases i <;> rfl
  · intro i hi; interval_cases i <;> rfl

/-- The tile as one sequence. -/
def tileSeq (f : Nat → Nat → A) (b : Nat) : A := f (b % 8) (b / 8)

theorem tile_seq {f : Nat → Nat → A} {s : St A} (h : Tile f s) :
    ∀ i, i < 8 → ∀ b, b < 8 → s.v (16 + (2 * i + b / 4)) (b % 4) = tileSeq f (8 * i + b) := by
  intro i hi b hb
  have := h i hi (b / 4) (by omega) (b % 4) (by omega)
  rw [← Nat.add_assoc, this]
  unfold tileSeq
  rw [show 4 * (b / 4) + b % 4 = (8 * i + b) % 8 by omega, show (8 * i + b) / 8 = i by omega]

/-- What a store leaves behind. -/
structure Stored (j : Job A) (p q : Nat) (f : Nat → Nat → A) (s s' : St A) : Prop where
  same : Same keepStore s s'
  ok : s'.bad = false
  x37 : s'.x dstPtr = .ptr .dst (4 * dstBlk j p q)
  fresh : Fresh j.ops.zero s s'
  m : ∀ r, r ≠ .dst → r ≠ .tmp → s'.m r = s.m r
  dst : s'.m .dst = cols s.m (tileSeq f) (dstBlk j p q) j.dstStride (rowsIn j p) (colsIn j q) .dst

theorem stored {P : List Block} {o : Nat} {cnt : Nat → Nat} {ord : Nat → List Nat} (hP : Prog P o cnt ord) {j : Job A}
    (hf : j.Fits) {p q : Nat} (hp : p ≤ j.rowSteps) (hq : q ≤ j.colSteps) {s : St A}
    (hw : Work j p q (biasedAt ord j p q) s) :
    ∃ s', Reach j.env P (o + 7, s) (o + 15, s') ∧ Stored j p q (valAt ord j p q) s s' := by
  have h : Clamped j p q (valAt ord j p q) s (exec j.env fx10.body s) := clamped hf hp hq hw
  have nx : ∀ l, (bif (exec j.env fx10.body s).z then o + 9 else o + 8) = l →
      Reach j.env P (o + 7, s) (l, exec j.env fx10.body s) := fun l hl => hP.block (b := fx10) rfl hl
  generalize exec j.env fx10.body s = s1 at *
  have x11 : s1.x 11 = .int (4 * j.dstStride) := (h.same.get (by decide)).trans hw.mid.x11
  have xt : s1.x tmpBuf = .ptr .tmp 0 := (h.same.get (by decide)).trans hw.mid.tmp
  have x37 : s1.x dstPtr = .ptr .dst (4 * dstBlk j p q) := h.x37.trans hw.mid.dp
  have r4 : rowsIn j p ≤ 8 := by unfold rowsIn; omega
  have c4 : colsIn j q ≤ 8 := by unfold colsIn; omega
  have fr : ∀ s2 : St A, Fresh j.ops.zero s1 s2 → Fresh j.ops.zero s s2 := fun s2 hh =>
    ⟨fun i hi => (hh.1 i hi).trans (h.v i hi), hh.2⟩
  have hsd : ∀ w, w < colsIn j q → ∀ i, i < rowsIn j p →
      dstBlk j p q + w * j.dstStride + i + 1 ≤ j.env.size .dst :=
    fun w hw i hi => dst_bound hf hp hq hw hi
  by_cases hz : rowsIn j p = 8 ∧ colsIn j q = 8
  · have r1 := nx (o + 9) (by rw [h.z, decide_eq_true hz]; rfl)
    obtain ⟨a1, a2, a3, a4, a5, a6, a7⟩ := b12 j.env s1
    have r2 : Reach j.env P (o + 9, s1) (o + 10, exec j.env fx12.body s1) := hP.block (b := fx12) rfl rfl
    generalize exec j.env fx12.body s1 = s2 at *
    obtain ⟨f1, f2, f3, f4, f5⟩ := b13 j.env s2
    have nx2 : ∀ l, (bif (exec j.env fx13.body s2).z then o + 15 else o + 11) = l →
      Reach j.env P (o + 10, s2) (l, exec j.env fx13.body s2) := fun l hl => hP.block (b := fx13) rfl hl
    generalize exec j.env fx13.body s2 = s3 at *
    have r3 := nx2 (o + 15) (by rw [f2, a5, h.z, decide_eq_true hz]; rfl)
    rw [a6, a7, x37, x11, a4] at f4
    rw [a6, a7, x37, x11, a2, a3] at f5
    simp only [Val.num, Val.isInt, Bool.not_true] at f4 f5
    rw [paired_cols (T := tileSeq (valAt ord j p q)) (tile_seq h.tile)] at f5
    have k3 := a1.trans f1
    refine ⟨s3, (r1.trans r2).trans r3, h.same.trans (k3.sub (by decide)), ?_, (k3.get (by decide)).trans x37, fr s3
      ⟨fun i hi => (f3.1 i hi).trans (by rw [a3]), f3.2⟩, ?_, ?_⟩
    · rw [f4]
      exact badP_ok h.ok (fun i hi => by
        have := hsd i (by omega) 7 (by omega)
        omega)
    · intro r h1 _
      rw [f5, cols_other h1, h.m]
    · rw [f5, hz.1, hz.2, h.m]
  · have r1 := nx (o + 8) (by rw [h.z, decide_eq_false hz]; rfl)
    obtain ⟨a1, a2, a3, a4, a5, a6, a7⟩ := b11 j.env s1
    have r2 : Reach j.env P (o + 8, s1) (o + 10, exec j.env fx11.body s1) := hP.block (b := fx11) rfl rfl
    generalize exec j.env fx11.body s1 = s2 at *
    obtain ⟨f1, f2, f3, f4, f5⟩ := b13 j.env s2
    have nx2 : ∀ l, (bif (exec j.env fx13.body s2).z then o + 15 else o + 11) = l →
      Reach j.env P (o + 10, s2) (l, exec j.env fx13.body s2) := fun l hl => hP.block (b := fx13) rfl hl
    generalize exec j.env fx13.body s2 = s3 at *
    have r3 := nx2 (o + 11) (by rw [f2, a5, h.z, decide_eq_false hz]; rfl)
    rw [a6, a7, xt, a4] at f4
    rw [a6, a7, xt, a2, a3] at f5
    simp only [Val.num, Val.isInt, Bool.not_true] at f4 f5
    have ok3 : s3.bad = false := by
      rw [f4]
      exact badP_ok (o := 0) (S := 8) h.ok (fun i hi => by
        have := hf.tmp
        show _ ≤ j.size .tmp
        omega)
    have o3 : ∀ r, r ≠ .tmp → s3.m r = s1.m r := fun r hr => by
      rw [f5]; exact paired_other (o := 0) (S := 8) hr
    have t3 : ∀ i, i < 8 → ∀ b, b < 8 → s3.m .tmp (8 * i + b) = tileSeq (valAt ord j p q) (8 * i + b) := by
      intro i hi b hb
      rw [f5, ← tile_seq h.tile i hi b hb]
      have := paired_at (M := s1.m) (r := .tmp) (o := 0) (S := 8) (g := fun i => s1.v (16 + i)) (w := 8) (by omega) hi hb
      rw [show 0 + i * 8 + b = 8 * i + b by omega] at this
      exact this
    obtain ⟨b1, b2, b3, b4, b5, b6, b7⟩ := b14 j.env s3
    have r4' : Reach j.env P (o + 11, s3) (o + 12, exec j.env fx14.body s3) := hP.block (b := fx14) rfl rfl
    generalize exec j.env fx14.body s3 = s4 at *
    have k3 := a1.trans f1
    have k4 := k3.trans b1
    obtain ⟨s5, r5, c1, c2, c3, c5⟩ := copied hP (e := j.env)
      ((k4.get (by decide)).trans h.x1) ((k4.get (by decide)).trans h.x2) ((k4.get (by decide)).trans x11)
      (b5.trans ((k3.get (by decide)).trans xt)) (b6.trans ((k3.get (by decide)).trans x37)) b7 r4 c4
      (rows_pos hf hp) (cols_pos hf hq) hf.tmp hsd (b4.trans ok3)
    have k5 := k4.trans c1
    refine ⟨s5, (((r1.trans r2).trans r3).trans r4').trans r5, h.same.trans (k5.sub (by decide)), c3,
      (k5.get (by decide)).trans x37, fr s5 ?_, ?_, ?_⟩
    · have e : s5.v = s3.v := c2.trans b3
      exact ⟨fun i hi => by rw [e, f3.1 i hi, a3], fun i hi => by rw [e]; exact f3.2 i hi⟩
    · intro r h1 h2
      rw [c5, cols_other h1, b2, o3 r h2, h.m]
    · rw [c5, cols_congr (T' := tileSeq (valAt ord j p q)), cols_dst (M' := s.m)]
      · rw [b2, o3 .dst (by decide), h.m]
      · intro i hi b hb
        rw [b2]
        exact t3 i (by omega) b (by omega)

end Ruy.NeonF

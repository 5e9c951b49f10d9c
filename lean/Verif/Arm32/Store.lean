import Verif.Arm32.Block
/-
The ARM32 float kernel: clamping, and the stores of an 8x4 tile (labels 7, 30, 31, 50, 51, up to 41).
-/
namespace Ruy.Arm32
open Ruy.Neon (sgn sgn_of)
open Ruy.NeonF (St Val Region Ops Vec Same addVal out out_ptr words store sgn_lt sgn_eq wr wr_congr wr_append wr_zero
  wr_other cols cols_other cols_dst cols_congr ptrN ptrN_ptr paired paired_cols paired_other paired_at leftE
  sgn_lt_succ tileSeq)
variable {A : Type}

/-! ### The loops that copy a part of a tile -/

/-- Registers that the copy leaves alone. -/
def keepCopy : List Nat := [1, 2, 8, 13, 34, 35, 42, 64, 80, 96, 112, 128, 144]

theorem k20x (e : Env A) (s : St A) : Same keepCopy s (exec e k20.body s) ∧
    (exec e k20.body s).m = s.m ∧ (exec e k20.body s).bad = s.bad ∧ (exec e k20.body s).v = s.v ∧
    Same [3, 4, 6] s (exec e k20.body s) ∧ (exec e k20.body s).x 5 = .int 0 := by
  cases s; exact ⟨by keep, rfl, rfl, rfl, by keep, rfl⟩

theorem k22x (e : Env A) (s : St A) : Same keepCopy s (exec e k22.body s) ∧
    (exec e k22.body s).m = s.m ∧
    (exec e k22.body s).bad = (s.bad || !(s.x 6).isInt || !(s.x 3).isPtr || !(s.x 4).isPtr || !(s.x 8).isInt ||
      false || !(s.x 2).isInt) ∧
    (exec e k22.body s).v = s.v ∧
    (exec e k22.body s).x 6 = .int (((s.x 6).num + 1) % 2 ^ 32) ∧
    (exec e k22.body s).x 3 = addVal (s.x 3) 32 ∧
    (exec e k22.body s).x 4 = addVal (s.x 4) ((s.x 8).num * 2 ^ 0 % 2 ^ 32) ∧
    (exec e k22.body s).lt =
      decide (sgn (Val.int (((s.x 6).num + 1) % 2 ^ 32) : Val A).num < sgn (s.x 2).num) := by
  cases s; exact ⟨by keep, rfl, rfl, rfl, rfl, rfl, rfl, rfl⟩

theorem k21x (e : Env A) (s : St A) : Same keepCopy s (exec e k21.body s) ∧
    (exec e k21.body s).m = store s (s.x 4) (4 * (s.x 5).num) 1 (fun _ => words s (s.x 3) (4 * (s.x 5).num) 0) ∧
    (exec e k21.body s).bad = (s.bad || !(s.x 5).isInt || out e.base (s.x 3) (4 * (s.x 5).num) 1 || false ||
      !(s.x 5).isInt || out e.base (s.x 4) (4 * (s.x 5).num) 1 || !(s.x 5).isInt || false || !(s.x 1).isInt) ∧
    (exec e k21.body s).v = s.v ∧ Same [3, 4, 6] s (exec e k21.body s) ∧
    (exec e k21.body s).x 5 = .int (((s.x 5).num + 1) % 2 ^ 32) ∧
    (exec e k21.body s).lt =
      decide (sgn (Val.int (((s.x 5).num + 1) % 2 ^ 32) : Val A).num < sgn (s.x 1).num) := by
  cases s; exact ⟨by keep, rfl, rfl, rfl, by keep, rfl, rfl⟩

/-- One entry. -/
theorem one_entry {e : Env A} {s : St A} {o3 o4 i w1 : Nat}
    (h1 : s.x 1 = .int w1) (h3 : s.x 3 = .ptr .tmp (4 * o3)) (h4 : s.x 4 = .ptr .dst (4 * o4))
    (h5 : s.x 5 = .int i) (hi : i < w1) (hw : w1 ≤ 8) (st : o3 + i + 1 ≤ e.size .tmp)
    (sd : o4 + i + 1 ≤ e.size .dst) (ok : s.bad = false) :
    Same keepCopy s (exec e k21.body s) ∧
    (exec e k21.body s).m = wr s.m .dst (o4 + i) 1 (fun b => s.m .tmp (o3 + (i + b))) ∧
    (exec e k21.body s).bad = false ∧
    (exec e k21.body s).v = s.v ∧ Same [3, 4, 6] s (exec e k21.body s) ∧
    (exec e k21.body s).x 5 = .int (i + 1) ∧
    (exec e k21.body s).lt = decide (i + 1 < w1) := by
  obtain ⟨a1, a2, a3, a4, a5, a6, a7⟩ := k21x e s
  refine ⟨a1, ?_, ?_, a4, a5, ?_, ?_⟩
  · rw [a2, h3, h4, h5]
    unfold store words
    simp only [Val.region, Val.off, Val.num]
    rw [show (4 * o4 + 4 * i) / 4 = o4 + i by omega, show (4 * o3 + 4 * i) / 4 = o3 + i by omega]
    exact wr_congr (fun b hb => congrArg _ (by omega))
  · rw [a3, ok, h1, h3, h4, h5]
    simp only [Val.num]
    rw [out_ptr (by omega) (by show _ ≤ e.size .tmp; omega), out_ptr (by omega) (by show _ ≤ e.size .dst; omega)]; rfl
  · rw [a6, h5]
    exact congrArg Val.int (by simp only [Val.num]; omega)
  · rw [a7, h1, h5]
    exact sgn_lt_succ (i := i) (by omega) (by omega)

/-- State while column `w` is copied, `i` entries of it done. -/
structure Col (w1 dp stride : Nat) (s : St A) (w i : Nat) (s' : St A) : Prop where
  same : Same keepCopy s s'
  v : s'.v = s.v
  x6 : s'.x 6 = .int w
  x3 : s'.x 3 = .ptr .tmp (4 * (8 * w))
  x4 : s'.x 4 = .ptr .dst (4 * (dp + w * stride))
  m : s'.m = wr (cols s.m (s.m .tmp) dp stride w1 w) .dst (dp + w * stride) i (fun b => s.m .tmp (8 * w + b))
  ok : s'.bad = false

theorem Col.next {w1 dp stride : Nat} {s s' s'' : St A} {w i : Nat} (hc : Col w1 dp stride s w i s')
    (a1 : Same keepCopy s' s'') (a2 : s''.m = wr s'.m .dst (dp + w * stride + i) 1 (fun b => s'.m .tmp (8 * w + (i + b))))
    (a3 : s''.bad = false) (a4 : s''.v = s'.v) (a5 : Same [3, 4, 6] s' s'') : Col w1 dp stride s w (i + 1) s'' :=
  ⟨hc.same.trans a1, a4.trans hc.v, (a5.get (by decide)).trans hc.x6,
    (a5.get (by decide)).trans hc.x3, (a5.get (by decide)).trans hc.x4, (by
      rw [a2, hc.m, wr_other (by decide), cols_other (by decide)]
      exact wr_append _ _ _ _ _ (fun b => s.m .tmp (8 * w + b))), a3⟩

theorem inner {e : Env A} {w1 dp stride : Nat} {s : St A}
    (h1 : s.x 1 = .int w1) (hw : w1 ≤ 8) {w : Nat} (hw2 : w < 4)
    (st : 32 ≤ e.size .tmp)
    (sd : ∀ i, i < w1 → dp + w * stride + i + 1 ≤ e.size .dst) :
    ∀ d i s', i + 1 + d = w1 → Col w1 dp stride s w i s' → s'.x 5 = .int i →
      ∃ s'', Reach e kernel (21, s') (22, s'') ∧ Col w1 dp stride s w w1 s'' := by
  intro d
  induction d with
  | zero =>
    intro i s' hd hc h5
    have hx1 : s'.x 1 = .int w1 := (hc.same.get (by decide)).trans h1
    obtain ⟨a1, a2, a3, a4, a5, a6, a7⟩ := one_entry hx1 hc.x3 hc.x4 h5 (by omega) hw (by omega) (sd i (by omega)) hc.ok
    have := hc.next a1 a2 a3 a4 a5
    rw [show i + 1 = w1 by omega] at this
    refine ⟨_, Reach.block (b := k21) rfl ?_, this⟩
    show (bif (exec e k21.body s').lt then 21 else 22) = 22
    rw [a7, decide_eq_false (by omega)]; rfl
  | succ d ih =>
    intro i s' hd hc h5
    have hx1 : s'.x 1 = .int w1 := (hc.same.get (by decide)).trans h1
    obtain ⟨a1, a2, a3, a4, a5, a6, a7⟩ := one_entry hx1 hc.x3 hc.x4 h5 (by omega) hw (by omega) (sd i (by omega)) hc.ok
    obtain ⟨s'', r, hcol⟩ := ih (i + 1) _ (by omega) (hc.next a1 a2 a3 a4 a5) a6
    refine ⟨s'', Reach.trans (Reach.block (b := k21) rfl ?_) r, hcol⟩
    show (bif (exec e k21.body s').lt then 21 else 22) = 21
    rw [a7, decide_eq_true (by omega)]; rfl

/-- Both loops: `w2` columns of `w1` entries. -/
theorem copied {e : Env A} {w1 w2 dp stride : Nat} {s : St A}
    (h1 : s.x 1 = .int w1) (h2 : s.x 2 = .int w2) (h8 : s.x 8 = .int (4 * stride)) (hst : 4 * stride < 2 ^ 32)
    (h3 : s.x 3 = .ptr .tmp 0) (h4 : s.x 4 = .ptr .dst (4 * dp)) (h6 : s.x 6 = .int 0)
    (hw : w1 ≤ 8) (hw' : w2 ≤ 4) (hp1 : 0 < w1) (hp2 : 0 < w2)
    (st : 32 ≤ e.size .tmp)
    (sd : ∀ w, w < w2 → ∀ i, i < w1 → dp + w * stride + i + 1 ≤ e.size .dst) (ok : s.bad = false) :
    ∃ s', Reach e kernel (20, s) (23, s') ∧ Same keepCopy s s' ∧ s'.v = s.v ∧ s'.bad = false ∧
      s'.m = cols s.m (s.m .tmp) dp stride w1 w2 := by
  have key : ∀ d w s', w + 1 + d = w2 → Col w1 dp stride s w 0 s' →
      ∃ s'', Reach e kernel (20, s') (23, s'') ∧ Same keepCopy s s'' ∧ s''.v = s.v ∧ s''.bad = false ∧
        s''.m = cols s.m (s.m .tmp) dp stride w1 w2 := by
    intro d
    have one : ∀ w s', w + 1 ≤ w2 → Col w1 dp stride s w 0 s' →
        ∃ s'', Reach e kernel (20, s') (bif decide (w + 1 < w2) then 20 else 23, s'') ∧
          Col w1 dp stride s (w + 1) 0 s'' := by
      intro w s' hd hc
      obtain ⟨a1, a2, a3, a4, a5, a6⟩ := k20x e s'
      have r1 : Reach e kernel (20, s') (21, exec e k20.body s') := Reach.block (b := k20) rfl rfl
      obtain ⟨s2, r2, c2⟩ := inner h1 hw (w := w) (by omega) st
        (fun i hi => sd w (by omega) i hi) (w1 - 1) 0 (exec e k20.body s') (by omega)
        ⟨hc.same.trans a1, a4.trans hc.v, (a5.get (by decide)).trans hc.x6, (a5.get (by decide)).trans hc.x3,
          (a5.get (by decide)).trans hc.x4, a2.trans hc.m, a3.trans hc.ok⟩ a6
      obtain ⟨d1, d2, d3, d4, d5, d6, d7, d8⟩ := k22x e s2
      have hx2 : s2.x 2 = .int w2 := (c2.same.get (by decide)).trans h2
      have hx8 : s2.x 8 = .int (4 * stride) := (c2.same.get (by decide)).trans h8
      refine ⟨exec e k22.body s2, (r1.trans r2).trans (Reach.block (b := k22) rfl ?_), ⟨c2.same.trans d1, d4.trans c2.v,
        ?_, ?_, ?_, ?_, ?_⟩⟩
      · show (bif (exec e k22.body s2).lt then 20 else 23) = _
        rw [d8, c2.x6, hx2]
        exact congrArg (fun b => bif b then 20 else 23) (sgn_lt_succ (i := w) (by omega) (by omega))
      · rw [d5, c2.x6]
        exact congrArg Val.int (by simp only [Val.num]; omega)
      · rw [d6, c2.x3]
        exact congrArg (Val.ptr _) (by omega)
      · rw [d7, c2.x4, hx8]
        simp only [addVal, Val.num]
        rw [Nat.add_mul, Nat.one_mul]
        exact congrArg (Val.ptr _) (by omega)
      · rw [d2, c2.m, wr_zero, cols]
      · rw [d3, c2.ok, c2.x6, c2.x3, c2.x4, hx2, hx8]; rfl
    induction d with
    | zero =>
      intro w s' hd hc
      obtain ⟨s2, r2, c2⟩ := one w s' (by omega) hc
      rw [decide_eq_false (by omega)] at r2
      refine ⟨s2, r2, c2.same, c2.v, c2.ok, ?_⟩
      rw [c2.m, wr_zero, show w + 1 = w2 by omega]
    | succ d ih =>
      intro w s' hd hc
      obtain ⟨s2, r2, c2⟩ := one w s' (by omega) hc
      rw [decide_eq_true (by omega)] at r2
      obtain ⟨s3, r3, h3⟩ := ih (w + 1) s2 (by omega) c2
      exact ⟨s3, r2.trans r3, h3⟩
  exact key (w2 - 1) 0 s (by omega) ⟨Same.refl _ _, rfl, h6, h3, by rw [h4, Nat.zero_mul, Nat.add_zero],
    by rw [wr_zero]; rfl, ok⟩

/-! ### Sizes of the part of a tile inside the destination -/

/-- CMP, MOVGT. -/
def atMost (k : Nat) (w : Val A) : Val A :=
  bif (decide (sgn w.num = sgn k) || decide (sgn w.num < sgn k)) then w else .int k

theorem atMost_eq {k R r : Nat} (hk : k < 2 ^ 31) (hR : R < 2 ^ 31) (hr : r < R) :
    atMost k (leftE (.int R : Val A) (.int r)) = .int (min k (R - r)) := by
  have h : leftE (.int R : Val A) (.int r) = .int (R - r) := by
    unfold leftE
    simp only [Val.num]
    exact congrArg Val.int (by omega)
  have h1 : decide (sgn (Val.int (R - r) : Val A).num = sgn k) = decide (R - r = k) :=
    sgn_eq (A := A) (b := k) (by omega) (by omega)
  have h2 : decide (sgn (Val.int (R - r) : Val A).num < sgn k) = decide (R - r < k) :=
    sgn_lt (A := A) (b := k) (by omega) (by omega)
  rw [h]
  unfold atMost
  rw [h1, h2]
  rcases Nat.lt_trichotomy (R - r) k with h4 | h4 | h4
  · rw [decide_eq_true h4, Bool.or_true, cond_true]
    exact congrArg Val.int (by omega)
  · rw [decide_eq_true h4, Bool.true_or, cond_true]
    exact congrArg Val.int (by omega)
  · rw [decide_eq_false (by omega), decide_eq_false (by omega)]
    simp only [Bool.or_self, cond_false]
    exact congrArg Val.int (by omega)

/-- Rows and columns of block (`p`, `q`) inside the destination. -/
def rowsIn (j : Job A) (p : Nat) : Nat := min 8 (j.dstRows - (j.startRow + 8 * p))
def colsIn (j : Job A) (q : Nat) : Nat := min 4 (j.dstCols - (j.startCol + 4 * q))

theorem dst_bound {j : Job A} (hf : j.Fits) {p q : Nat} (hp : p ≤ j.rowSteps) (hq : q ≤ j.colSteps)
    {w i : Nat} (hw : w < colsIn j q) (hi : i < rowsIn j p) :
    dstBlk j p q + w * j.dstStride + i + 1 ≤ j.size .dst := by
  unfold colsIn at hw
  unfold rowsIn at hi
  have h := hf.dst (8 * p + i) (4 * q + w) (by omega) (by omega) (by omega) (by omega)
  unfold dstBlk
  have e1 : (4 * q + w) * j.dstStride = q * (4 * j.dstStride) + w * j.dstStride := by ring
  rw [e1] at h
  omega

theorem rows_pos {j : Job A} (hf : j.Fits) {p : Nat} (hp : p ≤ j.rowSteps) : 0 < rowsIn j p := by
  have := hf.rowIn
  unfold Job.lastRow at this
  unfold rowsIn; omega
theorem cols_pos {j : Job A} (hf : j.Fits) {q : Nat} (hq : q ≤ j.colSteps) : 0 < colsIn j q := by
  have := hf.colIn
  unfold Job.lastCol at this
  unfold colsIn; omega

/-! ### Clamping -/

def keepStore : List Nat := [13, 34, 35, 42, 64, 80, 96, 112, 128, 144]

theorem exec_append (e : Env A) (a b : List Instr) (s : St A) : exec e (a ++ b) s = exec e b (exec e a s) := by
  induction a generalizing s with
  | nil => rfl
  | cons i a ih => exact ih _

/-- The two parts of label 7: the clamp, and the size of the part that fits. -/
def k15a : List Instr := k15.body.take 28
def k15b : List Instr := k15.body.drop 28

theorem k15_split (e : Env A) (s : St A) : exec e k15.body s = exec e k15b (exec e k15a s) := exec_append e k15a k15b s

set_option maxRecDepth 8000 in
theorem k15av (j : Job A) (s : St A) :
    (∀ i, i < 3 → (exec j.env k15a s).v i = s.v i) ∧
    (∀ i, i < 8 → (exec j.env k15a s).v (3 + i) =
      fun l => j.ops.min (j.ops.max (s.v (3 + i) l) j.clampMin) j.clampMax) := by
  cases s
  refine ⟨?_, ?_⟩
  · intro i hi; interval_cases i <;> rfl
  · intro i hi; interval_cases i <;> rfl

set_option maxRecDepth 8000 in
theorem k15ax (j : Job A) (s : St A) : Same keepStore s (exec j.env k15a s) ∧
    (exec j.env k15a s).m = s.m ∧
    (exec j.env k15a s).bad = (s.bad || false || false || Nat.blt (s.x 13).num (32 + 4) || false || !(s.x 96).isInt ||
      Nat.blt (s.x 13).num (48 + 4) || false || !(s.x 112).isInt) ∧
    (exec j.env k15a s).x 1 = leftE (.int j.dstRows) (s.x 96) ∧
    (exec j.env k15a s).x 2 = leftE (.int j.dstCols) (s.x 112) ∧
    (exec j.env k15a s).x 3 = .int 8 ∧ (exec j.env k15a s).x 5 = .int 4 := by
  cases s
  exact ⟨by keep, rfl, rfl, rfl, rfl, rfl, rfl⟩

/-- CMP, MOVGT with the bound in a register. -/
def atMostR (k : Nat) (K w : Val A) : Val A :=
  bif (decide (sgn w.num = sgn k) || decide (sgn w.num < sgn k)) then w else K

theorem k15bx (e : Env A) (s : St A) : Same keepStore s (exec e k15b s) ∧
    (exec e k15b s).m = s.m ∧ (exec e k15b s).v = s.v ∧
    (exec e k15b s).bad = (s.bad || !(s.x 1).isInt || !(s.x 2).isInt ||
      !(atMostR 8 (s.x 3) (s.x 1)).isInt || !(s.x 3).isInt ||
      !(atMostR 4 (s.x 5) (s.x 2)).isInt || !(s.x 5).isInt) ∧
    (exec e k15b s).x 1 = atMostR 8 (s.x 3) (s.x 1) ∧
    (exec e k15b s).x 2 = atMostR 4 (s.x 5) (s.x 2) ∧
    (exec e k15b s).z = (decide (sgn (atMostR 8 (s.x 3) (s.x 1)).num = sgn (s.x 3).num) &&
      decide (sgn (atMostR 4 (s.x 5) (s.x 2)).num = sgn (s.x 5).num)) := by
  cases s
  exact ⟨by keep, rfl, rfl, rfl, rfl, rfl, rfl⟩

/-- The value of an entry. -/
def valAt (j : Job A) (p q u w : Nat) : A :=
  j.ops.min (j.ops.max (biasedAt j p q u w) j.clampMin) j.clampMax

/-- After the clamp. -/
structure Clamped (j : Job A) (p q : Nat) (f : Nat → Nat → A) (s s' : St A) : Prop where
  same : Same keepStore s s'
  m : s'.m = s.m
  ok : s'.bad = false
  x1 : s'.x 1 = .int (rowsIn j p)
  x2 : s'.x 2 = .int (colsIn j q)
  z : s'.z = decide (rowsIn j p = 8 ∧ colsIn j q = 4)
  v : ∀ i, i < 3 → s'.v i = s.v i
  tile : Tile f s'

theorem clamped {j : Job A} (hf : j.Fits) {p q : Nat} (hp : p ≤ j.rowSteps) (hq : q ≤ j.colSteps) {f : Nat → Nat → A}
    {s : St A} (h : Work j p q f s) :
    Clamped j p q (fun u w => j.ops.min (j.ops.max (f u w) j.clampMin) j.clampMax) s (exec j.env k15.body s) := by
  have fr := hf.rows
  have fc := hf.cols
  have fr' := hf.rowIn
  have fc' := hf.colIn
  unfold Job.lastRow at fr'
  unfold Job.lastCol at fc'
  obtain ⟨v1, v2⟩ := k15av j s
  obtain ⟨a1, a2, a3, a4, a5, a6, a7⟩ := k15ax j s
  rw [k15_split]
  generalize exec j.env k15a s = s1 at *
  obtain ⟨c1, c2, c0, c3, c5, c6, c7⟩ := k15bx j.env s1
  generalize exec j.env k15b s1 = s2 at *
  have e1 : atMost 8 (leftE (.int j.dstRows) (s.x 96)) = .int (rowsIn j p) := by
    rw [h.mid.row]; exact atMost_eq (by omega) fr (by omega)
  have e2 : atMost 4 (leftE (.int j.dstCols) (s.x 112)) = .int (colsIn j q) := by
    rw [h.mid.col]; exact atMost_eq (by omega) fc (by omega)
  have r4 : rowsIn j p ≤ 8 := by unfold rowsIn; omega
  have c4 : colsIn j q ≤ 4 := by unfold colsIn; omega
  have d1 : atMostR 8 (s1.x 3) (s1.x 1) = .int (rowsIn j p) := by rw [a6, a4]; exact e1
  have d2 : atMostR 4 (s1.x 5) (s1.x 2) = .int (colsIn j q) := by rw [a7, a5]; exact e2
  rw [d1, d2, a6, a7, sgn_eq (by omega) (by omega), sgn_eq (by omega) (by omega), ← Bool.decide_and] at c7
  rw [d1] at c5
  rw [d2] at c6
  rw [h.mid.ok, h.mid.sp, h.mid.row, h.mid.col] at a3
  have a3' : s1.bad = false := a3
  refine ⟨a1.trans c1, c2.trans a2, ?_, c5, c6, c7, fun i hi => by rw [c0]; exact v1 i hi, ?_⟩
  · rw [c3, d1, d2, a3', a4, a5, a6, a7]; rfl
  · intro w hw u hu i hi
    rw [c0, Nat.add_assoc, v2 _ (by omega), ← Nat.add_assoc]
    show j.ops.min (j.ops.max (s.v (3 + 2 * w + u) i) j.clampMin) j.clampMax = _
    rw [h.tile w hw u hu i hi]

/-! ### The stores -/

/-- The accesses of `k18`. -/
def badP (e : Env A) (b : Bool) (P : Val A) (S : Nat) (r : Bool) : Nat → Bool
  | 0 => b
  | w + 1 => badP e b P S r w || out e.base (ptrN P S w) 0 4 || out e.base (ptrN P S w) 16 4 || !(ptrN P S w).isPtr || r

theorem badP_ok {e : Env A} {b : Bool} {r : Region} {o S : Nat} {w : Nat} (hb : b = false)
    (h : ∀ i, i < w → o + i * S + 8 ≤ e.size r) : badP e b (.ptr r (4 * o)) (4 * S * 2 ^ 0) false w = false := by
  induction w with
  | zero => exact hb
  | succ w ih =>
    have := h w (by omega)
    rw [badP, ih (fun i hi => h i (by omega)), ptrN_ptr, out_ptr rfl (by show _ ≤ e.size r; omega),
      out_ptr rfl (by show _ ≤ e.size r; omega)]; rfl

theorem k16x (e : Env A) (s : St A) : Same (1 :: 2 :: keepStore) s (exec e k16.body s) ∧ (exec e k16.body s).m = s.m ∧
    (exec e k16.body s).v = s.v ∧ (exec e k16.body s).bad = s.bad ∧ (exec e k16.body s).z = s.z ∧
    (exec e k16.body s).x 3 = s.x 42 ∧ (exec e k16.body s).x 4 = .int 32 := by
  cases s; exact ⟨by keep, rfl, rfl, rfl, rfl, rfl, rfl⟩

theorem k17x (e : Env A) (s : St A) : Same (1 :: 2 :: keepStore) s (exec e k17.body s) ∧ (exec e k17.body s).m = s.m ∧
    (exec e k17.body s).v = s.v ∧ (exec e k17.body s).bad = (s.bad || Nat.blt (s.x 13).num (16 + 4)) ∧
    (exec e k17.body s).z = s.z ∧
    (exec e k17.body s).x 3 = s.x 80 ∧ (exec e k17.body s).x 4 = e.field .dstStride := by
  cases s; exact ⟨by keep, rfl, rfl, rfl, rfl, rfl, rfl⟩

theorem k19x (e : Env A) (s : St A) : Same (1 :: 2 :: keepStore) s (exec e k19.body s) ∧ (exec e k19.body s).m = s.m ∧
    (exec e k19.body s).v = s.v ∧ (exec e k19.body s).bad = (s.bad || Nat.blt (s.x 13).num (16 + 4)) ∧
    (exec e k19.body s).x 3 = s.x 42 ∧
    (exec e k19.body s).x 4 = s.x 80 ∧ (exec e k19.body s).x 6 = .int 0 ∧
    (exec e k19.body s).x 8 = e.field .dstStride := by
  cases s; exact ⟨by keep, rfl, rfl, rfl, rfl, rfl, rfl, rfl⟩

/-- The accumulators at the start of the next block. -/
def Fresh (z : A) (s s' : St A) : Prop :=
  (∀ i, i < 3 → s'.v i = s.v i) ∧ ∀ i, i < 8 → s'.v (3 + i) = fun _ => z

set_option maxRecDepth 8000 in
theorem k18x (e : Env A) (s : St A) : Same (1 :: 2 :: keepStore) s (exec e k18.body s) ∧
    (exec e k18.body s).z = s.z ∧ Fresh e.ops.zero s (exec e k18.body s) ∧
    (exec e k18.body s).bad = badP e s.bad (s.x 3) ((s.x 4).num * 2 ^ 0 % 2 ^ 32) (!(s.x 4).isInt) 4 ∧
    (exec e k18.body s).m = paired s.m (s.x 3) ((s.x 4).num * 2 ^ 0 % 2 ^ 32) (fun i => s.v (3 + i)) 4 := by
  cases s
  refine ⟨by keep, rfl, ⟨?_, ?_⟩, rfl, rfl⟩
  · intro i hi; interval_cases i <;> rfl
  · intro i hi; interval_cases i <;> rfl

theorem tile_seq {f : Nat → Nat → A} {s : St A} (h : Tile f s) :
    ∀ i, i < 4 → ∀ b, b < 8 → s.v (3 + (2 * i + b / 4)) (b % 4) = tileSeq f (8 * i + b) := by
  intro i hi b hb
  have := h i hi (b / 4) (by omega) (b % 4) (by omega)
  rw [← Nat.add_assoc, this]
  unfold tileSeq
  rw [show 4 * (b / 4) + b % 4 = (8 * i + b) % 8 by omega, show (8 * i + b) / 8 = i by omega]

/-- What a store leaves behind. -/
structure Stored (j : Job A) (p q : Nat) (f : Nat → Nat → A) (s s' : St A) : Prop where
  same : Same keepStore s s'
  ok : s'.bad = false
  fresh : Fresh j.ops.zero s s'
  m : ∀ r, r ≠ .dst → r ≠ .tmp → s'.m r = s.m r
  dst : s'.m .dst = cols s.m (tileSeq f) (dstBlk j p q) j.dstStride (rowsIn j p) (colsIn j q) .dst

theorem stored {j : Job A} (hf : j.Fits) {p q : Nat} (hp : p ≤ j.rowSteps) (hq : q ≤ j.colSteps) {s : St A}
    (hw : Work j p q (biasedAt j p q) s) :
    ∃ s', Reach j.env kernel (15, s) (23, s') ∧ Stored j p q (valAt j p q) s s' := by
  have h : Clamped j p q (valAt j p q) s (exec j.env k15.body s) := clamped hf hp hq hw
  have nx : ∀ l, (bif (exec j.env k15.body s).z then 17 else 16) = l →
      Reach j.env kernel (15, s) (l, exec j.env k15.body s) := fun l hl => Reach.block (b := k15) rfl hl
  generalize exec j.env k15.body s = s1 at *
  have hds := hf.dstride
  have sp1 : s1.x 13 = .int 96 := (h.same.get (by decide)).trans hw.mid.sp
  have xt : s1.x 42 = .ptr .tmp 0 := (h.same.get (by decide)).trans hw.mid.tmp
  have x80 : s1.x 80 = .ptr .dst (4 * dstBlk j p q) := (h.same.get (by decide)).trans hw.mid.dp
  have r4 : rowsIn j p ≤ 8 := by unfold rowsIn; omega
  have c4 : colsIn j q ≤ 4 := by unfold colsIn; omega
  have fr : ∀ s2 : St A, Fresh j.ops.zero s1 s2 → Fresh j.ops.zero s s2 := fun s2 hh =>
    ⟨fun i hi => (hh.1 i hi).trans (h.v i hi), hh.2⟩
  have hsd : ∀ w, w < colsIn j q → ∀ i, i < rowsIn j p →
      dstBlk j p q + w * j.dstStride + i + 1 ≤ j.env.size .dst :=
    fun w hw i hi => dst_bound hf hp hq hw hi
  by_cases hz : rowsIn j p = 8 ∧ colsIn j q = 4
  · have r1 := nx 17 (by rw [h.z, decide_eq_true hz]; rfl)
    obtain ⟨a1, a2, a3, a4, a5, a6, a7⟩ := k17x j.env s1
    have r2 : Reach j.env kernel (17, s1) (18, exec j.env k17.body s1) := Reach.block (b := k17) rfl rfl
    generalize exec j.env k17.body s1 = s2 at *
    rw [h.ok, sp1] at a4
    have a4' : s2.bad = false := a4
    obtain ⟨f1, f2, f3, f4, f5⟩ := k18x j.env s2
    have nx2 : ∀ l, (bif (exec j.env k18.body s2).z then 23 else 19) = l →
      Reach j.env kernel (18, s2) (l, exec j.env k18.body s2) := fun l hl => Reach.block (b := k18) rfl hl
    generalize exec j.env k18.body s2 = s3 at *
    have r3 := nx2 23 (by rw [f2, a5, h.z, decide_eq_true hz]; rfl)
    have eS : (s2.x 4).num * 2 ^ 0 % 2 ^ 32 = 4 * j.dstStride * 2 ^ 0 := by
      rw [a7]
      show 4 * j.dstStride * 2 ^ 0 % 2 ^ 32 = _
      exact Nat.mod_eq_of_lt (by omega)
    have eI : (!(s2.x 4).isInt) = false := by rw [a7]; rfl
    rw [eS, eI, a6, x80, a4'] at f4
    rw [eS, a6, x80, a2, a3, paired_cols (T := tileSeq (valAt j p q)) (tile_seq h.tile)] at f5
    have k3 := a1.trans f1
    refine ⟨s3, (r1.trans r2).trans r3, h.same.trans (k3.sub (by decide)), ?_, fr s3
      ⟨fun i hi => (f3.1 i hi).trans (by rw [a3]), f3.2⟩, ?_, ?_⟩
    · rw [f4]
      exact badP_ok rfl (fun i hi => by
        have := hsd i (by omega) 7 (by omega)
        omega)
    · intro r h1 _
      rw [f5, cols_other h1, h.m]
    · rw [f5, hz.1, hz.2, h.m]
  · have r1 := nx 16 (by rw [h.z, decide_eq_false hz]; rfl)
    obtain ⟨a1, a2, a3, a4, a5, a6, a7⟩ := k16x j.env s1
    have r2 : Reach j.env kernel (16, s1) (18, exec j.env k16.body s1) := Reach.block (b := k16) rfl rfl
    generalize exec j.env k16.body s1 = s2 at *
    obtain ⟨f1, f2, f3, f4, f5⟩ := k18x j.env s2
    have nx2 : ∀ l, (bif (exec j.env k18.body s2).z then 23 else 19) = l →
      Reach j.env kernel (18, s2) (l, exec j.env k18.body s2) := fun l hl => Reach.block (b := k18) rfl hl
    generalize exec j.env k18.body s2 = s3 at *
    have r3 := nx2 19 (by rw [f2, a5, h.z, decide_eq_false hz]; rfl)
    rw [a6, a7, xt, a4, h.ok] at f4
    rw [a6, a7, xt, a2, a3] at f5
    have ok3 : s3.bad = false := by
      rw [f4]
      exact badP_ok (o := 0) (S := 8) rfl (fun i hi => by
        have := hf.tmp
        show _ ≤ j.size .tmp
        omega)
    have o3 : ∀ r, r ≠ .tmp → s3.m r = s1.m r := fun r hr => by
      rw [f5]; exact paired_other (o := 0) (S := 8) hr
    have t3 : ∀ i, i < 4 → ∀ b, b < 8 → s3.m .tmp (8 * i + b) = tileSeq (valAt j p q) (8 * i + b) := by
      intro i hi b hb
      rw [f5, ← tile_seq h.tile i hi b hb]
      have := paired_at (M := s1.m) (r := .tmp) (o := 0) (S := 8) (g := fun i => s1.v (3 + i)) (w := 4) (by omega) hi hb
      rw [show 0 + i * 8 + b = 8 * i + b by omega] at this
      exact this
    have k3 := a1.trans f1
    obtain ⟨b1, b2, b3, b4, b5, b6, b7, b8⟩ := k19x j.env s3
    have r4' : Reach j.env kernel (19, s3) (20, exec j.env k19.body s3) := Reach.block (b := k19) rfl rfl
    generalize exec j.env k19.body s3 = s4 at *
    rw [ok3, k3.get (by decide), sp1] at b4
    have k4 := k3.trans b1
    obtain ⟨s5, r5, c1, c2, c3, c5⟩ := copied (e := j.env)
      ((k4.get (by decide)).trans h.x1) ((k4.get (by decide)).trans h.x2) b8 (by omega)
      (b5.trans ((k3.get (by decide)).trans xt)) (b6.trans ((k3.get (by decide)).trans x80)) b7 r4 c4
      (rows_pos hf hp) (cols_pos hf hq) hf.tmp hsd b4
    have k5 : Same keepStore s1 s5 := (k4.sub (by decide)).trans (c1.sub (by decide))
    refine ⟨s5, (((r1.trans r2).trans r3).trans r4').trans r5, h.same.trans k5, c3, fr s5 ?_, ?_, ?_⟩
    · have e : s5.v = s3.v := c2.trans b3
      exact ⟨fun i hi => by rw [e, f3.1 i hi, a3], fun i hi => by rw [e]; exact f3.2 i hi⟩
    · intro r h1 h2
      rw [c5, cols_other h1, b2, o3 r h2, h.m]
    · rw [c5, cols_congr (T' := tileSeq (valAt j p q)), cols_dst (M' := s.m)]
      · rw [b2, o3 .dst (by decide), h.m]
      · intro i hi b hb
        rw [b2]
        exact t3 i (by omega) b (by omega)

end Ruy.Arm32

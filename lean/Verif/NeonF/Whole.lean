import Verif.NeonF.Store
/-
The AArch64 float kernels: the loop over blocks of the destination, the prologue, and the destination at the end.
-/
namespace Ruy.NeonF
open Ruy.Neon (lhsColPtr rhsColPtr lhsPtr rhsPtr dstColPtr dstPtr rRow rCol rDstRows rDstCols tmpBuf sgn sgn_of col_unique)
variable {A : Type}

theorem b18 (j : Job A) (s : St A) : Same keepStore s (exec j.env fx18.body s) ∧
    (exec j.env fx18.body s).m = s.m ∧ (exec j.env fx18.body s).v = s.v ∧
    (exec j.env fx18.body s).bad = (s.bad || (s.x dstPtr).isData || false || false || false || false ||
      !(s.x rRow).isInt || false) ∧
    (exec j.env fx18.body s).x dstPtr = addVal (s.x dstPtr) 32 ∧
    (exec j.env fx18.body s).x 5 = .ptr .lhs (4 * j.lhsBase) ∧
    (exec j.env fx18.body s).x 6 = .int (j.startRow % 2 ^ 32) ∧
    (exec j.env fx18.body s).x 7 = .int (j.lastRow % 2 ^ 32) ∧
    (exec j.env fx18.body s).z = decide (sgn (s.x rRow).num = sgn (Val.int (j.lastRow % 2 ^ 32) : Val A).num) := by
  cases s
  exact ⟨by keep, rfl, rfl, rfl, rfl, rfl, rfl, rfl, rfl⟩

theorem b19 (e : Env A) (s : St A) :
    Same [5, 6, 7, 8, 9, 10, 11, 12, 32, 33, 34, 35, 36, 37, 39, 40, 41, 42] s (exec e fx19.body s) ∧
    (exec e fx19.body s).m = s.m ∧ (exec e fx19.body s).v = s.v ∧
    (exec e fx19.body s).bad = (s.bad || !(s.x rRow).isInt) ∧
    (exec e fx19.body s).x rRow = .int (((s.x rRow).num + 8) % 2 ^ 32) := by
  cases s
  exact ⟨by keep, rfl, rfl, rfl, rfl⟩

theorem b20 (e : Env A) (s : St A) :
    Same [5, 6, 7, 8, 9, 10, 11, 12, 32, 33, 34, 35, 40, 41, 42] s (exec e fx20.body s) ∧
    (exec e fx20.body s).m = s.m ∧ (exec e fx20.body s).v = s.v ∧
    (exec e fx20.body s).bad = (s.bad || !(s.x 6).isInt || !(s.x rCol).isInt || (s.x dstColPtr).isData || !(s.x 11).isInt) ∧
    (exec e fx20.body s).x rRow = .int ((s.x 6).num % 2 ^ 32) ∧
    (exec e fx20.body s).x rCol = .int (((s.x rCol).num + 8) % 2 ^ 32) ∧
    (exec e fx20.body s).x dstColPtr = addVal (s.x dstColPtr) ((s.x 11).num * 2 ^ 3) ∧
    (exec e fx20.body s).x dstPtr = addVal (s.x dstColPtr) ((s.x 11).num * 2 ^ 3) := by
  cases s
  exact ⟨by keep, rfl, rfl, rfl, rfl, rfl, rfl, rfl⟩

/-- The depth loop can start. -/
theorem start_loop {j : Job A} {a b : Nat} {s : St A} (hb : s.bad = false)
    (lp : s.x lhsPtr = .ptr .lhs (4 * (a + 8))) (rp : s.x rhsPtr = .ptr .rhs (4 * (b + 8))) (hd : Data j a b 0 1 s)
    (hv : ∀ i, i < 16 → s.v (16 + i) = fun _ => j.ops.zero) : Loop j a b [] [] 0 1 1 s s where
  same := Same.refl _ _
  m := rfl
  ok := hb
  lp := lp
  rp := rp
  data := hd
  acc := by
    intro w hw h hh i hi
    rw [Nat.add_assoc, hv _ (by omega), ite_self]
    rfl

section
variable {P : List Block} {o : Nat} {cnt : Nat → Nat} {ord : Nat → List Nat} (hP : Prog P o cnt ord)
include hP

/-- From the end of a store to label 1. -/
theorem advanced {j : Job A} (hf : j.Fits) {p q : Nat} (hp : p ≤ j.rowSteps)
    (hq : q ≤ j.colSteps) {f : Nat → Nat → A} {s0 s : St A} (hm : Mid j p q s0) (hn : Next j p q s0)
    (h : Stored j p q f s0 s) :
    ∃ s', s'.m = s.m ∧ s'.bad = false ∧
      if p < j.rowSteps then Reach j.env P (o + 15, s) (1, s') ∧ Head cnt j (p + 1) q s'
      else if q < j.colSteps then Reach j.env P (o + 15, s) (1, s') ∧ Head cnt j 0 (q + 1) s'
      else Reach j.env P (o + 15, s) (o + 19, s') := by
  have f1 := hf.row
  have f2 := hf.col
  have lr : j.lastRow = j.startRow + 8 * j.rowSteps := rfl
  have lc : j.lastCol = j.startCol + 8 * j.colSteps := rfl
  obtain ⟨a1, a2, av, a3, a4, a5, a6, a7, az⟩ := b18 j s
  have nx : ∀ l, (bif (exec j.env fx18.body s).z then o + 17 else o + 16) = l →
      Reach j.env P (o + 15, s) (l, exec j.env fx18.body s) := fun l hl => hP.block (b := fx18) rfl hl
  generalize exec j.env fx18.body s = s1 at *
  have get : ∀ r, r ∈ keepStore → s1.x r = s0.x r := fun r hr =>
    (a1.get hr).trans (h.same.get hr)
  have xr : s.x rRow = .int (j.startRow + 8 * p) := (h.same.get (by decide)).trans hm.row
  rw [xr, Nat.mod_eq_of_lt (a := j.lastRow) (by omega), sgn_eq (by omega) (by omega)] at az
  rw [h.ok, xr, h.x37] at a3
  have a3' : s1.bad = false := a3
  rw [Nat.mod_eq_of_lt (by omega)] at a6 a7
  have x8 : s1.x 8 = .int j.lastCol := (get 8 (by decide)).trans hm.x8
  have x9 : s1.x 9 = .int (4 * j.lhsStride) := (get 9 (by decide)).trans hm.x9
  have x10 : s1.x 10 = .int (4 * j.rhsStride) := (get 10 (by decide)).trans hm.x10
  have x11 : s1.x 11 = .int (4 * j.dstStride) := (get 11 (by decide)).trans hm.x11
  have x12 : s1.x 12 = .int j.depth := (get 12 (by decide)).trans hm.x12
  have xlc := (get lhsColPtr (by decide)).trans hn.lc
  have xrc := (get rhsColPtr (by decide)).trans hn.rc
  have xlp := (get lhsPtr (by decide)).trans hn.lp
  have xrp := (get rhsPtr (by decide)).trans hn.rp
  have xdc := (get dstColPtr (by decide)).trans hm.dc
  have xdp : s1.x dstPtr = .ptr .dst (4 * dstBlk j p q + 32) := by rw [a4, h.x37]; rfl
  have xrow := (get rRow (by decide)).trans hm.row
  have xcol := (get rCol (by decide)).trans hm.col
  have xrows := (get rDstRows (by decide)).trans hm.rows
  have xcols := (get rDstCols (by decide)).trans hm.cols
  have xtmp := (get tmpBuf (by decide)).trans hm.tmp
  have mem : ∀ r, r ≠ .dst → r ≠ .tmp → s1.m r = j.m r := fun r h1 h2 => by
    rw [a2, h.m r h1 h2]; exact hm.mem r h1 h2
  have data : Data j (lhsBlk j (nextP j p)) (rhsBlk j (nextQ j p q)) 0 1 s1 := by
    intro u hu i hi l hl
    obtain rfl : u = 0 := by omega
    obtain ⟨d1, d2⟩ := hn.data 0 (by omega) i hi l hl
    rw [av, h.fresh.1 _ (by omega), h.fresh.1 _ (by omega)]
    exact ⟨d1, d2⟩
  have fresh : ∀ i, i < 16 → s1.v (16 + i) = fun _ => j.ops.zero := by
    intro i hi
    rw [av, h.fresh.2 i hi]
  obtain ⟨b, hb1, hb2, hb3⟩ := hP.last
  by_cases hlast : p < j.rowSteps
  · rw [show decide (j.startRow + 8 * p = j.lastRow) = false from decide_eq_false (by omega)] at az
    have n1 := nx (o + 16) (by rw [az]; rfl)
    obtain ⟨c1, c2, c3, c4, c5⟩ := b19 j.env s1
    have n2 : Reach j.env P (o + 16, s1) (o + 18, exec j.env fx19.body s1) := hP.block (b := fx19) rfl rfl
    generalize exec j.env fx19.body s1 = s2 at *
    rw [a3', xrow] at c4
    rw [xrow] at c5
    have c4' : s2.bad = false := c4
    have c5' : s2.x rRow = .int (j.startRow + 8 * (p + 1)) := c5.trans (congrArg Val.int (by
      simp only [Val.num]; omega))
    obtain ⟨d1, d2, d3, d4, d5, d6, d7⟩ := hb3 j.env s2
    have n3 : ∀ l, (bif (exec j.env b.body s2).z || (exec j.env b.body s2).lt then 1 else o + 19) = l →
        Reach j.env P (o + 18, s2) (l, exec j.env b.body s2) := fun l hl =>
      Reach.block hb1 (by rw [hb2]; exact hl)
    generalize exec j.env b.body s2 = s3 at *
    have y8 : s2.x 8 = .int j.lastCol := (c1.get (by decide)).trans x8
    have y12 : s2.x 12 = .int j.depth := (c1.get (by decide)).trans x12
    have ycol : s2.x rCol = .int (j.startCol + 8 * q) := (c1.get (by decide)).trans xcol
    rw [ycol, y8, sgn_eq (by omega) (by omega)] at d6
    rw [ycol, y8, sgn_lt (by omega) (by omega)] at d7
    rw [c4', ycol, y8, y12] at d4
    have d4 : s3.bad = false := d4 rfl
    have d5 := d5 _ y12 (depth_small hf) hf.pos
    have n3' := n3 1 (by
      rw [d6, d7]
      rcases Nat.lt_or_ge q j.colSteps with hh | hh
      · rw [show decide (j.startCol + 8 * q < j.lastCol) = true from decide_eq_true (by omega), Bool.or_true]; rfl
      · rw [show decide (j.startCol + 8 * q = j.lastCol) = true from decide_eq_true (by omega), Bool.true_or]; rfl)
    have eP : nextP j p = p + 1 := by unfold nextP; rw [if_pos hlast]
    have eQ : nextQ j p q = q := by unfold nextQ; rw [if_pos hlast]
    rw [eP] at xlc xlp data
    rw [eQ] at xrc xrp data
    refine ⟨s3, by rw [d2, c2, a2], d4, ?_⟩
    rw [if_pos hlast]
    refine ⟨(n1.trans n2).trans n3', ?_⟩
    have g : ∀ r, r ∈ [5, 6, 7, 8, 9, 10, 11, 12, 32, 33, 34, 35, 36, 37, 39, 40, 41, 42] → s3.x r = s1.x r :=
      fun r hr => (d1.get (by revert r; decide)).trans (c1.get hr)
    have hv : s3.v = s1.v := d3.trans c3
    exact {
      mid := {
        x8 := (g _ (by decide)).trans x8
        x9 := (g _ (by decide)).trans x9
        x10 := (g _ (by decide)).trans x10
        x11 := (g _ (by decide)).trans x11
        x12 := (g _ (by decide)).trans x12
        dc := (g _ (by decide)).trans xdc
        dp := ((g _ (by decide)).trans xdp).trans (congrArg (Val.ptr _) (by unfold dstBlk; ring))
        row := (d1.get (by decide)).trans c5'
        col := (g _ (by decide)).trans xcol
        rows := (g _ (by decide)).trans xrows
        cols := (g _ (by decide)).trans xcols
        tmp := (g _ (by decide)).trans xtmp
        mem := fun r h1 h2 => by rw [d2, c2]; exact mem r h1 h2
        ok := d4 }
      x1 := d5
      x5 := (g _ (by decide)).trans a5
      x6 := (g _ (by decide)).trans a6
      x7 := (g _ (by decide)).trans a7
      lc := (g _ (by decide)).trans xlc
      rc := (g _ (by decide)).trans xrc
      loop := start_loop d4 ((g _ (by decide)).trans xlp) ((g _ (by decide)).trans xrp)
        (fun u hu i hi => by rw [hv]; exact data u hu i hi) (by rw [hv]; exact fresh) }
  · rw [show decide (j.startRow + 8 * p = j.lastRow) = true from decide_eq_true (by omega)] at az
    have n1 := nx (o + 17) (by rw [az]; rfl)
    obtain ⟨c1, c2, c3, c4, c5, c6, c7, c8⟩ := b20 j.env s1
    have n2 : Reach j.env P (o + 17, s1) (o + 18, exec j.env fx20.body s1) := hP.block (b := fx20) rfl rfl
    generalize exec j.env fx20.body s1 = s2 at *
    rw [a3', a6, xcol, xdc, x11] at c4
    rw [a6] at c5
    rw [xcol] at c6
    rw [xdc, x11] at c7 c8
    have c4' : s2.bad = false := c4
    have c5' : s2.x rRow = .int (j.startRow + 8 * 0) := c5.trans (congrArg Val.int (by
      simp only [Val.num]; omega))
    have c6' : s2.x rCol = .int (j.startCol + 8 * (q + 1)) := c6.trans (congrArg Val.int (by
      simp only [Val.num]; omega))
    have c7' : s2.x dstColPtr = .ptr .dst (4 * (j.dstBase + (q + 1) * (8 * j.dstStride))) :=
      c7.trans (congrArg (Val.ptr _) (by simp only [Val.num]; ring))
    have c8' : s2.x dstPtr = .ptr .dst (4 * dstBlk j 0 (q + 1)) :=
      c8.trans (congrArg (Val.ptr _) (by unfold dstBlk; simp only [Val.num]; ring))
    obtain ⟨d1, d2, d3, d4, d5, d6, d7⟩ := hb3 j.env s2
    have n3 : ∀ l, (bif (exec j.env b.body s2).z || (exec j.env b.body s2).lt then 1 else o + 19) = l →
        Reach j.env P (o + 18, s2) (l, exec j.env b.body s2) := fun l hl =>
      Reach.block hb1 (by rw [hb2]; exact hl)
    generalize exec j.env b.body s2 = s3 at *
    have y8 : s2.x 8 = .int j.lastCol := (c1.get (by decide)).trans x8
    have y12 : s2.x 12 = .int j.depth := (c1.get (by decide)).trans x12
    rw [c6', y8, sgn_eq (by omega) (by omega)] at d6
    rw [c6', y8, sgn_lt (by omega) (by omega)] at d7
    rw [c4', c6', y8, y12] at d4
    have d4 : s3.bad = false := d4 rfl
    have d5 := d5 _ y12 (depth_small hf) hf.pos
    refine ⟨s3, by rw [d2, c2, a2], d4, ?_⟩
    rw [if_neg hlast]
    by_cases hql : q < j.colSteps
    · rw [if_pos hql]
      have n3' := n3 1 (by
        rw [d6, d7]
        rcases Nat.lt_or_ge (q + 1) j.colSteps with hh | hh
        · rw [show decide (j.startCol + 8 * (q + 1) < j.lastCol) = true from decide_eq_true (by omega), Bool.or_true]
          rfl
        · rw [show decide (j.startCol + 8 * (q + 1) = j.lastCol) = true from decide_eq_true (by omega), Bool.true_or]
          rfl)
      have eP : nextP j p = 0 := by unfold nextP; rw [if_neg hlast]
      have eQ : nextQ j p q = q + 1 := by unfold nextQ; rw [if_neg hlast, if_pos hql]
      rw [eP] at xlc xlp data
      rw [eQ] at xrc xrp data
      refine ⟨(n1.trans n2).trans n3', ?_⟩
      have g : ∀ r, r ∈ [5, 6, 7, 8, 9, 10, 11, 12, 32, 33, 34, 35, 40, 41, 42] → s3.x r = s1.x r :=
        fun r hr => (d1.get (by revert r; decide)).trans (c1.get hr)
      have hv : s3.v = s1.v := d3.trans c3
      exact {
        mid := {
          x8 := (g _ (by decide)).trans x8
          x9 := (g _ (by decide)).trans x9
          x10 := (g _ (by decide)).trans x10
          x11 := (g _ (by decide)).trans x11
          x12 := (g _ (by decide)).trans x12
          dc := (d1.get (by decide)).trans c7'
          dp := (d1.get (by decide)).trans c8'
          row := (d1.get (by decide)).trans c5'
          col := (d1.get (by decide)).trans c6'
          rows := (g _ (by decide)).trans xrows
          cols := (g _ (by decide)).trans xcols
          tmp := (g _ (by decide)).trans xtmp
          mem := fun r h1 h2 => by rw [d2, c2]; exact mem r h1 h2
          ok := d4 }
        x1 := d5
        x5 := (g _ (by decide)).trans a5
        x6 := (g _ (by decide)).trans a6
        x7 := (g _ (by decide)).trans a7
        lc := (g _ (by decide)).trans xlc
        rc := (g _ (by decide)).trans xrc
        loop := start_loop d4 ((g _ (by decide)).trans xlp) ((g _ (by decide)).trans xrp)
          (fun u hu i hi => by rw [hv]; exact data u hu i hi) (by rw [hv]; exact fresh) }
    · rw [if_neg hql]
      refine (n1.trans n2).trans (n3 (o + 19) ?_)
      rw [d6, d7, show decide (j.startCol + 8 * (q + 1) < j.lastCol) = false from decide_eq_false (by omega),
        show decide (j.startCol + 8 * (q + 1) = j.lastCol) = false from decide_eq_false (by omega)]
      rfl

/-- A whole block. -/
theorem block_stored {j : Job A} (hf : j.Fits) {p q : Nat} (hp : p ≤ j.rowSteps)
    (hq : q ≤ j.colSteps) {s : St A} (h : Head cnt j p q s) :
    ∃ s1 s', Reach j.env P (1, s) (o + 15, s') ∧ s1.m = s.m ∧ Mid j p q s1 ∧ Next j p q s1 ∧
      Stored j p q (valAt ord j p q) s1 s' := by
  obtain ⟨sa, ra, ha, ma⟩ := summed hP hf hp hq h
  obtain ⟨sb, rb, hb, mb⟩ := biased hP hf hp hq ha
  obtain ⟨s', r1, h1⟩ := stored hP hf hp hq hb
  exact ⟨sb, s', (ra.trans rb).trans r1, mb.trans ma, hb.mid, hb.nxt, h1⟩

theorem started {j : Job A} (hf : j.Fits) {s : St A} (h : j.Start s) :
    ∃ s', Reach j.env P (0, s) (1, s') ∧ s'.m = s.m ∧ Head cnt j 0 0 s' := by
  have f1 := hf.row
  have f2 := hf.col
  have f3 := hf.lstride
  have f4 := hf.rstride
  have f5 := hf.dstride
  have f6 := depth_small hf
  have f7 := hf.pos
  have lr : j.lastRow = j.startRow + 8 * j.rowSteps := rfl
  obtain ⟨b, hb1, hb2, hb3⟩ := hP.first
  obtain ⟨a1, a2, x1, x5, x6, x7, x8, x9, x10, x11, x12, xl, xr, ab, al, ar, az⟩ := hb3 j s
  have n1 : Reach j.env P (0, s) (1, exec j.env b.body s) := Reach.block hb1 (by rw [hb2]; rfl)
  generalize exec j.env b.body s = s1 at *
  rw [Nat.mod_eq_of_lt (by omega)] at x6 x7 x8 x9 x10 x11 x12
  have x1 := x1 f6 f7
  have mem : ∀ r, r ≠ .dst → r ≠ .tmp → s.m r = j.m r := fun r _ h2 => h.mem r h2
  have rd := readable hf (Nat.zero_le _) (Nat.zero_le _) mem
  have el : lhsBlk j 0 = j.lhsBase := by unfold lhsBlk; omega
  have er : rhsBlk j 0 = j.rhsBase := by unfold rhsBlk; omega
  have sl := rd.sl
  have sr := rd.sr
  rw [el] at sl
  rw [er] at sr
  have bl : ∀ i, i < 2 → words s (addN (s.x lhsPtr) i) 0 = j.vec .lhs (j.lhsBase + 4 * i) := fun i _ => by
    rw [h.lhsP, addN_ptr]; exact words_eq rd.ml (Nat.add_zero _)
  have br : ∀ i, i < 2 → words s (addN (s.x rhsPtr) i) 0 = j.vec .rhs (j.rhsBase + 4 * i) := fun i _ => by
    rw [h.rhsP, addN_ptr]; exact words_eq rd.mr (Nat.add_zero _)
  have ol : ∀ i, i < 2 → out j.env (addN (s.x lhsPtr) i) 0 4 = false := fun i hi => by
    rw [h.lhsP, addN_ptr]
    exact out_ptr rfl (by show _ ≤ j.size .lhs; omega)
  have or' : ∀ i, i < 2 → out j.env (addN (s.x rhsPtr) i) 0 4 = false := fun i hi => by
    rw [h.rhsP, addN_ptr]
    exact out_ptr rfl (by show _ ≤ j.size .rhs; omega)
  rw [h.ok, ol 0 (by omega), ol 1 (by omega), or' 0 (by omega), or' 1 (by omega)] at ab
  rw [h.lhsP, addN_ptr] at xl
  rw [h.rhsP, addN_ptr] at xr
  refine ⟨s1, n1, a2, ?_⟩
  exact {
    mid := {
      x8 := x8, x9 := x9, x10 := x10, x11 := x11, x12 := x12
      dc := ((a1.get (by decide)).trans h.dstCol).trans (congrArg (Val.ptr _) (by ring))
      dp := ((a1.get (by decide)).trans h.dstP).trans (congrArg (Val.ptr _) (by unfold dstBlk; ring))
      row := (a1.get (by decide)).trans h.row
      col := (a1.get (by decide)).trans h.col
      rows := (a1.get (by decide)).trans h.rows
      cols := (a1.get (by decide)).trans h.cols
      tmp := (a1.get (by decide)).trans h.tmp
      mem := fun r h1 h2 => by rw [a2]; exact mem r h1 h2
      ok := ab }
    x1 := x1
    x5 := x5
    x6 := x6
    x7 := x7
    lc := ((a1.get (by decide)).trans h.lhsCol).trans (by rw [el])
    rc := ((a1.get (by decide)).trans h.rhsCol).trans (by rw [er])
    loop := start_loop ab (xl.trans (by rw [el])) (xr.trans (by rw [er]))
      (fun u hu i hi l hl => by
        obtain rfl : u = 0 := by omega
        rw [Nat.mul_zero, Nat.zero_add, Nat.zero_add, Nat.add_zero, al i hi, ar i hi,
          bl i hi, br i hi, el, er]
        unfold Job.vec
        exact ⟨congrArg _ (by omega), congrArg _ (by omega)⟩)
      az }

end

/-! ### Entries of the destination -/

def entryAt (ord : Nat → List Nat) (j : Job A) (r c : Nat) : A := valAt ord j (r / 8) (c / 8) (r % 8) (c % 8)

/-- The entries in `D` are computed, nothing else has changed. -/
def Filled (ord : Nat → List Nat) (j : Job A) (D : Nat → Nat → Prop) (m : Nat → A) : Prop :=
  (∀ r c, j.Inside r c → D r c → m (j.addr r c) = entryAt ord j r c) ∧
  (∀ o, (∀ r c, j.Inside r c → D r c → o ≠ j.addr r c) → m o = j.m .dst o)

theorem Filled.congr {ord : Nat → List Nat} {j : Job A} {D D' : Nat → Nat → Prop} {m : Nat → A} (h : Filled ord j D m)
    (hd : ∀ r c, j.Inside r c → (D r c ↔ D' r c)) : Filled ord j D' m :=
  ⟨fun r c hi h' => h.1 r c hi ((hd r c hi).2 h'),
    fun o ho => h.2 o (fun r c hi h' => ho r c hi ((hd r c hi).1 h'))⟩

/-- One more block. -/
theorem Filled.step {ord : Nat → List Nat} {j : Job A} (hf : j.Fits) {p q : Nat} (hp : p ≤ j.rowSteps) (hq : q ≤ j.colSteps)
    {D : Nat → Nat → Prop} {M : Region → Nat → A} (hD : Filled ord j D (M .dst))
    (hn : ∀ r c, D r c → ¬(r / 8 = p ∧ c / 8 = q)) :
    Filled ord j (fun r c => D r c ∨ (r / 8 = p ∧ c / 8 = q))
      (cols M (tileSeq (valAt ord j p q)) (dstBlk j p q) j.dstStride (rowsIn j p) (colsIn j q) .dst) := by
  have r4 : rowsIn j p ≤ 8 := by unfold rowsIn; omega
  have c4 : colsIn j q ≤ 8 := by unfold colsIn; omega
  have hrp := rows_pos hf hp
  have hst := hf.columns
  have hn0 : rowsIn j p ≤ j.dstStride := by unfold rowsIn; omega
  -- where a word written for column `i` is
  have at' : ∀ i, i < colsIn j q → ∀ x, x < rowsIn j p →
      dstBlk j p q + i * j.dstStride + x = j.addr (8 * p + x) (8 * q + i) ∧ j.Inside (8 * p + x) (8 * q + i) := by
    intro i hi x hx
    refine ⟨?_, ⟨by omega, by omega, ?_, ?_⟩⟩
    · unfold dstBlk Job.addr
      ring
    · unfold rowsIn at hx; omega
    · unfold colsIn at hi; omega
  refine ⟨fun r c hi hd => ?_, fun o ho => ?_⟩
  · by_cases hb' : r / 8 = p ∧ c / 8 = q
    · obtain ⟨rfl, rfl⟩ := hb'
      have e : j.addr r c = dstBlk j (r / 8) (c / 8) + c % 8 * j.dstStride + r % 8 := by
        unfold Job.addr dstBlk
        conv_lhs => rw [← Nat.div_add_mod r 8, ← Nat.div_add_mod c 8]
        ring
      obtain ⟨i1, i2, i3, i4⟩ := hi
      have hr : r % 8 < rowsIn j (r / 8) := by unfold rowsIn; omega
      have hc : c % 8 < colsIn j (c / 8) := by unfold colsIn; omega
      rw [e, cols_at hn0 hc hr]
      unfold tileSeq entryAt
      rw [show (8 * (c % 8) + r % 8) % 8 = r % 8 by omega, show (8 * (c % 8) + r % 8) / 8 = c % 8 by omega]
    · have hd' : D r c := hd.resolve_right hb'
      rw [cols_not]
      · exact hD.1 r c hi hd'
      · intro i h1 x h2 he
        obtain ⟨e1, e2⟩ := at' i h1 x h2
        rw [e1] at he
        unfold Job.addr at he
        have i1 := hi.2.2.1
        have i2 := e2.2.2.1
        obtain ⟨k1, k2⟩ := col_unique (S := j.dstStride) (c := c) (x := r) (c' := 8 * q + i)
          (x' := 8 * p + x) (by omega) (by omega) (by omega)
        exact hb' ⟨by omega, by omega⟩
  · rw [cols_not]
    · exact hD.2 o (fun r c hi hd => ho r c hi (.inl hd))
    · intro i h1 x h2 he
      obtain ⟨e1, e2⟩ := at' i h1 x h2
      exact ho _ _ e2 (.inr ⟨by omega, by omega⟩) (he.trans e1)

/-! ### All blocks -/

def Before (p q r c : Nat) : Prop := c / 8 < q ∨ (c / 8 = q ∧ r / 8 < p)

section
variable {P : List Block} {o : Nat} {cnt : Nat → Nat} {ord : Nat → List Nat} (hP : Prog P o cnt ord)
include hP

/-- From block (`p`, `q`) to the end. -/
theorem finish {j : Job A} (hf : j.Fits) (n : Nat) : ∀ {p q : Nat}, p ≤ j.rowSteps → q ≤ j.colSteps →
    (j.colSteps - q) * (j.rowSteps + 1) + (j.rowSteps - p) = n → ∀ {s : St A}, Head cnt j p q s →
    Filled ord j (Before p q) (s.m .dst) →
    ∃ s', Reach j.env P (1, s) (o + 19, s') ∧ s'.bad = false ∧ (∀ r, r ≠ .dst → r ≠ .tmp → s'.m r = j.m r) ∧
      Filled ord j (fun _ _ => True) (s'.m .dst) := by
  induction n using Nat.strong_induction_on with
  | _ n ih =>
    intro p q hp hq hn s h hd
    obtain ⟨s1, s2, r1, m1, md, nx, st⟩ := block_stored hP hf hp hq h
    obtain ⟨s3, m3, ok3, nxt⟩ := advanced hP hf hp hq md nx st
    have hd' : Filled ord j (fun r c => Before p q r c ∨ (r / 8 = p ∧ c / 8 = q)) (s3.m .dst) := by
      rw [m3, st.dst]
      refine Filled.step hf hp hq (by rw [m1]; exact hd) (fun r c hb => ?_)
      unfold Before at hb
      omega
    have keepm : ∀ r, r ≠ .dst → r ≠ .tmp → s3.m r = j.m r := fun r a b => by
      rw [m3, st.m r a b]; exact md.mem r a b
    by_cases h1 : p < j.rowSteps
    · rw [if_pos h1] at nxt
      obtain ⟨r2, h2⟩ := nxt
      obtain ⟨s', r3, h3⟩ := ih _ (by omega) (p := p + 1) (by omega) hq rfl h2
        (hd'.congr (fun r c _ => by unfold Before; omega))
      exact ⟨s', (r1.trans r2).trans r3, h3⟩
    · rw [if_neg h1] at nxt
      by_cases h2 : q < j.colSteps
      · rw [if_pos h2] at nxt
        obtain ⟨r2, h2'⟩ := nxt
        have e : (j.colSteps - q) * (j.rowSteps + 1) =
            (j.colSteps - (q + 1)) * (j.rowSteps + 1) + (j.rowSteps + 1) := by
          rw [← Nat.succ_mul]; congr 1; omega
        obtain ⟨s', r3, h3⟩ := ih _ (by omega) (p := 0) (q := q + 1) (by omega) (by omega) rfl h2'
          (hd'.congr (fun r c hi => by unfold Before; obtain ⟨i1, i2, _⟩ := hi; omega))
        exact ⟨s', (r1.trans r2).trans r3, h3⟩
      · rw [if_neg h2] at nxt
        exact ⟨s3, r1.trans nxt, ok3, keepm,
          hd'.congr (fun r c hi => by unfold Before; obtain ⟨i1, i2, _⟩ := hi; simp only [iff_true]; omega)⟩

/-- The whole statement. -/
theorem finished {j : Job A} (hf : j.Fits) {s : St A} (h : j.Start s) :
    ∃ s', Stops j.env P s s' ∧ j.Result (entryAt ord j) s' := by
  obtain ⟨s1, r1, m1, h1⟩ := started hP hf h
  obtain ⟨s', r2, ok, mem, fl⟩ := finish hP hf _ (Nat.zero_le _) (Nat.zero_le _) rfl h1
    ⟨fun r c _ hb => by unfold Before at hb; omega, fun o _ => by rw [m1, h.mem .dst (by decide)]⟩
  refine ⟨s', stops_of ?_, ok, mem, fun r c hi => fl.1 r c hi trivial, fun o ho => fl.2 o (fun r c hi _ => ho r c hi)⟩
  rw [hP.len]
  exact r1.trans r2

end

/-! ### The value of an entry -/

theorem entryAt_eq (ord : Nat → List Nat) {j : Job A} (hb : j.NoBias) (r c : Nat) : entryAt ord j r c =
    j.outOf (j.sumOf (orderOf (inOrder j.depth) (ord j.depth) (r % 8) (c % 8)) r c) r c := by
  have e : j.m .bias (biasBase j (r / 8) (c / 8) + lane j (r % 8) (c % 8)) = j.biasOf r c := by
    unfold biasBase chan lane Job.biasOf
    cases h : j.hasBias
    · simp only [Bool.false_eq_true, if_false]
      exact hb h _ (by split_ifs <;> omega)
    · simp only [if_true]
      congr 1
      split_ifs <;> omega
  unfold entryAt valAt biasedAt
  rw [e]
  rfl

end Ruy.NeonF

import Verif.Arm32.Store
import Verif.NeonF.Whole
/-
The ARM32 float kernel: the loop over blocks of the destination, the prologue, and the destination at the end.
-/
namespace Ruy.Arm32
open Ruy.Neon (sgn sgn_of col_unique)
open Ruy.NeonF (St Val Region Same addVal addN addN_ptr out words sgn_lt sgn_eq cols cols_at cols_not tileSeq)
variable {A : Type}

theorem k23x (e : Env A) (s : St A) : Same [13, 34, 35, 42, 64, 96, 112, 128, 144] s (exec e k23.body s) ∧
    (exec e k23.body s).m = s.m ∧ (exec e k23.body s).v = s.v ∧
    (exec e k23.body s).bad = (s.bad || Nat.blt (s.x 13).num (16 + 4) || !(s.x 80).isPtr || Nat.blt (s.x 13).num (16 + 4) ||
      Nat.blt (s.x 13).num (32 + 4) || !(s.x 96).isInt || !(e.field .lastRow).isInt) ∧
    (exec e k23.body s).x 80 = addVal (s.x 80) 32 ∧
    (exec e k23.body s).x 6 = e.field .startRow ∧ (exec e k23.body s).x 8 = s.x 96 ∧
    (exec e k23.body s).z = decide (sgn (s.x 96).num = sgn (e.field .lastRow).num) := by
  cases s
  exact ⟨by keep, rfl, rfl, rfl, rfl, rfl, rfl, rfl⟩

theorem k24x (e : Env A) (s : St A) : Same [13, 34, 35, 42, 64, 80, 112, 128, 144] s (exec e k24.body s) ∧
    (exec e k24.body s).m = s.m ∧ (exec e k24.body s).v = s.v ∧
    (exec e k24.body s).bad = (s.bad || !(s.x 8).isInt || Nat.blt (s.x 13).num (32 + 4)) ∧
    (exec e k24.body s).x 96 = .int (((s.x 8).num + 8) % 2 ^ 32) := by
  cases s
  exact ⟨by keep, rfl, rfl, rfl, rfl⟩

theorem k25x (e : Env A) (s : St A) : Same [13, 34, 35, 42, 128, 144] s (exec e k25.body s) ∧
    (exec e k25.body s).m = s.m ∧ (exec e k25.body s).v = s.v ∧
    (exec e k25.body s).bad = (s.bad || Nat.blt (s.x 13).num (32 + 4) || Nat.blt (s.x 13).num (48 + 4) ||
      !(s.x 112).isInt || Nat.blt (s.x 13).num (48 + 4) || Nat.blt (s.x 13).num (0 + 4) || !(s.x 64).isPtr ||
      !(e.field .dstStride).isInt || Nat.blt (s.x 13).num (0 + 4) || Nat.blt (s.x 13).num (16 + 4)) ∧
    (exec e k25.body s).x 96 = s.x 6 ∧
    (exec e k25.body s).x 112 = .int (((s.x 112).num + 4) % 2 ^ 32) ∧
    (exec e k25.body s).x 64 = addVal (s.x 64) ((e.field .dstStride).num * 2 ^ 2 % 2 ^ 32) ∧
    (exec e k25.body s).x 80 = addVal (s.x 64) ((e.field .dstStride).num * 2 ^ 2 % 2 ^ 32) := by
  cases s
  exact ⟨by keep, rfl, rfl, rfl, rfl, rfl, rfl, rfl⟩

theorem k26x (e : Env A) (s : St A) : Same [13, 34, 35, 42, 64, 80, 96, 112, 128, 144] s (exec e k26.body s) ∧
    (exec e k26.body s).m = s.m ∧ (exec e k26.body s).v = s.v ∧
    (exec e k26.body s).bad = (s.bad || Nat.blt (s.x 13).num (48 + 4) || !(s.x 112).isInt || !(e.field .lastCol).isInt) ∧
    (exec e k26.body s).x 1 = .int 1 ∧
    (exec e k26.body s).z = decide (sgn (s.x 112).num = sgn (e.field .lastCol).num) ∧
    (exec e k26.body s).lt = decide (sgn (s.x 112).num < sgn (e.field .lastCol).num) := by
  cases s
  exact ⟨by keep, rfl, rfl, rfl, rfl, rfl, rfl⟩

theorem k27x (e : Env A) (s : St A) : (exec e k27.body s).m = s.m ∧
    (exec e k27.body s).bad = (s.bad || Nat.blt (s.x 13).num 96) ∧
    (exec e k27.body s).x 13 = .int ((s.x 13).num - 96) := by
  cases s
  exact ⟨rfl, rfl, rfl⟩

/-- From the end of a store to label 1, or to the end. -/
theorem advanced {j : Job A} (hf : j.Fits) {p q : Nat} (hp : p ≤ j.rowSteps)
    (hq : q ≤ j.colSteps) {f : Nat → Nat → A} {s0 s : St A} (hm : Mid j p q s0) (hn : Ready j p q s0)
    (h : Stored j p q f s0 s) :
    ∃ s', s'.m = s.m ∧ s'.bad = false ∧
      if p < j.rowSteps then Reach j.env kernel (23, s) (1, s') ∧ Head j (p + 1) q s'
      else if q < j.colSteps then Reach j.env kernel (23, s) (1, s') ∧ Head j 0 (q + 1) s'
      else Reach j.env kernel (23, s) (28, s') ∧ s'.x 13 = .int 0 := by
  have f1 := hf.row
  have f2 := hf.col
  have lr : j.lastRow = j.startRow + 8 * j.rowSteps := rfl
  have lc : j.lastCol = j.startCol + 4 * j.colSteps := rfl
  have sp0 : s.x 13 = .int 96 := (h.same.get (by decide)).trans hm.sp
  have xr : s.x 96 = .int (j.startRow + 8 * p) := (h.same.get (by decide)).trans hm.row
  have xp : s.x 80 = .ptr .dst (4 * dstBlk j p q) := (h.same.get (by decide)).trans hm.dp
  obtain ⟨a1, a2, av, a3, a4, a6, a8, az⟩ := k23x j.env s
  have nx : ∀ l, (bif (exec j.env k23.body s).z then 25 else 24) = l →
      Reach j.env kernel (23, s) (l, exec j.env k23.body s) := fun l hl => Reach.block (b := k23) rfl hl
  generalize exec j.env k23.body s = s1 at *
  rw [h.ok, sp0, xr, xp] at a3
  have a3' : s1.bad = false := a3
  rw [xr] at a8 az
  have z1 : s1.z = decide (j.startRow + 8 * p = j.lastRow) := az.trans (sgn_eq (A := A) (by omega) (by omega))
  rw [xp] at a4
  have get : ∀ r, r ∈ [13, 34, 35, 42, 64, 112, 128, 144] → s1.x r = s0.x r := fun r hr =>
    (a1.get (by revert r; decide)).trans (h.same.get (by revert r; decide))
  have sp1 : s1.x 13 = .int 96 := (get 13 (by decide)).trans hm.sp
  have xlc := (get 128 (by decide)).trans hn.lc
  have xrc := (get 144 (by decide)).trans hn.rc
  have xlp := (get 34 (by decide)).trans hn.lp
  have xrp := (get 35 (by decide)).trans hn.rp
  have xdc := (get 64 (by decide)).trans hm.dc
  have xcol := (get 112 (by decide)).trans hm.col
  have xtmp := (get 42 (by decide)).trans hm.tmp
  have mem : ∀ r, r ≠ .dst → r ≠ .tmp → s1.m r = j.m r := fun r h1 h2 => by
    rw [a2, h.m r h1 h2]; exact hm.mem r h1 h2
  have data : Data j (lhsBlk j (nextP j p)) (rhsBlk j (nextQ j p q)) 0 s1 := by
    obtain ⟨d1, d2, d3⟩ := hn.data
    unfold Data
    rw [av, h.fresh.1 0 (by omega), h.fresh.1 1 (by omega), h.fresh.1 2 (by omega)]
    exact ⟨d1, d2, d3⟩
  have fresh : Tile (fun _ _ => j.ops.zero) s1 := by
    intro w hw u hu i hi
    rw [av, Nat.add_assoc, h.fresh.2 _ (by omega)]
  by_cases hlast : p < j.rowSteps
  · have n1 := nx 24 (by rw [z1, decide_eq_false (by omega)]; rfl)
    obtain ⟨c1, c2, c3, c4, c5⟩ := k24x j.env s1
    have n2 : Reach j.env kernel (24, s1) (26, exec j.env k24.body s1) := Reach.block (b := k24) rfl rfl
    generalize exec j.env k24.body s1 = s2 at *
    rw [a3', a8, sp1] at c4
    rw [a8] at c5
    have c4' : s2.bad = false := c4
    have c5' : s2.x 96 = .int (j.startRow + 8 * (p + 1)) := c5.trans (congrArg Val.int (by
      simp only [Val.num]; omega))
    obtain ⟨d1, d2, d3, d4, d5, d6, d7⟩ := k26x j.env s2
    have n3 : ∀ l, (bif (exec j.env k26.body s2).z || (exec j.env k26.body s2).lt then 1 else 27) = l →
        Reach j.env kernel (26, s2) (l, exec j.env k26.body s2) := fun l hl => Reach.block (b := k26) rfl hl
    generalize exec j.env k26.body s2 = s3 at *
    have ycol : s2.x 112 = .int (j.startCol + 4 * q) := (c1.get (by decide)).trans xcol
    rw [ycol] at d6 d7
    have d6' : s3.z = decide (j.startCol + 4 * q = j.lastCol) := d6.trans (sgn_eq (A := A) (by omega) (by omega))
    have d7' : s3.lt = decide (j.startCol + 4 * q < j.lastCol) := d7.trans (sgn_lt (A := A) (by omega) (by omega))
    rw [c4', ycol, c1.get (by decide), sp1] at d4
    have d4' : s3.bad = false := d4
    have n3' := n3 1 (by
      rw [d6', d7']
      rcases Nat.lt_or_ge q j.colSteps with hh | hh
      · rw [show decide (j.startCol + 4 * q < j.lastCol) = true from decide_eq_true (by omega), Bool.or_true]; rfl
      · rw [show decide (j.startCol + 4 * q = j.lastCol) = true from decide_eq_true (by omega), Bool.true_or]; rfl)
    have eP : nextP j p = p + 1 := by unfold nextP; rw [if_pos hlast]
    have eQ : nextQ j p q = q := by unfold nextQ; rw [if_pos hlast]
    rw [eP] at xlc xlp data
    rw [eQ] at xrc xrp data
    refine ⟨s3, by rw [d2, c2, a2], d4', ?_⟩
    rw [if_pos hlast]
    refine ⟨(n1.trans n2).trans n3', ?_⟩
    have g : ∀ r, r ∈ [13, 34, 35, 42, 64, 80, 112, 128, 144] → s3.x r = s1.x r :=
      fun r hr => (d1.get (by revert r; decide)).trans (c1.get hr)
    have hv : s3.v = s1.v := d3.trans c3
    exact {
      mid := {
        sp := (g _ (by decide)).trans sp1
        tmp := (g _ (by decide)).trans xtmp
        dc := (g _ (by decide)).trans xdc
        dp := ((g _ (by decide)).trans a4).trans (congrArg (Val.ptr _) (by unfold dstBlk; ring))
        row := (d1.get (by decide)).trans c5'
        col := (g _ (by decide)).trans xcol
        mem := fun r h1 h2 => by rw [d2, c2]; exact mem r h1 h2
        ok := d4' }
      x1 := d5
      lc := (g _ (by decide)).trans xlc
      rc := (g _ (by decide)).trans xrc
      lp := (g _ (by decide)).trans xlp
      rp := (g _ (by decide)).trans xrp
      data := by unfold Data; rw [hv]; exact data
      fresh := fresh.congr hv }
  · have n1 := nx 25 (by rw [z1, decide_eq_true (by omega)]; rfl)
    obtain ⟨c1, c2, c3, c4, c5, c6, c7, c8⟩ := k25x j.env s1
    have n2 : Reach j.env kernel (25, s1) (26, exec j.env k25.body s1) := Reach.block (b := k25) rfl rfl
    generalize exec j.env k25.body s1 = s2 at *
    rw [a3', sp1, xcol, xdc] at c4
    have c4' : s2.bad = false := c4
    have c5' : s2.x 96 = .int (j.startRow + 8 * 0) := c5.trans a6
    rw [xcol] at c6
    have c6' : s2.x 112 = .int (j.startCol + 4 * (q + 1)) := c6.trans (congrArg Val.int (by
      simp only [Val.num]; omega))
    rw [xdc] at c7 c8
    obtain ⟨d1, d2, d3, d4, d5, d6, d7⟩ := k26x j.env s2
    have n3 : ∀ l, (bif (exec j.env k26.body s2).z || (exec j.env k26.body s2).lt then 1 else 27) = l →
        Reach j.env kernel (26, s2) (l, exec j.env k26.body s2) := fun l hl => Reach.block (b := k26) rfl hl
    generalize exec j.env k26.body s2 = s3 at *
    rw [c6'] at d6 d7
    have d6' : s3.z = decide (j.startCol + 4 * (q + 1) = j.lastCol) := d6.trans (sgn_eq (A := A) (by omega) (by omega))
    have d7' : s3.lt = decide (j.startCol + 4 * (q + 1) < j.lastCol) := d7.trans (sgn_lt (A := A) (by omega) (by omega))
    rw [c4', c6', c1.get (by decide), sp1] at d4
    have d4' : s3.bad = false := d4
    have g : ∀ r, r ∈ [13, 34, 35, 42, 128, 144] → s3.x r = s1.x r :=
      fun r hr => (d1.get (by revert r; decide)).trans (c1.get hr)
    by_cases hql : q < j.colSteps
    · have n3' := n3 1 (by
        rw [d6', d7']
        rcases Nat.lt_or_ge (q + 1) j.colSteps with hh | hh
        · rw [show decide (j.startCol + 4 * (q + 1) < j.lastCol) = true from decide_eq_true (by omega), Bool.or_true]
          rfl
        · rw [show decide (j.startCol + 4 * (q + 1) = j.lastCol) = true from decide_eq_true (by omega), Bool.true_or]
          rfl)
      have eP : nextP j p = 0 := by unfold nextP; rw [if_neg hlast]
      have eQ : nextQ j p q = q + 1 := by unfold nextQ; rw [if_neg hlast, if_pos hql]
      rw [eP] at xlc xlp data
      rw [eQ] at xrc xrp data
      have small : 4 * j.dstStride * 2 ^ 2 % 2 ^ 32 = 4 * j.dstStride * 2 ^ 2 := by
        refine Nat.mod_eq_of_lt ?_
        have h1 := hf.colIn
        have h2 := hf.rowIn
        have h3 := hf.dst 0 4 (by omega) (by omega) (by omega) (by omega)
        have h4 := hf.memory .dst
        omega
      have c7' : s2.x 64 = .ptr .dst (4 * (j.dstBase + (q + 1) * (4 * j.dstStride))) := c7.trans (by
        show Val.ptr .dst (4 * (j.dstBase + q * (4 * j.dstStride)) + 4 * j.dstStride * 2 ^ 2 % 2 ^ 32) = _
        rw [small]
        exact congrArg (Val.ptr _) (by ring))
      have c8' : s2.x 80 = .ptr .dst (4 * dstBlk j 0 (q + 1)) := c8.trans (by
        show Val.ptr .dst (4 * (j.dstBase + q * (4 * j.dstStride)) + 4 * j.dstStride * 2 ^ 2 % 2 ^ 32) = _
        rw [small]
        exact congrArg (Val.ptr _) (by unfold dstBlk; ring))
      refine ⟨s3, by rw [d2, c2, a2], d4', ?_⟩
      rw [if_neg hlast, if_pos hql]
      refine ⟨(n1.trans n2).trans n3', ?_⟩
      have hv : s3.v = s1.v := d3.trans c3
      exact {
        mid := {
          sp := (g _ (by decide)).trans sp1
          tmp := (g _ (by decide)).trans xtmp
          dc := (d1.get (by decide)).trans c7'
          dp := (d1.get (by decide)).trans c8'
          row := (d1.get (by decide)).trans c5'
          col := (d1.get (by decide)).trans c6'
          mem := fun r h1 h2 => by rw [d2, c2]; exact mem r h1 h2
          ok := d4' }
        x1 := d5
        lc := (g _ (by decide)).trans xlc
        rc := (g _ (by decide)).trans xrc
        lp := (g _ (by decide)).trans xlp
        rp := (g _ (by decide)).trans xrp
        data := by unfold Data; rw [hv]; exact data
        fresh := fresh.congr hv }
    · have n3' := n3 27 (by
        rw [d6', d7', show decide (j.startCol + 4 * (q + 1) < j.lastCol) = false from decide_eq_false (by omega),
          show decide (j.startCol + 4 * (q + 1) = j.lastCol) = false from decide_eq_false (by omega)]
        rfl)
      obtain ⟨g1, g2, g3⟩ := k27x j.env s3
      have n4 : Reach j.env kernel (27, s3) (28, exec j.env k27.body s3) := Reach.block (b := k27) rfl rfl
      generalize exec j.env k27.body s3 = s4 at *
      have sp3 : s3.x 13 = .int 96 := (g _ (by decide)).trans sp1
      rw [sp3] at g2 g3
      rw [d4'] at g2
      refine ⟨s4, by rw [g1, d2, c2, a2], g2, ?_⟩
      rw [if_neg hlast, if_neg hql]
      exact ⟨((n1.trans n2).trans n3').trans n4, g3⟩

/-- A whole block. -/
theorem block_stored {j : Job A} (hf : j.Fits) {p q : Nat} (hp : p ≤ j.rowSteps)
    (hq : q ≤ j.colSteps) {s : St A} (h : Head j p q s) :
    ∃ s1 s', Reach j.env kernel (1, s) (23, s') ∧ s1.m = s.m ∧ Mid j p q s1 ∧ Ready j p q s1 ∧
      Stored j p q (valAt j p q) s1 s' := by
  obtain ⟨sa, ra, ha, ma⟩ := summed hf hp hq h
  obtain ⟨sb, rb, hb, mb⟩ := aimed hf hq ha
  obtain ⟨sc, rc, hc, mc⟩ := biased hf hp hq hb
  obtain ⟨s', r1, h1⟩ := stored hf hp hq hc
  exact ⟨sc, s', ((ra.trans rb).trans rc).trans r1, mc.trans (mb.trans ma), hc.mid, hc.nxt, h1⟩

theorem k0x (e : Env A) (s : St A) :
    (exec e k0.body s).m = s.m ∧
    (exec e k0.body s).bad = (s.bad || out e.base (s.x 34) 0 4 || out e.base (addN (s.x 34) 1) 0 4 ||
      out e.base (s.x 35) 0 4 || Nat.blt ((s.x 13).num + 96) (0 + 4) || Nat.blt ((s.x 13).num + 96) (16 + 4) ||
      Nat.blt ((s.x 13).num + 96) (32 + 4) || Nat.blt ((s.x 13).num + 96) (48 + 4) ||
      Nat.blt ((s.x 13).num + 96) (64 + 4) || Nat.blt ((s.x 13).num + 96) (80 + 4)) ∧
    (exec e k0.body s).x 13 = .int ((s.x 13).num + 96) ∧ (exec e k0.body s).x 42 = s.x 42 ∧
    (exec e k0.body s).x 34 = addN (s.x 34) 2 ∧ (exec e k0.body s).x 35 = addN (s.x 35) 1 ∧
    (exec e k0.body s).x 64 = e.field .dstBasePtr ∧ (exec e k0.body s).x 80 = e.field .dstBasePtr ∧
    (exec e k0.body s).x 96 = e.field .startRow ∧ (exec e k0.body s).x 112 = e.field .startCol ∧
    (exec e k0.body s).x 128 = e.field .lhsBasePtr ∧ (exec e k0.body s).x 144 = e.field .rhsBasePtr ∧
    (exec e k0.body s).x 1 = .int 1 ∧
    (exec e k0.body s).v 0 = words s (addN (s.x 34) 0) 0 ∧ (exec e k0.body s).v 1 = words s (addN (s.x 34) 1) 0 ∧
    (exec e k0.body s).v 2 = words s (addN (s.x 35) 0) 0 ∧
    (∀ i, i < 8 → (exec e k0.body s).v (3 + i) = fun _ => e.ops.zero) := by
  cases s
  exact ⟨rfl, rfl, rfl, rfl, rfl, rfl, rfl, rfl, rfl, rfl, rfl, rfl, rfl, rfl, rfl, rfl, by
    intro i hi; interval_cases i <;> rfl⟩

theorem started {j : Job A} (hf : j.Fits) {s : St A} (h : j.Start s) :
    ∃ s', Reach j.env kernel (0, s) (1, s') ∧ s'.m = s.m ∧ Head j 0 0 s' := by
  have pos := hf.pos
  have bl := lhs_bound hf (Nat.zero_le j.rowSteps)
  have br := rhs_bound hf (Nat.zero_le j.colSteps)
  have el : lhsBlk j 0 = j.lhsBase := by unfold lhsBlk; omega
  have er : rhsBlk j 0 = j.rhsBase := by unfold rhsBlk; omega
  rw [el] at bl
  rw [er] at br
  have ml : s.m .lhs = j.m .lhs := h.mem _ (by decide)
  have mr : s.m .rhs = j.m .rhs := h.mem _ (by decide)
  have lp34 : s.x 34 = _ := h.lhsP
  have rp35 : s.x 35 = _ := h.rhsP
  obtain ⟨a1, a2, a3, a4, a5, a6, a7, a8, a9, a10, a11, a12, a13, v0, v1, v2, v3⟩ := k0x j.env s
  have n1 : Reach j.env kernel (0, s) (1, exec j.env k0.body s) := Reach.block (b := k0) rfl rfl
  generalize exec j.env k0.body s = s1 at *
  rw [lp34, addN_ptr, words_eq ml] at v0 v1
  rw [rp35, addN_ptr, words_eq mr] at v2
  rw [lp34, addN_ptr] at a5
  rw [rp35, addN_ptr] at a6
  rw [h.sp] at a3
  rw [h.ok, h.sp, lp34, rp35, addN_ptr, out_ok (by omega), out_ok (by omega), out_ok (by omega)] at a2
  refine ⟨s1, n1, a1, ?_⟩
  exact {
    mid := {
      sp := a3
      tmp := a4.trans h.tmp
      dc := a7.trans (congrArg (Val.ptr _) (by ring))
      dp := a8.trans (congrArg (Val.ptr _) (by unfold dstBlk; ring))
      row := a9
      col := a10
      mem := fun r _ h2 => by rw [a1]; exact h.mem r h2
      ok := a2 }
    x1 := a13
    lc := a11.trans (by rw [el]; rfl)
    rc := a12.trans (by rw [er]; rfl)
    lp := a5.trans (by rw [el])
    rp := a6.trans (by rw [er])
    data := ⟨v0.trans (congrArg (j.vec _) (by omega)), v1.trans (congrArg (j.vec _) (by omega)),
      v2.trans (congrArg (j.vec _) (by omega))⟩
    fresh := by
      intro w hw u hu i hi
      rw [Nat.add_assoc, v3 _ (by omega)]
      rfl }

/-! ### Entries of the destination -/

def entryAt (j : Job A) (r c : Nat) : A := valAt j (r / 8) (c / 4) (r % 8) (c % 4)

/-- The entries in `D` are computed, nothing else has changed. -/
def Filled (j : Job A) (D : Nat → Nat → Prop) (m : Nat → A) : Prop :=
  (∀ r c, j.Inside r c → D r c → m (j.addr r c) = entryAt j r c) ∧
  (∀ o, (∀ r c, j.Inside r c → D r c → o ≠ j.addr r c) → m o = j.m .dst o)

theorem Filled.congr {j : Job A} {D D' : Nat → Nat → Prop} {m : Nat → A} (h : Filled j D m)
    (hd : ∀ r c, j.Inside r c → (D r c ↔ D' r c)) : Filled j D' m :=
  ⟨fun r c hi h' => h.1 r c hi ((hd r c hi).2 h'),
    fun o ho => h.2 o (fun r c hi h' => ho r c hi ((hd r c hi).1 h'))⟩

/-- One more block. -/
theorem Filled.step {j : Job A} (hf : j.Fits) {p q : Nat} (hp : p ≤ j.rowSteps) (hq : q ≤ j.colSteps)
    {D : Nat → Nat → Prop} {M : Region → Nat → A} (hD : Filled j D (M .dst)) :
    Filled j (fun r c => D r c ∨ (r / 8 = p ∧ c / 4 = q))
      (cols M (tileSeq (valAt j p q)) (dstBlk j p q) j.dstStride (rowsIn j p) (colsIn j q) .dst) := by
  have r4 : rowsIn j p ≤ 8 := by unfold rowsIn; omega
  have c4 : colsIn j q ≤ 4 := by unfold colsIn; omega
  have hrp := rows_pos hf hp
  have hst := hf.columns
  have hn0 : rowsIn j p ≤ j.dstStride := by unfold rowsIn; omega
  -- where a word written for column `i` is
  have at' : ∀ i, i < colsIn j q → ∀ x, x < rowsIn j p →
      dstBlk j p q + i * j.dstStride + x = j.addr (8 * p + x) (4 * q + i) ∧ j.Inside (8 * p + x) (4 * q + i) := by
    intro i hi x hx
    refine ⟨?_, ⟨by omega, by omega, ?_, ?_⟩⟩
    · unfold dstBlk Job.addr
      ring
    · unfold rowsIn at hx; omega
    · unfold colsIn at hi; omega
  refine ⟨fun r c hi hd => ?_, fun o ho => ?_⟩
  · by_cases hb' : r / 8 = p ∧ c / 4 = q
    · obtain ⟨rfl, rfl⟩ := hb'
      have e : j.addr r c = dstBlk j (r / 8) (c / 4) + c % 4 * j.dstStride + r % 8 := by
        unfold Job.addr dstBlk
        conv_lhs => rw [← Nat.div_add_mod r 8, ← Nat.div_add_mod c 4]
        ring
      obtain ⟨i1, i2, i3, i4⟩ := hi
      have hr : r % 8 < rowsIn j (r / 8) := by unfold rowsIn; omega
      have hc : c % 4 < colsIn j (c / 4) := by unfold colsIn; omega
      rw [e, cols_at hn0 hc hr]
      unfold tileSeq entryAt
      rw [show (8 * (c % 4) + r % 8) % 8 = r % 8 by omega, show (8 * (c % 4) + r % 8) / 8 = c % 4 by omega]
    · have hd' : D r c := hd.resolve_right hb'
      rw [cols_not]
      · exact hD.1 r c hi hd'
      · intro i h1 x h2 he
        obtain ⟨e1, e2⟩ := at' i h1 x h2
        rw [e1] at he
        unfold Job.addr at he
        have i1 := hi.2.2.1
        have i2 := e2.2.2.1
        obtain ⟨k1, k2⟩ := col_unique (S := j.dstStride) (c := c) (x := r) (c' := 4 * q + i)
          (x' := 8 * p + x) (by omega) (by omega) (by omega)
        exact hb' ⟨by omega, by omega⟩
  · rw [cols_not]
    · exact hD.2 o (fun r c hi hd => ho r c hi (.inl hd))
    · intro i h1 x h2 he
      obtain ⟨e1, e2⟩ := at' i h1 x h2
      exact ho _ _ e2 (.inr ⟨by omega, by omega⟩) (he.trans e1)

/-! ### All blocks -/

def Before (p q r c : Nat) : Prop := c / 4 < q ∨ (c / 4 = q ∧ r / 8 < p)

/-- From block (`p`, `q`) to the end. -/
theorem finish {j : Job A} (hf : j.Fits) (n : Nat) : ∀ {p q : Nat}, p ≤ j.rowSteps → q ≤ j.colSteps →
    (j.colSteps - q) * (j.rowSteps + 1) + (j.rowSteps - p) = n → ∀ {s : St A}, Head j p q s →
    Filled j (Before p q) (s.m .dst) →
    ∃ s', Reach j.env kernel (1, s) (28, s') ∧ s'.bad = false ∧ s'.x 13 = .int 0 ∧
      (∀ r, r ≠ .dst → r ≠ .tmp → s'.m r = j.m r) ∧ Filled j (fun _ _ => True) (s'.m .dst) := by
  induction n using Nat.strong_induction_on with
  | _ n ih =>
    intro p q hp hq hn s h hd
    obtain ⟨s1, s2, r1, m1, md, nx, st⟩ := block_stored hf hp hq h
    obtain ⟨s3, m3, ok3, nxt⟩ := advanced hf hp hq md nx st
    have hd' : Filled j (fun r c => Before p q r c ∨ (r / 8 = p ∧ c / 4 = q)) (s3.m .dst) := by
      rw [m3, st.dst]
      exact Filled.step hf hp hq (by rw [m1]; exact hd)
    have keepm : ∀ r, r ≠ .dst → r ≠ .tmp → s3.m r = j.m r := fun r a b => by
      rw [m3, st.m r a b]; exact md.mem r a b
    by_cases h1 : p < j.rowSteps
    · rw [if_pos h1] at nxt
      obtain ⟨r2, h2⟩ := nxt
      obtain ⟨s', r3, h3⟩ := ih _ (by omega) (p := p + 1) (by omega) hq rfl h2
        (hd'.congr (fun r c _ => by unfold Before; omega))
      exact ⟨s', (r1.trans r2).trans r3, h3⟩
    · rw [if_neg h1] at nxt
      by_cases h2 : q < j.colSteps
      · rw [if_pos h2] at nxt
        obtain ⟨r2, h2'⟩ := nxt
        have e : (j.colSteps - q) * (j.rowSteps + 1) =
            (j.colSteps - (q + 1)) * (j.rowSteps + 1) + (j.rowSteps + 1) := by
          rw [← Nat.succ_mul]; congr 1; omega
        obtain ⟨s', r3, h3⟩ := ih _ (by omega) (p := 0) (q := q + 1) (by omega) (by omega) rfl h2'
          (hd'.congr (fun r c hi => by unfold Before; obtain ⟨i1, i2, _⟩ := hi; omega))
        exact ⟨s', (r1.trans r2).trans r3, h3⟩
      · rw [if_neg h2] at nxt
        exact ⟨s3, r1.trans nxt.1, ok3, nxt.2, keepm,
          hd'.congr (fun r c hi => by unfold Before; obtain ⟨i1, i2, _⟩ := hi; simp only [iff_true]; omega)⟩

/-- The whole statement. -/
theorem finished {j : Job A} (hf : j.Fits) {s : St A} (h : j.Start s) :
    ∃ s', Stops j.env kernel s s' ∧ j.Result (entryAt j) s' := by
  obtain ⟨s1, r1, m1, h1⟩ := started hf h
  obtain ⟨s', r2, ok, sp, mem, fl⟩ := finish hf _ (Nat.zero_le _) (Nat.zero_le _) rfl h1
    ⟨fun r c _ hb => by unfold Before at hb; omega, fun o _ => by rw [m1, h.mem .dst (by decide)]⟩
  exact ⟨s', stops_of (r1.trans r2), ok, sp, mem, fun r c hi => fl.1 r c hi trivial,
    fun o ho => fl.2 o (fun r c hi _ => ho r c hi)⟩

/-! ### The value of an entry -/

theorem entryAt_eq {j : Job A} (hb : j.NoBias) (r c : Nat) : entryAt j r c = j.outOf r c := by
  have e : j.m .bias (biasBase j (r / 8) (c / 4) + lane j (r % 8) (c % 4)) = j.biasOf r c := by
    unfold biasBase chan lane Job.biasOf
    cases h : j.hasBias
    · simp only [Bool.false_eq_true, if_false]
      exact hb h _ (by split_ifs <;> omega)
    · simp only [if_true]
      congr 1
      split_ifs <;> omega
  unfold entryAt valAt biasedAt
  rw [e]
  rfl

end Ruy.Arm32

import Verif.Arm8.Stored
import Verif.Neon.Value
/-
The ARM32 8-bit kernel: the loop over blocks of the destination, the prologue, and the destination at the end.
-/
namespace Ruy.Arm8
open Ruy.Neon (St Val Region Vec Byte Dt Same addVal addN addN_ptr out out_ptr bytes bytes_eq sgn sgn_of sgn_lt sgn_eq cols
  cols_at cols_not col_unique byteOf getB le4)
open Simd (wrap8 wrap16 wrap32)

theorem k56x (e : Env) (s : St) : Same (80 :: keepEnd) s (exec e k56.body s) ∧
    (exec e k56.body s).m = s.m ∧ (exec e k56.body s).v = s.v ∧
    (exec e k56.body s).bad = (s.bad || Nat.blt (s.x 13).num (32 + 4) || (s.x 96).isPtr || (e.field .lastRow).isPtr) ∧
    (exec e k56.body s).x 6 = e.field .startRow ∧ (exec e k56.body s).x 8 = s.x 96 ∧
    (exec e k56.body s).z = decide (sgn (s.x 96).num = sgn (e.field .lastRow).num) := by
  cases s
  exact ⟨by keep, rfl, rfl, rfl, rfl, rfl, rfl⟩

theorem k57x (e : Env) (s : St) : Same [13, 34, 35, 42, 64, 80, 112, 128, 144] s (exec e k57.body s) ∧
    (exec e k57.body s).m = s.m ∧ (exec e k57.body s).v = s.v ∧
    (exec e k57.body s).bad = (s.bad || (s.x 8).isPtr || Nat.blt (s.x 13).num (32 + 4)) ∧
    (exec e k57.body s).x 96 = .int (((s.x 8).num + 4) % 2 ^ 32) := by
  cases s
  exact ⟨by keep, rfl, rfl, rfl, rfl⟩

theorem k58x (e : Env) (s : St) : Same [13, 34, 35, 42, 128, 144] s (exec e k58.body s) ∧
    (exec e k58.body s).m = s.m ∧ (exec e k58.body s).v = s.v ∧
    (exec e k58.body s).bad = (s.bad || Nat.blt (s.x 13).num (32 + 4) || Nat.blt (s.x 13).num (48 + 4) ||
      (s.x 112).isPtr || Nat.blt (s.x 13).num (48 + 4) || Nat.blt (s.x 13).num (0 + 4) || !(s.x 64).isPtr ||
      (e.field .dstStride).isPtr || Nat.blt (s.x 13).num (0 + 4) || Nat.blt (s.x 13).num (16 + 4)) ∧
    (exec e k58.body s).x 96 = s.x 6 ∧
    (exec e k58.body s).x 112 = .int (((s.x 112).num + 2) % 2 ^ 32) ∧
    (exec e k58.body s).x 64 = addVal (s.x 64) ((e.field .dstStride).num * 2 ^ 1 % 2 ^ 32) ∧
    (exec e k58.body s).x 80 = addVal (s.x 64) ((e.field .dstStride).num * 2 ^ 1 % 2 ^ 32) := by
  cases s
  exact ⟨by keep, rfl, rfl, rfl, rfl, rfl, rfl, rfl⟩

theorem k59x (e : Env) (s : St) : Same [13, 34, 35, 42, 64, 80, 96, 112, 128, 144] s (exec e k59.body s) ∧
    (exec e k59.body s).m = s.m ∧ (exec e k59.body s).v = s.v ∧
    (exec e k59.body s).bad = (s.bad || Nat.blt (s.x 13).num (48 + 4) || (s.x 112).isPtr || (e.field .lastCol).isPtr) ∧
    (exec e k59.body s).x 1 = .int 16 ∧
    (exec e k59.body s).z = decide (sgn (s.x 112).num = sgn (e.field .lastCol).num) ∧
    (exec e k59.body s).lt = decide (sgn (s.x 112).num < sgn (e.field .lastCol).num) := by
  cases s
  exact ⟨by keep, rfl, rfl, rfl, rfl, rfl, rfl⟩

theorem k60x (e : Env) (s : St) : (exec e k60.body s).m = s.m ∧ (exec e k60.body s).v = s.v ∧
    (exec e k60.body s).bad = (s.bad || Nat.blt (s.x 13).num 96) ∧
    (exec e k60.body s).x 13 = .int ((s.x 13).num - 96) := by
  cases s
  exact ⟨rfl, rfl, rfl, rfl⟩

/-- From the end of a store to label 1, or to the end. -/
theorem advanced {j : Job} (hf : j.Fits) {p q : Nat} (hp : p ≤ j.rowSteps)
    (hq : q ≤ j.colSteps) {f : Nat → Nat → Int} {s0 s : St} (hm : Mid j j.ty p q s0) (hn : Ready j p q s0)
    (h : Stored j j.ty p q f s0 s) :
    ∃ s', s'.m = s.m ∧ s'.bad = false ∧ s'.v = s.v ∧
      if p < j.rowSteps then Reach j.env kernel (56, s) (1, s') ∧ Head j j.ty (p + 1) q s'
      else if q < j.colSteps then Reach j.env kernel (56, s) (1, s') ∧ Head j j.ty 0 (q + 1) s'
      else Reach j.env kernel (56, s) (61, s') ∧ s'.x 13 = .int 0 := by
  have f1 := hf.row
  have f2 := hf.col
  have lr : j.lastRow = j.startRow + 4 * j.rowSteps := rfl
  have lc : j.lastCol = j.startCol + 2 * j.colSteps := rfl
  have sp0 : s.x 13 = .int 96 := (h.same.get (by decide)).trans hm.sp
  have xr : s.x 96 = .int (j.startRow + 4 * p) := (h.same.get (by decide)).trans hm.row
  have xp : s.x 80 = .ptr .dst (dstBlk j j.ty p q + 4 * j.ty.size) := h.dp
  obtain ⟨a1, a2, av, a3, a6, a8, az⟩ := k56x j.env s
  have nx : ∀ l, (bif (exec j.env k56.body s).z then 58 else 57) = l →
      Reach j.env kernel (56, s) (l, exec j.env k56.body s) := fun l hl => Reach.block (b := k56) rfl hl
  generalize exec j.env k56.body s = s1 at *
  rw [h.ok, sp0, xr] at a3
  have a3' : s1.bad = false := a3
  rw [xr] at a8 az
  have z1 : s1.z = decide (j.startRow + 4 * p = j.lastRow) := az.trans (sgn_eq (by omega) (by omega))
  have a4 : s1.x 80 = _ := (a1.get (by decide)).trans xp
  have get : ∀ r, r ∈ [13, 34, 35, 42, 64, 112, 128, 144] → s1.x r = s0.x r := fun r hr =>
    (a1.get (by revert r; decide)).trans (h.same.get (by revert r; decide))
  have sp1 : s1.x 13 = .int 96 := (get 13 (by decide)).trans hm.sp
  have xlc := (get 128 (by decide)).trans hn.lc
  have xrc := (get 144 (by decide)).trans hn.rc
  have xlp := (get 34 (by decide)).trans hn.lp
  have xrp := (get 35 (by decide)).trans hn.rp
  have xdc := (get 64 (by decide)).trans hm.dc
  have xcol := (get 112 (by decide)).trans hm.col
  have xtmp := (get 42 (by decide)).trans hm.tmp
  have mem : ∀ r, r ≠ .dst → r ≠ .tmp → s1.m r = j.m r := fun r h1 h2 => by
    rw [a2, h.m r h1 h2]; exact hm.mem r h1 h2
  have data : Data j (lhsBlk j (nextP j p)) (rhsBlk j (nextQ j p q)) 0 s1 := by
    obtain ⟨d1, d2, d3, d4⟩ := hn.data
    unfold Data
    rw [av, h.v 0 (by omega), h.v 1 (by omega), h.v 4 (by omega), h.v 5 (by omega)]
    exact ⟨d1, d2, d3, d4⟩
  have fresh : ∀ i, i < 8 → s1.v (6 + i) = fun _ => 0 := fun i hi => by rw [av]; exact h.zero i hi
  by_cases hlast : p < j.rowSteps
  · have n1 := nx 57 (by rw [z1, decide_eq_false (by omega)]; rfl)
    obtain ⟨c1, c2, c3, c4, c5⟩ := k57x j.env s1
    have n2 : Reach j.env kernel (57, s1) (59, exec j.env k57.body s1) := Reach.block (b := k57) rfl rfl
    generalize exec j.env k57.body s1 = s2 at *
    rw [a3', a8, sp1] at c4
    rw [a8] at c5
    have c4' : s2.bad = false := c4
    have c5' : s2.x 96 = .int (j.startRow + 4 * (p + 1)) := c5.trans (congrArg Val.int (by
      simp only [Val.num]; omega))
    obtain ⟨d1, d2, d3, d4, d5, d6, d7⟩ := k59x j.env s2
    have n3 : ∀ l, (bif (exec j.env k59.body s2).z || (exec j.env k59.body s2).lt then 1 else 60) = l →
        Reach j.env kernel (59, s2) (l, exec j.env k59.body s2) := fun l hl => Reach.block (b := k59) rfl hl
    generalize exec j.env k59.body s2 = s3 at *
    have ycol : s2.x 112 = .int (j.startCol + 2 * q) := (c1.get (by decide)).trans xcol
    rw [ycol] at d6 d7
    have d6' : s3.z = decide (j.startCol + 2 * q = j.lastCol) := d6.trans (sgn_eq (by omega) (by omega))
    have d7' : s3.lt = decide (j.startCol + 2 * q < j.lastCol) := d7.trans (sgn_lt (by omega) (by omega))
    rw [c4', ycol, c1.get (by decide), sp1] at d4
    have d4' : s3.bad = false := d4
    have n3' := n3 1 (by
      rw [d6', d7']
      rcases Nat.lt_or_ge q j.colSteps with hh | hh
      · rw [show decide (j.startCol + 2 * q < j.lastCol) = true from decide_eq_true (by omega), Bool.or_true]; rfl
      · rw [show decide (j.startCol + 2 * q = j.lastCol) = true from decide_eq_true (by omega), Bool.true_or]; rfl)
    have eP : nextP j p = p + 1 := by unfold nextP; rw [if_pos hlast]
    have eQ : nextQ j p q = q := by unfold nextQ; rw [if_pos hlast]
    rw [eP] at xlc xlp data
    rw [eQ] at xrc xrp data
    refine ⟨s3, by rw [d2, c2, a2], d4', by rw [d3, c3, av], ?_⟩
    rw [if_pos hlast]
    refine ⟨(n1.trans n2).trans n3', ?_⟩
    have g : ∀ r, r ∈ [13, 34, 35, 42, 64, 80, 112, 128, 144] → s3.x r = s1.x r :=
      fun r hr => (d1.get (by revert r; decide)).trans (c1.get hr)
    have hv : s3.v = s1.v := d3.trans c3
    exact {
      mid := {
        sp := (g _ (by decide)).trans sp1
        tmp := (g _ (by decide)).trans xtmp
        dc := (g _ (by decide)).trans xdc
        dp := ((g _ (by decide)).trans a4).trans (congrArg (Val.ptr _) (by unfold dstBlk; ring))
        row := (d1.get (by decide)).trans c5'
        col := (g _ (by decide)).trans xcol
        mem := fun r h1 h2 => by rw [d2, c2]; exact mem r h1 h2
        ok := d4' }
      x1 := d5
      lc := (g _ (by decide)).trans xlc
      rc := (g _ (by decide)).trans xrc
      lp := (g _ (by decide)).trans xlp
      rp := (g _ (by decide)).trans xrp
      data := by unfold Data; rw [hv]; exact data
      fresh := fun i hi => by rw [hv]; exact fresh i hi }
  · have n1 := nx 58 (by rw [z1, decide_eq_true (by omega)]; rfl)
    obtain ⟨c1, c2, c3, c4, c5, c6, c7, c8⟩ := k58x j.env s1
    have n2 : Reach j.env kernel (58, s1) (59, exec j.env k58.body s1) := Reach.block (b := k58) rfl rfl
    generalize exec j.env k58.body s1 = s2 at *
    rw [a3', sp1, xcol, xdc] at c4
    have c4' : s2.bad = false := c4
    have c5' : s2.x 96 = .int (j.startRow + 4 * 0) := c5.trans a6
    rw [xcol] at c6
    have c6' : s2.x 112 = .int (j.startCol + 2 * (q + 1)) := c6.trans (congrArg Val.int (by
      simp only [Val.num]; omega))
    rw [xdc] at c7 c8
    obtain ⟨d1, d2, d3, d4, d5, d6, d7⟩ := k59x j.env s2
    have n3 : ∀ l, (bif (exec j.env k59.body s2).z || (exec j.env k59.body s2).lt then 1 else 60) = l →
        Reach j.env kernel (59, s2) (l, exec j.env k59.body s2) := fun l hl => Reach.block (b := k59) rfl hl
    generalize exec j.env k59.body s2 = s3 at *
    rw [c6'] at d6 d7
    have d6' : s3.z = decide (j.startCol + 2 * (q + 1) = j.lastCol) := d6.trans (sgn_eq (by omega) (by omega))
    have d7' : s3.lt = decide (j.startCol + 2 * (q + 1) < j.lastCol) := d7.trans (sgn_lt (by omega) (by omega))
    rw [c4', c6', c1.get (by decide), sp1] at d4
    have d4' : s3.bad = false := d4
    have g : ∀ r, r ∈ [13, 34, 35, 42, 128, 144] → s3.x r = s1.x r :=
      fun r hr => (d1.get (by revert r; decide)).trans (c1.get hr)
    by_cases hql : q < j.colSteps
    · have n3' := n3 1 (by
        rw [d6', d7']
        rcases Nat.lt_or_ge (q + 1) j.colSteps with hh | hh
        · rw [show decide (j.startCol + 2 * (q + 1) < j.lastCol) = true from decide_eq_true (by omega), Bool.or_true]
          rfl
        · rw [show decide (j.startCol + 2 * (q + 1) = j.lastCol) = true from decide_eq_true (by omega), Bool.true_or]
          rfl)
      have eP : nextP j p = 0 := by unfold nextP; rw [if_neg hlast]
      have eQ : nextQ j p q = q + 1 := by unfold nextQ; rw [if_neg hlast, if_pos hql]
      rw [eP] at xlc xlp data
      rw [eQ] at xrc xrp data
      have small : j.dstStride * 2 ^ 1 % 2 ^ 32 = j.dstStride * 2 ^ 1 := by
        have := hf.dstride
        exact Nat.mod_eq_of_lt (by omega)
      have c7' : s2.x 64 = .ptr .dst (j.dstBase + (q + 1) * (2 * j.dstStride)) := c7.trans (by
        show Val.ptr .dst (j.dstBase + q * (2 * j.dstStride) + j.dstStride * 2 ^ 1 % 2 ^ 32) = _
        rw [small]
        exact congrArg (Val.ptr _) (by ring))
      have c8' : s2.x 80 = .ptr .dst (dstBlk j j.ty 0 (q + 1)) := c8.trans (by
        show Val.ptr .dst (j.dstBase + q * (2 * j.dstStride) + j.dstStride * 2 ^ 1 % 2 ^ 32) = _
        rw [small]
        exact congrArg (Val.ptr _) (by unfold dstBlk; ring))
      refine ⟨s3, by rw [d2, c2, a2], d4', by rw [d3, c3, av], ?_⟩
      rw [if_neg hlast, if_pos hql]
      refine ⟨(n1.trans n2).trans n3', ?_⟩
      have hv : s3.v = s1.v := d3.trans c3
      exact {
        mid := {
          sp := (g _ (by decide)).trans sp1
          tmp := (g _ (by decide)).trans xtmp
          dc := (d1.get (by decide)).trans c7'
          dp := (d1.get (by decide)).trans c8'
          row := (d1.get (by decide)).trans c5'
          col := (d1.get (by decide)).trans c6'
          mem := fun r h1 h2 => by rw [d2, c2]; exact mem r h1 h2
          ok := d4' }
        x1 := d5
        lc := (g _ (by decide)).trans xlc
        rc := (g _ (by decide)).trans xrc
        lp := (g _ (by decide)).trans xlp
        rp := (g _ (by decide)).trans xrp
        data := by unfold Data; rw [hv]; exact data
        fresh := fun i hi => by rw [hv]; exact fresh i hi }
    · have n3' := n3 60 (by
        rw [d6', d7', show decide (j.startCol + 2 * (q + 1) < j.lastCol) = false from decide_eq_false (by omega),
          show decide (j.startCol + 2 * (q + 1) = j.lastCol) = false from decide_eq_false (by omega)]
        rfl)
      obtain ⟨g1, gv, g2, g3⟩ := k60x j.env s3
      have n4 : Reach j.env kernel (60, s3) (61, exec j.env k60.body s3) := Reach.block (b := k60) rfl rfl
      generalize exec j.env k60.body s3 = s4 at *
      have sp3 : s3.x 13 = .int 96 := (g _ (by decide)).trans sp1
      rw [sp3] at g2 g3
      rw [d4'] at g2
      refine ⟨s4, by rw [g1, d2, c2, a2], g2, by rw [gv, d3, c3, av], ?_⟩
      rw [if_neg hlast, if_neg hql]
      exact ⟨((n1.trans n2).trans n3').trans n4, g3⟩

/-- A whole block. -/
theorem block_stored {j : Job} (hf : j.Fits) {p q : Nat} (hp : p ≤ j.rowSteps)
    (hq : q ≤ j.colSteps) {s : St} (h : Head j j.ty p q s) :
    ∃ s1 s', Reach j.env kernel (1, s) (56, s') ∧ s1.m = s.m ∧ Mid j j.ty p q s1 ∧ Ready j p q s1 ∧
      Stored j j.ty p q (fun u w => conv j j.ty (valAt j p q u w)) s1 s' := by
  obtain ⟨sa, ra, ha, ma⟩ := summed hf hp hq h
  obtain ⟨sb, rb, hb, mb⟩ := aimed hf hq ha
  obtain ⟨sc, rc, hc, mc⟩ := biased hf hp hq hb
  obtain ⟨sd, rd, hd, md⟩ := computed hf hp hq hc
  obtain ⟨s', r1, h1⟩ := stored hf hp hq hd.mid hd.tile
  exact ⟨sd, s', (((ra.trans rb).trans rc).trans rd).trans r1, md.trans (mc.trans (mb.trans ma)), hd.mid, hd.nxt, h1⟩

theorem k0x (e : Env) (s : St) :
    (exec e k0.body s).m = s.m ∧
    (exec e k0.body s).bad = (s.bad || out e.base (s.x 34) 0 16 || out e.base (addN (s.x 34) 1) 0 16 ||
      out e.base (s.x 35) 0 16 || out e.base (addN (s.x 35) 1) 0 16 ||
      Nat.blt ((s.x 13).num + 96) (0 + 4) || Nat.blt ((s.x 13).num + 96) (16 + 4) ||
      Nat.blt ((s.x 13).num + 96) (32 + 4) || Nat.blt ((s.x 13).num + 96) (48 + 4) ||
      Nat.blt ((s.x 13).num + 96) (64 + 4) || Nat.blt ((s.x 13).num + 96) (80 + 4)) ∧
    (exec e k0.body s).x 13 = .int ((s.x 13).num + 96) ∧ (exec e k0.body s).x 42 = s.x 42 ∧
    (exec e k0.body s).x 34 = addN (s.x 34) 2 ∧ (exec e k0.body s).x 35 = addN (s.x 35) 2 ∧
    (exec e k0.body s).x 64 = e.field .dstBasePtr ∧ (exec e k0.body s).x 80 = e.field .dstBasePtr ∧
    (exec e k0.body s).x 96 = e.field .startRow ∧ (exec e k0.body s).x 112 = e.field .startCol ∧
    (exec e k0.body s).x 128 = e.field .lhsBasePtr ∧ (exec e k0.body s).x 144 = e.field .rhsBasePtr ∧
    (exec e k0.body s).x 1 = .int 16 ∧
    (exec e k0.body s).v 0 = bytes s (addN (s.x 34) 0) 0 ∧ (exec e k0.body s).v 1 = bytes s (addN (s.x 34) 1) 0 ∧
    (exec e k0.body s).v 4 = bytes s (addN (s.x 35) 0) 0 ∧ (exec e k0.body s).v 5 = bytes s (addN (s.x 35) 1) 0 ∧
    (∀ i, i < 8 → (exec e k0.body s).v (6 + i) = fun _ => 0) := by
  cases s
  exact ⟨rfl, rfl, rfl, rfl, rfl, rfl, rfl, rfl, rfl, rfl, rfl, rfl, rfl, rfl, rfl, rfl, rfl, by
    intro i hi; interval_cases i <;> rfl⟩

theorem load_eq {j : Job} {s : St} {r : Region} (h : s.m r = j.m r) (o : Nat) : bytes s (.ptr r o) 0 = j.vec r o := by
  funext b
  unfold bytes Job.vec
  simp only [Val.region, Val.off, Nat.add_zero, h]

theorem started {j : Job} (hf : j.Fits) {s : St} (h : j.Start s) (ty : Dt) :
    ∃ s', Reach j.env kernel (0, s) (1, s') ∧ s'.m = s.m ∧ Head j ty 0 0 s' := by
  have bl := lhs_bound hf (Nat.zero_le j.rowSteps)
  have br := rhs_bound hf (Nat.zero_le j.colSteps)
  have el : lhsBlk j 0 = j.lhsBase := by unfold lhsBlk; omega
  have er : rhsBlk j 0 = j.rhsBase := by unfold rhsBlk; omega
  rw [el] at bl
  rw [er] at br
  have ml : s.m .lhs = j.m .lhs := h.mem _ (by decide)
  have mr : s.m .rhs = j.m .rhs := h.mem _ (by decide)
  have lp34 : s.x 34 = _ := h.lhsP
  have rp35 : s.x 35 = _ := h.rhsP
  obtain ⟨a1, a2, a3, a4, a5, a6, a7, a8, a9, a10, a11, a12, a13, v0, v1, v4, v5, vz⟩ := k0x j.env s
  have n1 : Reach j.env kernel (0, s) (1, exec j.env k0.body s) := Reach.block (b := k0) rfl rfl
  generalize exec j.env k0.body s = s1 at *
  rw [lp34, addN_ptr, load_eq ml] at v0 v1
  rw [rp35, addN_ptr, load_eq mr] at v4 v5
  rw [lp34, addN_ptr] at a5
  rw [rp35, addN_ptr] at a6
  rw [h.sp] at a3
  rw [h.ok, h.sp, lp34, rp35, addN_ptr, addN_ptr, out_ptr (by show _ ≤ j.size .lhs; omega),
    out_ptr (by show _ ≤ j.size .lhs; omega), out_ptr (by show _ ≤ j.size .rhs; omega),
    out_ptr (by show _ ≤ j.size .rhs; omega)] at a2
  refine ⟨s1, n1, a1, ?_⟩
  exact {
    mid := {
      sp := a3
      tmp := a4.trans h.tmp
      dc := a7.trans (congrArg (Val.ptr _) (by ring))
      dp := a8.trans (congrArg (Val.ptr _) (by unfold dstBlk; ring))
      row := a9
      col := a10
      mem := fun r _ h2 => by rw [a1]; exact h.mem r h2
      ok := a2 }
    x1 := a13
    lc := a11.trans (by rw [el]; rfl)
    rc := a12.trans (by rw [er]; rfl)
    lp := a5.trans (by rw [el])
    rp := a6.trans (by rw [er])
    data := ⟨v0.trans (congrArg (j.vec _) (by omega)), v1.trans (congrArg (j.vec _) (by omega)),
      v4.trans (congrArg (j.vec _) (by omega)), v5.trans (congrArg (j.vec _) (by omega))⟩
    fresh := vz }

/-! ### Entries of the destination -/

def entryAt (j : Job) (r c : Nat) : Int := conv j j.ty (valAt j (r / 4) (c / 2) (r % 4) (c % 2))

/-- The entries in `D` are computed, nothing else has changed. -/
def Done (j : Job) (D : Nat → Nat → Prop) (m : Nat → Byte) : Prop :=
  (∀ r c, j.Inside r c → D r c → ∀ b, b < j.ty.size → m (j.addr j.ty r c + b) = byteOf (entryAt j r c) b) ∧
  (∀ o, (∀ r c, j.Inside r c → D r c → ∀ b, b < j.ty.size → o ≠ j.addr j.ty r c + b) → m o = j.m .dst o)

theorem Done.congr {j : Job} {D D' : Nat → Nat → Prop} {m : Nat → Byte} (h : Done j D m)
    (hd : ∀ r c, j.Inside r c → (D r c ↔ D' r c)) : Done j D' m :=
  ⟨fun r c hi h' => h.1 r c hi ((hd r c hi).2 h'),
    fun o ho => h.2 o (fun r c hi h' => ho r c hi ((hd r c hi).1 h'))⟩

theorem size_cases (j : Job) : j.ty.size = 1 ∨ j.ty.size = 2 ∨ j.ty.size = 4 := by cases j.ty <;> decide

theorem columns_ty {j : Job} (hf : j.Fits) : (j.dstRows - j.startRow) * j.ty.size ≤ j.dstStride :=
  (Nat.mul_le_mul_left _ (ty_size j)).trans hf.columns

theorem in_column {j : Job} (hf : j.Fits) {r : Nat} (h : j.startRow + r < j.dstRows) {b : Nat} (hb : b < j.ty.size) :
    r * j.ty.size + b < j.dstStride := by
  have h1 := columns_ty hf
  have h2 : (r + 1) * j.ty.size ≤ (j.dstRows - j.startRow) * j.ty.size := Nat.mul_le_mul_right _ (by omega)
  rw [Nat.succ_mul] at h2
  omega

/-- One more block. -/
theorem Done.step {j : Job} (hf : j.Fits) {p q : Nat} (hp : p ≤ j.rowSteps) (hq : q ≤ j.colSteps)
    {D : Nat → Nat → Prop} {M : Region → Nat → Byte} (hD : Done j D (M .dst))
    (hn : ∀ r c, D r c → ¬(r / 4 = p ∧ c / 2 = q)) {T : Nat → Byte}
    (hT : ∀ u, u < 4 → ∀ w, w < 2 → ∀ b, b < j.ty.size →
      T (4 * j.ty.size * w + (j.ty.size * u + b)) = byteOf (conv j j.ty (valAt j p q u w)) b) :
    Done j (fun r c => D r c ∨ (r / 4 = p ∧ c / 2 = q))
      (cols M T (dstBlk j j.ty p q) j.dstStride (j.ty.size * rowsIn j p) (4 * j.ty.size) (colsIn j q) .dst) := by
  have hk := size_cases j
  have r4 : rowsIn j p ≤ 4 := by unfold rowsIn; omega
  have c4 : colsIn j q ≤ 2 := by unfold colsIn; omega
  have hrp := rows_pos hf hp
  have hn0 : j.ty.size * rowsIn j p ≤ j.dstStride := by
    have h1 := columns_ty hf
    have : rowsIn j p * j.ty.size ≤ (j.dstRows - j.startRow) * j.ty.size :=
      Nat.mul_le_mul_right _ (by unfold rowsIn; omega)
    rw [Nat.mul_comm]; omega
  -- where a byte written for column `i` is
  have at' : ∀ i, i < colsIn j q → ∀ x, x < j.ty.size * rowsIn j p →
      dstBlk j j.ty p q + i * j.dstStride + x = j.addr j.ty (4 * p + x / j.ty.size) (2 * q + i) + x % j.ty.size ∧
        j.Inside (4 * p + x / j.ty.size) (2 * q + i) ∧ x / j.ty.size < 4 := by
    intro i hi x hx
    have hd : x / j.ty.size < rowsIn j p := by
      rw [Nat.div_lt_iff_lt_mul (by omega), Nat.mul_comm]; exact hx
    refine ⟨?_, ⟨by omega, by omega, ?_, ?_⟩, by omega⟩
    · unfold dstBlk Job.addr
      have := Nat.div_add_mod x j.ty.size
      conv_lhs => rw [← this]
      ring
    · generalize x / j.ty.size = y at hd; unfold rowsIn at hd; omega
    · unfold colsIn at hi; omega
  refine ⟨fun r c hi hd b hb => ?_, fun o ho => ?_⟩
  · by_cases hb' : r / 4 = p ∧ c / 2 = q
    · obtain ⟨rfl, rfl⟩ := hb'
      have e : j.addr j.ty r c + b = dstBlk j j.ty (r / 4) (c / 2) + c % 2 * j.dstStride + (j.ty.size * (r % 4) + b) := by
        unfold Job.addr dstBlk
        conv_lhs => rw [← Nat.div_add_mod r 4, ← Nat.div_add_mod c 2]
        ring
      obtain ⟨i1, i2, i3, i4⟩ := hi
      have hr : r % 4 < rowsIn j (r / 4) := by unfold rowsIn; omega
      have hc : c % 2 < colsIn j (c / 2) := by unfold colsIn; omega
      rw [e, cols_at hn0 hc]
      · exact hT _ (by omega) _ (by omega) _ hb
      · have : j.ty.size * (r % 4 + 1) ≤ j.ty.size * rowsIn j (r / 4) := Nat.mul_le_mul_left _ hr
        rw [Nat.mul_succ] at this
        omega
    · have hd' : D r c := hd.resolve_right hb'
      rw [cols_not]
      · exact hD.1 r c hi hd' b hb
      · intro i h1 x h2 he
        obtain ⟨e1, e2, e3⟩ := at' i h1 x h2
        rw [e1] at he
        unfold Job.addr at he
        have hm : x % j.ty.size < j.ty.size := Nat.mod_lt _ (by omega)
        obtain ⟨k1, k2⟩ := col_unique (S := j.dstStride) (c := c) (x := r * j.ty.size + b) (c' := 2 * q + i)
          (x' := (4 * p + x / j.ty.size) * j.ty.size + x % j.ty.size) (by omega) (in_column hf hi.2.2.1 hb)
          (in_column hf e2.2.2.1 hm)
        obtain ⟨k3, k4⟩ := col_unique k2 hb hm
        generalize x / j.ty.size = y at *
        exact hb' ⟨by omega, by omega⟩
  · rw [cols_not]
    · exact hD.2 o (fun r c hi hd => ho r c hi (.inl hd))
    · intro i h1 x h2 he
      obtain ⟨e1, e2, e3⟩ := at' i h1 x h2
      have hm : x % j.ty.size < j.ty.size := Nat.mod_lt _ (by omega)
      refine ho _ _ e2 (.inr ⟨?_, by omega⟩) _ hm (he.trans e1)
      generalize x / j.ty.size = y at e3
      omega

/-! ### All blocks -/

def Before (p q r c : Nat) : Prop := c / 2 < q ∨ (c / 2 = q ∧ r / 4 < p)

/-- From block (`p`, `q`) to the end. -/
theorem finish {j : Job} (hf : j.Fits) (n : Nat) : ∀ {p q : Nat}, p ≤ j.rowSteps → q ≤ j.colSteps →
    (j.colSteps - q) * (j.rowSteps + 1) + (j.rowSteps - p) = n → ∀ {s : St}, Head j j.ty p q s →
    Done j (Before p q) (s.m .dst) →
    ∃ s', Reach j.env kernel (1, s) (61, s') ∧ s'.bad = false ∧ s'.x 13 = .int 0 ∧ (s'.v 11 = fun _ => 0) ∧
      (∀ r, r ≠ .dst → r ≠ .tmp → s'.m r = j.m r) ∧ Done j (fun _ _ => True) (s'.m .dst) := by
  induction n using Nat.strong_induction_on with
  | _ n ih =>
    intro p q hp hq hn s h hd
    obtain ⟨s1, s2, r1, m1, md, nx, st⟩ := block_stored hf hp hq h
    obtain ⟨s3, m3, ok3, v3, nxt⟩ := advanced hf hp hq md nx st
    have hd' : Done j (fun r c => Before p q r c ∨ (r / 4 = p ∧ c / 2 = q)) (s3.m .dst) := by
      obtain ⟨T, hT, hm⟩ := st.dst
      rw [m3, hm]
      refine Done.step hf hp hq (by rw [m1]; exact hd) (fun r c hb => ?_) hT
      unfold Before at hb
      omega
    have keepm : ∀ r, r ≠ .dst → r ≠ .tmp → s3.m r = j.m r := fun r a b => by
      rw [m3, st.m r a b]; exact md.mem r a b
    by_cases h1 : p < j.rowSteps
    · rw [if_pos h1] at nxt
      obtain ⟨r2, h2⟩ := nxt
      obtain ⟨s', r3, h3⟩ := ih _ (by omega) (p := p + 1) (by omega) hq rfl h2
        (hd'.congr (fun r c _ => by unfold Before; omega))
      exact ⟨s', (r1.trans r2).trans r3, h3⟩
    · rw [if_neg h1] at nxt
      by_cases h2 : q < j.colSteps
      · rw [if_pos h2] at nxt
        obtain ⟨r2, h2'⟩ := nxt
        have e : (j.colSteps - q) * (j.rowSteps + 1) =
            (j.colSteps - (q + 1)) * (j.rowSteps + 1) + (j.rowSteps + 1) := by
          rw [← Nat.succ_mul]; congr 1; omega
        obtain ⟨s', r3, h3⟩ := ih _ (by omega) (p := 0) (q := q + 1) (by omega) (by omega) rfl h2'
          (hd'.congr (fun r c hi => by unfold Before; obtain ⟨i1, i2, _⟩ := hi; omega))
        exact ⟨s', (r1.trans r2).trans r3, h3⟩
      · rw [if_neg h2] at nxt
        exact ⟨s3, r1.trans nxt.1, ok3, nxt.2, (by rw [v3]; exact st.zero 5 (by omega)), keepm,
          hd'.congr (fun r c hi => by unfold Before; obtain ⟨i1, i2, _⟩ := hi; simp only [iff_true]; omega)⟩

/-- The whole statement. -/
theorem finished {j : Job} (hf : j.Fits) {s : St} (h : j.Start s) :
    ∃ s', Stops j.env kernel s s' ∧ j.Result j.ty (entryAt j) s' ∧ s'.v 11 = fun _ => 0 := by
  obtain ⟨s1, r1, m1, h1⟩ := started hf h j.ty
  obtain ⟨s', r2, ok, sp, v11, mem, fl⟩ := finish hf _ (Nat.zero_le _) (Nat.zero_le _) rfl h1
    ⟨fun r c _ hb => by unfold Before at hb; omega, fun o _ => by rw [m1, h.mem .dst (by decide)]⟩
  exact ⟨s', stops_of (r1.trans r2), ⟨ok, sp, mem, fun r c hi => fl.1 r c hi trivial,
    fun o ho => fl.2 o (fun r c hi _ => ho r c hi)⟩, v11⟩

/-! ### The value of an entry -/

theorem getB_lhs (j : Job) (r t i : Nat) (hi : i < 16) :
    getB (j.vec .lhs (lhsBlk j (r / 4) + 64 * t + 16 * (r % 4))) i = j.lhsAt r (16 * t + i) := by
  unfold getB Job.vec Job.lhsAt lhsBlk
  rw [show (16 * t + i) / 16 = t by omega, show (16 * t + i) % 16 = i by omega]

theorem getB_rhs (j : Job) (c t i : Nat) (hi : i < 16) :
    getB (j.vec .rhs (rhsBlk j (c / 2) + 32 * t + 16 * (c % 2))) i = j.rhsAt c (16 * t + i) := by
  unfold getB Job.vec Job.rhsAt rhsBlk
  rw [show (16 * t + i) / 16 = t by omega, show (16 * t + i) % 16 = i by omega]

theorem blockDot_eq (j : Job) (r c : Nat) :
    blockDot j (lhsBlk j (r / 4)) (rhsBlk j (c / 2)) (r % 4) (c % 2) (j.depthSteps + 1) = j.dot16Of r c := by
  unfold blockDot Job.dot16Of
  refine Finset.sum_congr rfl (fun t _ => Finset.sum_congr rfl (fun i hi => ?_))
  rw [Finset.mem_range] at hi
  unfold Neon.pair
  rw [getB_lhs _ _ _ _ (by omega), getB_lhs _ _ _ _ (by omega), getB_rhs _ _ _ _ (by omega),
    getB_rhs _ _ _ _ (by omega), Nat.add_assoc (16 * t) 8 i]

theorem dot16_exact {j : Job} {r c : Nat} (h : j.NoPair r c) : j.dot16Of r c = j.dotOf r c := by
  unfold Job.dotOf Job.depth
  rw [Neon.sum16]
  refine Finset.sum_congr rfl (fun t ht => Finset.sum_congr rfl (fun i hi => ?_))
  rw [Finset.mem_range] at ht hi
  have hl : ∀ k, -128 ≤ j.lhsAt r k ∧ j.lhsAt r k ≤ 127 := fun k => by unfold Job.lhsAt wrap8; omega
  have hr : ∀ k, -128 ≤ j.rhsAt c k ∧ j.rhsAt c k ≤ 127 := fun k => by unfold Job.rhsAt wrap8; omega
  exact Neon.wrap16_pair (hl _) (hr _) (hl _) (hr _) (h t (by omega) i hi)

theorem chan_eq (j : Job) (r c : Nat) : chan j (r / 4) (c / 2) + lane j (r % 4) (c % 2) = j.chanOf r c := by
  unfold chan lane Job.chanOf
  cases j.chanCol
  · simp only [Bool.false_eq_true, if_false]; omega
  · simp only [if_true]; omega

theorem lane_lt (j : Job) (r c : Nat) : lane j (r % 4) (c % 2) < 4 := by
  unfold lane; split <;> omega

theorem bias_eq {j : Job} (ha : j.Args) (r c : Nat) :
    j.word .bias (biasBase j (r / 4) (c / 2) + lane j (r % 4) (c % 2)) = j.biasOf r c := by
  unfold biasBase Job.biasOf
  cases h : j.hasBias
  · simp only [Bool.false_eq_true, if_false, Nat.zero_add]
    exact ha.noBias h _ (lane_lt j r c)
  · simp only [if_true]; rw [chan_eq]

theorem fix_eq {j : Job} (ha : j.Args) (r c : Nat) :
    j.word .mulFix (multBase j (r / 4) (c / 2) + lane j (r % 4) (c % 2)) = j.fixOf r c := by
  unfold multBase Job.fixOf
  cases h : j.perChannel
  · simp only [Bool.false_eq_true, if_false, Nat.zero_add]
    exact ha.oneFix h _ (lane_lt j r c)
  · simp only [if_true]; rw [chan_eq]

theorem exp_eq {j : Job} (ha : j.Args) (r c : Nat) :
    j.word .mulExp (multBase j (r / 4) (c / 2) + lane j (r % 4) (c % 2)) = j.expOf r c := by
  unfold multBase Job.expOf
  cases h : j.perChannel
  · simp only [Bool.false_eq_true, if_false, Nat.zero_add]
    exact ha.oneExp h _ (lane_lt j r c)
  · simp only [if_true]; rw [chan_eq]

theorem acc_eq {j : Job} (ha : j.Args) (r c : Nat) :
    wrap32 (accInt j (r / 4) (c / 2) (r % 4) (c % 2)) = j.accOf (j.dot16Of r c) r c := by
  unfold accInt acc2 acc1 Job.accOf rsumAt lsumAt Job.rsumOf Job.lsumOf
  rw [blockDot_eq, bias_eq ha, show j.startCol + 2 * (c / 2) + c % 2 = j.startCol + c by omega,
    show j.startRow + 4 * (r / 4) + r % 4 = j.startRow + r by omega]
  refine congrArg wrap32 ?_
  ring

theorem entry_eq {j : Job} (ha : j.Args) (r c : Nat) :
    entryAt j r c = j.outOf j.ty (j.accOf (j.dot16Of r c) r c) r c := by
  unfold entryAt valAt scaledAt conv Job.outOf
  rw [acc_eq ha, fix_eq ha, exp_eq ha]
  cases j.ty <;> simp only [reduceCtorEq, if_false, if_true]

end Ruy.Arm8

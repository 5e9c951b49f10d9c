import Verif.Arm8.ColStore
import Verif.Arm8.Whole
/-
The ARM32 8-bit kernel for one column: the loop over blocks of the destination, the prologue, and the destination at the
end.
-/
namespace Ruy.Arm8.One
open Ruy.Arm8
open Ruy.Neon (St Val Region Vec Byte Dt Same addVal addN addN_ptr out out_ptr bytes bytes_eq sgn sgn_of sgn_lt sgn_eq cols
  cols_congr wr_congr byteOf)
open Simd (wrap8 wrap16 wrap32)

theorem k43x (e : Env) (s : St) : Same [13, 34, 35, 42, 128, 144] s (exec e k43.body s) ∧
    (exec e k43.body s).m = s.m ∧ (exec e k43.body s).v = s.v ∧
    (exec e k43.body s).bad = (s.bad || Nat.blt (s.x 13).num (32 + 4) || Nat.blt (s.x 13).num (48 + 4) ||
      (s.x 112).isPtr || Nat.blt (s.x 13).num (48 + 4) || Nat.blt (s.x 13).num (0 + 4) || !(s.x 64).isPtr ||
      (e.field .dstStride).isPtr || Nat.blt (s.x 13).num (0 + 4) || Nat.blt (s.x 13).num (16 + 4)) ∧
    (exec e k43.body s).x 112 = .int (((s.x 112).num + 2) % 2 ^ 32) := by
  cases s
  exact ⟨by keep, rfl, rfl, rfl, rfl⟩

/-- From the end of a store to label 1, or to the end. -/
theorem advanced {j : Job} (hf : j.Fits) (ho : Single j) {p : Nat} (hp : p ≤ j.rowSteps)
    {f : Nat → Int} {s0 s : St} (hm : Mid j j.ty p 0 s0) (hn : Ready j p s0)
    (h : Stored j j.ty p f s0 s) :
    ∃ s', s'.m = s.m ∧ s'.bad = false ∧ s'.v = s.v ∧
      if p < j.rowSteps then Reach j.env kernel (41, s) (1, s') ∧ Head j j.ty (p + 1) s'
      else Reach j.env kernel (41, s) (46, s') ∧ s'.x 13 = .int 0 := by
  have f1 := hf.row
  have f2 := hf.col
  obtain ⟨st1, st2⟩ := ho.steps hf
  have lr : j.lastRow = j.startRow + 4 * j.rowSteps := rfl
  have lc : j.lastCol = j.startCol + 2 * j.colSteps := rfl
  have sp0 : s.x 13 = .int 96 := (h.same.get (by decide)).trans hm.sp
  have xr : s.x 96 = .int (j.startRow + 4 * p) := (h.same.get (by decide)).trans hm.row
  have xp : s.x 80 = .ptr .dst (dstBlk j j.ty p 0 + 4 * j.ty.size) := h.dp
  obtain ⟨a1, a2, av, a3, a6, a8, az⟩ := k56x j.env s
  have nx : ∀ l, (bif (exec j.env k56.body s).z then 43 else 42) = l →
      Reach j.env kernel (41, s) (l, exec j.env k56.body s) := branch_eq (is := k56.body) rfl
  generalize exec j.env k56.body s = s1 at *
  rw [h.ok, sp0, xr] at a3
  have a3' : s1.bad = false := a3
  rw [xr] at a8 az
  have z1 : s1.z = decide (j.startRow + 4 * p = j.lastRow) := az.trans (sgn_eq (by omega) (by omega))
  have a4 : s1.x 80 = _ := (a1.get (by decide)).trans xp
  have get : ∀ r, r ∈ [13, 34, 35, 42, 64, 112, 128, 144] → s1.x r = s0.x r := fun r hr =>
    (a1.get (by revert r; decide)).trans (h.same.get (by revert r; decide))
  have sp1 : s1.x 13 = .int 96 := (get 13 (by decide)).trans hm.sp
  have xlc := (get 128 (by decide)).trans hn.lc
  have xrc := (get 144 (by decide)).trans hn.rc
  have xlp := (get 34 (by decide)).trans hn.lp
  have xrp := (get 35 (by decide)).trans hn.rp
  have xdc := (get 64 (by decide)).trans hm.dc
  have xcol := (get 112 (by decide)).trans hm.col
  have xtmp := (get 42 (by decide)).trans hm.tmp
  have mem : ∀ r, r ≠ .dst → r ≠ .tmp → s1.m r = j.m r := fun r h1 h2 => by
    rw [a2, h.m r h1 h2]; exact hm.mem r h1 h2
  have data : Data j (lhsBlk j (nextP j p)) (rhsBlk j 0) 0 s1 :=
    ⟨fun i hi => by rw [av, h.v i (by omega)]; exact hn.data.1 i hi, by rw [av, h.v 4 (by omega)]; exact hn.data.2⟩
  have fresh : ∀ i, i < 4 → s1.v (6 + i) = fun _ => 0 := fun i hi => by rw [av]; exact h.zero i hi
  by_cases hlast : p < j.rowSteps
  · have n1 := nx 42 (by rw [z1, decide_eq_false (by omega)]; rfl)
    obtain ⟨c1, c2, c3, c4, c5⟩ := k57x j.env s1
    have n2 : Reach j.env kernel (42, s1) (44, exec j.env k57.body s1) := Reach.block (b := k42) rfl rfl
    generalize exec j.env k57.body s1 = s2 at *
    rw [a3', a8, sp1] at c4
    rw [a8] at c5
    have c4' : s2.bad = false := c4
    have c5' : s2.x 96 = .int (j.startRow + 4 * (p + 1)) := c5.trans (congrArg Val.int (by
      simp only [Val.num]; omega))
    obtain ⟨d1, d2, d3, d4, d5, d6, d7⟩ := k59x j.env s2
    have n3 : ∀ l, (bif (exec j.env k59.body s2).z || (exec j.env k59.body s2).lt then 1 else 45) = l →
        Reach j.env kernel (44, s2) (l, exec j.env k59.body s2) := fun l hl => Reach.block (b := k44) rfl hl
    generalize exec j.env k59.body s2 = s3 at *
    have ycol : s2.x 112 = .int (j.startCol + 2 * 0) := (c1.get (by decide)).trans xcol
    rw [ycol] at d6
    have d6' : s3.z = decide (j.startCol + 2 * 0 = j.lastCol) := d6.trans (sgn_eq (by omega) (by omega))
    rw [c4', ycol, c1.get (by decide), sp1] at d4
    have d4' : s3.bad = false := d4
    have n3' := n3 1 (by
      rw [d6', show decide (j.startCol + 2 * 0 = j.lastCol) = true from decide_eq_true (by omega), Bool.true_or]; rfl)
    have eP : nextP j p = p + 1 := by unfold nextP; rw [if_pos hlast]
    rw [eP] at xlc xlp data
    refine ⟨s3, by rw [d2, c2, a2], d4', by rw [d3, c3, av], ?_⟩
    rw [if_pos hlast]
    refine ⟨(n1.trans n2).trans n3', ?_⟩
    have g : ∀ r, r ∈ [13, 34, 35, 42, 64, 80, 112, 128, 144] → s3.x r = s1.x r :=
      fun r hr => (d1.get (by revert r; decide)).trans (c1.get hr)
    have hv : s3.v = s1.v := d3.trans c3
    exact {
      mid := {
        sp := (g _ (by decide)).trans sp1
        tmp := (g _ (by decide)).trans xtmp
        dc := (g _ (by decide)).trans xdc
        dp := ((g _ (by decide)).trans a4).trans (congrArg (Val.ptr _) (by unfold dstBlk; ring))
        row := (d1.get (by decide)).trans c5'
        col := (g _ (by decide)).trans xcol
        mem := fun r h1 h2 => by rw [d2, c2]; exact mem r h1 h2
        ok := d4' }
      x1 := d5
      lc := (g _ (by decide)).trans xlc
      rc := (g _ (by decide)).trans xrc
      lp := (g _ (by decide)).trans xlp
      rp := (g _ (by decide)).trans xrp
      data := by unfold Data; rw [hv]; exact data
      fresh := fun i hi => by rw [hv]; exact fresh i hi }
  · have n1 := nx 43 (by rw [z1, decide_eq_true (by omega)]; rfl)
    obtain ⟨c1, c2, c3, c4, c6⟩ := k43x j.env s1
    have n2 : Reach j.env kernel (43, s1) (44, exec j.env k43.body s1) := Reach.block (b := k43) rfl rfl
    generalize exec j.env k43.body s1 = s2 at *
    rw [a3', sp1, xcol, xdc] at c4
    have c4' : s2.bad = false := c4
    rw [xcol] at c6
    have c6' : s2.x 112 = .int (j.startCol + 2) := c6.trans (congrArg Val.int (by
      simp only [Val.num]; omega))
    obtain ⟨d1, d2, d3, d4, d5, d6, d7⟩ := k59x j.env s2
    have n3 : ∀ l, (bif (exec j.env k59.body s2).z || (exec j.env k59.body s2).lt then 1 else 45) = l →
        Reach j.env kernel (44, s2) (l, exec j.env k59.body s2) := fun l hl => Reach.block (b := k44) rfl hl
    generalize exec j.env k59.body s2 = s3 at *
    rw [c6'] at d6 d7
    have d6' : s3.z = decide (j.startCol + 2 = j.lastCol) := d6.trans (sgn_eq (by omega) (by omega))
    have d7' : s3.lt = decide (j.startCol + 2 < j.lastCol) := d7.trans (sgn_lt (by omega) (by omega))
    rw [c4', c6', c1.get (by decide), sp1] at d4
    have d4' : s3.bad = false := d4
    have n3' := n3 45 (by
      rw [d6', d7', show decide (j.startCol + 2 < j.lastCol) = false from decide_eq_false (by omega),
        show decide (j.startCol + 2 = j.lastCol) = false from decide_eq_false (by omega)]
      rfl)
    obtain ⟨g1, gv, g2, g3⟩ := k60x j.env s3
    have n4 : Reach j.env kernel (45, s3) (46, exec j.env k60.body s3) := Reach.block (b := k45) rfl rfl
    generalize exec j.env k60.body s3 = s4 at *
    have sp3 : s3.x 13 = .int 96 := ((d1.get (by decide)).trans (c1.get (by decide))).trans sp1
    rw [sp3] at g2 g3
    rw [d4'] at g2
    refine ⟨s4, by rw [g1, d2, c2, a2], g2, by rw [gv, d3, c3, av], ?_⟩
    rw [if_neg hlast]
    exact ⟨((n1.trans n2).trans n3').trans n4, g3⟩

/-- A whole block. -/
theorem block_stored {j : Job} (hf : j.Fits) (ho : Single j) {p : Nat} (hp : p ≤ j.rowSteps)
    {s : St} (h : Head j j.ty p s) :
    ∃ s1 s', Reach j.env kernel (1, s) (41, s') ∧ s1.m = s.m ∧ Mid j j.ty p 0 s1 ∧ Ready j p s1 ∧
      Stored j j.ty p (fun u => conv j j.ty (valAt j p 0 u 0)) s1 s' := by
  obtain ⟨sa, ra, ha, ma⟩ := summed hf hp h
  obtain ⟨sb, rb, hb, mb⟩ := aimed hf ho ha
  obtain ⟨sc, rc, hc, mc⟩ := biased hf ho hp hb
  obtain ⟨sd, rd, hd, md⟩ := computed hf ho hp hc
  obtain ⟨s', r1, h1⟩ := stored hf hp hd.mid hd.tile
  exact ⟨sd, s', (((ra.trans rb).trans rc).trans rd).trans r1, md.trans (mc.trans (mb.trans ma)), hd.mid, hd.nxt, h1⟩

theorem k0x (e : Env) (s : St) :
    (exec e k0.body s).m = s.m ∧
    (exec e k0.body s).bad = (s.bad || out e.base (s.x 34) 0 16 || out e.base (addN (s.x 34) 1) 0 16 ||
      out e.base (addN (s.x 34) 2) 0 16 || out e.base (addN (s.x 34) 3) 0 16 ||
      out e.base (s.x 35) 0 16 || !(addN (s.x 35) 1).isPtr ||
      Nat.blt ((s.x 13).num + 96) (0 + 4) || Nat.blt ((s.x 13).num + 96) (16 + 4) ||
      Nat.blt ((s.x 13).num + 96) (32 + 4) || Nat.blt ((s.x 13).num + 96) (48 + 4) ||
      Nat.blt ((s.x 13).num + 96) (64 + 4) || Nat.blt ((s.x 13).num + 96) (80 + 4)) ∧
    (exec e k0.body s).x 13 = .int ((s.x 13).num + 96) ∧ (exec e k0.body s).x 42 = s.x 42 ∧
    (exec e k0.body s).x 34 = addN (s.x 34) 4 ∧ (exec e k0.body s).x 35 = addN (s.x 35) 2 ∧
    (exec e k0.body s).x 64 = e.field .dstBasePtr ∧ (exec e k0.body s).x 80 = e.field .dstBasePtr ∧
    (exec e k0.body s).x 96 = e.field .startRow ∧ (exec e k0.body s).x 112 = e.field .startCol ∧
    (exec e k0.body s).x 128 = e.field .lhsBasePtr ∧ (exec e k0.body s).x 144 = e.field .rhsBasePtr ∧
    (exec e k0.body s).x 1 = .int 16 ∧
    (∀ i, i < 4 → (exec e k0.body s).v i = bytes s (addN (s.x 34) i) 0) ∧
    (exec e k0.body s).v 4 = bytes s (addN (s.x 35) 0) 0 ∧
    (∀ i, i < 4 → (exec e k0.body s).v (6 + i) = fun _ => 0) := by
  cases s
  exact ⟨rfl, rfl, rfl, rfl, rfl, rfl, rfl, rfl, rfl, rfl, rfl, rfl, rfl, by
    intro i hi; interval_cases i <;> rfl, rfl, by intro i hi; interval_cases i <;> rfl⟩

theorem started {j : Job} (hf : j.Fits) {s : St} (h : j.Start s) (ty : Dt) :
    ∃ s', Reach j.env kernel (0, s) (1, s') ∧ s'.m = s.m ∧ Head j ty 0 s' := by
  have bl := lhs_bound hf (Nat.zero_le j.rowSteps)
  have br := rhs_bound hf (Nat.zero_le j.colSteps)
  have el : lhsBlk j 0 = j.lhsBase := by unfold lhsBlk; omega
  have er : rhsBlk j 0 = j.rhsBase := by unfold rhsBlk; omega
  rw [el] at bl
  rw [er] at br
  have ml : s.m .lhs = j.m .lhs := h.mem _ (by decide)
  have mr : s.m .rhs = j.m .rhs := h.mem _ (by decide)
  have lp34 : s.x 34 = _ := h.lhsP
  have rp35 : s.x 35 = _ := h.rhsP
  obtain ⟨a1, a2, a3, a4, a5, a6, a7, a8, a9, a10, a11, a12, a13, v0, v4, vz⟩ := k0x j.env s
  have n1 : Reach j.env kernel (0, s) (1, exec j.env k0.body s) := Reach.block (b := k0) rfl rfl
  generalize exec j.env k0.body s = s1 at *
  rw [rp35, addN_ptr, load_eq mr] at v4
  rw [lp34, addN_ptr] at a5
  rw [rp35, addN_ptr] at a6
  rw [h.sp] at a3
  rw [h.ok, h.sp, lp34, rp35, addN_ptr, addN_ptr, addN_ptr, addN_ptr, out_ptr (by show _ ≤ j.size .lhs; omega),
    out_ptr (by show _ ≤ j.size .lhs; omega), out_ptr (by show _ ≤ j.size .lhs; omega),
    out_ptr (by show _ ≤ j.size .lhs; omega), out_ptr (by show _ ≤ j.size .rhs; omega)] at a2
  refine ⟨s1, n1, a1, ?_⟩
  exact {
    mid := {
      sp := a3
      tmp := a4.trans h.tmp
      dc := a7.trans (congrArg (Val.ptr _) (by ring))
      dp := a8.trans (congrArg (Val.ptr _) (by unfold dstBlk; ring))
      row := a9
      col := a10
      mem := fun r _ h2 => by rw [a1]; exact h.mem r h2
      ok := a2 }
    x1 := a13
    lc := a11.trans (by rw [el]; rfl)
    rc := a12.trans (by rw [er]; rfl)
    lp := a5.trans (by rw [el])
    rp := a6.trans (by rw [er])
    data := ⟨fun i hi => by
        rw [v0 i hi, lp34, addN_ptr, load_eq ml]
        exact congrArg (j.vec _) (by omega),
      v4.trans (congrArg (j.vec _) (by omega))⟩
    fresh := vz }

/-- One more block. -/
theorem done_step {j : Job} (hf : j.Fits) (ho : Single j) {p : Nat} (hp : p ≤ j.rowSteps)
    {D : Nat → Nat → Prop} {M : Region → Nat → Byte} (hD : Done j D (M .dst))
    (hn : ∀ r c, D r c → ¬(r / 4 = p ∧ c / 2 = 0)) {T : Nat → Byte}
    (hT : ∀ u, u < 4 → ∀ b, b < j.ty.size → T (j.ty.size * u + b) = byteOf (conv j j.ty (valAt j p 0 u 0)) b) :
    Done j (fun r c => D r c ∨ (r / 4 = p ∧ c / 2 = 0))
      (Neon.wr M .dst (dstBlk j j.ty p 0) (j.ty.size * rowsIn j p) T .dst) := by
  obtain ⟨st1, st2⟩ := ho.steps hf
  have hk := size_cases j
  have hc : colsIn j 0 = 1 := by unfold colsIn; rw [ho.cols, st1]; rfl
  have r4 : rowsIn j p ≤ 4 := by unfold rowsIn; omega
  have bnd : ∀ u, u < 4 → ∀ b, b < j.ty.size → j.ty.size * u + b < 4 * j.ty.size := by
    intro u hu b hb
    have : j.ty.size * (u + 1) ≤ j.ty.size * 4 := Nat.mul_le_mul_left _ (by omega)
    rw [Nat.mul_succ] at this
    omega
  let T' : Nat → Byte := fun x => if x < 4 * j.ty.size then T x else
    byteOf (conv j j.ty (valAt j p 0 ((x - 4 * j.ty.size) / j.ty.size) 1)) ((x - 4 * j.ty.size) % j.ty.size)
  have hT' : ∀ u, u < 4 → ∀ w, w < 2 → ∀ b, b < j.ty.size →
      T' (4 * j.ty.size * w + (j.ty.size * u + b)) = byteOf (conv j j.ty (valAt j p 0 u w)) b := by
    intro u hu w hw b hb
    have hx := bnd u hu b hb
    show (if _ then _ else _) = _
    rcases (show w = 0 ∨ w = 1 by omega) with rfl | rfl
    · rw [Nat.mul_zero, Nat.zero_add, if_pos hx, hT u hu b hb]
    · rw [Nat.mul_one, if_neg (by omega), Nat.add_sub_cancel_left, Nat.mul_add_div (by omega), Nat.div_eq_of_lt hb,
        Nat.mul_add_mod, Nat.mod_eq_of_lt hb, Nat.add_zero]
  have := Done.step hf hp (Nat.zero_le _) hD hn hT'
  rw [hc] at this
  have e : cols M T' (dstBlk j j.ty p 0) j.dstStride (j.ty.size * rowsIn j p) (4 * j.ty.size) 1 =
      Neon.wr M .dst (dstBlk j j.ty p 0) (j.ty.size * rowsIn j p) T := by
    show Neon.wr M .dst (dstBlk j j.ty p 0 + 0 * j.dstStride) (j.ty.size * rowsIn j p) (fun b => T' (4 * j.ty.size * 0 + b)) = _
    rw [Nat.zero_mul, Nat.add_zero, Nat.mul_zero]
    refine wr_congr (fun b hb => ?_)
    have : j.ty.size * rowsIn j p ≤ j.ty.size * 4 := Nat.mul_le_mul_left _ r4
    rw [Nat.zero_add]
    exact if_pos (by omega)
  rw [e] at this
  exact this

/-! ### All blocks -/

/-- From block `p` to the end. -/
theorem finish {j : Job} (hf : j.Fits) (ho : Single j) (n : Nat) : ∀ {p : Nat}, p ≤ j.rowSteps →
    j.rowSteps - p = n → ∀ {s : St}, Head j j.ty p s → Done j (Before p 0) (s.m .dst) →
    ∃ s', Reach j.env kernel (1, s) (46, s') ∧ s'.bad = false ∧ s'.x 13 = .int 0 ∧ (s'.v 11 = fun _ => 0) ∧
      (∀ r, r ≠ .dst → r ≠ .tmp → s'.m r = j.m r) ∧ Done j (fun _ _ => True) (s'.m .dst) := by
  induction n with
  | zero =>
    intro p hp hn s h hd
    obtain ⟨s1, s2, r1, m1, md, nx, st⟩ := block_stored hf ho hp h
    obtain ⟨s3, m3, ok3, v3, nxt⟩ := advanced hf ho hp md nx st
    obtain ⟨st1, st2⟩ := ho.steps hf
    rw [if_neg (by omega)] at nxt
    refine ⟨s3, r1.trans nxt.1, ok3, nxt.2, (by rw [v3]; exact st.q11),
      fun r a b => by rw [m3, st.m r a b]; exact md.mem r a b, ?_⟩
    obtain ⟨T, hT, hm⟩ := st.dst
    rw [m3, hm]
    refine (done_step hf ho hp (by rw [m1]; exact hd) (fun r c hb => ?_) hT).congr (fun r c hi => ?_)
    · unfold Before at hb; omega
    · unfold Before; obtain ⟨i1, i2, _⟩ := hi; simp only [iff_true]; omega
  | succ n ih =>
    intro p hp hn s h hd
    obtain ⟨s1, s2, r1, m1, md, nx, st⟩ := block_stored hf ho hp h
    obtain ⟨s3, m3, ok3, v3, nxt⟩ := advanced hf ho hp md nx st
    rw [if_pos (by omega)] at nxt
    obtain ⟨r2, h2⟩ := nxt
    obtain ⟨s', r3, h3⟩ := ih (p := p + 1) (by omega) (by omega) h2 (by
      obtain ⟨T, hT, hm⟩ := st.dst
      rw [m3, hm]
      refine (done_step hf ho hp (by rw [m1]; exact hd) (fun r c hb => ?_) hT).congr (fun r c hi => ?_)
      · unfold Before at hb; omega
      · unfold Before; omega)
    exact ⟨s', (r1.trans r2).trans r3, h3⟩

/-- The whole statement. -/
theorem finished {j : Job} (hf : j.Fits) (ho : Single j) {s : St} (h : j.Start s) :
    ∃ s', Stops j.env kernel s s' ∧ j.Result j.ty (entryAt j) s' ∧ s'.v 11 = fun _ => 0 := by
  obtain ⟨s1, r1, m1, h1⟩ := started hf h j.ty
  obtain ⟨s', r2, ok, sp, v11, mem, fl⟩ := finish hf ho _ (Nat.zero_le _) rfl h1
    ⟨fun r c _ hb => by unfold Before at hb; omega, fun o _ => by rw [m1, h.mem .dst (by decide)]⟩
  exact ⟨s', stops_of (r1.trans r2), ⟨ok, sp, mem, fun r c hi => fl.1 r c hi trivial,
    fun o ho => fl.2 o (fun r c hi _ => ho r c hi)⟩, v11⟩

end Ruy.Arm8.One

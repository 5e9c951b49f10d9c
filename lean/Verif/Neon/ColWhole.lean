import Verif.Neon.ColStore
import Verif.Neon.Value
/-
The whole `asm` statement of `Kernel8bitNeon1Col`.
-/
namespace Ruy.Neon
open Simd (wrap8 wrap16 wrap32)

/-- Before a store: everything the next block needs. -/
structure Ready1 (j : Job) (p : Nat) (s : St) : Prop where
  mid : Mid j p 0 s
  lc : s.x lhsColPtr = .ptr .lhs (lhsBlk j (nextP j p))
  rc : s.x rhsColPtr = .ptr .rhs (rhsBlk j 0)
  data : Loaded1 j (lhsBlk j (nextP j p)) (rhsBlk j 0) s

theorem Work1.ready {j : Job} {p : Nat} {f : Nat → Int} {s : St} (h : Work1 j p f s) : Ready1 j p s :=
  ⟨h.mid, h.lc, h.rc, h.data⟩

theorem valAt_of {j : Job} {p : Nat} {g : Int → Int}
    (h : ∀ x y, conv j x y = g y) :
    (fun u => valAt j p 0 u 0) = fun u => g (scaledAt j p 0 u 0) := by
  funext u; unfold valAt; rw [h]

/-- A whole block. -/
theorem block_stored1 {j : Job} (hf : j.Fits) (h1c : OneCol j) {p : Nat} (hp : p ≤ j.rowSteps) {s : St}
    (h : Head1 j p s) :
    ∃ s1 s', Reach j.env colCode (1, s) (42, s') ∧ s1.m = s.m ∧ Ready1 j p s1 ∧
      Stored1 j p (fun u => valAt j p 0 u 0) s1 s' := by
  obtain ⟨sa, ra, ha, ma⟩ := summed1 hf h1c hp h
  obtain ⟨sb, rb, hb, mb⟩ := biased1 hf h1c hp ha
  obtain ⟨sc, rc, mc, hc⟩ := rhsSummed1 hf hb
  obtain ⟨sd, rd, md, hd⟩ := lhsSummed1 hf hp hc
  have r0 := ((ra.trans rb).trans rc).trans rd
  have m0 : sd.m = s.m := by rw [md, mc, mb, ma]
  by_cases h32 : j.dt = .i32
  · rw [if_pos h32] at r0
    obtain ⟨s', h1, h2⟩ := stored_core1 hf h1c hp (k := 4) (by rw [h32]; rfl) (cst35 _) copy1 cfast4 cend4 hd.mid
      (chead35 hf hp hd.mid hd.tile)
    refine ⟨sd, s', r0.trans h1, m0, hd.ready, ?_⟩
    have : (fun u => valAt j p 0 u 0) = fun u => wrap32 (accInt j p 0 u 0) := by
      funext u; unfold valAt conv; rw [h32]
    rw [this]; exact h2
  rw [if_neg h32] at r0
  obtain ⟨se, re, me, he⟩ := multiplied1 hf h1c hp hd
  have r0 := r0.trans re
  have m0 : se.m = s.m := me.trans m0
  by_cases h16 : j.dt = .i16
  · rw [if_pos h16] at r0
    obtain ⟨s', h1, h2⟩ := stored_core1 hf h1c hp (k := 2) (by rw [h16]; rfl) (cst27 _) copy1 cfast2 cend2 he.mid
      (chead27 hf hp he.mid he.zp he.tile)
    refine ⟨se, s', r0.trans h1, m0, he.ready, ?_⟩
    rw [valAt_of (g := fun y => Simd.Neon.storeS16 y j.dstZp j.clampMin j.clampMax)
      (fun x y => by unfold conv; rw [h16])]
    exact h2
  rw [if_neg h16] at r0
  obtain ⟨c1, c2, c3, c4, c5, c6⟩ := b18 j.env se
  have nx : ∀ l, (bif (exec j.env gemm18.body se).z then 20 else 13) = l →
      Reach j.env colCode (12, se) (l, exec j.env gemm18.body se) := fun l hl =>
    Reach.block (b := col12) rfl hl
  generalize exec j.env gemm18.body se = s2 at *
  rw [he.mid.type, sgn_eq (by cases j.dt <;> decide) (by decide)] at c6
  rw [he.mid.ok, he.mid.type] at c5
  have r2 : Ready1 j p s2 :=
    ⟨he.mid.of c1 c3 c5, (c2.get (by decide)).trans he.lc, (c2.get (by decide)).trans he.rc,
      (c2.get (by decide)).trans he.data.lp, (c2.get (by decide)).trans he.data.rp,
      fun i hi => by rw [c4]; exact he.data.l i hi, by rw [c4]; exact he.data.r⟩
  have z2 : getH (s2.v 13) 4 = wrap16 j.dstZp := by rw [c4]; exact he.zp
  have t2 : Tile1 (fun u => scaledAt j p 0 u 0) s2 := he.tile.of c4
  by_cases h8 : j.dt = .i8
  · obtain ⟨s', h1, h2⟩ := stored_core1 hf h1c hp (k := 1) (by rw [h8]; rfl) (cst20 _) copy1 cfast1 cend1 r2.mid
      (chead20 hf hp r2.mid z2 t2)
    refine ⟨s2, s', (r0.trans (nx 20 ?_)).trans h1, c3.trans m0, r2, ?_⟩
    · rw [c6, h8]; rfl
    · rw [valAt_of (g := fun y => Simd.Neon.storeS8 y j.dstZp j.clampMin j.clampMax)
        (fun x y => by unfold conv; rw [h8])]
      exact h2
  · have hu : j.dt = .u8 := by revert h16 h32 h8; cases j.dt <;> simp
    obtain ⟨s', h1, h2⟩ := stored_core1 hf h1c hp (k := 1) (by rw [hu]; rfl) (cst13 _) copy1 cfast1 cend1 r2.mid
      (chead13 hf hp r2.mid z2 t2)
    refine ⟨s2, s', (r0.trans (nx 13 ?_)).trans h1, c3.trans m0, r2, ?_⟩
    · rw [c6, hu]; rfl
    · rw [valAt_of (g := fun y => Simd.Neon.storeU8 y j.dstZp j.clampMin j.clampMax)
        (fun x y => by unfold conv; rw [hu])]
      exact h2

/-! ### The loop over blocks -/

theorem cb42 (j : Job) (s : St) : Same keepNext s (exec j.env col42.body s) ∧
    (exec j.env col42.body s).m = s.m ∧
    (exec j.env col42.body s).bad = (s.bad || false || false || (s.x rRow).isPtr || false) ∧
    (exec j.env col42.body s).x 5 = .ptr .lhs j.lhsBase ∧
    (exec j.env col42.body s).x 6 = .int (j.startRow % 2 ^ 32) ∧
    (exec j.env col42.body s).x 7 = .int (j.lastRow % 2 ^ 32) ∧
    (exec j.env col42.body s).z = decide (sgn (s.x rRow).num = sgn (Val.int (j.lastRow % 2 ^ 32)).num) ∧
    (∀ i, i < 5 → (exec j.env col42.body s).v i = s.v i) ∧
    (∀ i, i < 4 → (exec j.env col42.body s).v (16 + i) = s.v (16 + i)) ∧
    (∀ i, i < 4 → (exec j.env col42.body s).v (8 + i) = prodV (s.v i) (s.v 4)) := by
  cases s
  refine ⟨by keep, rfl, rfl, rfl, rfl, rfl, rfl, ?_, ?_, ?_⟩
  · intro i hi; interval_cases i <;> rfl
  · intro i hi; interval_cases i <;> rfl
  · intro i hi; interval_cases i <;> rfl

/-- Blocks 42 to 45. -/
theorem advanced1 {j : Job} (hf : j.Fits) (h1c : OneCol j) {p : Nat} (hp : p ≤ j.rowSteps)
    {val : Nat → Int} {s0 s : St} (h0 : Ready1 j p s0) (h : Stored1 j p val s0 s) :
    ∃ s', s'.m = s.m ∧ s'.bad = false ∧
      if p < j.rowSteps then Reach j.env colCode (42, s) (1, s') ∧ Head1 j (p + 1) s'
      else Reach j.env colCode (42, s) (46, s') := by
  have f1 := hf.row
  have f2 := hf.col
  have hm := h0.mid
  have lr : j.lastRow = j.startRow + 4 * j.rowSteps := rfl
  have lc : j.lastCol = 0 := by unfold Job.lastCol; rw [h1c.start, h1c.steps]
  have sc := h1c.start
  obtain ⟨a1, a2, a3, a5, a6, a7, az, av, a16, ap⟩ := cb42 j s
  have nx : ∀ l, (bif (exec j.env col42.body s).z then 44 else 43) = l →
      Reach j.env colCode (42, s) (l, exec j.env col42.body s) := fun l hl =>
    Reach.block (b := col42) rfl hl
  generalize exec j.env col42.body s = s1 at *
  have get : ∀ r, r ∈ keepStore → s1.x r = s0.x r := fun r hr =>
    (a1.get (by revert r; decide)).trans (h.same.get hr)
  have xr : s.x rRow = .int (j.startRow + 4 * p) := (h.same.get (by decide)).trans hm.row
  rw [xr, Nat.mod_eq_of_lt (a := j.lastRow) (by omega), sgn_eq (by omega) (by omega)] at az
  rw [h.ok, xr] at a3
  have a3' : s1.bad = false := a3
  rw [Nat.mod_eq_of_lt (by omega)] at a6 a7
  have x8 : s1.x 8 = .int j.lastCol := (get 8 (by decide)).trans hm.x8
  have x9 : s1.x 9 = .int j.lhsStride := (get 9 (by decide)).trans hm.x9
  have x10 : s1.x 10 = .int j.rhsStride := (get 10 (by decide)).trans hm.x10
  have x11 : s1.x 11 = .int j.dstStride := (get 11 (by decide)).trans hm.x11
  have x12 : s1.x 12 = .int j.depth := (get 12 (by decide)).trans hm.x12
  have xlc := (get lhsColPtr (by decide)).trans h0.lc
  have xrc := (get rhsColPtr (by decide)).trans h0.rc
  have xlp := (get lhsPtr (by decide)).trans h0.data.lp
  have xrp := (get rhsPtr (by decide)).trans h0.data.rp
  have xdc := (get dstColPtr (by decide)).trans hm.dc
  have xdp : s1.x dstPtr = .ptr .dst (dstBlk j p 0 + 4 * j.dt.size) := (a1.get (by decide)).trans h.x37
  have xrow := (get rRow (by decide)).trans hm.row
  have xcol := (get rCol (by decide)).trans hm.col
  have xrows := (get rDstRows (by decide)).trans hm.rows
  have xcols := (get rDstCols (by decide)).trans hm.cols
  have xtmp := (get tmpBuf (by decide)).trans hm.tmp
  have xty := (get dstTypeId (by decide)).trans hm.type
  have mem : ∀ r, r ≠ .dst → r ≠ .tmp → s1.m r = j.m r := fun r h1 h2 => by
    rw [a2, h.m r h1 h2]; exact hm.mem r h1 h2
  have vl : ∀ i, i < 4 → s1.v i = j.vec .lhs (lhsBlk j (nextP j p) + 16 * i) := fun i hi => by
    rw [av i (by omega), h.v i (by omega)]; exact h0.data.l i hi
  have vr : s1.v 4 = j.vec .rhs (rhsBlk j 0) := by
    rw [av 4 (by omega), h.v 4 (by omega)]; exact h0.data.r
  have pr : Prods1 j (lhsBlk j (nextP j p)) (rhsBlk j 0) s1 := fun i hi => by
    rw [ap i hi, h.v i (by omega), h.v 4 (by omega), h0.data.l i hi, h0.data.r]
  have zero : ∀ i, i < 4 → s1.v (16 + i) = fun _ => 0 := fun i hi => by rw [a16 i hi]; exact h.zero i hi
  by_cases hlast : p < j.rowSteps
  · rw [show decide (j.startRow + 4 * p = j.lastRow) = false from decide_eq_false (by omega)] at az
    have n1 := nx 43 (by rw [az]; rfl)
    obtain ⟨c1, c2, c3, c4, c5⟩ := b52 j.env s1
    have n2 : Reach j.env colCode (43, s1) (45, exec j.env gemm52.body s1) := Reach.block (b := col43) rfl rfl
    generalize exec j.env gemm52.body s1 = s2 at *
    rw [a3', xrow] at c4
    rw [xrow] at c5
    have c4' : s2.bad = false := c4
    have c5' : s2.x rRow = .int (j.startRow + 4 * (p + 1)) := c5.trans (congrArg Val.int (by
      simp only [Val.num]; omega))
    obtain ⟨d1, d2, d3, d4, d5, d6, d7⟩ := b54 j.env s2
    have n3 : ∀ l, (bif (exec j.env gemm54.body s2).z || (exec j.env gemm54.body s2).lt then 1 else 46) = l →
        Reach j.env colCode (45, s2) (l, exec j.env gemm54.body s2) := fun l hl =>
      Reach.block (b := col45) rfl hl
    generalize exec j.env gemm54.body s2 = s3 at *
    have y8 : s2.x 8 = .int j.lastCol := (c1.get (by decide)).trans x8
    have ycol : s2.x rCol = .int (j.startCol + 4 * 0) := (c1.get (by decide)).trans xcol
    rw [ycol, y8, sgn_eq (by omega) (by omega)] at d6
    rw [c4', ycol, y8] at d4
    have n3' := n3 1 (by
      rw [d6, show decide (j.startCol + 4 * 0 = j.lastCol) = true from decide_eq_true (by omega), Bool.true_or]; rfl)
    have eP : nextP j p = p + 1 := by unfold nextP; rw [if_pos hlast]
    rw [eP] at xlc xlp vl pr
    refine ⟨s3, by rw [d2, c2, a2], d4, ?_⟩
    rw [if_pos hlast]
    refine ⟨(n1.trans n2).trans n3', ?_⟩
    have g : ∀ r, r ∈ [5, 6, 7, 8, 9, 10, 11, 12, 32, 33, 34, 35, 36, 37, 39, 40, 41, 42, 43] → s3.x r = s1.x r :=
      fun r hr => (d1.get (by revert r; decide)).trans (c1.get hr)
    exact {
      mid := {
        x8 := (g _ (by decide)).trans x8
        x9 := (g _ (by decide)).trans x9
        x10 := (g _ (by decide)).trans x10
        x11 := (g _ (by decide)).trans x11
        x12 := (g _ (by decide)).trans x12
        dc := (g _ (by decide)).trans xdc
        dp := ((g _ (by decide)).trans xdp).trans (congrArg (Val.ptr _) (by unfold dstBlk; ring))
        row := (d1.get (by decide)).trans c5'
        col := (g _ (by decide)).trans xcol
        rows := (g _ (by decide)).trans xrows
        cols := (g _ (by decide)).trans xcols
        tmp := (g _ (by decide)).trans xtmp
        type := (g _ (by decide)).trans xty
        mem := fun r h1 h2 => by rw [d2, c2]; exact mem r h1 h2
        ok := d4 }
      x1 := d5
      x5 := (g _ (by decide)).trans a5
      x6 := (g _ (by decide)).trans a6
      x7 := (g _ (by decide)).trans a7
      lc := (g _ (by decide)).trans xlc
      rc := (g _ (by decide)).trans xrc
      data := ⟨(g _ (by decide)).trans xlp, (g _ (by decide)).trans xrp,
        fun i hi => by rw [d3, c3]; exact vl i hi, by rw [d3, c3]; exact vr⟩
      prods := fun i hi => by rw [d3, c3]; exact pr i hi
      zero := fun i hi => by rw [d3, c3]; exact zero i hi }
  · rw [show decide (j.startRow + 4 * p = j.lastRow) = true from decide_eq_true (by omega)] at az
    have n1 := nx 44 (by rw [az]; rfl)
    obtain ⟨c1, c2, c3, c4, c5, c6, c7, c8⟩ := b53 j.env s1
    have n2 : Reach j.env colCode (44, s1) (45, exec j.env gemm53.body s1) := Reach.block (b := col44) rfl rfl
    generalize exec j.env gemm53.body s1 = s2 at *
    rw [a3', a6, xcol, x11] at c4
    rw [xcol] at c6
    have c4' : s2.bad = false := c4
    have c6' : s2.x rCol = .int 4 := c6.trans (congrArg Val.int (by
      simp only [Val.num]; omega))
    obtain ⟨d1, d2, d3, d4, d5, d6, d7⟩ := b54 j.env s2
    have n3 : ∀ l, (bif (exec j.env gemm54.body s2).z || (exec j.env gemm54.body s2).lt then 1 else 46) = l →
        Reach j.env colCode (45, s2) (l, exec j.env gemm54.body s2) := fun l hl =>
      Reach.block (b := col45) rfl hl
    generalize exec j.env gemm54.body s2 = s3 at *
    have y8 : s2.x 8 = .int j.lastCol := (c1.get (by decide)).trans x8
    rw [c6', y8, sgn_eq (by omega) (by omega)] at d6
    rw [c6', y8, sgn_lt (by omega) (by omega)] at d7
    rw [c4', c6', y8] at d4
    refine ⟨s3, by rw [d2, c2, a2], d4, ?_⟩
    rw [if_neg hlast]
    refine (n1.trans n2).trans (n3 46 ?_)
    rw [d6, d7, decide_eq_false (by omega), decide_eq_false (by omega)]
    rfl

/-! ### The prologue -/

theorem cb0 (j : Job) (s : St) : Same [32, 33, 36, 37, 38, 39, 40, 41, 42, 43] s (exec j.env col0.body s) ∧
    (exec j.env col0.body s).m = s.m ∧
    (exec j.env col0.body s).x 1 = .int 16 ∧
    (exec j.env col0.body s).x 5 = .ptr .lhs j.lhsBase ∧
    (exec j.env col0.body s).x 6 = .int (j.startRow % 2 ^ 32) ∧
    (exec j.env col0.body s).x 7 = .int (j.lastRow % 2 ^ 32) ∧
    (exec j.env col0.body s).x 8 = .int (j.lastCol % 2 ^ 32) ∧
    (exec j.env col0.body s).x 9 = .int (j.lhsStride % 2 ^ 32) ∧
    (exec j.env col0.body s).x 10 = .int (j.rhsStride % 2 ^ 32) ∧
    (exec j.env col0.body s).x 11 = .int (j.dstStride % 2 ^ 32) ∧
    (exec j.env col0.body s).x 12 = .int (j.depth % 2 ^ 32) ∧
    (exec j.env col0.body s).x lhsPtr = addN (s.x lhsPtr) 4 ∧
    (exec j.env col0.body s).x rhsPtr = addVal (addVal (s.x rhsPtr) 16) 48 ∧
    (exec j.env col0.body s).bad = (s.bad || false || false || false || false || false || false || false ||
      out j.env (addN (s.x lhsPtr) 0) 0 16 || out j.env (addN (s.x lhsPtr) 1) 0 16 ||
      out j.env (addN (s.x lhsPtr) 2) 0 16 || out j.env (addN (s.x lhsPtr) 3) 0 16 ||
      out j.env (s.x rhsPtr) 0 16) ∧
    (∀ i, i < 4 → (exec j.env col0.body s).v i = bytes s (addN (s.x lhsPtr) i) 0) ∧
    (exec j.env col0.body s).v 4 = bytes s (s.x rhsPtr) 0 ∧
    (∀ i, i < 4 → (exec j.env col0.body s).v (16 + i) = fun _ => 0) ∧
    (∀ i, i < 4 → (exec j.env col0.body s).v (8 + i) =
      prodV (bytes s (addN (s.x lhsPtr) i) 0) (bytes s (s.x rhsPtr) 0)) := by
  cases s
  refine ⟨by keep, rfl, rfl, rfl, rfl, rfl, rfl, rfl, rfl, rfl, rfl, rfl, rfl, rfl, ?_, rfl, ?_, ?_⟩
  · intro i hi; interval_cases i <;> rfl
  · intro i hi; interval_cases i <;> rfl
  · intro i hi; interval_cases i <;> rfl

theorem started1 {j : Job} (hf : j.Fits) {s : St} (h : j.Start s) :
    ∃ s', Reach j.env colCode (0, s) (1, s') ∧ s'.m = s.m ∧ Head1 j 0 s' := by
  have f1 := hf.row
  have f2 := hf.col
  have f3 := hf.lstride
  have f4 := hf.rstride
  have f5 := hf.dstride
  have f6 := hf.deep
  have lr : j.lastRow = j.startRow + 4 * j.rowSteps := rfl
  obtain ⟨a1, a2, x1, x5, x6, x7, x8, x9, x10, x11, x12, xl, xr, ab, al, ar, az, ap⟩ := cb0 j s
  have n1 : Reach j.env colCode (0, s) (1, exec j.env col0.body s) := Reach.block (b := col0) rfl rfl
  generalize exec j.env col0.body s = s1 at *
  rw [Nat.mod_eq_of_lt (by omega)] at x6 x7 x8 x9 x10 x11 x12
  have mem : ∀ r, r ≠ .dst → r ≠ .tmp → s.m r = j.m r := fun r _ h2 => h.mem r h2
  have rd := readable hf (Nat.zero_le _) (Nat.zero_le _) mem
  have el : lhsBlk j 0 = j.lhsBase := by unfold lhsBlk; omega
  have er : rhsBlk j 0 = j.rhsBase := by unfold rhsBlk; omega
  have sl := rd.sl
  have sr := rd.sr
  rw [el] at sl
  rw [er] at sr
  have bl : ∀ i, i < 4 → bytes s (addN (s.x lhsPtr) i) 0 = j.vec .lhs (lhsBlk j 0 + 16 * i) := fun i _ => by
    rw [h.lhsP, addN_ptr, el]; exact bytes_eq rd.ml rfl
  have br : bytes s (s.x rhsPtr) 0 = j.vec .rhs (rhsBlk j 0) := by
    rw [h.rhsP, er]; exact bytes_eq rd.mr rfl
  have ol : ∀ i, i < 4 → out j.env (addN (s.x lhsPtr) i) 0 16 = false := fun i hi => by
    rw [h.lhsP, addN_ptr]
    exact out_ptr (by show _ ≤ j.size .lhs; omega)
  have or' : out j.env (s.x rhsPtr) 0 16 = false := by
    rw [h.rhsP]
    exact out_ptr (by show _ ≤ j.size .rhs; omega)
  rw [h.ok, ol 0 (by omega), ol 1 (by omega), ol 2 (by omega), ol 3 (by omega), or'] at ab
  rw [h.lhsP, addN_ptr] at xl
  rw [h.rhsP] at xr
  refine ⟨s1, n1, a2, ?_⟩
  exact {
    mid := {
      x8 := x8, x9 := x9, x10 := x10, x11 := x11, x12 := x12
      dc := ((a1.get (by decide)).trans h.dstCol).trans (congrArg (Val.ptr _) (by ring))
      dp := ((a1.get (by decide)).trans h.dstP).trans (congrArg (Val.ptr _) (by ring))
      row := (a1.get (by decide)).trans h.row
      col := (a1.get (by decide)).trans h.col
      rows := (a1.get (by decide)).trans h.rows
      cols := (a1.get (by decide)).trans h.cols
      tmp := (a1.get (by decide)).trans h.tmp
      type := (a1.get (by decide)).trans h.type
      mem := fun r h1 h2 => by rw [a2]; exact mem r h1 h2
      ok := ab }
    x1 := x1
    x5 := x5
    x6 := x6
    x7 := x7
    lc := ((a1.get (by decide)).trans h.lhsCol).trans (by rw [el])
    rc := ((a1.get (by decide)).trans h.rhsCol).trans (by rw [er])
    data := ⟨xl.trans (by rw [el]), xr.trans (by rw [er]; rfl), fun i hi => by rw [al i hi, bl i hi],
      by rw [ar, br]⟩
    prods := fun i hi => by rw [ap i hi, bl i hi, br]
    zero := az }

/-! ### All blocks -/

/-- The tile of which only the first column is stored, as `Done.step` wants it. -/
def tileOf (j : Job) (p x : Nat) : Byte :=
  byteOf (valAt j p 0 (x % (4 * j.dt.size) / j.dt.size) (x / (4 * j.dt.size))) (x % j.dt.size)

theorem tileOf_at (j : Job) (p : Nat) {u w b : Nat} (hu : u < 4) (hb : b < j.dt.size) :
    tileOf j p (4 * j.dt.size * w + (j.dt.size * u + b)) = byteOf (valAt j p 0 u w) b := by
  unfold tileOf
  have e1 : (4 * j.dt.size * w + (j.dt.size * u + b)) / (4 * j.dt.size) = w := by
    rcases size_cases j with h | h | h <;> rw [h] at hb ⊢ <;> omega
  have e2 : (4 * j.dt.size * w + (j.dt.size * u + b)) % (4 * j.dt.size) / j.dt.size = u := by
    rcases size_cases j with h | h | h <;> rw [h] at hb ⊢ <;> omega
  have e3 : (4 * j.dt.size * w + (j.dt.size * u + b)) % j.dt.size = b := by
    rcases size_cases j with h | h | h <;> rw [h] at hb ⊢ <;> omega
  rw [e1, e2, e3]

/-- From block `p` to the end. -/
theorem finish1 {j : Job} (hf : j.Fits) (h1c : OneCol j) (n : Nat) : ∀ {p : Nat}, p ≤ j.rowSteps →
    j.rowSteps - p = n → ∀ {s : St}, Head1 j p s → Done j (Before p 0) (s.m .dst) →
    ∃ s', Reach j.env colCode (1, s) (46, s') ∧ s'.bad = false ∧ (∀ r, r ≠ .dst → r ≠ .tmp → s'.m r = j.m r) ∧
      Done j (fun _ _ => True) (s'.m .dst) := by
  induction n using Nat.strong_induction_on with
  | _ n ih =>
    intro p hp hn s h hd
    obtain ⟨s1, s2, r1, m1, rdy, st⟩ := block_stored1 hf h1c hp h
    obtain ⟨s3, m3, ok3, nxt⟩ := advanced1 hf h1c hp rdy st
    obtain ⟨T, hT, hm⟩ := st.dst
    have hd' : Done j (fun r c => Before p 0 r c ∨ (r / 4 = p ∧ c / 4 = 0)) (s3.m .dst) := by
      have e : s3.m .dst = cols s1.m (tileOf j p) (dstBlk j p 0) j.dstStride (j.dt.size * rowsIn j p)
          (4 * j.dt.size) (colsIn j 0) .dst := by
        rw [m3, hm, cols_one h1c]
        simp only [cols]
        rw [Nat.zero_mul, Nat.add_zero]
        refine wr_eq rfl (fun b hb => ?_)
        have r4 : rowsIn j p ≤ 4 := by unfold rowsIn; omega
        have : j.dt.size * rowsIn j p ≤ j.dt.size * 4 := Nat.mul_le_mul_left _ r4
        have hpos : 0 < j.dt.size := by rcases size_cases j with h | h | h <;> omega
        have hu : b / j.dt.size < 4 := by
          rw [Nat.div_lt_iff_lt_mul hpos]; omega
        have e1 := hT _ hu _ (Nat.mod_lt b hpos)
        have e2 := tileOf_at j p (w := 0) hu (Nat.mod_lt b hpos)
        rw [Nat.div_add_mod] at e1 e2
        rw [e1, e2]
      rw [e]
      refine Done.step hf hp (Nat.zero_le _) (by rw [m1]; exact hd) (fun r c hb => ?_)
        (fun u hu w _ b hb => tileOf_at j p hu hb)
      unfold Before at hb
      omega
    have keepm : ∀ r, r ≠ .dst → r ≠ .tmp → s3.m r = j.m r := fun r a b => by
      rw [m3, st.m r a b]; exact rdy.mid.mem r a b
    have cs := h1c.steps
    by_cases h1 : p < j.rowSteps
    · rw [if_pos h1] at nxt
      obtain ⟨r2, h2⟩ := nxt
      obtain ⟨s', r3, h3⟩ := ih _ (by omega) (p := p + 1) (by omega) rfl h2
        (hd'.congr (fun r c _ => by unfold Before; omega))
      exact ⟨s', (r1.trans r2).trans r3, h3⟩
    · rw [if_neg h1] at nxt
      exact ⟨s3, r1.trans nxt, ok3, keepm,
        hd'.congr (fun r c hi => by unfold Before; obtain ⟨i1, i2, _⟩ := hi; simp only [iff_true]; omega)⟩

/-- The whole statement. -/
theorem finished1 {j : Job} (hf : j.Fits) (h1c : OneCol j) {s : St} (h : j.Start s) :
    ∃ s', Reach j.env colCode (0, s) (46, s') ∧ s'.bad = false ∧ (∀ r, r ≠ .dst → r ≠ .tmp → s'.m r = j.m r) ∧
      Done j (fun _ _ => True) (s'.m .dst) := by
  obtain ⟨s1, r1, m1, h1⟩ := started1 hf h
  obtain ⟨s', r2, h2⟩ := finish1 hf h1c _ (Nat.zero_le _) rfl h1
    ⟨fun r c _ hb => by unfold Before at hb; omega, fun o _ => by rw [m1, h.mem .dst (by decide)]⟩
  exact ⟨s', r1.trans r2, h2⟩

end Ruy.Neon

import Verif.Neon.Heads
import Verif.Neon.Quant
/-
One block of the destination from label 1 to the stores, and the loop over blocks.
-/
namespace Ruy.Neon
open Simd (wrap8 wrap16 wrap32)

/-! ### From label 1 to the end of the stores -/

/-- What is stored, by type of the destination. -/
def conv (j : Job) (x y : Int) : Int :=
  match j.dt with
  | .u8 => Simd.Neon.storeU8 y j.dstZp j.clampMin j.clampMax
  | .i8 => Simd.Neon.storeS8 y j.dstZp j.clampMin j.clampMax
  | .i16 => Simd.Neon.storeS16 y j.dstZp j.clampMin j.clampMax
  | .i32 => x

def valAt (j : Job) (p q u w : Nat) : Int := conv j (wrap32 (accInt j p q u w)) (scaledAt j p q u w)

theorem st19 : StoreAt gemmCode gemm19.body gemm20.body gemm25.body gemm26.body 1 19 51 :=
  ⟨rfl, rfl, ⟨rfl, rfl, rfl, rfl⟩, rfl, rfl⟩
theorem st27 : StoreAt gemmCode gemm27.body gemm28.body gemm33.body gemm34.body 1 27 51 :=
  ⟨rfl, rfl, ⟨rfl, rfl, rfl, rfl⟩, rfl, rfl⟩
theorem st35 : StoreAt gemmCode gemm35.body gemm36.body gemm41.body gemm42.body 2 35 51 :=
  ⟨rfl, rfl, ⟨rfl, rfl, rfl, rfl⟩, rfl, rfl⟩
theorem st43 : StoreAt gemmCode gemm43.body gemm44.body gemm49.body gemm50.body 4 43 51 :=
  ⟨rfl, rfl, ⟨rfl, rfl, rfl, rfl⟩, rfl, rfl⟩

theorem b17 (e : Env) (s : St) : Same midRegs s (exec e gemm17.body s) ∧
    Same keepStore s (exec e gemm17.body s) ∧ (exec e gemm17.body s).m = s.m ∧
    (exec e gemm17.body s).v = s.v ∧ (exec e gemm17.body s).bad = (s.bad || (s.x dstTypeId).isPtr) ∧
    (exec e gemm17.body s).z = decide (sgn (s.x dstTypeId).num = sgn (Val.int 3).num) := by
  cases s
  exact ⟨by keep, by keep, rfl, rfl, rfl, rfl⟩
theorem b18 (e : Env) (s : St) : Same midRegs s (exec e gemm18.body s) ∧
    Same keepStore s (exec e gemm18.body s) ∧ (exec e gemm18.body s).m = s.m ∧
    (exec e gemm18.body s).v = s.v ∧ (exec e gemm18.body s).bad = (s.bad || (s.x dstTypeId).isPtr) ∧
    (exec e gemm18.body s).z = decide (sgn (s.x dstTypeId).num = sgn (Val.int 2).num) := by
  cases s
  exact ⟨by keep, by keep, rfl, rfl, rfl, rfl⟩

/-- What is left of `Work` once the tile is stored. -/
structure Ready (j : Job) (p q : Nat) (s : St) : Prop where
  mid : Mid j p q s
  lc : s.x lhsColPtr = .ptr .lhs (lhsBlk j (nextP j p))
  rc : s.x rhsColPtr = .ptr .rhs (rhsBlk j (nextQ j p q))
  data : Loaded j (lhsBlk j (nextP j p)) (rhsBlk j (nextQ j p q)) s

theorem Ready.of {j : Job} {p q : Nat} {s s' : St} (h : Ready j p q s) (h1 : Same midRegs s s')
    (h2 : Same keepStore s s') (hm : s'.m = s.m) (hv : s'.v = s.v) (hb : s'.bad = false) : Ready j p q s' where
  mid := h.mid.of h1 hm hb
  lc := (h2.get (by decide)).trans h.lc
  rc := (h2.get (by decide)).trans h.rc
  data := ⟨(h2.get (by decide)).trans h.data.lp, (h2.get (by decide)).trans h.data.rp,
    fun i hi => by rw [hv]; exact h.data.l i hi, fun i hi => by rw [hv]; exact h.data.r i hi⟩

/-- Blocks 17, 18 and the stores that are not int32. -/
theorem narrowed {j : Job} (hf : j.Fits) {p q : Nat} (hp : p ≤ j.rowSteps) (hq : q ≤ j.colSteps) {s : St}
    (h : Work j p q (scaledAt j p q) s) (hd : j.dt ≠ .i32) :
    ∃ s1 s', Reach j.env gemmCode (17, s) (51, s') ∧ s1.m = s.m ∧ Ready j p q s1 ∧
      Stored j p q (valAt j p q) s1 s' := by
  have hr : Ready j p q s := ⟨h.mid, h.lc, h.rc, h.data⟩
  obtain ⟨a1, a2, a3, a4, a5, a6⟩ := b17 j.env s
  have nx : ∀ l, (bif (exec j.env gemm17.body s).z then 35 else 18) = l →
      Reach j.env gemmCode (17, s) (l, exec j.env gemm17.body s) := fun l hl =>
    Reach.block (b := gemm17) rfl hl
  generalize exec j.env gemm17.body s = s1 at *
  rw [h.mid.type, sgn_eq (by cases j.dt <;> decide) (by decide)] at a6
  rw [h.mid.ok, h.mid.type] at a5
  have r1 : Ready j p q s1 := hr.of a1 a2 a3 a4 a5
  have z1 : getH (s1.v 13) 4 = wrap16 j.dstZp := by rw [a4]; exact h.zp
  have t1 : Tile (scaledAt j p q) s1 := fun w hw u hu => by rw [a4]; exact h.tile w hw u hu
  by_cases h16 : j.dt = .i16
  · obtain ⟨s', h1, h2⟩ := stored_core hf hp hq (k := 2) (by rw [h16]; rfl) st35 copy2 fast2 end2 r1.mid
      (head35 hf hp hq r1.mid z1 t1)
    refine ⟨s1, s', (nx 35 ?_).trans h1, a3, r1, ?_⟩
    · rw [a6, h16]; rfl
    · have : valAt j p q = fun u w => Simd.Neon.storeS16 (scaledAt j p q u w) j.dstZp j.clampMin j.clampMax := by
        funext u w; unfold valAt conv; rw [h16]
      rw [this]; exact h2
  obtain ⟨c1, c2, c3, c4, c5, c6⟩ := b18 j.env s1
  have nx2 : ∀ l, (bif (exec j.env gemm18.body s1).z then 27 else 19) = l →
      Reach j.env gemmCode (18, s1) (l, exec j.env gemm18.body s1) := fun l hl =>
    Reach.block (b := gemm18) rfl hl
  generalize exec j.env gemm18.body s1 = s2 at *
  rw [r1.mid.type, sgn_eq (by cases j.dt <;> decide) (by decide)] at c6
  rw [r1.mid.ok, r1.mid.type] at c5
  have r2 : Ready j p q s2 := r1.of c1 c2 c3 c4 c5
  have z2 : getH (s2.v 13) 4 = wrap16 j.dstZp := by rw [c4]; exact z1
  have t2 : Tile (scaledAt j p q) s2 := fun w hw u hu => by rw [c4]; exact t1 w hw u hu
  have n18 := nx 18 (by rw [a6]; revert h16 hd; cases j.dt <;> simp [Dt.id])
  by_cases h8 : j.dt = .i8
  · obtain ⟨s', h1, h2⟩ := stored_core hf hp hq (k := 1) (by rw [h8]; rfl) st27 copy1 fast1 end1 r2.mid
      (head27 hf hp hq r2.mid z2 t2)
    refine ⟨s2, s', (n18.trans (nx2 27 ?_)).trans h1, c3.trans a3, r2, ?_⟩
    · rw [c6, h8]; rfl
    · have : valAt j p q = fun u w => Simd.Neon.storeS8 (scaledAt j p q u w) j.dstZp j.clampMin j.clampMax := by
        funext u w; unfold valAt conv; rw [h8]
      rw [this]; exact h2
  · have hu : j.dt = .u8 := by revert h16 hd h8; cases j.dt <;> simp
    obtain ⟨s', h1, h2⟩ := stored_core hf hp hq (k := 1) (by rw [hu]; rfl) st19 copy1 fast1 end1 r2.mid
      (head19 hf hp hq r2.mid z2 t2)
    refine ⟨s2, s', (n18.trans (nx2 19 ?_)).trans h1, c3.trans a3, r2, ?_⟩
    · rw [c6, hu]; rfl
    · have : valAt j p q = fun u w => Simd.Neon.storeU8 (scaledAt j p q u w) j.dstZp j.clampMin j.clampMax := by
        funext u w; unfold valAt conv; rw [hu]
      rw [this]; exact h2

/-- A whole block. -/
theorem block_stored {j : Job} (hf : j.Fits) {p q : Nat} (hp : p ≤ j.rowSteps) (hq : q ≤ j.colSteps) {s : St}
    (h : Head j p q s) :
    ∃ s1 s', Reach j.env gemmCode (1, s) (51, s') ∧ s1.m = s.m ∧ Ready j p q s1 ∧
      Stored j p q (valAt j p q) s1 s' := by
  obtain ⟨sa, ra, ha, ma⟩ := summed hf hp hq h
  obtain ⟨sb, rb, hb, mb⟩ := biased hf hp hq ha
  obtain ⟨sc, rc, mc, hc⟩ := rhsSummed hf hq hb
  obtain ⟨sd, rd, md, hd⟩ := lhsSummed hf hp hc
  have r0 := ((ra.trans rb).trans rc).trans rd
  have m0 : sd.m = s.m := by rw [md, mc, mb, ma]
  by_cases h32 : j.dt = .i32
  · rw [if_pos h32] at r0
    have hr : Ready j p q sd := ⟨hd.mid, hd.lc, hd.rc, hd.data⟩
    obtain ⟨s', h1, h2⟩ := stored_core hf hp hq (k := 4) (by rw [h32]; rfl) st43 copy4 fast4 end4 hd.mid
      (head43 hf hp hq hd.mid hd.tile)
    refine ⟨sd, s', r0.trans h1, m0, hr, ?_⟩
    have : valAt j p q = fun u w => wrap32 (accInt j p q u w) := by
      funext u w; unfold valAt conv; rw [h32]
    rw [this]; exact h2
  · rw [if_neg h32] at r0
    obtain ⟨se, re, me, he⟩ := multiplied hf hp hq hd
    obtain ⟨s1, s', h1, h2, h3, h4⟩ := narrowed hf hp hq he h32
    exact ⟨s1, s', (r0.trans re).trans h1, by rw [h2, me, m0], h3, h4⟩

/-! ### The loop over blocks -/

def keepNext : List Nat := [8, 9, 10, 11, 12, 32, 33, 34, 35, 36, 37, 38, 39, 40, 41, 42, 43]

theorem b51 (j : Job) (s : St) : Same keepNext s (exec j.env gemm51.body s) ∧
    (exec j.env gemm51.body s).m = s.m ∧
    (exec j.env gemm51.body s).bad = (s.bad || false || false || (s.x rRow).isPtr || false) ∧
    (exec j.env gemm51.body s).x 5 = .ptr .lhs j.lhsBase ∧
    (exec j.env gemm51.body s).x 6 = .int (j.startRow % 2 ^ 32) ∧
    (exec j.env gemm51.body s).x 7 = .int (j.lastRow % 2 ^ 32) ∧
    (exec j.env gemm51.body s).z = decide (sgn (s.x rRow).num = sgn (Val.int (j.lastRow % 2 ^ 32)).num) ∧
    (∀ i, i < 8 → (exec j.env gemm51.body s).v i = s.v i) ∧
    (∀ i, i < 16 → (exec j.env gemm51.body s).v (16 + i) = s.v (16 + i)) ∧
    (∀ i, i < 4 → ∀ k, k < 2 → (exec j.env gemm51.body s).v (8 + 4 * k + i) = prodV (s.v i) (s.v (4 + k))) := by
  cases s
  refine ⟨by keep, rfl, rfl, rfl, rfl, rfl, rfl, ?_, ?_, ?_⟩
  · intro i hi; interval_cases i <;> rfl
  · intro i hi; interval_cases i <;> rfl
  · intro i hi k hk; interval_cases i <;> interval_cases k <;> rfl

theorem b52 (e : Env) (s : St) :
    Same [5, 6, 7, 8, 9, 10, 11, 12, 32, 33, 34, 35, 36, 37, 39, 40, 41, 42, 43] s (exec e gemm52.body s) ∧
    (exec e gemm52.body s).m = s.m ∧ (exec e gemm52.body s).v = s.v ∧
    (exec e gemm52.body s).bad = (s.bad || (s.x rRow).isPtr) ∧
    (exec e gemm52.body s).x rRow = .int (((s.x rRow).num + 4) % 2 ^ 32) := by
  cases s
  exact ⟨by keep, rfl, rfl, rfl, rfl⟩

theorem b53 (e : Env) (s : St) :
    Same [5, 6, 7, 8, 9, 10, 11, 12, 32, 33, 34, 35, 40, 41, 42, 43] s (exec e gemm53.body s) ∧
    (exec e gemm53.body s).m = s.m ∧ (exec e gemm53.body s).v = s.v ∧
    (exec e gemm53.body s).bad = (s.bad || (s.x 6).isPtr || (s.x rCol).isPtr || (s.x 11).isPtr) ∧
    (exec e gemm53.body s).x rRow = .int ((s.x 6).num % 2 ^ 32) ∧
    (exec e gemm53.body s).x rCol = .int (((s.x rCol).num + 4) % 2 ^ 32) ∧
    (exec e gemm53.body s).x dstColPtr = addVal (s.x dstColPtr) ((s.x 11).num * 2 ^ 2) ∧
    (exec e gemm53.body s).x dstPtr = addVal (s.x dstColPtr) ((s.x 11).num * 2 ^ 2) := by
  cases s
  exact ⟨by keep, rfl, rfl, rfl, rfl, rfl, rfl, rfl⟩

theorem b54 (e : Env) (s : St) :
    Same [5, 6, 7, 8, 9, 10, 11, 12, 32, 33, 34, 35, 36, 37, 38, 39, 40, 41, 42, 43] s (exec e gemm54.body s) ∧
    (exec e gemm54.body s).m = s.m ∧ (exec e gemm54.body s).v = s.v ∧
    (exec e gemm54.body s).bad = (s.bad || (s.x rCol).isPtr || (s.x 8).isPtr) ∧
    (exec e gemm54.body s).x 1 = .int 16 ∧
    (exec e gemm54.body s).z = decide (sgn (s.x rCol).num = sgn (s.x 8).num) ∧
    (exec e gemm54.body s).lt = decide (sgn (s.x rCol).num < sgn (s.x 8).num) := by
  cases s
  exact ⟨by keep, rfl, rfl, rfl, rfl, rfl, rfl⟩

/-- Blocks 51 to 54. -/
theorem advanced {j : Job} (hf : j.Fits) {p q : Nat} (hp : p ≤ j.rowSteps) (hq : q ≤ j.colSteps)
    {val : Nat → Nat → Int} {s0 s : St} (h0 : Ready j p q s0) (h : Stored j p q val s0 s) :
    ∃ s', s'.m = s.m ∧ s'.bad = false ∧
      if p < j.rowSteps then Reach j.env gemmCode (51, s) (1, s') ∧ Head j (p + 1) q s'
      else if q < j.colSteps then Reach j.env gemmCode (51, s) (1, s') ∧ Head j 0 (q + 1) s'
      else Reach j.env gemmCode (51, s) (55, s') := by
  have f1 := hf.row
  have f2 := hf.col
  have hm := h0.mid
  have lr : j.lastRow = j.startRow + 4 * j.rowSteps := rfl
  have lc : j.lastCol = j.startCol + 4 * j.colSteps := rfl
  obtain ⟨a1, a2, a3, a5, a6, a7, az, av, a16, ap⟩ := b51 j s
  have nx : ∀ l, (bif (exec j.env gemm51.body s).z then 53 else 52) = l →
      Reach j.env gemmCode (51, s) (l, exec j.env gemm51.body s) := fun l hl =>
    Reach.block (b := gemm51) rfl hl
  generalize exec j.env gemm51.body s = s1 at *
  have get : ∀ r, r ∈ keepStore → s1.x r = s0.x r := fun r hr =>
    (a1.get (by revert r; decide)).trans (h.same.get hr)
  have xr : s.x rRow = .int (j.startRow + 4 * p) := (h.same.get (by decide)).trans hm.row
  rw [xr, Nat.mod_eq_of_lt (a := j.lastRow) (by omega), sgn_eq (by omega) (by omega)] at az
  rw [h.ok, xr] at a3
  have a3' : s1.bad = false := a3
  rw [Nat.mod_eq_of_lt (by omega)] at a6 a7
  have x8 : s1.x 8 = .int j.lastCol := (get 8 (by decide)).trans hm.x8
  have x9 : s1.x 9 = .int j.lhsStride := (get 9 (by decide)).trans hm.x9
  have x10 : s1.x 10 = .int j.rhsStride := (get 10 (by decide)).trans hm.x10
  have x11 : s1.x 11 = .int j.dstStride := (get 11 (by decide)).trans hm.x11
  have x12 : s1.x 12 = .int j.depth := (get 12 (by decide)).trans hm.x12
  have xlc := (get lhsColPtr (by decide)).trans h0.lc
  have xrc := (get rhsColPtr (by decide)).trans h0.rc
  have xlp := (get lhsPtr (by decide)).trans h0.data.lp
  have xrp := (get rhsPtr (by decide)).trans h0.data.rp
  have xdc := (get dstColPtr (by decide)).trans hm.dc
  have xdp : s1.x dstPtr = .ptr .dst (dstBlk j p q + 4 * j.dt.size) := (a1.get (by decide)).trans h.x37
  have xrow := (get rRow (by decide)).trans hm.row
  have xcol := (get rCol (by decide)).trans hm.col
  have xrows := (get rDstRows (by decide)).trans hm.rows
  have xcols := (get rDstCols (by decide)).trans hm.cols
  have xtmp := (get tmpBuf (by decide)).trans hm.tmp
  have xty := (get dstTypeId (by decide)).trans hm.type
  have mem : ∀ r, r ≠ .dst → r ≠ .tmp → s1.m r = j.m r := fun r h1 h2 => by
    rw [a2, h.m r h1 h2]; exact hm.mem r h1 h2
  have vl : ∀ i, i < 4 → s1.v i = j.vec .lhs (lhsBlk j (nextP j p) + 16 * i) := fun i hi => by
    rw [av i (by omega), h.v i (by omega)]; exact h0.data.l i hi
  have vr : ∀ i, i < 4 → s1.v (4 + i) = j.vec .rhs (rhsBlk j (nextQ j p q) + 16 * i) := fun i hi => by
    rw [av (4 + i) (by omega), h.v (4 + i) (by omega)]; exact h0.data.r i hi
  have pr : Prods j (lhsBlk j (nextP j p)) (rhsBlk j (nextQ j p q)) s1 := fun i hi k hk => by
    rw [ap i hi k hk, h.v i (by omega), h.v (4 + k) (by omega), h0.data.l i hi, h0.data.r k (by omega)]
  have zero : ∀ i, i < 16 → s1.v (16 + i) = fun _ => 0 := fun i hi => by rw [a16 i hi]; exact h.zero i hi
  by_cases hlast : p < j.rowSteps
  · rw [show decide (j.startRow + 4 * p = j.lastRow) = false from decide_eq_false (by omega)] at az
    have n1 := nx 52 (by rw [az]; rfl)
    obtain ⟨c1, c2, c3, c4, c5⟩ := b52 j.env s1
    have n2 : Reach j.env gemmCode (52, s1) (54, exec j.env gemm52.body s1) := Reach.block (b := gemm52) rfl rfl
    generalize exec j.env gemm52.body s1 = s2 at *
    rw [a3', xrow] at c4
    rw [xrow] at c5
    have c4' : s2.bad = false := c4
    have c5' : s2.x rRow = .int (j.startRow + 4 * (p + 1)) := c5.trans (congrArg Val.int (by
      simp only [Val.num]; omega))
    obtain ⟨d1, d2, d3, d4, d5, d6, d7⟩ := b54 j.env s2
    have n3 : ∀ l, (bif (exec j.env gemm54.body s2).z || (exec j.env gemm54.body s2).lt then 1 else 55) = l →
        Reach j.env gemmCode (54, s2) (l, exec j.env gemm54.body s2) := fun l hl =>
      Reach.block (b := gemm54) rfl hl
    generalize exec j.env gemm54.body s2 = s3 at *
    have y8 : s2.x 8 = .int j.lastCol := (c1.get (by decide)).trans x8
    have ycol : s2.x rCol = .int (j.startCol + 4 * q) := (c1.get (by decide)).trans xcol
    rw [ycol, y8, sgn_eq (by omega) (by omega)] at d6
    rw [ycol, y8, sgn_lt (by omega) (by omega)] at d7
    rw [c4', ycol, y8] at d4
    have n3' := n3 1 (by
      rw [d6, d7]
      rcases Nat.lt_or_ge q j.colSteps with hh | hh
      · rw [show decide (j.startCol + 4 * q < j.lastCol) = true from decide_eq_true (by omega), Bool.or_true]; rfl
      · rw [show decide (j.startCol + 4 * q = j.lastCol) = true from decide_eq_true (by omega), Bool.true_or]; rfl)
    have eP : nextP j p = p + 1 := by unfold nextP; rw [if_pos hlast]
    have eQ : nextQ j p q = q := by unfold nextQ; rw [if_pos hlast]
    rw [eP] at xlc xlp vl pr
    rw [eQ] at xrc xrp vr pr
    refine ⟨s3, by rw [d2, c2, a2], d4, ?_⟩
    rw [if_pos hlast]
    refine ⟨(n1.trans n2).trans n3', ?_⟩
    have g : ∀ r, r ∈ [5, 6, 7, 8, 9, 10, 11, 12, 32, 33, 34, 35, 36, 37, 39, 40, 41, 42, 43] → s3.x r = s1.x r :=
      fun r hr => (d1.get (by revert r; decide)).trans (c1.get hr)
    exact {
      mid := {
        x8 := (g _ (by decide)).trans x8
        x9 := (g _ (by decide)).trans x9
        x10 := (g _ (by decide)).trans x10
        x11 := (g _ (by decide)).trans x11
        x12 := (g _ (by decide)).trans x12
        dc := (g _ (by decide)).trans xdc
        dp := ((g _ (by decide)).trans xdp).trans (congrArg (Val.ptr _) (by unfold dstBlk; ring))
        row := (d1.get (by decide)).trans c5'
        col := (g _ (by decide)).trans xcol
        rows := (g _ (by decide)).trans xrows
        cols := (g _ (by decide)).trans xcols
        tmp := (g _ (by decide)).trans xtmp
        type := (g _ (by decide)).trans xty
        mem := fun r h1 h2 => by rw [d2, c2]; exact mem r h1 h2
        ok := d4 }
      x1 := d5
      x5 := (g _ (by decide)).trans a5
      x6 := (g _ (by decide)).trans a6
      x7 := (g _ (by decide)).trans a7
      lc := (g _ (by decide)).trans xlc
      rc := (g _ (by decide)).trans xrc
      data := ⟨(g _ (by decide)).trans xlp, (g _ (by decide)).trans xrp,
        fun i hi => by rw [d3, c3]; exact vl i hi, fun i hi => by rw [d3, c3]; exact vr i hi⟩
      prods := fun i hi k hk => by rw [d3, c3]; exact pr i hi k hk
      zero := fun i hi => by rw [d3, c3]; exact zero i hi }
  · rw [show decide (j.startRow + 4 * p = j.lastRow) = true from decide_eq_true (by omega)] at az
    have n1 := nx 53 (by rw [az]; rfl)
    obtain ⟨c1, c2, c3, c4, c5, c6, c7, c8⟩ := b53 j.env s1
    have n2 : Reach j.env gemmCode (53, s1) (54, exec j.env gemm53.body s1) := Reach.block (b := gemm53) rfl rfl
    generalize exec j.env gemm53.body s1 = s2 at *
    rw [a3', a6, xcol, x11] at c4
    rw [a6] at c5
    rw [xcol] at c6
    rw [xdc, x11] at c7 c8
    have c4' : s2.bad = false := c4
    have c5' : s2.x rRow = .int (j.startRow + 4 * 0) := c5.trans (congrArg Val.int (by
      simp only [Val.num]; omega))
    have c6' : s2.x rCol = .int (j.startCol + 4 * (q + 1)) := c6.trans (congrArg Val.int (by
      simp only [Val.num]; omega))
    have c7' : s2.x dstColPtr = .ptr .dst (j.dstBase + (q + 1) * (4 * j.dstStride)) :=
      c7.trans (congrArg (Val.ptr _) (by simp only [Val.num]; ring))
    have c8' : s2.x dstPtr = .ptr .dst (j.dstBase + (q + 1) * (4 * j.dstStride) + 0 * (4 * j.dt.size)) :=
      c8.trans (congrArg (Val.ptr _) (by simp only [Val.num]; ring))
    obtain ⟨d1, d2, d3, d4, d5, d6, d7⟩ := b54 j.env s2
    have n3 : ∀ l, (bif (exec j.env gemm54.body s2).z || (exec j.env gemm54.body s2).lt then 1 else 55) = l →
        Reach j.env gemmCode (54, s2) (l, exec j.env gemm54.body s2) := fun l hl =>
      Reach.block (b := gemm54) rfl hl
    generalize exec j.env gemm54.body s2 = s3 at *
    have y8 : s2.x 8 = .int j.lastCol := (c1.get (by decide)).trans x8
    rw [c6', y8, sgn_eq (by omega) (by omega)] at d6
    rw [c6', y8, sgn_lt (by omega) (by omega)] at d7
    rw [c4', c6', y8] at d4
    refine ⟨s3, by rw [d2, c2, a2], d4, ?_⟩
    rw [if_neg hlast]
    by_cases hql : q < j.colSteps
    · rw [if_pos hql]
      have n3' := n3 1 (by
        rw [d6, d7]
        rcases Nat.lt_or_ge (q + 1) j.colSteps with hh | hh
        · rw [show decide (j.startCol + 4 * (q + 1) < j.lastCol) = true from decide_eq_true (by omega), Bool.or_true]
          rfl
        · rw [show decide (j.startCol + 4 * (q + 1) = j.lastCol) = true from decide_eq_true (by omega), Bool.true_or]
          rfl)
      have eP : nextP j p = 0 := by unfold nextP; rw [if_neg hlast]
      have eQ : nextQ j p q = q + 1 := by unfold nextQ; rw [if_neg hlast, if_pos hql]
      rw [eP] at xlc xlp vl pr
      rw [eQ] at xrc xrp vr pr
      refine ⟨(n1.trans n2).trans n3', ?_⟩
      have g : ∀ r, r ∈ [5, 6, 7, 8, 9, 10, 11, 12, 32, 33, 34, 35, 40, 41, 42, 43] → s3.x r = s1.x r :=
        fun r hr => (d1.get (by revert r; decide)).trans (c1.get hr)
      exact {
        mid := {
          x8 := (g _ (by decide)).trans x8
          x9 := (g _ (by decide)).trans x9
          x10 := (g _ (by decide)).trans x10
          x11 := (g _ (by decide)).trans x11
          x12 := (g _ (by decide)).trans x12
          dc := (d1.get (by decide)).trans c7'
          dp := (d1.get (by decide)).trans c8'
          row := (d1.get (by decide)).trans c5'
          col := (d1.get (by decide)).trans c6'
          rows := (g _ (by decide)).trans xrows
          cols := (g _ (by decide)).trans xcols
          tmp := (g _ (by decide)).trans xtmp
          type := (g _ (by decide)).trans xty
          mem := fun r h1 h2 => by rw [d2, c2]; exact mem r h1 h2
          ok := d4 }
        x1 := d5
        x5 := (g _ (by decide)).trans a5
        x6 := (g _ (by decide)).trans a6
        x7 := (g _ (by decide)).trans a7
        lc := (g _ (by decide)).trans xlc
        rc := (g _ (by decide)).trans xrc
        data := ⟨(g _ (by decide)).trans xlp, (g _ (by decide)).trans xrp,
          fun i hi => by rw [d3, c3]; exact vl i hi, fun i hi => by rw [d3, c3]; exact vr i hi⟩
        prods := fun i hi k hk => by rw [d3, c3]; exact pr i hi k hk
        zero := fun i hi => by rw [d3, c3]; exact zero i hi }
    · rw [if_neg hql]
      refine (n1.trans n2).trans (n3 55 ?_)
      rw [d6, d7, show decide (j.startCol + 4 * (q + 1) < j.lastCol) = false from decide_eq_false (by omega),
        show decide (j.startCol + 4 * (q + 1) = j.lastCol) = false from decide_eq_false (by omega)]
      rfl

/-! ### The prologue -/

theorem b0 (j : Job) (s : St) : Same [32, 33, 36, 37, 38, 39, 40, 41, 42, 43] s (exec j.env gemm0.body s) ∧
    (exec j.env gemm0.body s).m = s.m ∧
    (exec j.env gemm0.body s).x 1 = .int 16 ∧
    (exec j.env gemm0.body s).x 5 = .ptr .lhs j.lhsBase ∧
    (exec j.env gemm0.body s).x 6 = .int (j.startRow % 2 ^ 32) ∧
    (exec j.env gemm0.body s).x 7 = .int (j.lastRow % 2 ^ 32) ∧
    (exec j.env gemm0.body s).x 8 = .int (j.lastCol % 2 ^ 32) ∧
    (exec j.env gemm0.body s).x 9 = .int (j.lhsStride % 2 ^ 32) ∧
    (exec j.env gemm0.body s).x 10 = .int (j.rhsStride % 2 ^ 32) ∧
    (exec j.env gemm0.body s).x 11 = .int (j.dstStride % 2 ^ 32) ∧
    (exec j.env gemm0.body s).x 12 = .int (j.depth % 2 ^ 32) ∧
    (exec j.env gemm0.body s).x lhsPtr = addN (s.x lhsPtr) 4 ∧
    (exec j.env gemm0.body s).x rhsPtr = addN (s.x rhsPtr) 4 ∧
    (exec j.env gemm0.body s).bad = (s.bad || false || false || false || false || false || false || false ||
      out j.env (addN (s.x lhsPtr) 0) 0 16 || out j.env (addN (s.x lhsPtr) 1) 0 16 ||
      out j.env (addN (s.x lhsPtr) 2) 0 16 || out j.env (addN (s.x lhsPtr) 3) 0 16 ||
      out j.env (addN (s.x rhsPtr) 0) 0 16 || out j.env (addN (s.x rhsPtr) 1) 0 16 ||
      out j.env (addN (s.x rhsPtr) 2) 0 16 || out j.env (addN (s.x rhsPtr) 3) 0 16) ∧
    (∀ i, i < 4 → (exec j.env gemm0.body s).v i = bytes s (addN (s.x lhsPtr) i) 0) ∧
    (∀ i, i < 4 → (exec j.env gemm0.body s).v (4 + i) = bytes s (addN (s.x rhsPtr) i) 0) ∧
    (∀ i, i < 16 → (exec j.env gemm0.body s).v (16 + i) = fun _ => 0) ∧
    (∀ i, i < 4 → ∀ k, k < 2 → (exec j.env gemm0.body s).v (8 + 4 * k + i) =
      prodV (bytes s (addN (s.x lhsPtr) i) 0) (bytes s (addN (s.x rhsPtr) k) 0)) := by
  cases s
  refine ⟨by keep, rfl, rfl, rfl, rfl, rfl, rfl, rfl, rfl, rfl, rfl, rfl, rfl, rfl, ?_, ?_, ?_, ?_⟩
  · intro i hi; interval_cases i <;> rfl
  · intro i hi; interval_cases i <;> rfl
  · intro i hi; interval_cases i <;> rfl
  · intro i hi k hk; interval_cases i <;> interval_cases k <;> rfl

end Ruy.Neon

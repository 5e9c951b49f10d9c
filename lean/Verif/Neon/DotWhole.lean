import Verif.Neon.DotHeads
import Verif.Neon.Whole
/-
The dot-product kernels: one block of the destination from label 1 to the stores, and the loop over
blocks.
-/
namespace Ruy.Neon.Dot
open Simd (wrap8 wrap16 wrap32)

/-! ### From label 1 to the end of the stores -/

def valAt (j : Job) (p q u w : Nat) : Int := conv j (wrap32 (accInt j p q u w)) (scaledAt j p q u w)

section
variable {P : List Block} (hP : Prog P)
include hP
theorem st25 : StoreAt P dot25.body dot26.body dot27.body dot28.body 1 25 61 :=
  ⟨hP.tail _ (by decide), hP.tail _ (by decide), hP.tail _ (by decide), hP.tail _ (by decide), hP.tail _ (by decide),
    ⟨hP.tail _ (by decide), hP.tail _ (by decide), hP.tail _ (by decide)⟩, hP.tail _ (by decide)⟩
theorem st34 : StoreAt P dot34.body dot35.body dot36.body dot37.body 1 34 61 :=
  ⟨hP.tail _ (by decide), hP.tail _ (by decide), hP.tail _ (by decide), hP.tail _ (by decide), hP.tail _ (by decide),
    ⟨hP.tail _ (by decide), hP.tail _ (by decide), hP.tail _ (by decide)⟩, hP.tail _ (by decide)⟩
theorem st43 : StoreAt P dot43.body dot44.body dot45.body dot46.body 2 43 61 :=
  ⟨hP.tail _ (by decide), hP.tail _ (by decide), hP.tail _ (by decide), hP.tail _ (by decide), hP.tail _ (by decide),
    ⟨hP.tail _ (by decide), hP.tail _ (by decide), hP.tail _ (by decide)⟩, hP.tail _ (by decide)⟩
theorem st52 : StoreAt P dot52.body dot53.body dot54.body dot55.body 4 52 61 :=
  ⟨hP.tail _ (by decide), hP.tail _ (by decide), hP.tail _ (by decide), hP.tail _ (by decide), hP.tail _ (by decide),
    ⟨hP.tail _ (by decide), hP.tail _ (by decide), hP.tail _ (by decide)⟩, hP.tail _ (by decide)⟩
end

theorem Done.of {j : Job} {p q : Nat} {f : Nat → Nat → Int} {s s' : St} (h : Done j p q f s) (h1 : Same midRegs s s')
    (h2 : Same [32, 33, 34, 35] s s') (hm : s'.m = s.m) (hb : s'.bad = false) (hv : ∀ i, i < 4 → s'.v i = s.v i)
    (ht : Tile f s') : Done j p q f s' :=
  ⟨h.mid.of h1 hm hb, h.nxt.of h2 hv, ht⟩

/-- Blocks 23, 24 and the stores that are not int32. -/
theorem narrowed {P : List Block} (hP : Prog P) {j : Job} (hf : Fits j) {p q : Nat} (hp : p ≤ j.rowSteps)
    (hq : q ≤ j.colSteps) {s : St} (h : Done j p q (scaledAt j p q) s) (hd : j.dt ≠ .i32) :
    ∃ s1 s', Reach (env j) P (23, s) (61, s') ∧ s1.m = s.m ∧ Mid j p q s1 ∧ Next j p q s1 ∧
      Stored j p q (valAt j p q) s1 s' := by
  obtain ⟨a1, a2, a3, a4, a5, a6, a7, a8⟩ := b23 j s
  have nx : ∀ l, (bif (exec (env j) dot23.body s).z then 43 else 24) = l →
      Reach (env j) P (23, s) (l, exec (env j) dot23.body s) := fun l hl =>
    hP.block (b := dot23) (by omega) rfl hl
  generalize exec (env j) dot23.body s = s1 at *
  rw [h.mid.type, sgn_eq (by cases j.dt <;> decide) (by decide)] at a8
  rw [h.mid.ok, h.mid.type] at a4
  have r1 : Done j p q (scaledAt j p q) s1 := h.of a1 a3 a2 a4 a5 fun w hw u hu i hi => by
    rw [show 16 + 2 * w + u = 16 + (2 * w + u) by omega, a6 _ (by omega),
      ← show 16 + 2 * w + u = 16 + (2 * w + u) by omega]
    exact h.tile w hw u hu i hi
  have z1 : getH (s1.v 13) 4 = wrap16 j.dstZp := by
    rw [a7, getH_ofH, if_pos rfl]; exact wrap16_u32 _
  by_cases h16 : j.dt = .i16
  · obtain ⟨s', h1, h2⟩ := stored_core hf hp hq (k := 2) (by rw [h16]; rfl) (st43 hP) tmp2 direct2 r1.mid
      (head43 hf hp hq r1.mid z1 r1.tile)
    refine ⟨s1, s', (nx 43 ?_).trans h1, a2, r1.mid, r1.nxt, ?_⟩
    · rw [a8, h16]; rfl
    · have : valAt j p q = fun u w => Simd.Neon.storeS16 (scaledAt j p q u w) j.dstZp j.clampMin j.clampMax := by
        funext u w; unfold valAt conv; rw [h16]
      rw [this]; exact h2
  obtain ⟨c1, c2, c3, c4, c5, c6⟩ := b24 (env j) s1
  have nx2 : ∀ l, (bif (exec (env j) dot24.body s1).z then 34 else 25) = l →
      Reach (env j) P (24, s1) (l, exec (env j) dot24.body s1) := fun l hl =>
    hP.block (b := dot24) (by omega) rfl hl
  generalize exec (env j) dot24.body s1 = s2 at *
  rw [r1.mid.type, sgn_eq (by cases j.dt <;> decide) (by decide)] at c6
  rw [r1.mid.ok, r1.mid.type] at c5
  have r2 : Done j p q (scaledAt j p q) s2 := r1.of c1 c2 c3 c5 (fun i _ => by rw [c4]) (r1.tile.of c4)
  have z2 : getH (s2.v 13) 4 = wrap16 j.dstZp := by rw [c4]; exact z1
  have n24 := nx 24 (by rw [a8]; revert h16 hd; cases j.dt <;> simp [Dt.id])
  by_cases h8 : j.dt = .i8
  · obtain ⟨s', h1, h2⟩ := stored_core hf hp hq (k := 1) (by rw [h8]; rfl) (st34 hP) tmp1 direct1 r2.mid
      (head34 hf hp hq r2.mid z2 r2.tile)
    refine ⟨s2, s', (n24.trans (nx2 34 ?_)).trans h1, c3.trans a2, r2.mid, r2.nxt, ?_⟩
    · rw [c6, h8]; rfl
    · have : valAt j p q = fun u w => Simd.Neon.storeS8 (scaledAt j p q u w) j.dstZp j.clampMin j.clampMax := by
        funext u w; unfold valAt conv; rw [h8]
      rw [this]; exact h2
  · have hu : j.dt = .u8 := by revert h16 hd h8; cases j.dt <;> simp
    obtain ⟨s', h1, h2⟩ := stored_core hf hp hq (k := 1) (by rw [hu]; rfl) (st25 hP) tmp1 direct1 r2.mid
      (head25 hf hp hq r2.mid z2 r2.tile)
    refine ⟨s2, s', (n24.trans (nx2 25 ?_)).trans h1, c3.trans a2, r2.mid, r2.nxt, ?_⟩
    · rw [c6, hu]; rfl
    · have : valAt j p q = fun u w => Simd.Neon.storeU8 (scaledAt j p q u w) j.dstZp j.clampMin j.clampMax := by
        funext u w; unfold valAt conv; rw [hu]
      rw [this]; exact h2

/-- A whole block. -/
theorem block_stored {P : List Block} (hP : Prog P) {j : Job} (hf : Fits j) {p q : Nat} (hp : p ≤ j.rowSteps)
    (hq : q ≤ j.colSteps) {s : St} (h : Head j p q s) :
    ∃ s1 s', Reach (env j) P (1, s) (61, s') ∧ s1.m = s.m ∧ Mid j p q s1 ∧ Next j p q s1 ∧
      Stored j p q (valAt j p q) s1 s' := by
  obtain ⟨sa, ra, ha, ma⟩ := summed hP hf hp hq h
  obtain ⟨sb, rb, hb, mb⟩ := biased hP hf hp hq ha
  obtain ⟨sc, rc, mc, hc⟩ := rhsSummed hP hf hq hb
  obtain ⟨sd, rd, md, hd⟩ := lhsSummed hP hf hp hc
  have r0 := ((ra.trans rb).trans rc).trans rd
  have m0 : sd.m = s.m := by rw [md, mc, mb, ma]
  by_cases h32 : j.dt = .i32
  · rw [if_pos h32] at r0
    obtain ⟨s', h1, h2⟩ := stored_core hf hp hq (k := 4) (by rw [h32]; rfl) (st52 hP) tmp4 direct4 hd.mid
      (head52 hf hp hq hd.mid hd.tile)
    refine ⟨sd, s', r0.trans h1, m0, hd.mid, hd.nxt, ?_⟩
    have : valAt j p q = fun u w => wrap32 (accInt j p q u w) := by
      funext u w; unfold valAt conv; rw [h32]
    rw [this]; exact h2
  · rw [if_neg h32] at r0
    obtain ⟨se, re, me, he⟩ := multiplied hP hf hp hq hd
    obtain ⟨s1, s', h1, h2, h3, h4, h5⟩ := narrowed hP hf hp hq he h32
    exact ⟨s1, s', (r0.trans re).trans h1, by rw [h2, me, m0], h3, h4, h5⟩

/-! ### The loop over blocks -/

theorem b61 (j : Job) (s : St) : Same keepNext s (exec (env j) dot61.body s) ∧
    (exec (env j) dot61.body s).m = s.m ∧ (exec (env j) dot61.body s).v = s.v ∧
    (exec (env j) dot61.body s).bad = (s.bad || false || false || (s.x rRow).isPtr || false) ∧
    (exec (env j) dot61.body s).x 5 = .ptr .lhs j.lhsBase ∧
    (exec (env j) dot61.body s).x 6 = .int (j.startRow % 2 ^ 32) ∧
    (exec (env j) dot61.body s).x 7 = .int (lastRow j % 2 ^ 32) ∧
    (exec (env j) dot61.body s).z = decide (sgn (s.x rRow).num = sgn (Val.int (lastRow j % 2 ^ 32)).num) := by
  cases s
  exact ⟨by keep, rfl, rfl, rfl, rfl, rfl, rfl, rfl⟩

theorem b62 (e : Env) (s : St) :
    Same [5, 6, 7, 8, 9, 10, 11, 12, 32, 33, 34, 35, 36, 37, 39, 40, 41, 42, 43] s (exec e dot62.body s) ∧
    (exec e dot62.body s).m = s.m ∧ (exec e dot62.body s).v = s.v ∧
    (exec e dot62.body s).bad = (s.bad || (s.x rRow).isPtr) ∧
    (exec e dot62.body s).x rRow = .int (((s.x rRow).num + 8) % 2 ^ 32) := by
  cases s
  exact ⟨by keep, rfl, rfl, rfl, rfl⟩

theorem b63 (e : Env) (s : St) :
    Same [5, 6, 7, 8, 9, 10, 11, 12, 32, 33, 34, 35, 40, 41, 42, 43] s (exec e dot63.body s) ∧
    (exec e dot63.body s).m = s.m ∧ (exec e dot63.body s).v = s.v ∧
    (exec e dot63.body s).bad = (s.bad || (s.x 6).isPtr || (s.x rCol).isPtr || (s.x 11).isPtr) ∧
    (exec e dot63.body s).x rRow = .int ((s.x 6).num % 2 ^ 32) ∧
    (exec e dot63.body s).x rCol = .int (((s.x rCol).num + 8) % 2 ^ 32) ∧
    (exec e dot63.body s).x dstColPtr = addVal (s.x dstColPtr) ((s.x 11).num * 2 ^ 3) ∧
    (exec e dot63.body s).x dstPtr = addVal (s.x dstColPtr) ((s.x 11).num * 2 ^ 3) := by
  cases s
  exact ⟨by keep, rfl, rfl, rfl, rfl, rfl, rfl, rfl⟩

theorem b64 (e : Env) (s : St) :
    Same [5, 6, 7, 8, 9, 10, 11, 12, 32, 33, 34, 35, 36, 37, 38, 39, 40, 41, 42, 43] s (exec e dot64.body s) ∧
    (exec e dot64.body s).m = s.m ∧ (exec e dot64.body s).v = s.v ∧
    (exec e dot64.body s).bad = (s.bad || (s.x rCol).isPtr || (s.x 8).isPtr) ∧
    (exec e dot64.body s).x 1 = .int 4 ∧
    (exec e dot64.body s).z = decide (sgn (s.x rCol).num = sgn (s.x 8).num) ∧
    (exec e dot64.body s).lt = decide (sgn (s.x rCol).num < sgn (s.x 8).num) := by
  cases s
  exact ⟨by keep, rfl, rfl, rfl, rfl, rfl, rfl⟩

theorem Same.self (l : List Nat) (s : St) : Same l s s := same_of_x rfl

/-- The depth loop can start: the accumulators have the products of the first group for a quarter of the
block, and zeros. -/
theorem start_loop {j : Job} {a b : Nat} {s : St} (h1 : s.x 1 = .int 4) (hb : s.bad = false)
    (lp : s.x lhsPtr = .ptr .lhs (a + 32)) (rp : s.x rhsPtr = .ptr .rhs (b + 32)) (hd : Groups j a b 0 1 s)
    (hv : ∀ q, q < 2 → ∀ k, k < 4 → ∀ h, h < 2 → s.v (16 + 8 * q + 2 * k + h) =
      if h = 0 ∧ q = 0 then eop .sdot k (fun _ => 0) (s.v 0) (s.v 2) else fun _ => 0) :
    Loop j a b 0 1 s s where
  x1 := h1
  same := Same.self _ _
  m := rfl
  ok := hb
  lp := lp
  rp := rp
  data := hd
  acc := by
    intro h hh q hq k hk i hi
    rw [hv q hq k hk h hh, ← rest_all, rest_step (p := 0) (by omega)]
    unfold ahead
    by_cases h0 : h = 0 ∧ q = 0
    · obtain ⟨rfl, rfl⟩ := h0
      obtain ⟨d1, d2⟩ := hd 0 (by omega) 0 (by omega)
      rw [Nat.mul_zero, Nat.zero_add] at d1 d2
      rw [if_pos ⟨rfl, rfl⟩, if_pos ⟨rfl, rfl⟩, getS_sdot, d1, d2, getS_zero, Int.add_zero, Int.zero_add]
      exact wrap32_add_l _ _
    · rw [if_neg h0, if_neg h0, getS_zero, Int.zero_add]

/-- Blocks 61 to 64. -/
theorem advanced {P : List Block} (hP : Prog P) {j : Job} (hf : Fits j) {p q : Nat} (hp : p ≤ j.rowSteps)
    (hq : q ≤ j.colSteps) {val : Nat → Nat → Int} {s0 s : St} (hm : Mid j p q s0) (hn : Next j p q s0)
    (h : Stored j p q val s0 s) :
    ∃ s', s'.m = s.m ∧ s'.bad = false ∧
      if p < j.rowSteps then Reach (env j) P (61, s) (1, s') ∧ Head j (p + 1) q s'
      else if q < j.colSteps then Reach (env j) P (61, s) (1, s') ∧ Head j 0 (q + 1) s'
      else Reach (env j) P (61, s) (65, s') := by
  have f1 := hf.row
  have f2 := hf.col
  have lr : lastRow j = j.startRow + 8 * j.rowSteps := rfl
  have lc : lastCol j = j.startCol + 8 * j.colSteps := rfl
  obtain ⟨a1, a2, av, a3, a5, a6, a7, az⟩ := b61 j s
  have nx : ∀ l, (bif (exec (env j) dot61.body s).z then 63 else 62) = l →
      Reach (env j) P (61, s) (l, exec (env j) dot61.body s) := fun l hl =>
    hP.block (b := dot61) (by omega) rfl hl
  generalize exec (env j) dot61.body s = s1 at *
  have get : ∀ r, r ∈ keepStore → s1.x r = s0.x r := fun r hr =>
    (a1.get (by revert r; decide)).trans (h.same.get hr)
  have xr : s.x rRow = .int (j.startRow + 8 * p) := (h.same.get (by decide)).trans hm.row
  rw [xr, Nat.mod_eq_of_lt (a := lastRow j) (by omega), sgn_eq (by omega) (by omega)] at az
  rw [h.ok, xr] at a3
  have a3' : s1.bad = false := a3
  rw [Nat.mod_eq_of_lt (by omega)] at a6 a7
  have x8 : s1.x 8 = .int (lastCol j) := (get 8 (by decide)).trans hm.x8
  have x9 : s1.x 9 = .int j.lhsStride := (get 9 (by decide)).trans hm.x9
  have x10 : s1.x 10 = .int j.rhsStride := (get 10 (by decide)).trans hm.x10
  have x11 : s1.x 11 = .int j.dstStride := (get 11 (by decide)).trans hm.x11
  have x12 : s1.x 12 = .int (depth j) := (get 12 (by decide)).trans hm.x12
  have xlc := (get lhsColPtr (by decide)).trans hn.lc
  have xrc := (get rhsColPtr (by decide)).trans hn.rc
  have xlp := (get lhsPtr (by decide)).trans hn.lp
  have xrp := (get rhsPtr (by decide)).trans hn.rp
  have xdc := (get dstColPtr (by decide)).trans hm.dc
  have xdp : s1.x dstPtr = .ptr .dst (dstBlk j p q + 8 * j.dt.size) := (a1.get (by decide)).trans h.x37
  have xrow := (get rRow (by decide)).trans hm.row
  have xcol := (get rCol (by decide)).trans hm.col
  have xrows := (get rDstRows (by decide)).trans hm.rows
  have xcols := (get rDstCols (by decide)).trans hm.cols
  have xtmp := (get tmpBuf (by decide)).trans hm.tmp
  have xty := (get dstTypeId (by decide)).trans hm.type
  have mem : ∀ r, r ≠ .dst → r ≠ .tmp → s1.m r = j.m r := fun r h1 h2 => by
    rw [a2, h.m r h1 h2]; exact hm.mem r h1 h2
  have groups : Groups j (lhsBlk j (nextP j p)) (rhsBlk j (nextQ j p q)) 0 1 s1 := by
    intro u hu i hi
    obtain rfl : u = 0 := by omega
    obtain ⟨d1, d2⟩ := hn.data 0 (by omega) i hi
    rw [av]
    exact ⟨(h.fresh.1 _ (by omega)).trans d1, (h.fresh.1 _ (by omega)).trans d2⟩
  have fresh : ∀ q, q < 2 → ∀ k, k < 4 → ∀ h, h < 2 → s1.v (16 + 8 * q + 2 * k + h) =
      if h = 0 ∧ q = 0 then eop .sdot k (fun _ => 0) (s1.v 0) (s1.v 2) else fun _ => 0 := by
    intro q hq k hk u hu
    rw [av, h.fresh.2 q hq k hk u hu, h.fresh.1 0 (by omega), h.fresh.1 2 (by omega)]
  by_cases hlast : p < j.rowSteps
  · rw [show decide (j.startRow + 8 * p = lastRow j) = false from decide_eq_false (by omega)] at az
    have n1 := nx 62 (by rw [az]; rfl)
    obtain ⟨c1, c2, c3, c4, c5⟩ := b62 (env j) s1
    have n2 : Reach (env j) P (62, s1) (64, exec (env j) dot62.body s1) := hP.block (b := dot62) (by omega) rfl rfl
    generalize exec (env j) dot62.body s1 = s2 at *
    rw [a3', xrow] at c4
    rw [xrow] at c5
    have c4' : s2.bad = false := c4
    have c5' : s2.x rRow = .int (j.startRow + 8 * (p + 1)) := c5.trans (congrArg Val.int (by
      simp only [Val.num]; omega))
    obtain ⟨d1, d2, d3, d4, d5, d6, d7⟩ := b64 (env j) s2
    have n3 : ∀ l, (bif (exec (env j) dot64.body s2).z || (exec (env j) dot64.body s2).lt then 1 else 65) = l →
        Reach (env j) P (64, s2) (l, exec (env j) dot64.body s2) := fun l hl =>
      hP.block (b := dot64) (by omega) rfl hl
    generalize exec (env j) dot64.body s2 = s3 at *
    have y8 : s2.x 8 = .int (lastCol j) := (c1.get (by decide)).trans x8
    have ycol : s2.x rCol = .int (j.startCol + 8 * q) := (c1.get (by decide)).trans xcol
    rw [ycol, y8, sgn_eq (by omega) (by omega)] at d6
    rw [ycol, y8, sgn_lt (by omega) (by omega)] at d7
    rw [c4', ycol, y8] at d4
    have n3' := n3 1 (by
      rw [d6, d7]
      rcases Nat.lt_or_ge q j.colSteps with hh | hh
      · rw [show decide (j.startCol + 8 * q < lastCol j) = true from decide_eq_true (by omega), Bool.or_true]; rfl
      · rw [show decide (j.startCol + 8 * q = lastCol j) = true from decide_eq_true (by omega), Bool.true_or]; rfl)
    have eP : nextP j p = p + 1 := by unfold nextP; rw [if_pos hlast]
    have eQ : nextQ j p q = q := by unfold nextQ; rw [if_pos hlast]
    rw [eP] at xlc xlp groups
    rw [eQ] at xrc xrp groups
    refine ⟨s3, by rw [d2, c2, a2], d4, ?_⟩
    rw [if_pos hlast]
    refine ⟨(n1.trans n2).trans n3', ?_⟩
    have g : ∀ r, r ∈ [5, 6, 7, 8, 9, 10, 11, 12, 32, 33, 34, 35, 36, 37, 39, 40, 41, 42, 43] → s3.x r = s1.x r :=
      fun r hr => (d1.get (by revert r; decide)).trans (c1.get hr)
    have hv : s3.v = s1.v := d3.trans c3
    exact {
      mid := {
        x8 := (g _ (by decide)).trans x8
        x9 := (g _ (by decide)).trans x9
        x10 := (g _ (by decide)).trans x10
        x11 := (g _ (by decide)).trans x11
        x12 := (g _ (by decide)).trans x12
        dc := (g _ (by decide)).trans xdc
        dp := ((g _ (by decide)).trans xdp).trans (congrArg (Val.ptr _) (by unfold dstBlk; ring))
        row := (d1.get (by decide)).trans c5'
        col := (g _ (by decide)).trans xcol
        rows := (g _ (by decide)).trans xrows
        cols := (g _ (by decide)).trans xcols
        tmp := (g _ (by decide)).trans xtmp
        type := (g _ (by decide)).trans xty
        mem := fun r h1 h2 => by rw [d2, c2]; exact mem r h1 h2
        ok := d4 }
      x5 := (g _ (by decide)).trans a5
      x6 := (g _ (by decide)).trans a6
      x7 := (g _ (by decide)).trans a7
      lc := (g _ (by decide)).trans xlc
      rc := (g _ (by decide)).trans xrc
      loop := start_loop d5 d4 ((g _ (by decide)).trans xlp) ((g _ (by decide)).trans xrp)
        (fun u hu i hi => by rw [hv]; exact groups u hu i hi) (by rw [hv]; exact fresh) }
  · rw [show decide (j.startRow + 8 * p = lastRow j) = true from decide_eq_true (by omega)] at az
    have n1 := nx 63 (by rw [az]; rfl)
    obtain ⟨c1, c2, c3, c4, c5, c6, c7, c8⟩ := b63 (env j) s1
    have n2 : Reach (env j) P (63, s1) (64, exec (env j) dot63.body s1) := hP.block (b := dot63) (by omega) rfl rfl
    generalize exec (env j) dot63.body s1 = s2 at *
    rw [a3', a6, xcol, x11] at c4
    rw [a6] at c5
    rw [xcol] at c6
    rw [xdc, x11] at c7 c8
    have c4' : s2.bad = false := c4
    have c5' : s2.x rRow = .int (j.startRow + 8 * 0) := c5.trans (congrArg Val.int (by
      simp only [Val.num]; omega))
    have c6' : s2.x rCol = .int (j.startCol + 8 * (q + 1)) := c6.trans (congrArg Val.int (by
      simp only [Val.num]; omega))
    have c7' : s2.x dstColPtr = .ptr .dst (j.dstBase + (q + 1) * (8 * j.dstStride)) :=
      c7.trans (congrArg (Val.ptr _) (by simp only [Val.num]; ring))
    have c8' : s2.x dstPtr = .ptr .dst (j.dstBase + (q + 1) * (8 * j.dstStride) + 0 * (8 * j.dt.size)) :=
      c8.trans (congrArg (Val.ptr _) (by simp only [Val.num]; ring))
    obtain ⟨d1, d2, d3, d4, d5, d6, d7⟩ := b64 (env j) s2
    have n3 : ∀ l, (bif (exec (env j) dot64.body s2).z || (exec (env j) dot64.body s2).lt then 1 else 65) = l →
        Reach (env j) P (64, s2) (l, exec (env j) dot64.body s2) := fun l hl =>
      hP.block (b := dot64) (by omega) rfl hl
    generalize exec (env j) dot64.body s2 = s3 at *
    have y8 : s2.x 8 = .int (lastCol j) := (c1.get (by decide)).trans x8
    rw [c6', y8, sgn_eq (by omega) (by omega)] at d6
    rw [c6', y8, sgn_lt (by omega) (by omega)] at d7
    rw [c4', c6', y8] at d4
    refine ⟨s3, by rw [d2, c2, a2], d4, ?_⟩
    rw [if_neg hlast]
    by_cases hql : q < j.colSteps
    · rw [if_pos hql]
      have n3' := n3 1 (by
        rw [d6, d7]
        rcases Nat.lt_or_ge (q + 1) j.colSteps with hh | hh
        · rw [show decide (j.startCol + 8 * (q + 1) < lastCol j) = true from decide_eq_true (by omega), Bool.or_true]
          rfl
        · rw [show decide (j.startCol + 8 * (q + 1) = lastCol j) = true from decide_eq_true (by omega), Bool.true_or]
          rfl)
      have eP : nextP j p = 0 := by unfold nextP; rw [if_neg hlast]
      have eQ : nextQ j p q = q + 1 := by unfold nextQ; rw [if_neg hlast, if_pos hql]
      rw [eP] at xlc xlp groups
      rw [eQ] at xrc xrp groups
      refine ⟨(n1.trans n2).trans n3', ?_⟩
      have g : ∀ r, r ∈ [5, 6, 7, 8, 9, 10, 11, 12, 32, 33, 34, 35, 40, 41, 42, 43] → s3.x r = s1.x r :=
        fun r hr => (d1.get (by revert r; decide)).trans (c1.get hr)
      have hv : s3.v = s1.v := d3.trans c3
      exact {
        mid := {
          x8 := (g _ (by decide)).trans x8
          x9 := (g _ (by decide)).trans x9
          x10 := (g _ (by decide)).trans x10
          x11 := (g _ (by decide)).trans x11
          x12 := (g _ (by decide)).trans x12
          dc := (d1.get (by decide)).trans c7'
          dp := (d1.get (by decide)).trans c8'
          row := (d1.get (by decide)).trans c5'
          col := (d1.get (by decide)).trans c6'
          rows := (g _ (by decide)).trans xrows
          cols := (g _ (by decide)).trans xcols
          tmp := (g _ (by decide)).trans xtmp
          type := (g _ (by decide)).trans xty
          mem := fun r h1 h2 => by rw [d2, c2]; exact mem r h1 h2
          ok := d4 }
        x5 := (g _ (by decide)).trans a5
        x6 := (g _ (by decide)).trans a6
        x7 := (g _ (by decide)).trans a7
        lc := (g _ (by decide)).trans xlc
        rc := (g _ (by decide)).trans xrc
        loop := start_loop d5 d4 ((g _ (by decide)).trans xlp) ((g _ (by decide)).trans xrp)
          (fun u hu i hi => by rw [hv]; exact groups u hu i hi) (by rw [hv]; exact fresh) }
    · rw [if_neg hql]
      refine (n1.trans n2).trans (n3 65 ?_)
      rw [d6, d7, show decide (j.startCol + 8 * (q + 1) < lastCol j) = false from decide_eq_false (by omega),
        show decide (j.startCol + 8 * (q + 1) = lastCol j) = false from decide_eq_false (by omega)]
      rfl

/-! ### The prologue -/

theorem b0 (j : Job) (s : St) : Same [32, 33, 36, 37, 38, 39, 40, 41, 42, 43] s (exec (env j) dot0.body s) ∧
    (exec (env j) dot0.body s).m = s.m ∧
    (exec (env j) dot0.body s).x 1 = .int 4 ∧
    (exec (env j) dot0.body s).x 5 = .ptr .lhs j.lhsBase ∧
    (exec (env j) dot0.body s).x 6 = .int (j.startRow % 2 ^ 32) ∧
    (exec (env j) dot0.body s).x 7 = .int (lastRow j % 2 ^ 32) ∧
    (exec (env j) dot0.body s).x 8 = .int (lastCol j % 2 ^ 32) ∧
    (exec (env j) dot0.body s).x 9 = .int (j.lhsStride % 2 ^ 32) ∧
    (exec (env j) dot0.body s).x 10 = .int (j.rhsStride % 2 ^ 32) ∧
    (exec (env j) dot0.body s).x 11 = .int (j.dstStride % 2 ^ 32) ∧
    (exec (env j) dot0.body s).x 12 = .int (depth j % 2 ^ 32) ∧
    (exec (env j) dot0.body s).x lhsPtr = addN (s.x lhsPtr) 2 ∧
    (exec (env j) dot0.body s).x rhsPtr = addN (s.x rhsPtr) 2 ∧
    (exec (env j) dot0.body s).bad = (s.bad || false || false || false || false || false || false || false ||
      out (env j) (addN (s.x lhsPtr) 0) 0 16 || out (env j) (addN (s.x lhsPtr) 1) 0 16 ||
      out (env j) (addN (s.x rhsPtr) 0) 0 16 || out (env j) (addN (s.x rhsPtr) 1) 0 16) ∧
    (∀ i, i < 2 → (exec (env j) dot0.body s).v i = bytes s (addN (s.x lhsPtr) i) 0) ∧
    (∀ i, i < 2 → (exec (env j) dot0.body s).v (2 + i) = bytes s (addN (s.x rhsPtr) i) 0) ∧
    (∀ q, q < 2 → ∀ k, k < 4 → ∀ h, h < 2 → (exec (env j) dot0.body s).v (16 + 8 * q + 2 * k + h) =
      if h = 0 ∧ q = 0 then eop .sdot k (fun _ => 0) (bytes s (addN (s.x lhsPtr) 0) 0)
        (bytes s (addN (s.x rhsPtr) 0) 0) else fun _ => 0) := by
  cases s
  refine ⟨by keep, rfl, rfl, rfl, rfl, rfl, rfl, rfl, rfl, rfl, rfl, rfl, rfl, rfl, ?_, ?_, ?_⟩
  · intro i hi; interval_cases i <;> rfl
  · intro i hi; interval_cases i <;> rfl
  · intro q hq k hk h hh; interval_cases q <;> interval_cases k <;> interval_cases h <;> rfl

end Ruy.Neon.Dot

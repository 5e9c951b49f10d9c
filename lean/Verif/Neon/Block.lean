import Verif.Neon.Accum
/-
`Kernel8bitNeon` from the end of the depth loop to the loads for the next block
(labels 79, 4, 5, 6).
-/
namespace Ruy.Neon
open Simd (wrap8 wrap16 wrap32)

/-- Proves `Same` for a block that does not write the registers. -/
macro "keep" : tactic => `(tactic| repeat' (first | exact trivial | refine ⟨rfl, ?_⟩))

/-- What holds from the start of block (`p`, `q`) of the destination until it is stored. -/
structure Mid (j : Job) (p q : Nat) (s : St) : Prop where
  x8 : s.x 8 = .int j.lastCol
  x9 : s.x 9 = .int j.lhsStride
  x10 : s.x 10 = .int j.rhsStride
  x11 : s.x 11 = .int j.dstStride
  x12 : s.x 12 = .int j.depth
  dc : s.x dstColPtr = .ptr .dst (j.dstBase + q * (4 * j.dstStride))
  dp : s.x dstPtr = .ptr .dst (j.dstBase + q * (4 * j.dstStride) + p * (4 * j.dt.size))
  row : s.x rRow = .int (j.startRow + 4 * p)
  col : s.x rCol = .int (j.startCol + 4 * q)
  rows : s.x rDstRows = .int j.dstRows
  cols : s.x rDstCols = .int j.dstCols
  tmp : s.x tmpBuf = .ptr .tmp 0
  type : s.x dstTypeId = .int j.dt.id
  mem : ∀ r, r ≠ .dst → r ≠ .tmp → s.m r = j.m r
  ok : s.bad = false

def midRegs : List Nat := [8, 9, 10, 11, 12, 36, 37, 38, 39, 40, 41, 42, 43]

theorem Mid.of {j : Job} {p q : Nat} {s s' : St} (h : Mid j p q s) (hs : Same midRegs s s')
    (hm : s'.m = s.m) (hb : s'.bad = false) : Mid j p q s' where
  x8 := (hs.get (by decide)).trans h.x8
  x9 := (hs.get (by decide)).trans h.x9
  x10 := (hs.get (by decide)).trans h.x10
  x11 := (hs.get (by decide)).trans h.x11
  x12 := (hs.get (by decide)).trans h.x12
  dc := (hs.get (by decide)).trans h.dc
  dp := (hs.get (by decide)).trans h.dp
  row := (hs.get (by decide)).trans h.row
  col := (hs.get (by decide)).trans h.col
  rows := (hs.get (by decide)).trans h.rows
  cols := (hs.get (by decide)).trans h.cols
  tmp := (hs.get (by decide)).trans h.tmp
  type := (hs.get (by decide)).trans h.type
  mem := fun r h1 h2 => by rw [hm]; exact h.mem r h1 h2
  ok := hb

/-- The block whose operands are loaded while block (`p`, `q`) is finished: the next
row of blocks, the next column, or the first row again after the last block. -/
def nextP (j : Job) (p : Nat) : Nat := if p < j.rowSteps then p + 1 else 0
def nextQ (j : Job) (p q : Nat) : Nat :=
  if p < j.rowSteps then q else if q < j.colSteps then q + 1 else q

def lhsBlk (j : Job) (p : Nat) : Nat := j.lhsBase + p * (4 * j.lhsStride)
def rhsBlk (j : Job) (q : Nat) : Nat := j.rhsBase + q * (4 * j.rhsStride)

/-- At label 1. -/
structure Head (j : Job) (p q : Nat) (s : St) : Prop where
  mid : Mid j p q s
  x1 : s.x 1 = .int 16
  x5 : s.x 5 = .ptr .lhs j.lhsBase
  x6 : s.x 6 = .int j.startRow
  x7 : s.x 7 = .int j.lastRow
  lc : s.x lhsColPtr = .ptr .lhs (lhsBlk j p)
  rc : s.x rhsColPtr = .ptr .rhs (rhsBlk j q)
  data : Loaded j (lhsBlk j p) (rhsBlk j q) s
  prods : Prods j (lhsBlk j p) (rhsBlk j q) s
  zero : ∀ i, i < 16 → s.v (16 + i) = fun _ => 0

/-- Entries of a tile: `f u w` for row `u` and column `w`. -/
def Tile (f : Nat → Nat → Int) (s : St) : Prop :=
  ∀ w, w < 4 → ∀ u, u < 4 → getS (s.v (16 + w)) u = f u w

/-- At label 5. -/
structure Summed (j : Job) (p q : Nat) (s : St) : Prop where
  mid : Mid j p q s
  lc : s.x lhsColPtr = .ptr .lhs (lhsBlk j (nextP j p))
  rc : s.x rhsColPtr = .ptr .rhs (rhsBlk j (nextQ j p q))
  tile : Tile (fun u w => wrap32 (blockDot j (lhsBlk j p) (rhsBlk j q) u w (j.depthSteps + 1))) s

theorem readable {j : Job} (hf : j.Fits) {p q : Nat} (hp : p ≤ j.rowSteps) (hq : q ≤ j.colSteps)
    {s : St} (h : ∀ r, r ≠ .dst → r ≠ .tmp → s.m r = j.m r) :
    Readable j (lhsBlk j p) (rhsBlk j q) s where
  ml := h .lhs (by decide) (by decide)
  mr := h .rhs (by decide) (by decide)
  sl := by
    have h1 : (p + 1) * (4 * j.lhsStride) ≤ (j.rowSteps + 1) * (4 * j.lhsStride) :=
      Nat.mul_le_mul_right _ (by omega)
    have h2 := hf.lhsSize
    have h3 := hf.lhsDepth
    rw [Nat.add_mul, Nat.one_mul] at h1
    unfold lhsBlk
    unfold Job.depth at h3
    omega
  sr := by
    have h1 : (q + 1) * (4 * j.rhsStride) ≤ (j.colSteps + 1) * (4 * j.rhsStride) :=
      Nat.mul_le_mul_right _ (by omega)
    have h2 := hf.rhsSize
    have h3 := hf.rhsDepth
    rw [Nat.add_mul, Nat.one_mul] at h1
    unfold rhsBlk
    unfold Job.depth at h3
    omega

/-- Block 3: the tile. -/
theorem tail_tile {j : Job} {a b : Nat} {s s' : St} (h : Loop j a b j.depthSteps s s') :
    Tile (fun u w => wrap32 (blockDot j a b u w (j.depthSteps + 1))) (exec j.env gemm3.body s') := by
  have e : ∀ w, w < 4 → (exec j.env gemm3.body s').v (16 + w) =
      tileV (accV j a b 0 w (j.depthSteps + 1)) (accV j a b 1 w (j.depthSteps + 1))
        (accV j a b 2 w (j.depthSteps + 1)) (accV j a b 3 w (j.depthSteps + 1)) := by
    have e0 : ∀ w, w < 2 → (exec j.env gemm3.body s').v (16 + w) =
        tileV (vop .sadalp (s'.v (16 + 4 * w + 0)) (s'.v (8 + 4 * w + 0)) (s'.v (8 + 4 * w + 0)))
          (vop .sadalp (s'.v (16 + 4 * w + 1)) (s'.v (8 + 4 * w + 1)) (s'.v (8 + 4 * w + 1)))
          (vop .sadalp (s'.v (16 + 4 * w + 2)) (s'.v (8 + 4 * w + 2)) (s'.v (8 + 4 * w + 2)))
          (vop .sadalp (s'.v (16 + 4 * w + 3)) (s'.v (8 + 4 * w + 3)) (s'.v (8 + 4 * w + 3))) := by
      intro w hw
      interval_cases w <;> rfl
    have e1 : ∀ w, w < 2 → (exec j.env gemm3.body s').v (16 + (2 + w)) =
        tileV (vop .sadalp (s'.v (16 + 4 * (2 + w) + 0)) (prodV (s'.v 0) (s'.v (4 + (2 + w)))) (fun _ => 0))
          (vop .sadalp (s'.v (16 + 4 * (2 + w) + 1)) (prodV (s'.v 1) (s'.v (4 + (2 + w)))) (fun _ => 0))
          (vop .sadalp (s'.v (16 + 4 * (2 + w) + 2)) (prodV (s'.v 2) (s'.v (4 + (2 + w)))) (fun _ => 0))
          (vop .sadalp (s'.v (16 + 4 * (2 + w) + 3)) (prodV (s'.v 3) (s'.v (4 + (2 + w)))) (fun _ => 0)) := by
      intro w hw
      interval_cases w <;> rfl
    intro w hw
    rcases Nat.lt_or_ge w 2 with h2 | h2
    · rw [e0 w h2, h.acc 0 (by omega) w hw, h.acc 1 (by omega) w hw, h.acc 2 (by omega) w hw,
        h.acc 3 (by omega) w hw, h.p 0 (by omega) w h2, h.p 1 (by omega) w h2,
        h.p 2 (by omega) w h2, h.p 3 (by omega) w h2]
      rfl
    · obtain ⟨w, rfl⟩ := Nat.exists_eq_add_of_le h2
      rw [e1 w (by omega), h.acc 0 (by omega) _ hw, h.acc 1 (by omega) _ hw, h.acc 2 (by omega) _ hw,
        h.acc 3 (by omega) _ hw, h.data.l 0 (by omega), h.data.l 1 (by omega),
        h.data.l 2 (by omega), h.data.l 3 (by omega), h.data.r _ hw]
      rfl
  intro w hw u hu
  rw [e w hw, tile_value j a b w _ u hu]

theorem b3 (e : Env) (s : St) : Same midRegs s (exec e gemm3.body s) ∧
    (exec e gemm3.body s).m = s.m ∧
    (exec e gemm3.body s).bad = (s.bad || (s.x rRow).isPtr || (s.x 7).isPtr) ∧
    (exec e gemm3.body s).lt = decide (sgn (s.x rRow).num < sgn (s.x 7).num) ∧
    Same [5, 9, 10, 32, 33] s (exec e gemm3.body s) := by
  cases s; exact ⟨by keep, rfl, rfl, rfl, by keep⟩

theorem b4 (e : Env) (s : St) : Same midRegs s (exec e gemm4.body s) ∧
    (exec e gemm4.body s).m = s.m ∧
    (exec e gemm4.body s).bad = (s.bad || (s.x 9).isPtr) ∧
    (exec e gemm4.body s).x lhsColPtr = addVal (s.x lhsColPtr) ((s.x 9).num * 2 ^ 2) ∧
    (exec e gemm4.body s).x rhsColPtr = s.x rhsColPtr ∧ (exec e gemm4.body s).v = s.v := by
  cases s; exact ⟨by keep, rfl, rfl, rfl, rfl, rfl⟩

theorem b5 (e : Env) (s : St) : Same midRegs s (exec e gemm5.body s) ∧
    (exec e gemm5.body s).m = s.m ∧
    (exec e gemm5.body s).bad = (s.bad || (s.x rCol).isPtr || (s.x 8).isPtr) ∧
    (exec e gemm5.body s).x lhsColPtr = s.x 5 ∧
    (exec e gemm5.body s).x rhsColPtr = s.x rhsColPtr ∧ (exec e gemm5.body s).v = s.v ∧
    (exec e gemm5.body s).lt = decide (sgn (s.x rCol).num < sgn (s.x 8).num) := by
  cases s; exact ⟨by keep, rfl, rfl, rfl, rfl, rfl, rfl⟩

theorem b6 (e : Env) (s : St) : Same midRegs s (exec e gemm6.body s) ∧
    (exec e gemm6.body s).m = s.m ∧
    (exec e gemm6.body s).bad = (s.bad || (s.x 10).isPtr) ∧
    (exec e gemm6.body s).x lhsColPtr = s.x lhsColPtr ∧
    (exec e gemm6.body s).x rhsColPtr = addVal (s.x rhsColPtr) ((s.x 10).num * 2 ^ 2) ∧
    (exec e gemm6.body s).v = s.v := by
  cases s; exact ⟨by keep, rfl, rfl, rfl, rfl, rfl⟩

theorem Tile.of {f : Nat → Nat → Int} {s s' : St} (h : Tile f s) (hv : s'.v = s.v) : Tile f s' := by
  intro w hw u hu
  rw [hv]; exact h w hw u hu

theorem summed {j : Job} (hf : j.Fits) {p q : Nat} (hp : p ≤ j.rowSteps) (hq : q ≤ j.colSteps)
    {s : St} (h : Head j p q s) :
    ∃ s', Reach j.env gemmCode (1, s) (7, s') ∧ Summed j p q s' ∧ s'.m = s.m := by
  obtain ⟨s1, h1, l⟩ := accumulate hf.deep (readable hf hp hq h.mid.mem) h.mid.x12
    (a := lhsBlk j p) (b := rhsBlk j q)
    ⟨h.x1, Same.refl _ _, rfl, h.mid.ok, h.data, h.prods, fun i hi k hk => by
      rw [show 16 + 4 * k + i = 16 + (4 * k + i) by omega, h.zero _ (by omega)]; rfl⟩
  have m1 : Mid j p q s1 := h.mid.of (l.same.sub (by decide)) l.m l.ok
  have hx7 : s1.x 7 = .int j.lastRow := (l.same.get (by decide)).trans h.x7
  have hx5 : s1.x 5 = .ptr .lhs j.lhsBase := (l.same.get (by decide)).trans h.x5
  have hlc : s1.x lhsColPtr = .ptr .lhs (lhsBlk j p) := (l.same.get (by decide)).trans h.lc
  have hrc : s1.x rhsColPtr = .ptr .rhs (rhsBlk j q) := (l.same.get (by decide)).trans h.rc
  have t2 := tail_tile l
  have frow := hf.row
  have fcol := hf.col
  have hlast : j.lastRow = j.startRow + 4 * j.rowSteps := rfl
  have hlastc : j.lastCol = j.startCol + 4 * j.colSteps := rfl
  obtain ⟨k2, mm2, bad2, lt2, kk2⟩ := b3 j.env s1
  have nx2 : ∀ l, (bif !(exec j.env gemm3.body s1).lt then 5 else 4) = l →
      Reach j.env gemmCode (3, s1) (l, exec j.env gemm3.body s1) := fun l hl =>
    Reach.block (b := gemm3) rfl hl
  generalize exec j.env gemm3.body s1 = s2 at *
  have m2 : Mid j p q s2 := m1.of k2 mm2 (by rw [bad2, m1.ok, m1.row, hx7]; rfl)
  have hx5 : s2.x 5 = .ptr .lhs j.lhsBase := (kk2.get (by decide)).trans hx5
  have hlc : s2.x lhsColPtr = .ptr .lhs (lhsBlk j p) := (kk2.get (by decide)).trans hlc
  have hrc : s2.x rhsColPtr = .ptr .rhs (rhsBlk j q) := (kk2.get (by decide)).trans hrc
  have lt2 : s2.lt = decide (p < j.rowSteps) := by
    rw [lt2, m1.row, hx7]
    rw [sgn_lt (by omega) (by omega), decide_eq_decide]
    omega
  rcases Nat.lt_or_ge p j.rowSteps with hlt | hge
  · have r2 := nx2 4 (by rw [lt2, decide_eq_true hlt]; rfl)
    have r3 : Reach j.env gemmCode (4, s2) (7, exec j.env gemm4.body s2) :=
      Reach.block (b := gemm4) rfl rfl
    obtain ⟨k3, mm3, bad3, lc3, rc3, v3⟩ := b4 j.env s2
    refine ⟨_, (h1.trans r2).trans r3, ⟨m2.of k3 mm3 ?_, ?_, ?_, t2.of v3⟩, ?_⟩
    · rw [bad3, m2.ok, m2.x9]; rfl
    · rw [lc3, hlc, m2.x9]
      unfold nextP lhsBlk
      simp only [addVal, Val.num]
      rw [if_pos hlt, Nat.add_mul]
      exact congrArg _ (by omega)
    · unfold nextQ
      rw [rc3, hrc, if_pos hlt]
    · rw [mm3, mm2, l.m]
  · have r2 := nx2 5 (by rw [lt2, decide_eq_false (by omega)]; rfl)
    obtain ⟨k3, mm3, bad3, lc3, rc3, v3, lt3⟩ := b5 j.env s2
    have nx3 : ∀ l, (bif !(exec j.env gemm5.body s2).lt then 7 else 6) = l →
        Reach j.env gemmCode (5, s2) (l, exec j.env gemm5.body s2) := fun l hl =>
      Reach.block (b := gemm5) rfl hl
    generalize exec j.env gemm5.body s2 = s3 at *
    have m3 : Mid j p q s3 := m2.of k3 mm3 (by rw [bad3, m2.ok, m2.col, m2.x8]; rfl)
    have lt3 : s3.lt = decide (q < j.colSteps) := by
      rw [lt3, m2.col, m2.x8]
      rw [sgn_lt (by omega) (by omega), decide_eq_decide]
      omega
    have hlc : s3.x lhsColPtr = .ptr .lhs (lhsBlk j (nextP j p)) := by
      unfold nextP lhsBlk
      rw [lc3, hx5, if_neg (by omega), Nat.zero_mul]; rfl
    rcases Nat.lt_or_ge q j.colSteps with hql | hqg
    · have r3 := nx3 6 (by rw [lt3, decide_eq_true hql]; rfl)
      have r4 : Reach j.env gemmCode (6, s3) (7, exec j.env gemm6.body s3) :=
        Reach.block (b := gemm6) rfl rfl
      obtain ⟨k4, mm4, bad4, lc4, rc4, v4⟩ := b6 j.env s3
      refine ⟨_, ((h1.trans r2).trans r3).trans r4,
        ⟨m3.of k4 mm4 ?_, lc4.trans hlc, ?_, (t2.of v3).of v4⟩, ?_⟩
      · rw [bad4, m3.ok, m3.x10]; rfl
      · rw [rc4, rc3, hrc, m3.x10]
        unfold nextQ rhsBlk
        simp only [addVal, Val.num]
        rw [if_neg (by omega), if_pos hql, Nat.add_mul]
        exact congrArg _ (by omega)
      · rw [mm4, mm3, mm2, l.m]
    · have r3 := nx3 7 (by rw [lt3, decide_eq_false (by omega)]; rfl)
      refine ⟨_, (h1.trans r2).trans r3, ⟨m3, hlc, ?_, t2.of v3⟩, ?_⟩
      · unfold nextQ
        rw [rc3, hrc, if_neg (by omega), if_neg (by omega)]
      · rw [mm3, mm2, l.m]

end Ruy.Neon

import Verif.NeonF.AccumA55
/-
The AArch64 float kernels from the end of the depth loop to the clamped results (labels 79, 4, 5, 6, 7).

The four kernels differ in their depth loop, in the counter of that loop, and in the order of the
instructions that add a bias per column; `Prog` is what the rest depends on.
-/
namespace Ruy.NeonF
open Ruy.Neon (lhsColPtr rhsColPtr lhsPtr rhsPtr dstColPtr dstPtr rRow rCol rDstRows rDstCols tmpBuf sgn sgn_of)
variable {A : Type}

/-! ### Programs -/

/-- A block of `fxCode` after label 79, in a program where that label is block `o`. -/
def sh (o : Nat) (b : Block) : Block :=
  ⟨b.body, match b.term with | .jmp l => .jmp (o + (l - 3)) | .br c x y => .br c (o + (x - 3)) (o + (y - 3))⟩

/-- The prologue. -/
structure First (cnt : Nat → Nat) (j : Job A) (s s' : St A) : Prop where
  same : Same [32, 33, 36, 37, 38, 39, 40, 41, 42] s s'
  m : s'.m = s.m
  x1 : j.depth < 2 ^ 31 → 1 ≤ j.depth → s'.x 1 = .int (cnt j.depth)
  x5 : s'.x 5 = .ptr .lhs (4 * j.lhsBase)
  x6 : s'.x 6 = .int (j.startRow % 2 ^ 32)
  x7 : s'.x 7 = .int (j.lastRow % 2 ^ 32)
  x8 : s'.x 8 = .int (j.lastCol % 2 ^ 32)
  x9 : s'.x 9 = .int (4 * j.lhsStride % 2 ^ 32)
  x10 : s'.x 10 = .int (4 * j.rhsStride % 2 ^ 32)
  x11 : s'.x 11 = .int (4 * j.dstStride % 2 ^ 32)
  x12 : s'.x 12 = .int (j.depth % 2 ^ 32)
  lp : s'.x lhsPtr = addN (s.x lhsPtr) 2
  rp : s'.x rhsPtr = addN (s.x rhsPtr) 2
  bad : s'.bad = (s.bad || out j.env (addN (s.x lhsPtr) 0) 0 4 || out j.env (addN (s.x lhsPtr) 1) 0 4 ||
    out j.env (addN (s.x rhsPtr) 0) 0 4 || out j.env (addN (s.x rhsPtr) 1) 0 4)
  vl : ∀ i, i < 2 → s'.v i = words s (addN (s.x lhsPtr) i) 0
  vr : ∀ i, i < 2 → s'.v (2 + i) = words s (addN (s.x rhsPtr) i) 0
  acc : ∀ i, i < 16 → s'.v (16 + i) = fun _ => j.ops.zero

/-- A bias per column is added. -/
structure ColsOk (e : Env A) (s s' : St A) : Prop where
  m : s'.m = s.m
  bad : s'.bad = s.bad
  x : s'.x = s.x
  v : ∀ i, i < 4 → s'.v i = s.v i
  add : ∀ q, q < 2 → ∀ k, k < 4 → ∀ h, h < 2 → s'.v (16 + 2 * (4 * q + k) + h) =
    fun i => e.ops.add (s.v (16 + 2 * (4 * q + k) + h) i) (s.v (14 + q) k)

/-- The end of the loop over blocks. -/
structure LastOk (cnt : Nat → Nat) (s s' : St A) : Prop where
  same : Same [5, 6, 7, 8, 9, 10, 11, 12, 32, 33, 34, 35, 36, 37, 38, 39, 40, 41, 42] s s'
  m : s'.m = s.m
  v : s'.v = s.v
  bad : (s.x 12).isInt = true → s'.bad = (s.bad || !(s.x rCol).isInt || !(s.x 8).isInt)
  x1 : ∀ d, s.x 12 = .int d → d < 2 ^ 31 → 1 ≤ d → s'.x 1 = .int (cnt d)
  z : s'.z = decide (sgn (s.x rCol).num = sgn (s.x 8).num)
  lt : s'.lt = decide (sgn (s.x rCol).num < sgn (s.x 8).num)

structure Prog (P : List Block) (o : Nat) (cnt : Nat → Nat) (ord : Nat → List Nat) : Prop where
  len : P.length = o + 19
  first : ∃ b, P[0]? = some b ∧ b.term = .jmp 1 ∧
    ∀ {A : Type} (j : Job A) (s : St A), First cnt j s (exec j.env b.body s)
  acc : Accumulates P o cnt ord
  tail : ∀ k, 1 ≤ k → k < 18 → k ≠ 6 → P[o + k]? = (fxCode[3 + k]?).map (sh o)
  cols : ∃ b, P[o + 6]? = some b ∧ b.term = .jmp (o + 7) ∧
    ∀ {A : Type} (e : Env A) (s : St A), ColsOk e s (exec e b.body s)
  last : ∃ b, P[o + 18]? = some b ∧ b.term = .br .le 1 (o + 19) ∧
    ∀ {A : Type} (e : Env A) (s : St A), LastOk cnt s (exec e b.body s)

theorem low_counter {d : Nat} (h1 : d < 2 ^ 31) (h2 : 1 ≤ d) : (d % 2 ^ 32 + 2 ^ 32 - 1) % 2 ^ 32 = d - 1 := by omega
theorem counter {d : Nat} (h1 : d < 2 ^ 31) (h2 : 1 ≤ d) : (d + 2 ^ 32 - 1) % 2 ^ 32 = d - 1 := by omega

theorem or_false14 (a b c d e : Bool) : (a || false || false || false || false || false || false || false ||
    false || false || false || false || false || false || false || b || c || d || e) =
    (a || b || c || d || e) := by simp only [Bool.or_false]

set_option maxRecDepth 8000 in
theorem fx0_first (j : Job A) (s : St A) : First (fun _ => 1) j s (exec j.env fx0.body s) := by
  cases s
  refine ⟨by keep, rfl, fun _ _ => rfl, rfl, rfl, rfl, rfl, rfl, rfl, rfl, rfl, rfl, rfl, or_false14 _ _ _ _ _, ?_, ?_, ?_⟩
  all_goals
    intro i hi
    interval_cases i <;> rfl

set_option maxRecDepth 8000 in
theorem fa0_first (j : Job A) (s : St A) : First (fun d => d - 1) j s (exec j.env fa0.body s) := by
  cases s
  refine ⟨by keep, rfl, fun h1 h2 => congrArg Val.int (low_counter h1 h2), rfl, rfl, rfl, rfl, rfl, rfl, rfl, rfl, rfl, rfl,
    (Bool.or_false _).trans (or_false14 _ _ _ _ _), ?_, ?_, ?_⟩
  all_goals
    intro i hi
    interval_cases i <;> rfl

theorem fx9_cols (e : Env A) (s : St A) : ColsOk e s (exec e fx9.body s) := by
  cases s
  refine ⟨rfl, rfl, rfl, ?_, ?_⟩
  · intro i hi; interval_cases i <;> rfl
  · intro q hq k hk h hh
    interval_cases q <;> interval_cases k <;> interval_cases h <;> rfl

theorem fa9_cols (e : Env A) (s : St A) : ColsOk e s (exec e fa9.body s) := by
  cases s
  refine ⟨rfl, rfl, rfl, ?_, ?_⟩
  · intro i hi; interval_cases i <;> rfl
  · intro q hq k hk h hh
    interval_cases q <;> interval_cases k <;> interval_cases h <;> rfl

theorem fx21_last (e : Env A) (s : St A) : LastOk (fun _ => 1) s (exec e fx21.body s) := by
  cases s
  exact ⟨by keep, rfl, rfl, fun _ => rfl, fun _ _ _ _ => rfl, rfl, rfl⟩

theorem fa21_last (e : Env A) (s : St A) : LastOk (fun d => d - 1) s (exec e fa21.body s) := by
  obtain ⟨x, v, m, z, lt, bad⟩ := s
  refine ⟨by keep, rfl, rfl, fun h => ?_, fun d hd h1 h2 => ?_, rfl, rfl⟩
  · show (bad || !(x rCol).isInt || !(x 8).isInt || !(x 12).isInt) = _
    have h : (x 12).isInt = true := h
    rw [h, Bool.not_true, Bool.or_false]
  · show Val.int (((x 12).num + 2 ^ 32 - 1) % 2 ^ 32) = _
    have hd : x 12 = .int d := hd
    rw [hd]
    exact congrArg Val.int (counter h1 h2)

theorem fxProg : Prog fxCode 3 (fun _ => 1) inOrder where
  len := rfl
  first := ⟨fx0, rfl, rfl, fx0_first⟩
  acc := fx_acc
  tail := by intro k h1 h2 h3; interval_cases k <;> first | exact absurd rfl h3 | rfl
  cols := ⟨fx9, rfl, rfl, fx9_cols⟩
  last := ⟨fx21, rfl, rfl, fx21_last⟩

theorem fltProg : Prog fltCode 7 (fun _ => 1) unrolled where
  len := rfl
  first := ⟨flt0, rfl, rfl, fx0_first⟩
  acc := flt_acc
  tail := by intro k h1 h2 h3; interval_cases k <;> first | exact absurd rfl h3 | rfl
  cols := ⟨flt13, rfl, rfl, fx9_cols⟩
  last := ⟨flt25, rfl, rfl, fx21_last⟩

theorem faProg : Prog faCode 3 (fun d => d - 1) inOrder where
  len := rfl
  first := ⟨fa0, rfl, rfl, fa0_first⟩
  acc := fa_acc
  tail := by intro k h1 h2 h3; interval_cases k <;> first | exact absurd rfl h3 | rfl
  cols := ⟨fa9, rfl, rfl, fa9_cols⟩
  last := ⟨fa21, rfl, rfl, fa21_last⟩

theorem fdProg : Prog fdCode 3 (fun d => d - 1) inOrder where
  len := rfl
  first := ⟨fd0, rfl, rfl, fa0_first⟩
  acc := fd_acc
  tail := by intro k h1 h2 h3; interval_cases k <;> first | exact absurd rfl h3 | rfl
  cols := ⟨fd9, rfl, rfl, fa9_cols⟩
  last := ⟨fd21, rfl, rfl, fa21_last⟩

theorem Prog.block {P : List Block} {o : Nat} {cnt : Nat → Nat} {ord : Nat → List Nat} (hP : Prog P o cnt ord) {e : Env A}
    {k : Nat} {b : Block} {s : St A} {l : Nat} (h : fxCode[3 + k]? = some b)
    (hl : next (exec e b.body s) (sh o b).term = l) (h1 : 1 ≤ k := by decide) (h2 : k < 18 := by decide)
    (h3 : k ≠ 6 := by decide) :
    Reach e P (o + k, s) (l, exec e b.body s) :=
  Reach.block (b := sh o b) ((hP.tail k h1 h2 h3).trans (by rw [h]; rfl)) hl

/-! ### Invariants -/

/-- Blocks of the destination are visited column by column. -/
def nextP (j : Job A) (p : Nat) : Nat := if p < j.rowSteps then p + 1 else 0
def nextQ (j : Job A) (p q : Nat) : Nat :=
  if p < j.rowSteps then q else if q < j.colSteps then q + 1 else q

def lhsBlk (j : Job A) (p : Nat) : Nat := j.lhsBase + p * (8 * j.lhsStride)
def rhsBlk (j : Job A) (q : Nat) : Nat := j.rhsBase + q * (8 * j.rhsStride)
def dstBlk (j : Job A) (p q : Nat) : Nat := j.dstBase + q * (8 * j.dstStride) + p * 8

/-- What holds from the start of block (`p`, `q`) of the destination until it is stored. -/
structure Mid (j : Job A) (p q : Nat) (s : St A) : Prop where
  x8 : s.x 8 = .int j.lastCol
  x9 : s.x 9 = .int (4 * j.lhsStride)
  x10 : s.x 10 = .int (4 * j.rhsStride)
  x11 : s.x 11 = .int (4 * j.dstStride)
  x12 : s.x 12 = .int j.depth
  dc : s.x dstColPtr = .ptr .dst (4 * (j.dstBase + q * (8 * j.dstStride)))
  dp : s.x dstPtr = .ptr .dst (4 * dstBlk j p q)
  row : s.x rRow = .int (j.startRow + 8 * p)
  col : s.x rCol = .int (j.startCol + 8 * q)
  rows : s.x rDstRows = .int j.dstRows
  cols : s.x rDstCols = .int j.dstCols
  tmp : s.x tmpBuf = .ptr .tmp 0
  mem : ∀ r, r ≠ .dst → r ≠ .tmp → s.m r = j.m r
  ok : s.bad = false

theorem Mid.of {j : Job A} {p q : Nat} {s s' : St A} (h : Mid j p q s) (hs : Same midRegs s s')
    (hm : s'.m = s.m) (hb : s'.bad = false) : Mid j p q s' where
  x8 := (hs.get (by decide)).trans h.x8
  x9 := (hs.get (by decide)).trans h.x9
  x10 := (hs.get (by decide)).trans h.x10
  x11 := (hs.get (by decide)).trans h.x11
  x12 := (hs.get (by decide)).trans h.x12
  dc := (hs.get (by decide)).trans h.dc
  dp := (hs.get (by decide)).trans h.dp
  row := (hs.get (by decide)).trans h.row
  col := (hs.get (by decide)).trans h.col
  rows := (hs.get (by decide)).trans h.rows
  cols := (hs.get (by decide)).trans h.cols
  tmp := (hs.get (by decide)).trans h.tmp
  mem := fun r h1 h2 => by rw [hm]; exact h.mem r h1 h2
  ok := hb

/-- At label 1. -/
structure Head (cnt : Nat → Nat) (j : Job A) (p q : Nat) (s : St A) : Prop where
  mid : Mid j p q s
  x1 : s.x 1 = .int (cnt j.depth)
  x5 : s.x 5 = .ptr .lhs (4 * j.lhsBase)
  x6 : s.x 6 = .int j.startRow
  x7 : s.x 7 = .int j.lastRow
  lc : s.x lhsColPtr = .ptr .lhs (4 * lhsBlk j p)
  rc : s.x rhsColPtr = .ptr .rhs (4 * rhsBlk j q)
  loop : Loop j (lhsBlk j p) (rhsBlk j q) [] [] 0 1 1 s s

/-- The sum of products of entry (`u`, `w`) of block (`p`, `q`). -/
def sumAt (ord : Nat → List Nat) (j : Job A) (p q u w : Nat) : A :=
  blockSum j (lhsBlk j p) (rhsBlk j q) (orderOf (inOrder j.depth) (ord j.depth) u w) u w

/-- At label 5. -/
structure Summed (ord : Nat → List Nat) (j : Job A) (p q : Nat) (s : St A) : Prop where
  mid : Mid j p q s
  lc : s.x lhsColPtr = .ptr .lhs (4 * lhsBlk j (nextP j p))
  rc : s.x rhsColPtr = .ptr .rhs (4 * rhsBlk j (nextQ j p q))
  tile : Tile (sumAt ord j p q) s

theorem depth_small {j : Job A} (hf : j.Fits) : j.depth < 2 ^ 31 := by
  have h1 := hf.lstride
  have h2 := hf.lhsDepth
  omega

theorem readable {j : Job A} (hf : j.Fits) {p q : Nat} (hp : p ≤ j.rowSteps) (hq : q ≤ j.colSteps)
    {s : St A} (h : ∀ r, r ≠ .dst → r ≠ .tmp → s.m r = j.m r) :
    Readable j (lhsBlk j p) (rhsBlk j q) s where
  ml := h .lhs (by decide) (by decide)
  mr := h .rhs (by decide) (by decide)
  sl := by
    have h1 : (p + 1) * (8 * j.lhsStride) ≤ (j.rowSteps + 1) * (8 * j.lhsStride) :=
      Nat.mul_le_mul_right _ (by omega)
    have h2 := hf.lhsSize
    have h3 := hf.lhsDepth
    rw [Nat.add_mul, Nat.one_mul] at h1
    unfold lhsBlk
    omega
  sr := by
    have h1 : (q + 1) * (8 * j.rhsStride) ≤ (j.colSteps + 1) * (8 * j.rhsStride) :=
      Nat.mul_le_mul_right _ (by omega)
    have h2 := hf.rhsSize
    have h3 := hf.rhsDepth
    rw [Nat.add_mul, Nat.one_mul] at h1
    unfold rhsBlk
    omega

theorem Tile.of {f : Nat → Nat → A} {s s' : St A} (h : Tile f s) (hv : s'.v = s.v) : Tile f s' := by
  intro w hw u hu i hi
  rw [hv]; exact h w hw u hu i hi

/-! ### The next block -/

theorem b4 (e : Env A) (s : St A) : Same midRegs s (exec e fx4.body s) ∧
    (exec e fx4.body s).m = s.m ∧
    (exec e fx4.body s).bad = (s.bad || (s.x lhsColPtr).isData || !(s.x 9).isInt) ∧
    (exec e fx4.body s).x lhsColPtr = addVal (s.x lhsColPtr) ((s.x 9).num * 2 ^ 3) ∧
    (exec e fx4.body s).x rhsColPtr = s.x rhsColPtr ∧ (exec e fx4.body s).v = s.v := by
  cases s; exact ⟨by keep, rfl, rfl, rfl, rfl, rfl⟩

theorem b5 (e : Env A) (s : St A) : Same midRegs s (exec e fx5.body s) ∧
    (exec e fx5.body s).m = s.m ∧
    (exec e fx5.body s).bad = (s.bad || !(s.x rCol).isInt || !(s.x 8).isInt) ∧
    (exec e fx5.body s).x lhsColPtr = s.x 5 ∧
    (exec e fx5.body s).x rhsColPtr = s.x rhsColPtr ∧ (exec e fx5.body s).v = s.v ∧
    (exec e fx5.body s).lt = decide (sgn (s.x rCol).num < sgn (s.x 8).num) := by
  cases s; exact ⟨by keep, rfl, rfl, rfl, rfl, rfl, rfl⟩

theorem b6 (e : Env A) (s : St A) : Same midRegs s (exec e fx6.body s) ∧
    (exec e fx6.body s).m = s.m ∧
    (exec e fx6.body s).bad = (s.bad || (s.x rhsColPtr).isData || !(s.x 10).isInt) ∧
    (exec e fx6.body s).x lhsColPtr = s.x lhsColPtr ∧
    (exec e fx6.body s).x rhsColPtr = addVal (s.x rhsColPtr) ((s.x 10).num * 2 ^ 3) ∧
    (exec e fx6.body s).v = s.v := by
  cases s; exact ⟨by keep, rfl, rfl, rfl, rfl, rfl⟩

theorem summed {P : List Block} {o : Nat} {cnt : Nat → Nat} {ord : Nat → List Nat} (hP : Prog P o cnt ord) {j : Job A}
    (hf : j.Fits) {p q : Nat} (hp : p ≤ j.rowSteps) (hq : q ≤ j.colSteps) {s : St A} (h : Head cnt j p q s) :
    ∃ s', Reach j.env P (1, s) (o + 4, s') ∧ Summed ord j p q s' ∧ s'.m = s.m := by
  have frow := hf.row
  have fcol := hf.col
  have hlast : j.lastRow = j.startRow + 8 * j.rowSteps := rfl
  have hlastc : j.lastCol = j.startCol + 8 * j.colSteps := rfl
  obtain ⟨s1, h1, l⟩ := hP.acc j (lhsBlk j p) (rhsBlk j q) s (j.startRow + 8 * p) j.lastRow (depth_small hf) hf.pos
    (readable hf hp hq h.mid.mem) h.mid.x12 h.x1 h.x5 (by omega) (by omega) h.mid.row h.x7 h.loop
  have m1 : Mid j p q s1 := h.mid.of (l.same.sub (by decide)) l.m l.ok
  have hlc : s1.x lhsColPtr = .ptr .lhs (4 * lhsBlk j p) := (l.same.get (by decide)).trans h.lc
  have hrc : s1.x rhsColPtr = .ptr .rhs (4 * rhsBlk j q) := (l.same.get (by decide)).trans h.rc
  have t1 : Tile (sumAt ord j p q) s1 := l.tile
  rcases Nat.lt_or_ge p j.rowSteps with hlt | hge
  · rw [decide_eq_true (by omega)] at h1
    have r3 : Reach j.env P (o + 1, s1) (o + 4, exec j.env fx4.body s1) := hP.block (b := fx4) rfl rfl
    obtain ⟨k3, mm3, bad3, lc3, rc3, v3⟩ := b4 j.env s1
    refine ⟨_, h1.trans r3, ⟨m1.of k3 mm3 ?_, ?_, ?_, t1.of v3⟩, ?_⟩
    · rw [bad3, m1.ok, m1.x9, hlc]; rfl
    · rw [lc3, hlc, m1.x9]
      unfold nextP lhsBlk
      simp only [addVal, Val.num]
      rw [if_pos hlt, Nat.add_mul]
      exact congrArg _ (by omega)
    · unfold nextQ
      rw [rc3, hrc, if_pos hlt]
    · rw [mm3, l.m]
  · rw [decide_eq_false (by omega)] at h1
    obtain ⟨k3, mm3, bad3, lc3, rc3, v3, lt3⟩ := b5 j.env s1
    have nx3 : ∀ l, (bif !(exec j.env fx5.body s1).lt then o + 4 else o + 3) = l →
        Reach j.env P (o + 2, s1) (l, exec j.env fx5.body s1) := fun l hl => hP.block (b := fx5) rfl hl
    generalize exec j.env fx5.body s1 = s3 at *
    have m3 : Mid j p q s3 := m1.of k3 mm3 (by rw [bad3, m1.ok, m1.col, m1.x8]; rfl)
    have lt3 : s3.lt = decide (q < j.colSteps) := by
      rw [lt3, m1.col, m1.x8]
      rw [sgn_lt (by omega) (by omega), decide_eq_decide]
      omega
    have hlc : s3.x lhsColPtr = .ptr .lhs (4 * lhsBlk j (nextP j p)) := by
      unfold nextP lhsBlk
      rw [lc3, l.x5, if_neg (by omega), Nat.zero_mul]; rfl
    rcases Nat.lt_or_ge q j.colSteps with hql | hqg
    · have r3 := nx3 (o + 3) (by rw [lt3, decide_eq_true hql]; rfl)
      have r4 : Reach j.env P (o + 3, s3) (o + 4, exec j.env fx6.body s3) := hP.block (b := fx6) rfl rfl
      obtain ⟨k4, mm4, bad4, lc4, rc4, v4⟩ := b6 j.env s3
      refine ⟨_, (h1.trans r3).trans r4, ⟨m3.of k4 mm4 ?_, lc4.trans hlc, ?_, (t1.of v3).of v4⟩, ?_⟩
      · rw [bad4, m3.ok, m3.x10, rc3, hrc]; rfl
      · rw [rc4, rc3, hrc, m3.x10]
        unfold nextQ rhsBlk
        simp only [addVal, Val.num]
        rw [if_neg (by omega), if_pos hql, Nat.add_mul]
        exact congrArg _ (by omega)
      · rw [mm4, mm3, l.m]
    · have r3 := nx3 (o + 4) (by rw [lt3, decide_eq_false (by omega)]; rfl)
      refine ⟨s3, h1.trans r3, ⟨m3, hlc, ?_, t1.of v3⟩, ?_⟩
      · unfold nextQ
        rw [rc3, hrc, if_neg (by omega), if_neg (by omega)]
      · rw [mm3, l.m]

/-! ### The bias -/

/-- First channel of the block. -/
def chan (j : Job A) (p q : Nat) : Nat := if j.chanCol then j.startCol + 8 * q else j.startRow + 8 * p

/-- Index in the bias array: it only has (zero) entries for one block when there is no bias. -/
def biasBase (j : Job A) (p q : Nat) : Nat := if j.hasBias then chan j p q else 0

/-- Channel of an entry within the block. -/
def lane (j : Job A) (u w : Nat) : Nat := if j.chanCol then w else u

theorem flag_chan (j : Job A) : Nat.beq (j.flags % 2 ^ 8 % 2 ^ 32 &&& 32) 0 = !j.chanCol := by
  unfold Job.flags
  cases j.hasBias <;> cases j.chanCol <;> rfl

theorem flag_bias (j : Job A) : Nat.beq (j.flags % 2 ^ 8 % 2 ^ 32 &&& 1) 0 = !j.hasBias := by
  unfold Job.flags
  cases j.hasBias <;> cases j.chanCol <;> rfl

def chanNum (F : Nat) (s : St A) : Nat :=
  (bif Nat.beq (F % 2 ^ 32 &&& 32) 0 then (s.x rRow).num else (s.x rCol).num) % 2 ^ 32
def biasPtr (F : Nat) (s : St A) : Val A :=
  bif Nat.beq (F % 2 ^ 32 &&& 1) 0 then .ptr .bias 0 else addVal (.ptr .bias 0) (chanNum F s * 2 ^ 2)

theorem chanNum_eq {j : Job A} (hf : j.Fits) {p q : Nat} (hp : p ≤ j.rowSteps) (hq : q ≤ j.colSteps)
    {s : St A} (h : Mid j p q s) : chanNum (j.flags % 2 ^ 8) s = chan j p q := by
  have h1 := hf.row
  have h2 := hf.col
  unfold Job.lastRow at h1
  unfold Job.lastCol at h2
  unfold chanNum chan
  rw [flag_chan, h.row, h.col]
  simp only [Val.num]
  cases j.chanCol
  · simp only [Bool.not_false, cond_true, Bool.false_eq_true, if_false]
    exact Nat.mod_eq_of_lt (by omega)
  · simp only [Bool.not_true, cond_false, if_true]
    exact Nat.mod_eq_of_lt (by omega)

theorem biasPtr_eq {j : Job A} (hf : j.Fits) {p q : Nat} (hp : p ≤ j.rowSteps) (hq : q ≤ j.colSteps)
    {s : St A} (h : Mid j p q s) : biasPtr (j.flags % 2 ^ 8) s = .ptr .bias (4 * biasBase j p q) := by
  unfold biasPtr biasBase
  rw [chanNum_eq hf hp hq h, flag_bias]
  cases j.hasBias
  · rfl
  · simp only [Bool.not_true, cond_false, if_true, addVal]
    exact congrArg _ (by omega)

theorem bias_fits {j : Job A} (hf : j.Fits) {p q : Nat} (hp : p ≤ j.rowSteps) (hq : q ≤ j.colSteps) :
    biasBase j p q + 8 ≤ j.size .bias := by
  have h := hf.bias
  have : chan j p q + 8 ≤ j.channels := by
    unfold chan Job.channels Job.lastRow Job.lastCol
    split_ifs <;> omega
  unfold biasBase
  split_ifs at h ⊢ <;> omega

theorem b7 (j : Job A) (s : St A) : Same midRegs s (exec j.env fx7.body s) ∧
    (exec j.env fx7.body s).m = s.m ∧
    (exec j.env fx7.body s).bad = (s.bad || false || false || !(s.x rRow).isInt || !(s.x rCol).isInt || false || false ||
      false || out j.env (biasPtr (j.flags % 2 ^ 8) s) 0 4 || out j.env (addN (biasPtr (j.flags % 2 ^ 8) s) 1) 0 4 ||
      out j.env (addN (s.x lhsColPtr) 0) 0 4 || out j.env (addN (s.x lhsColPtr) 1) 0 4 ||
      out j.env (addN (s.x rhsColPtr) 0) 0 4 || out j.env (addN (s.x rhsColPtr) 1) 0 4 || false) ∧
    (exec j.env fx7.body s).z = Nat.beq (j.flags % 2 ^ 8 % 2 ^ 32 &&& 32) 0 ∧
    (∀ u, u < 2 → (exec j.env fx7.body s).v (14 + u) = words s (addN (biasPtr (j.flags % 2 ^ 8) s) u) 0) ∧
    (exec j.env fx7.body s).x lhsPtr = addN (s.x lhsColPtr) 2 ∧
    (exec j.env fx7.body s).x rhsPtr = addN (s.x rhsColPtr) 2 ∧
    (∀ i, i < 2 → (exec j.env fx7.body s).v i = words s (addN (s.x lhsColPtr) i) 0) ∧
    (∀ i, i < 2 → (exec j.env fx7.body s).v (2 + i) = words s (addN (s.x rhsColPtr) i) 0) ∧
    (∀ i, i < 16 → (exec j.env fx7.body s).v (16 + i) = s.v (16 + i)) ∧
    Same [32, 33] s (exec j.env fx7.body s) := by
  cases s
  refine ⟨by keep, rfl, rfl, rfl, ?_, rfl, rfl, ?_, ?_, ?_, by keep⟩
  all_goals
    intro i hi
    interval_cases i <;> rfl

theorem b8 (e : Env A) (s : St A) :
    (exec e fx8.body s).m = s.m ∧ (exec e fx8.body s).bad = s.bad ∧
    (exec e fx8.body s).x = s.x ∧
    (∀ i, i < 4 → (exec e fx8.body s).v i = s.v i) ∧
    (∀ w, w < 8 → ∀ h, h < 2 → (exec e fx8.body s).v (16 + 2 * w + h) =
      fun i => e.ops.add (s.v (16 + 2 * w + h) i) (s.v (14 + h) i)) := by
  cases s
  refine ⟨rfl, rfl, rfl, ?_, ?_⟩
  · intro i hi; interval_cases i <;> rfl
  · intro w hw h hh
    interval_cases w <;> interval_cases h <;> rfl

/-- The operands of the next block are loaded. -/
structure Next (j : Job A) (p q : Nat) (s : St A) : Prop where
  lc : s.x lhsColPtr = .ptr .lhs (4 * lhsBlk j (nextP j p))
  rc : s.x rhsColPtr = .ptr .rhs (4 * rhsBlk j (nextQ j p q))
  lp : s.x lhsPtr = .ptr .lhs (4 * (lhsBlk j (nextP j p) + 8))
  rp : s.x rhsPtr = .ptr .rhs (4 * (rhsBlk j (nextQ j p q) + 8))
  data : Data j (lhsBlk j (nextP j p)) (rhsBlk j (nextQ j p q)) 0 1 s

theorem Next.of {j : Job A} {p q : Nat} {s s' : St A} (h : Next j p q s) (hs : Same [32, 33, 34, 35] s s')
    (hv : ∀ i, i < 4 → s'.v i = s.v i) : Next j p q s' where
  lc := (hs.get (by decide)).trans h.lc
  rc := (hs.get (by decide)).trans h.rc
  lp := (hs.get (by decide)).trans h.lp
  rp := (hs.get (by decide)).trans h.rp
  data := by
    intro u hu i hi l hl
    obtain rfl : u = 0 := by omega
    obtain ⟨d1, d2⟩ := h.data 0 (by omega) i hi l hl
    rw [hv _ (by omega), hv _ (by omega)]
    exact ⟨d1, d2⟩

/-- From label 7 on. -/
structure Work (j : Job A) (p q : Nat) (f : Nat → Nat → A) (s : St A) : Prop where
  mid : Mid j p q s
  nxt : Next j p q s
  tile : Tile f s

/-- The sum with its bias. -/
def biasedAt (ord : Nat → List Nat) (j : Job A) (p q u w : Nat) : A :=
  j.ops.add (sumAt ord j p q u w) (j.m .bias (biasBase j p q + lane j u w))

theorem biased {P : List Block} {o : Nat} {cnt : Nat → Nat} {ord : Nat → List Nat} (hP : Prog P o cnt ord) {j : Job A}
    (hf : j.Fits) {p q : Nat} (hp : p ≤ j.rowSteps) (hq : q ≤ j.colSteps) {s : St A} (h : Summed ord j p q s) :
    ∃ s', Reach j.env P (o + 4, s) (o + 7, s') ∧ Work j p q (biasedAt ord j p q) s' ∧ s'.m = s.m := by
  obtain ⟨k, mm, bad, z, v14, lp, rp, vl, vr, vt, kk⟩ := b7 j s
  have nx : ∀ l, (bif !(exec j.env fx7.body s).z then o + 6 else o + 5) = l →
      Reach j.env P (o + 4, s) (l, exec j.env fx7.body s) := fun l hl => hP.block (b := fx7) rfl hl
  generalize exec j.env fx7.body s = s1 at *
  have hp' : nextP j p ≤ j.rowSteps := by unfold nextP; split_ifs <;> omega
  have hq' : nextQ j p q ≤ j.colSteps := by unfold nextQ; split_ifs <;> omega
  have hr := readable hf hp' hq' h.mid.mem
  have h1 := hr.sl
  have h2 := hr.sr
  have h3 := bias_fits hf hp hq
  have h4 := hf.pos
  rw [biasPtr_eq hf hp hq h.mid, h.lc, h.rc] at bad
  simp only [addN_ptr] at bad
  have bp : out j.env (.ptr .bias (4 * biasBase j p q)) 0 4 = false :=
    out_ptr rfl (by show _ ≤ j.size .bias; omega)
  have ok : s1.bad = false := by
    rw [bad, h.mid.ok, h.mid.row, h.mid.col, bp, out_ptr rfl (by show _ ≤ j.size .bias; omega),
      out_ptr rfl (by show _ ≤ j.size .lhs; omega), out_ptr rfl (by show _ ≤ j.size .lhs; omega),
      out_ptr rfl (by show _ ≤ j.size .rhs; omega), out_ptr rfl (by show _ ≤ j.size .rhs; omega)]
    rfl
  have m1 : Mid j p q s1 := h.mid.of k mm ok
  have mb := h.mid.mem .bias (by decide) (by decide)
  have l14 : ∀ u, u < 2 → ∀ l, s1.v (14 + u) l = j.m .bias (biasBase j p q + (4 * u + l)) := by
    intro u hu l
    rw [v14 u hu, biasPtr_eq hf hp hq h.mid, addN_ptr, words_eq mb (Nat.add_zero _)]
    unfold Job.vec
    rw [Nat.add_assoc]
  have nxt : Next j p q s1 :=
    ⟨(kk.get (by decide)).trans h.lc, (kk.get (by decide)).trans h.rc, by rw [lp, h.lc, addN_ptr],
      by rw [rp, h.rc, addN_ptr], by
        intro u hu i hi l _
        obtain rfl : u = 0 := by omega
        rw [Nat.mul_zero, Nat.zero_add, Nat.zero_add, vl i hi, vr i hi, h.lc, h.rc, addN_ptr, addN_ptr,
          words_eq hr.ml (Nat.add_zero _), words_eq hr.mr (Nat.add_zero _)]
        unfold Job.vec
        exact ⟨congrArg _ (by omega), congrArg _ (by omega)⟩⟩
  have t1 : ∀ w, w < 8 → ∀ u, u < 2 → ∀ i, i < 4 → s1.v (16 + 2 * w + u) i = sumAt ord j p q (4 * u + i) w := by
    intro w hw u hu i hi
    rw [Nat.add_assoc, vt _ (by omega), ← Nat.add_assoc]; exact h.tile w hw u hu i hi
  rw [flag_chan] at z
  have fin : ∀ s2 : St A, s2.m = s1.m → s2.bad = s1.bad → s2.x = s1.x →
      (∀ i, i < 4 → s2.v i = s1.v i) → Tile (biasedAt ord j p q) s2 →
      Work j p q (biasedAt ord j p q) s2 ∧ s2.m = s.m := by
    intro s2 mm2 bad2 xx2 v2 t2
    exact ⟨⟨m1.of (same_of_x xx2) mm2 (bad2.trans ok), nxt.of (same_of_x xx2) v2, t2⟩, mm2.trans mm⟩
  cases hc : j.chanCol with
  | false =>
    have r1 := nx (o + 5) (by rw [z, hc]; rfl)
    have r2 : Reach j.env P (o + 5, s1) (o + 7, exec j.env fx8.body s1) := hP.block (b := fx8) rfl rfl
    obtain ⟨mm2, bad2, xx2, v2, w2⟩ := b8 j.env s1
    generalize exec j.env fx8.body s1 = s2 at *
    refine ⟨s2, r1.trans r2, fin s2 mm2 bad2 xx2 v2 ?_⟩
    intro w hw u hu i hi
    have e := w2 w hw u hu
    rw [e]
    show j.ops.add (s1.v (16 + 2 * w + u) i) (s1.v (14 + u) i) = _
    rw [t1 w hw u hu i hi, l14 u hu i]
    unfold biasedAt lane
    simp only [hc, Bool.false_eq_true, if_false]
  | true =>
    have r1 := nx (o + 6) (by rw [z, hc]; rfl)
    obtain ⟨b, hb1, hb2, hb3⟩ := hP.cols
    have r2 : Reach j.env P (o + 6, s1) (o + 7, exec j.env b.body s1) := Reach.block hb1 (by rw [hb2]; rfl)
    obtain ⟨mm2, bad2, xx2, v2, w2⟩ := hb3 j.env s1
    generalize exec j.env b.body s1 = s2 at *
    refine ⟨s2, r1.trans r2, fin s2 mm2 bad2 xx2 v2 ?_⟩
    intro w hw u hu i hi
    have e := w2 (w / 4) (by omega) (w % 4) (by omega) u hu
    rw [show 4 * (w / 4) + w % 4 = w by omega] at e
    rw [e]
    show j.ops.add (s1.v (16 + 2 * w + u) i) (s1.v (14 + w / 4) (w % 4)) = _
    rw [t1 w hw u hu i hi, l14 (w / 4) (by omega) (w % 4), show 4 * (w / 4) + w % 4 = w by omega]
    unfold biasedAt lane
    simp only [hc, if_true]

end Ruy.NeonF

import Verif.Neon.Quant
import Verif.Neon.Copy
import Verif.Simd.Narrow
/-
The stores of `Kernel8bitNeon` (labels `STORE_UINT8`, `STORE_INT8`, `STORE_INT16`,
`STORE_INT32`, up to `AFTER_STORE`).
-/
namespace Ruy.Neon
open Simd (wrap8 wrap16 wrap32 sqxtn16 sqadd16 sqxtun8 sqxtn8 saddw satS16 satU8 satS8 sat)

/-! ### Sizes of the part of a tile inside the destination -/

/-- SUB. -/
def leftE (R r : Val) : Val := .int ((R.num + 2 ^ 32 - r.num % 2 ^ 32) % 2 ^ 32)
/-- CMP, CSEL. -/
def atMost4 (w : Val) : Val :=
  .int ((bif (decide (sgn w.num = sgn 4) || decide (sgn w.num < sgn 4)) then w.num else (Val.int 4).num) % 2 ^ 32)
def widthE (R r : Val) : Val := atMost4 (leftE R r)

theorem widthE_eq {R r : Nat} (hR : R < 2 ^ 31) (hr : r < R) : widthE (.int R) (.int r) = .int (min 4 (R - r)) := by
  have h : leftE (.int R) (.int r) = .int (R - r) := by
    unfold leftE
    simp only [Val.num]
    exact congrArg Val.int (by omega)
  have h1 : decide (sgn (Val.int (R - r)).num = sgn 4) = decide (R - r = 4) :=
    sgn_eq (b := 4) (by omega) (by omega)
  have h2 : decide (sgn (Val.int (R - r)).num < sgn 4) = decide (R - r < 4) :=
    sgn_lt (b := 4) (by omega) (by omega)
  unfold widthE
  rw [h]
  unfold atMost4
  rw [h1, h2]
  rcases Nat.lt_trichotomy (R - r) 4 with h4 | h4 | h4
  · rw [decide_eq_true h4, Bool.or_true, cond_true]
    exact congrArg Val.int (by simp only [Val.num]; omega)
  · rw [decide_eq_true h4, Bool.true_or, cond_true]
    exact congrArg Val.int (by simp only [Val.num]; omega)
  · rw [decide_eq_false (by omega), decide_eq_false (by omega)]
    simp only [Bool.or_self, cond_false, Val.num]
    exact congrArg Val.int (by omega)

/-- Rows and columns of block (`p`, `q`) inside the destination. -/
def rowsIn (j : Job) (p : Nat) : Nat := min 4 (j.dstRows - (j.startRow + 4 * p))
def colsIn (j : Job) (q : Nat) : Nat := min 4 (j.dstCols - (j.startCol + 4 * q))
def dstBlk (j : Job) (p q : Nat) : Nat := j.dstBase + q * (4 * j.dstStride) + p * (4 * j.dt.size)

theorem dst_bound {j : Job} (hf : j.Fits) {p q : Nat} (hp : p ≤ j.rowSteps) (hq : q ≤ j.colSteps)
    {w i : Nat} (hw : w < colsIn j q) (hi : i < rowsIn j p) :
    dstBlk j p q + w * j.dstStride + j.dt.size * i + j.dt.size ≤ j.size .dst := by
  unfold colsIn at hw
  unfold rowsIn at hi
  have h := hf.dst (4 * p + i) (4 * q + w) (by omega) (by omega) (by omega) (by omega)
  unfold dstBlk
  have e1 : (4 * q + w) * j.dstStride = q * (4 * j.dstStride) + w * j.dstStride := by ring
  have e2 : (4 * p + i) * j.dt.size = p * (4 * j.dt.size) + j.dt.size * i := by ring
  rw [e1, e2] at h
  omega

theorem rows_pos {j : Job} (hf : j.Fits) {p : Nat} (hp : p ≤ j.rowSteps) : 0 < rowsIn j p := by
  have := hf.rowIn
  unfold Job.lastRow at this
  unfold rowsIn; omega
theorem cols_pos {j : Job} (hf : j.Fits) {q : Nat} (hq : q ≤ j.colSteps) : 0 < colsIn j q := by
  have := hf.colIn
  unfold Job.lastCol at this
  unfold colsIn; omega

/-! ### The common part of the four stores -/

/-- The blocks of a store in a program. -/
structure StoreAt (P : List Block) (hd a f g : List Instr) (k n0 after : Nat) : Prop where
  h : P[n0]? = some ⟨hd, .br .eq (n0 + 6) (n0 + 1)⟩
  a : P[n0 + 1]? = some ⟨a, .jmp (n0 + 2)⟩
  copy : CopyAt P k (n0 + 2)
  f : P[n0 + 6]? = some ⟨f, .jmp (n0 + 7)⟩
  g : P[n0 + 7]? = some ⟨g, .jmp after⟩

/-- Everything that is still needed when a block is stored, but `dst_ptr`. -/
def keepStore : List Nat := [8, 9, 10, 11, 12, 32, 33, 34, 35, 36, 38, 39, 40, 41, 42, 43]

/-- Byte `b` of the tile in registers 16, 17, …. -/
def tileByte (s : St) (b : Nat) : Byte := s.v (16 + b / 16) (b % 16)

/-- The head of a store: sizes and the converted tile, entry (`u`, `w`) = `val u w`. -/
structure HeadOk (j : Job) (p q k zr : Nat) (val : Nat → Nat → Int) (s s' : St) : Prop where
  same : Same keepStore s s'
  m : s'.m = s.m
  ok : s'.bad = false
  x37 : s'.x dstPtr = s.x dstPtr
  x1 : s'.x 1 = .int (rowsIn j p)
  x2 : s'.x 2 = .int (colsIn j q)
  x4 : s'.x 4 = .ptr .dst (dstBlk j p q)
  z : s'.z = decide (rowsIn j p = 4 ∧ colsIn j q = 4)
  v : ∀ i, i < 8 → s'.v i = s.v i
  zero : ∀ i, zr ≤ i → i < 16 → s'.v (16 + i) = fun _ => 0
  tile : ∀ u, u < 4 → ∀ w, w < 4 → ∀ b, b < k → tileByte s' (4 * k * w + (k * u + b)) = byteOf (val u w) b

/-- Copy of the tile to `dst_tmp_buf`. -/
def CopyOk (a : List Instr) (k : Nat) : Prop :=
  ∀ e s, Same keepCopy s (exec e a s) ∧ (exec e a s).v = s.v ∧ (exec e a s).x 3 = s.x tmpBuf ∧
    (exec e a s).x 4 = s.x 4 ∧ (exec e a s).x 6 = .int 0 ∧
    (s.x tmpBuf = .ptr .tmp 0 → 64 ≤ e.size .tmp → (exec e a s).bad = s.bad ∧
      (∀ r, r ≠ .tmp → (exec e a s).m r = s.m r) ∧
      ∀ b, b < 16 * k → (exec e a s).m .tmp b = tileByte s b)

/-- The sixteen stores. -/
def FastOk (f : List Instr) (k : Nat) : Prop :=
  ∀ e s, Same keepCopy s (exec e f s) ∧ (exec e f s).v = s.v ∧
    (exec e f s).bad = bad16 e s.bad (s.x 4) (s.x 11) k ∧
    ∃ g : Nat → Nat → Byte, (∀ i, i < 16 → ∀ b, b < k → g i b = tileByte s (k * i + b)) ∧
      (exec e f s).m = st16 s.m (s.x 4) (s.x 11) k g

/-- The end of a store. -/
def EndOk (g : List Instr) (k zr : Nat) : Prop :=
  ∀ e s, Same keepStore s (exec e g s) ∧ (exec e g s).m = s.m ∧ (exec e g s).bad = s.bad ∧
    (exec e g s).x dstPtr = addVal (s.x dstPtr) (4 * k) ∧
    (∀ i, i < 8 → (exec e g s).v i = s.v i) ∧
    ∀ i, i < 16 → (exec e g s).v (16 + i) = if i < zr then fun _ => 0 else s.v (16 + i)

/-- What a store leaves behind. -/
structure Stored (j : Job) (p q : Nat) (val : Nat → Nat → Int) (s s' : St) : Prop where
  same : Same keepStore s s'
  ok : s'.bad = false
  x37 : s'.x dstPtr = .ptr .dst (dstBlk j p q + 4 * j.dt.size)
  v : ∀ i, i < 8 → s'.v i = s.v i
  zero : ∀ i, i < 16 → s'.v (16 + i) = fun _ => 0
  m : ∀ r, r ≠ .dst → r ≠ .tmp → s'.m r = s.m r
  dst : ∃ T : Nat → Byte,
    (∀ u, u < 4 → ∀ w, w < 4 → ∀ b, b < j.dt.size →
      T (4 * j.dt.size * w + (j.dt.size * u + b)) = byteOf (val u w) b) ∧
    s'.m .dst = cols s.m T (dstBlk j p q) j.dstStride (j.dt.size * rowsIn j p) (4 * j.dt.size) (colsIn j q) .dst

theorem stored_core {j : Job} (hf : j.Fits) {p q : Nat} (hp : p ≤ j.rowSteps) (hq : q ≤ j.colSteps)
    {P : List Block} {hd a f g : List Instr} {n0 after zr k : Nat} (hk : j.dt.size = k)
    (hP : StoreAt P hd a f g k n0 after) (hA : CopyOk a k) (hF : FastOk f k)
    (hG : EndOk g k zr) {val : Nat → Nat → Int} {s : St} (hm : Mid j p q s)
    (h : HeadOk j p q k zr val s (exec j.env hd s)) :
    ∃ s', Reach j.env P (n0, s) (after, s') ∧ Stored j p q val s s' := by
  subst hk
  have nx : ∀ l, (bif (exec j.env hd s).z then n0 + 6 else n0 + 1) = l →
      Reach j.env P (n0, s) (l, exec j.env hd s) := fun l hl => Reach.block hP.h hl
  generalize exec j.env hd s = s1 at *
  have hk3 : j.dt.size = 1 ∨ j.dt.size = 2 ∨ j.dt.size = 4 := by cases j.dt <;> decide
  have x11 : s1.x 11 = .int j.dstStride := (h.same.get (by decide)).trans hm.x11
  have xt : s1.x tmpBuf = .ptr .tmp 0 := (h.same.get (by decide)).trans hm.tmp
  have x37 : s1.x dstPtr = .ptr .dst (dstBlk j p q) := h.x37.trans hm.dp
  have r4 : rowsIn j p ≤ 4 := by unfold rowsIn; omega
  have c4 : colsIn j q ≤ 4 := by unfold colsIn; omega
  -- the end, from a state where the tile is written
  have fin : ∀ s2, Reach j.env P (n0, s) (n0 + 7, s2) → Same keepCopy s1 s2 → s2.v = s1.v → s2.bad = false →
      (∀ r, r ≠ .dst → r ≠ .tmp → s2.m r = s1.m r) →
      s2.m .dst = cols s1.m (tileByte s1) (dstBlk j p q) j.dstStride (j.dt.size * rowsIn j p)
        (4 * j.dt.size) (colsIn j q) .dst →
      ∃ s', Reach j.env P (n0, s) (after, s') ∧ Stored j p q val s s' := by
    intro s2 r2 k2 v2 ok2 m2 d2
    obtain ⟨g1, g2, g3, g4, g5, g6⟩ := hG j.env s2
    refine ⟨_, r2.trans (Reach.block hP.g rfl), (h.same.trans (k2.sub (by decide))).trans g1, g3.trans ok2, ?_,
      fun i hi => by rw [g5 i hi, v2, h.v i hi], ?_, ?_, tileByte s1, h.tile, ?_⟩
    · rw [g4, k2.get (by decide), x37]; rfl
    · intro i hi
      rw [g6 i hi, v2]
      split_ifs with hz
      · rfl
      · exact h.zero i (by omega) hi
    · intro r h1 h2
      rw [g2, m2 r h1 h2, h.m]
    · rw [g2, d2, h.m]
  have hsd : ∀ w, w < colsIn j q → ∀ i, i < rowsIn j p →
      dstBlk j p q + w * j.dstStride + j.dt.size * i + j.dt.size ≤ j.env.size .dst :=
    fun w hw i hi => dst_bound hf hp hq hw hi
  by_cases hz : rowsIn j p = 4 ∧ colsIn j q = 4
  · have r1 := nx (n0 + 6) (by rw [h.z, decide_eq_true hz]; rfl)
    obtain ⟨f1, f2, f3, g, f4, f5⟩ := hF j.env s1
    rw [h.x4, x11] at f3 f5
    rw [st16_eq f4] at f5
    refine fin _ (r1.trans (Reach.block hP.f rfl)) f1 f2 ?_ ?_ ?_
    · rw [f3]
      refine bad16_ok h.ok (fun w hw => ?_)
      have := hsd w (by omega) 3 (by omega)
      omega
    · intro r hr _
      rw [f5, cols_other hr]
    · rw [f5, hz.1, hz.2]
  · have r1 := nx (n0 + 1) (by rw [h.z, decide_eq_false hz]; rfl)
    obtain ⟨a1, a2, a3, a4, a5, a6⟩ := hA j.env s1
    obtain ⟨a6, a7, a8⟩ := a6 xt hf.tmp
    obtain ⟨s3, r3, c1, c2, c3, c5⟩ := copied (e := j.env) hP.copy hk3
      ((a1.get (by decide)).trans h.x1) ((a1.get (by decide)).trans h.x2) ((a1.get (by decide)).trans x11)
      (a3.trans xt) (a4.trans h.x4) a5 r4 c4 (rows_pos hf hp) (cols_pos hf hq)
      (by have := hf.tmp; show _ ≤ j.size .tmp; rcases hk3 with h' | h' | h' <;> omega) hsd (a6.trans h.ok)
    refine fin s3 ((r1.trans (Reach.block hP.a rfl)).trans r3) (a1.trans c1) (c2.trans a2) c3 ?_ ?_
    · intro r h1 h2
      rw [c5, cols_other h1, a7 r h2]
    · rw [c5, cols_congr (T' := tileByte s1)]
      · have : ∀ w, cols (exec j.env a s1).m (tileByte s1) (dstBlk j p q) j.dstStride
            (j.dt.size * rowsIn j p) (4 * j.dt.size) w .dst =
            cols s1.m (tileByte s1) (dstBlk j p q) j.dstStride (j.dt.size * rowsIn j p) (4 * j.dt.size) w .dst := by
          intro w
          induction w with
          | zero => exact a7 .dst (by decide)
          | succ w ih =>
            funext o
            simp only [cols, wr]
            rw [ih]
        exact this _
      · intro i hi b hb
        have : j.dt.size * rowsIn j p ≤ j.dt.size * 4 := Nat.mul_le_mul_left _ r4
        refine a8 _ ?_
        have : 4 * j.dt.size * i ≤ 4 * j.dt.size * 3 := Nat.mul_le_mul_left _ (by omega)
        omega

end Ruy.Neon

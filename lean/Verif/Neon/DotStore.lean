import Verif.Neon.DotCopy
import Verif.Neon.Store
/-
The stores of the dot-product kernels (labels `STORE_UINT8`, `STORE_INT8`, `STORE_INT16`,
`STORE_INT32`, up to `AFTER_STORE`).
-/
namespace Ruy.Neon.Dot
open Simd (wrap8 wrap16 wrap32)

/-! ### Sizes of the part of a tile inside the destination -/

/-- CMP, CSEL. -/
def atMost8 (w : Val) : Val :=
  .int ((bif (decide (sgn w.num = sgn 8) || decide (sgn w.num < sgn 8)) then w.num else (Val.int 8).num) % 2 ^ 32)
def widthE (R r : Val) : Val := atMost8 (leftE R r)

theorem widthE_eq {R r : Nat} (hR : R < 2 ^ 31) (hr : r < R) : widthE (.int R) (.int r) = .int (min 8 (R - r)) := by
  have h : leftE (.int R) (.int r) = .int (R - r) := by
    unfold leftE
    simp only [Val.num]
    exact congrArg Val.int (by omega)
  have h1 : decide (sgn (Val.int (R - r)).num = sgn 8) = decide (R - r = 8) :=
    sgn_eq (b := 8) (by omega) (by omega)
  have h2 : decide (sgn (Val.int (R - r)).num < sgn 8) = decide (R - r < 8) :=
    sgn_lt (b := 8) (by omega) (by omega)
  unfold widthE
  rw [h]
  unfold atMost8
  rw [h1, h2]
  rcases Nat.lt_trichotomy (R - r) 8 with h4 | h4 | h4
  · rw [decide_eq_true h4, Bool.or_true, cond_true]
    exact congrArg Val.int (by simp only [Val.num]; omega)
  · rw [decide_eq_true h4, Bool.true_or, cond_true]
    exact congrArg Val.int (by simp only [Val.num]; omega)
  · rw [decide_eq_false (by omega), decide_eq_false (by omega)]
    simp only [Bool.or_self, cond_false, Val.num]
    exact congrArg Val.int (by omega)

/-- Rows and columns of block (`p`, `q`) inside the destination. -/
def rowsIn (j : Job) (p : Nat) : Nat := min 8 (j.dstRows - (j.startRow + 8 * p))
def colsIn (j : Job) (q : Nat) : Nat := min 8 (j.dstCols - (j.startCol + 8 * q))
def dstBlk (j : Job) (p q : Nat) : Nat := j.dstBase + q * (8 * j.dstStride) + p * (8 * j.dt.size)

theorem dst_bound {j : Job} (hf : Fits j) {p q : Nat} (hp : p ≤ j.rowSteps) (hq : q ≤ j.colSteps)
    {w i : Nat} (hw : w < colsIn j q) (hi : i < rowsIn j p) :
    dstBlk j p q + w * j.dstStride + j.dt.size * i + j.dt.size ≤ j.size .dst := by
  unfold colsIn at hw
  unfold rowsIn at hi
  have h := hf.dst (8 * p + i) (8 * q + w) (by omega) (by omega) (by omega) (by omega)
  unfold dstBlk
  have e1 : (8 * q + w) * j.dstStride = q * (8 * j.dstStride) + w * j.dstStride := by ring
  have e2 : (8 * p + i) * j.dt.size = p * (8 * j.dt.size) + j.dt.size * i := by ring
  rw [e1, e2] at h
  omega

theorem rows_pos {j : Job} (hf : Fits j) {p : Nat} (hp : p ≤ j.rowSteps) : 0 < rowsIn j p := by
  have := hf.rowIn
  unfold lastRow at this
  unfold rowsIn; omega
theorem cols_pos {j : Job} (hf : Fits j) {q : Nat} (hq : q ≤ j.colSteps) : 0 < colsIn j q := by
  have := hf.colIn
  unfold lastCol at this
  unfold colsIn; omega

/-! ### The common part of the four stores -/

/-- Pointers of the copy, pointer of the next block. -/
def bodyS : List Instr := [.movX 3 tmpBuf, .movX 4 dstPtr, .movI 6 0]
def bodyG (k : Nat) : List Instr := [.addXI dstPtr dstPtr (8 * k)]

/-- The blocks of a store in a program. -/
structure StoreAt (P : List Block) (hd a f w : List Instr) (k n0 after : Nat) : Prop where
  h : P[n0]? = some ⟨hd, .br .eq (n0 + 2) (n0 + 1)⟩
  a : P[n0 + 1]? = some ⟨a, .jmp (n0 + 3)⟩
  f : P[n0 + 2]? = some ⟨f, .jmp (n0 + 3)⟩
  w : P[n0 + 3]? = some ⟨w, .br .eq (n0 + 8) (n0 + 4)⟩
  s : P[n0 + 4]? = some ⟨bodyS, .jmp (n0 + 5)⟩
  copy : CopyAt P k (n0 + 5)
  g : P[n0 + 8]? = some ⟨bodyG k, .jmp after⟩

/-- Everything that is still needed when a block is stored, but `dst_ptr`. -/
def keepStore : List Nat := [8, 9, 10, 11, 12, 32, 33, 34, 35, 36, 38, 39, 40, 41, 42, 43]

/-- Byte `b` of column `w` of the converted tile, entries of `k` bytes. -/
def colByte (k : Nat) (s : St) (w b : Nat) : Byte :=
  if k = 1 then s.v (16 + w / 2 + 4 * (w % 2)) b
  else if k = 2 then s.v (16 + w) b
  else s.v (16 + 2 * w + b / 16) (b % 16)

/-- The same as one sequence. -/
def tileByte (k : Nat) (s : St) (b : Nat) : Byte := colByte k s (b / (8 * k)) (b % (8 * k))

theorem tileByte_col {k : Nat} (s : St) (w : Nat) {b : Nat} (hb : b < 8 * k) :
    tileByte k s (8 * k * w + b) = colByte k s w b := by
  unfold tileByte
  rw [Nat.mul_add_div (by omega), Nat.mul_add_mod, Nat.div_eq_of_lt hb, Nat.mod_eq_of_lt hb, Nat.add_zero]

/-- The head of a store: sizes and the converted tile, entry (`u`, `w`) = `val u w`. -/
structure HeadOk (j : Job) (p q k : Nat) (val : Nat → Nat → Int) (s s' : St) : Prop where
  same : Same keepStore s s'
  m : s'.m = s.m
  ok : s'.bad = false
  x37 : s'.x dstPtr = s.x dstPtr
  x1 : s'.x 1 = .int (rowsIn j p)
  x2 : s'.x 2 = .int (colsIn j q)
  z : s'.z = decide (rowsIn j p = 8 ∧ colsIn j q = 8)
  v : ∀ i, i < 4 → s'.v i = s.v i
  zero : k = 4 ∨ ∀ i, i < 8 → s'.v (24 + i) = fun _ => 0
  tile : ∀ u, u < 8 → ∀ w, w < 8 → ∀ b, b < k → colByte k s' w (k * u + b) = byteOf (val u w) b

/-- The accumulators at the start of the next block: the products of the first group of depth for one
quarter, zero elsewhere. -/
def Fresh (s s' : St) : Prop :=
  (∀ i, i < 4 → s'.v i = s.v i) ∧
  ∀ q, q < 2 → ∀ k, k < 4 → ∀ h, h < 2 → s'.v (16 + 8 * q + 2 * k + h) =
    if h = 0 ∧ q = 0 then eop .sdot k (fun _ => 0) (s.v 0) (s.v 2) else fun _ => 0

/-- The columns go to `dst_tmp_buf`. -/
def TmpOk (a w : List Instr) (k : Nat) : Prop :=
  ∀ e s, (k = 4 ∨ ∀ i, i < 8 → s.v (24 + i) = fun _ => 0) → s.x tmpBuf = .ptr .tmp 0 → 256 ≤ e.size .tmp →
    Same keepCopy s (exec e w (exec e a s)) ∧ (exec e w (exec e a s)).z = s.z ∧
    Fresh s (exec e w (exec e a s)) ∧ (exec e w (exec e a s)).bad = s.bad ∧
    (∀ r, r ≠ .tmp → (exec e w (exec e a s)).m r = s.m r) ∧
    ∀ i, i < 8 → ∀ b, b < 8 * k → (exec e w (exec e a s)).m .tmp (8 * k * i + b) = colByte k s i b

/-- The columns go to the destination. -/
def DirectOk (f w : List Instr) (k : Nat) : Prop :=
  ∀ e s o S, (k = 4 ∨ ∀ i, i < 8 → s.v (24 + i) = fun _ => 0) → s.x dstPtr = .ptr .dst o → s.x 11 = .int S →
    (∀ i, i < 8 → o + i * S + 8 * k ≤ e.size .dst) →
    Same keepCopy s (exec e w (exec e f s)) ∧ (exec e w (exec e f s)).z = s.z ∧
    Fresh s (exec e w (exec e f s)) ∧ (exec e w (exec e f s)).bad = s.bad ∧
    (exec e w (exec e f s)).m = cols s.m (tileByte k s) o S (8 * k) (8 * k) 8

/-- What a store leaves behind. -/
structure Stored (j : Job) (p q : Nat) (val : Nat → Nat → Int) (s s' : St) : Prop where
  same : Same keepStore s s'
  ok : s'.bad = false
  x37 : s'.x dstPtr = .ptr .dst (dstBlk j p q + 8 * j.dt.size)
  fresh : Fresh s s'
  m : ∀ r, r ≠ .dst → r ≠ .tmp → s'.m r = s.m r
  dst : ∃ T : Nat → Byte,
    (∀ u, u < 8 → ∀ w, w < 8 → ∀ b, b < j.dt.size →
      T (8 * j.dt.size * w + (j.dt.size * u + b)) = byteOf (val u w) b) ∧
    s'.m .dst = cols s.m T (dstBlk j p q) j.dstStride (j.dt.size * rowsIn j p) (8 * j.dt.size) (colsIn j q) .dst

theorem bS (e : Env) (s : St) : Same keepCopy s (exec e bodyS s) ∧ (exec e bodyS s).m = s.m ∧
    (exec e bodyS s).v = s.v ∧ (exec e bodyS s).bad = s.bad ∧ (exec e bodyS s).x 3 = s.x tmpBuf ∧
    (exec e bodyS s).x 4 = s.x dstPtr ∧ (exec e bodyS s).x 6 = .int 0 := by
  cases s; exact ⟨by keep, rfl, rfl, rfl, rfl, rfl, rfl⟩

theorem bG (e : Env) (k : Nat) (s : St) : Same keepStore s (exec e (bodyG k) s) ∧ (exec e (bodyG k) s).m = s.m ∧
    (exec e (bodyG k) s).v = s.v ∧ (exec e (bodyG k) s).bad = s.bad ∧
    (exec e (bodyG k) s).x dstPtr = addVal (s.x dstPtr) (8 * k) := by
  cases s; exact ⟨by keep, rfl, rfl, rfl, rfl⟩

theorem stored_core {j : Job} (hf : Fits j) {p q : Nat} (hp : p ≤ j.rowSteps) (hq : q ≤ j.colSteps)
    {P : List Block} {hd a f w : List Instr} {n0 after k : Nat} (hk : j.dt.size = k)
    (hP : StoreAt P hd a f w k n0 after) (hA : TmpOk a w k) (hF : DirectOk f w k)
    {val : Nat → Nat → Int} {s : St} (hm : Mid j p q s)
    (h : HeadOk j p q k val s (exec (env j) hd s)) :
    ∃ s', Reach (env j) P (n0, s) (after, s') ∧ Stored j p q val s s' := by
  subst hk
  have nx : ∀ l, (bif (exec (env j) hd s).z then n0 + 2 else n0 + 1) = l →
      Reach (env j) P (n0, s) (l, exec (env j) hd s) := fun l hl => Reach.block hP.h hl
  generalize exec (env j) hd s = s1 at *
  have hk3 : j.dt.size = 1 ∨ j.dt.size = 2 ∨ j.dt.size = 4 := by cases j.dt <;> decide
  have x11 : s1.x 11 = .int j.dstStride := (h.same.get (by decide)).trans hm.x11
  have xt : s1.x tmpBuf = .ptr .tmp 0 := (h.same.get (by decide)).trans hm.tmp
  have x37 : s1.x dstPtr = .ptr .dst (dstBlk j p q) := h.x37.trans hm.dp
  have r4 : rowsIn j p ≤ 8 := by unfold rowsIn; omega
  have c4 : colsIn j q ≤ 8 := by unfold colsIn; omega
  have fr : ∀ s2 : St, Fresh s1 s2 → Fresh s s2 := fun s2 hh => by
    refine ⟨fun i hi => (hh.1 i hi).trans (h.v i hi), fun q hq k hk u hu => ?_⟩
    rw [hh.2 q hq k hk u hu, h.v 0 (by omega), h.v 2 (by omega)]
  -- the end, from a state where the tile is written
  have fin : ∀ s2, Reach (env j) P (n0, s) (n0 + 8, s2) → Same keepCopy s1 s2 → Fresh s1 s2 → s2.bad = false →
      (∀ r, r ≠ .dst → r ≠ .tmp → s2.m r = s1.m r) →
      s2.m .dst = cols s1.m (tileByte j.dt.size s1) (dstBlk j p q) j.dstStride (j.dt.size * rowsIn j p)
        (8 * j.dt.size) (colsIn j q) .dst →
      ∃ s', Reach (env j) P (n0, s) (after, s') ∧ Stored j p q val s s' := by
    intro s2 r2 k2 v2 ok2 m2 d2
    obtain ⟨g1, g2, g3, g4, g5⟩ := bG (env j) j.dt.size s2
    refine ⟨_, r2.trans (Reach.block hP.g rfl), (h.same.trans (k2.sub (by decide))).trans g1, g4.trans ok2, ?_, ?_,
      ?_, tileByte j.dt.size s1, ?_, ?_⟩
    · show (exec (env j) (bodyG j.dt.size) s2).x dstPtr = _
      rw [g5, k2.get (by decide), x37]; rfl
    · have := fr s2 v2
      refine ⟨fun i hi => ?_, fun q hq k hk u hu => ?_⟩
      · show (exec (env j) (bodyG j.dt.size) s2).v i = _
        rw [g3]; exact this.1 i hi
      · show (exec (env j) (bodyG j.dt.size) s2).v _ = _
        rw [g3]; exact this.2 q hq k hk u hu
    · intro r h1 h2
      show (exec (env j) (bodyG j.dt.size) s2).m r = _
      rw [g2, m2 r h1 h2, h.m]
    · intro u hu w hw b hb
      rw [tileByte_col, h.tile u hu w hw b hb]
      rcases hk3 with h' | h' | h' <;> rw [h'] at hb ⊢ <;> omega
    · show (exec (env j) (bodyG j.dt.size) s2).m .dst = _
      rw [g2, d2, h.m]
  have hsd : ∀ w, w < colsIn j q → ∀ i, i < rowsIn j p →
      dstBlk j p q + w * j.dstStride + j.dt.size * i + j.dt.size ≤ (env j).size .dst :=
    fun w hw i hi => dst_bound hf hp hq hw hi
  by_cases hz : rowsIn j p = 8 ∧ colsIn j q = 8
  · have r1 := nx (n0 + 2) (by rw [h.z, decide_eq_true hz]; rfl)
    obtain ⟨f1, f2, f3, f4, f5⟩ := hF (env j) s1 _ _ h.zero x37 x11 (fun w hw => by
      have := hsd w (by omega) 7 (by omega)
      omega)
    have r2 : Reach (env j) P (n0 + 2, s1) (n0 + 3, exec (env j) f s1) := Reach.block hP.f rfl
    have r3 : Reach (env j) P (n0 + 3, exec (env j) f s1) (n0 + 8, exec (env j) w (exec (env j) f s1)) := by
      refine Reach.block hP.w ?_
      show (bif (exec (env j) w (exec (env j) f s1)).z then n0 + 8 else n0 + 4) = n0 + 8
      rw [f2, h.z, decide_eq_true hz]; rfl
    refine fin _ ((r1.trans r2).trans r3) f1 f3 (f4.trans h.ok) ?_ ?_
    · intro r hr _
      rw [f5, cols_other hr]
    · rw [f5, hz.1, hz.2, Nat.mul_comm]
  · have r1 := nx (n0 + 1) (by rw [h.z, decide_eq_false hz]; rfl)
    obtain ⟨a1, a2, a3, a4, a5, a6⟩ := hA (env j) s1 h.zero xt hf.tmp
    have r2 : Reach (env j) P (n0 + 1, s1) (n0 + 3, exec (env j) a s1) := Reach.block hP.a rfl
    have r3 : Reach (env j) P (n0 + 3, exec (env j) a s1) (n0 + 4, exec (env j) w (exec (env j) a s1)) := by
      refine Reach.block hP.w ?_
      show (bif (exec (env j) w (exec (env j) a s1)).z then n0 + 8 else n0 + 4) = n0 + 4
      rw [a2, h.z, decide_eq_false hz]; rfl
    generalize exec (env j) w (exec (env j) a s1) = s2 at *
    obtain ⟨b1, b2, b3, b4, b5, b6, b7⟩ := bS (env j) s2
    have r4' : Reach (env j) P (n0 + 4, s2) (n0 + 5, exec (env j) bodyS s2) := Reach.block hP.s rfl
    generalize exec (env j) bodyS s2 = s3 at *
    have k3 := a1.trans b1
    obtain ⟨s4, r5, c1, c2, c3, c5⟩ := copied (e := env j) hP.copy hk3
      ((k3.get (by decide)).trans h.x1) ((k3.get (by decide)).trans h.x2) ((k3.get (by decide)).trans x11)
      (b5.trans ((a1.get (by decide)).trans xt)) (b6.trans ((a1.get (by decide)).trans x37)) b7 r4 c4
      (rows_pos hf hp) (cols_pos hf hq)
      (by have := hf.tmp; show _ ≤ j.size .tmp; rcases hk3 with h' | h' | h' <;> omega) hsd
      (b4.trans (a4.trans h.ok))
    refine fin s4 ((((r1.trans r2).trans r3).trans r4').trans r5) (k3.trans c1) ?_ c3 ?_ ?_
    · have e : s4.v = s2.v := c2.trans b3
      exact ⟨fun i hi => by rw [e]; exact a3.1 i hi, fun q hq k hk u hu => by rw [e]; exact a3.2 q hq k hk u hu⟩
    · intro r h1 h2
      rw [c5, cols_other h1, b2, a5 r h2]
    · rw [c5, cols_congr (T' := tileByte j.dt.size s1)]
      · have : ∀ w, cols s3.m (tileByte j.dt.size s1) (dstBlk j p q) j.dstStride
            (j.dt.size * rowsIn j p) (8 * j.dt.size) w .dst =
            cols s1.m (tileByte j.dt.size s1) (dstBlk j p q) j.dstStride (j.dt.size * rowsIn j p) (8 * j.dt.size) w
              .dst := by
          intro w
          induction w with
          | zero => show s3.m .dst = s1.m .dst; rw [b2]; exact a5 .dst (by decide)
          | succ w ih =>
            funext o
            simp only [cols, wr]
            rw [ih]
        exact this _
      · intro i hi b hb
        have : j.dt.size * rowsIn j p ≤ j.dt.size * 8 := Nat.mul_le_mul_left _ r4
        have hb8 : b < 8 * j.dt.size := by omega
        rw [tileByte_col _ _ hb8, b2]
        exact a6 i (by omega) b hb8

end Ruy.Neon.Dot

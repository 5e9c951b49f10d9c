import Verif.Arm8.Copy
/-
The ARM32 8-bit kernel: the stores of a 4x2 tile (labels `STORE_UINT8`, `STORE_INT8`, `STORE_INT16`, `STORE_INT32`, up
to `AFTER_STORE`).
-/
namespace Ruy.Arm8
open Ruy.Neon (St Val Region Vec VOp vop Byte Dt sgn sgn_of sgn_lt sgn_eq Same addVal out out_ptr bytes store wr wr_congr
  wr_append wr_zero wr_other cols cols_other cols_congr leftE st4 st4_eq byteOf getB getU getH getS ofB ofH ofS loadSH
  byteOf_getU byteOf_getB byteOf_getH byteOf_getS getU_umax getU_umin getB_smax getB_smin getH_smax getH_smin
  getU_dup getB_dup getH_dup getH_sqadd getS_add getS_ofS getH_ofH getU_ofB getB_ofB wrap16_sat)
open Simd (wrap8 wrap16 wrap32 sqxtn16 sqadd16 sqxtun8 sqxtn8 saddw satS16 satU8 satS8 sat)

/-! ### Sizes of the part of a tile inside the destination -/

/-- CMP, MOVGT with the bound in a register. -/
def atMostR (k : Nat) (K w : Val) : Val :=
  bif (decide (sgn w.num = sgn k) || decide (sgn w.num < sgn k)) then w else K

theorem atMostR_eq {k R r : Nat} (hk : k < 2 ^ 31) (hR : R < 2 ^ 31) (hr : r < R) :
    atMostR k (.int k) (leftE (.int R) (.int r)) = .int (min k (R - r)) := by
  have h : leftE (.int R) (.int r) = .int (R - r) := by
    unfold leftE
    simp only [Val.num]
    exact congrArg Val.int (by omega)
  have h1 : decide (sgn (Val.int (R - r)).num = sgn k) = decide (R - r = k) := sgn_eq (b := k) (by omega) (by omega)
  have h2 : decide (sgn (Val.int (R - r)).num < sgn k) = decide (R - r < k) := sgn_lt (b := k) (by omega) (by omega)
  rw [h]
  unfold atMostR
  rw [h1, h2]
  rcases Nat.lt_trichotomy (R - r) k with h4 | h4 | h4
  · rw [decide_eq_true h4, Bool.or_true, cond_true]
    exact congrArg Val.int (by omega)
  · rw [decide_eq_true h4, Bool.true_or, cond_true]
    exact congrArg Val.int (by omega)
  · rw [decide_eq_false (by omega), decide_eq_false (by omega)]
    simp only [Bool.or_self, cond_false]
    exact congrArg Val.int (by omega)

/-- Rows and columns of block (`p`, `q`) inside the destination. -/
def rowsIn (j : Job) (p : Nat) : Nat := min 4 (j.dstRows - (j.startRow + 4 * p))
def colsIn (j : Job) (q : Nat) : Nat := min 2 (j.dstCols - (j.startCol + 2 * q))

theorem ty_size (j : Job) : j.ty.size ≤ j.dt.size := by
  unfold Job.ty
  split_ifs with h
  · rw [h.1]; decide
  · exact Nat.le_refl _

theorem dst_bound {j : Job} (hf : j.Fits) {p q : Nat} (hp : p ≤ j.rowSteps) (hq : q ≤ j.colSteps)
    {w i : Nat} (hw : w < colsIn j q) (hi : i < rowsIn j p) :
    dstBlk j j.ty p q + w * j.dstStride + j.ty.size * i + j.ty.size ≤ j.size .dst := by
  unfold colsIn at hw
  unfold rowsIn at hi
  have h := hf.dst (4 * p + i) (2 * q + w) (by omega) (by omega) (by omega) (by omega)
  have h2 := Nat.mul_le_mul_left (4 * p + i) (ty_size j)
  have h3 := ty_size j
  unfold dstBlk
  have e1 : (2 * q + w) * j.dstStride = q * (2 * j.dstStride) + w * j.dstStride := by ring
  have e2 : (4 * p + i) * j.ty.size = p * (4 * j.ty.size) + j.ty.size * i := by ring
  rw [e1] at h
  rw [e2] at h2
  omega

theorem rows_pos {j : Job} (hf : j.Fits) {p : Nat} (hp : p ≤ j.rowSteps) : 0 < rowsIn j p := by
  have := hf.rowIn
  unfold Job.lastRow at this
  unfold rowsIn; omega
theorem cols_pos {j : Job} (hf : j.Fits) {q : Nat} (hq : q ≤ j.colSteps) : 0 < colsIn j q := by
  have := hf.colIn
  unfold Job.lastCol at this
  unfold colsIn; omega

/-- The end of the first block of the stores. -/
def sizeB : List Instr := k26.body.drop 29
def sizeB32 : List Instr := k47.body.drop 16

theorem sizeBx (e : Env) (s : St) : Same keepStore s (exec e sizeB s) ∧
    (exec e sizeB s).m = s.m ∧ (exec e sizeB s).v = s.v ∧
    (exec e sizeB s).bad = (s.bad || (s.x 1).isPtr || (s.x 2).isPtr ||
      (atMostR 4 (s.x 3) (s.x 1)).isPtr || (s.x 3).isPtr ||
      (atMostR 2 (s.x 5) (s.x 2)).isPtr || (s.x 5).isPtr || Nat.blt (s.x 13).num (16 + 4)) ∧
    (exec e sizeB s).x 1 = atMostR 4 (s.x 3) (s.x 1) ∧
    (exec e sizeB s).x 2 = atMostR 2 (s.x 5) (s.x 2) ∧
    (exec e sizeB s).x 4 = s.x 80 ∧ (exec e sizeB s).x 5 = e.field .dstStride ∧
    (exec e sizeB s).z = (decide (sgn (atMostR 4 (s.x 3) (s.x 1)).num = sgn (s.x 3).num) &&
      decide (sgn (atMostR 2 (s.x 5) (s.x 2)).num = sgn (s.x 5).num)) := by
  cases s
  exact ⟨by keep, rfl, rfl, rfl, rfl, rfl, rfl, rfl, rfl⟩

theorem sizeB32x (e : Env) (s : St) : Same keepStore s (exec e sizeB32 s) ∧
    (exec e sizeB32 s).m = s.m ∧ (exec e sizeB32 s).v = s.v ∧
    (exec e sizeB32 s).bad = (s.bad || (s.x 1).isPtr || (s.x 2).isPtr ||
      (atMostR 4 (s.x 3) (s.x 1)).isPtr || (s.x 3).isPtr ||
      (atMostR 2 (s.x 5) (s.x 2)).isPtr || (s.x 5).isPtr) ∧
    (exec e sizeB32 s).x 1 = atMostR 4 (s.x 3) (s.x 1) ∧
    (exec e sizeB32 s).x 2 = atMostR 2 (s.x 5) (s.x 2) ∧
    (exec e sizeB32 s).z = (decide (sgn (atMostR 4 (s.x 3) (s.x 1)).num = sgn (s.x 3).num) &&
      decide (sgn (atMostR 2 (s.x 5) (s.x 2)).num = sgn (s.x 5).num)) := by
  cases s
  exact ⟨by keep, rfl, rfl, rfl, rfl, rfl, rfl⟩

/-- What the first part of a store leaves in the integer registers. -/
structure Left (j : Job) (s s' : St) : Prop where
  same : Same keepStore s s'
  m : s'.m = s.m
  x1 : s'.x 1 = leftE (.int j.dstRows) (s.x 96)
  x2 : s'.x 2 = leftE (.int j.dstCols) (s.x 112)
  x3 : s'.x 3 = .int 4
  x5 : s'.x 5 = .int 2

/-- The sizes are known. -/
structure Sized (j : Job) (p q : Nat) (s s' : St) : Prop where
  same : Same keepStore s s'
  m : s'.m = s.m
  ok : s'.bad = false
  x1 : s'.x 1 = .int (rowsIn j p)
  x2 : s'.x 2 = .int (colsIn j q)
  z : s'.z = decide (rowsIn j p = 4 ∧ colsIn j q = 2)

theorem left_eq {j : Job} (hf : j.Fits) {ty : Dt} {p q : Nat} (hp : p ≤ j.rowSteps) (hq : q ≤ j.colSteps) {s s1 : St}
    (hm : Mid j ty p q s) (h : Left j s s1) : atMostR 4 (s1.x 3) (s1.x 1) = .int (rowsIn j p) ∧
      atMostR 2 (s1.x 5) (s1.x 2) = .int (colsIn j q) := by
  have fr' := hf.rowIn
  have fc' := hf.colIn
  unfold Job.lastRow at fr'
  unfold Job.lastCol at fc'
  constructor
  · rw [h.x3, h.x1, hm.row]; exact atMostR_eq (by omega) hf.rows (by omega)
  · rw [h.x5, h.x2, hm.col]; exact atMostR_eq (by omega) hf.cols (by omega)

theorem size_flag {j : Job} {p q : Nat} {z : Bool}
    (h : z = (decide (sgn (Val.int (rowsIn j p)).num = sgn (Val.int 4).num) &&
      decide (sgn (Val.int (colsIn j q)).num = sgn (Val.int 2).num))) :
    z = decide (rowsIn j p = 4 ∧ colsIn j q = 2) := by
  have r4 : rowsIn j p ≤ 4 := by unfold rowsIn; omega
  have c4 : colsIn j q ≤ 2 := by unfold colsIn; omega
  rw [h, sgn_eq (by omega) (by omega), sgn_eq (by omega) (by omega), ← Bool.decide_and]

theorem sized {j : Job} (hf : j.Fits) {ty : Dt} {p q : Nat} (hp : p ≤ j.rowSteps) (hq : q ≤ j.colSteps) {s s1 : St}
    (hm : Mid j ty p q s) (h : Left j s s1) (ok : s1.bad = false) :
    Sized j p q s (exec j.env sizeB s1) ∧ (exec j.env sizeB s1).v = s1.v ∧
      (exec j.env sizeB s1).x 4 = .ptr .dst (dstBlk j ty p q) ∧ (exec j.env sizeB s1).x 5 = .int j.dstStride := by
  obtain ⟨e1, e2⟩ := left_eq hf hp hq hm h
  obtain ⟨a1, a2, a3, a4, a5, a6, a7, a8, a9⟩ := sizeBx j.env s1
  generalize exec j.env sizeB s1 = s2 at *
  rw [e1] at a5
  rw [e2] at a6
  rw [e1, e2, h.x3, h.x5] at a9
  refine ⟨⟨h.same.trans a1, a2.trans h.m, ?_, a5, a6, size_flag a9⟩, a3, ?_, a8⟩
  · rw [a4, e1, e2, ok, h.x1, h.x2, h.x3, h.x5, h.same.get (by decide), hm.sp]; rfl
  · rw [a7, h.same.get (by decide), hm.dp]

theorem sized32 {j : Job} (hf : j.Fits) {ty : Dt} {p q : Nat} (hp : p ≤ j.rowSteps) (hq : q ≤ j.colSteps) {s s1 : St}
    (hm : Mid j ty p q s) (h : Left j s s1) (ok : s1.bad = false) :
    Sized j p q s (exec j.env sizeB32 s1) ∧ (exec j.env sizeB32 s1).v = s1.v := by
  obtain ⟨e1, e2⟩ := left_eq hf hp hq hm h
  obtain ⟨a1, a2, a3, a4, a5, a6, a9⟩ := sizeB32x j.env s1
  generalize exec j.env sizeB32 s1 = s2 at *
  rw [e1] at a5
  rw [e2] at a6
  rw [e1, e2, h.x3, h.x5] at a9
  refine ⟨⟨h.same.trans a1, a2.trans h.m, ?_, a5, a6, size_flag a9⟩, a3⟩
  rw [a4, e1, e2, ok, h.x1, h.x2, h.x3, h.x5]; rfl

/-! ### Narrowing -/

theorem getH_setLo_lo (v a : Vec) {i : Nat} (h : i < 4) : getH (setLo v a) i = getH a i := by
  interval_cases i <;> rfl
theorem getH_setHi_lo (v a : Vec) {i : Nat} (h : i < 4) : getH (setHi v a) i = getH v i := by
  interval_cases i <;> rfl
theorem getH_setHi_hi (v a : Vec) {i : Nat} (h : i < 4) : getH (setHi v a) (4 + i) = getH a i := by
  interval_cases i <;> rfl
theorem getU_setLo (v a : Vec) {i : Nat} (h : i < 8) : getU (setLo v a) i = getU a i := by
  interval_cases i <;> rfl
theorem getU_setHi (v a : Vec) {i : Nat} (h : i < 8) : getU (setHi v a) i = getU v i := by
  interval_cases i <;> rfl
theorem getU_half (v a : Vec) {i : Nat} (h : i < 8) : getU (half 1 (setHi v a)) i = getU a i := by
  interval_cases i <;> rfl
theorem getB_setLo (v a : Vec) {i : Nat} (h : i < 8) : getB (setLo v a) i = getB a i := by
  interval_cases i <;> rfl
theorem getB_setHi (v a : Vec) {i : Nat} (h : i < 8) : getB (setHi v a) i = getB v i := by
  interval_cases i <;> rfl
theorem getB_half (v a : Vec) {i : Nat} (h : i < 8) : getB (half 1 (setHi v a)) i = getB a i := by
  interval_cases i <;> rfl

theorem getH_qmovn (n : Vec) (i : Nat) : getH (nop .qmovnS n) i = sqxtn16 (getS n i) := by
  unfold nop
  rw [getH_ofH]; exact wrap16_sat _
theorem getU_qmovun (n : Vec) (i : Nat) : getU (nop .qmovun n) i = sqxtun8 (getH n i) := by
  unfold nop
  rw [getU_ofB]
  unfold sqxtun8 satU8 sat; split_ifs <;> omega
theorem getB_qmovn (n : Vec) (i : Nat) : getB (nop .qmovnH n) i = sqxtn8 (getH n i) := by
  unfold nop
  rw [getB_ofB]
  unfold sqxtn8 satS8 sat wrap8; split_ifs <;> omega

/-- VQMOVN.S32 of both columns. -/
def narrow (a b : Vec) : Vec := setHi (setLo a (nop .qmovnS a)) (nop .qmovnS b)

theorem getH_narrow (a b : Vec) {w : Nat} (hw : w < 2) {u : Nat} (hu : u < 4) :
    getH (narrow a b) (4 * w + u) = sqxtn16 (getS (if w = 0 then a else b) u) := by
  unfold narrow
  rcases (show w = 0 ∨ w = 1 by omega) with rfl | rfl
  · rw [Nat.mul_zero, Nat.zero_add, getH_setHi_lo _ _ hu, getH_setLo_lo _ _ hu, getH_qmovn, if_pos rfl]
  · rw [Nat.mul_one, getH_setHi_hi _ _ hu, getH_qmovn, if_neg (by omega)]

theorem tile_reg {f : Nat → Nat → Int} {s : St} (h : Tile f s) {w : Nat} (hw : w < 2) {u : Nat} (hu : u < 4) :
    getS (if w = 0 then s.v 14 else s.v 15) u = f u w := by
  rcases (show w = 0 ∨ w = 1 by omega) with rfl | rfl
  · rw [if_pos rfl]; exact h u hu 0 (by omega)
  · rw [if_neg (by omega)]; exact h u hu 1 (by omega)

/-- The tile with the zero point, as halfwords. -/
def zpV (z : Nat) (a b : Vec) : Vec := vop .sqaddH (narrow a b) (narrow a b) (ofH fun _ => (z : Int))
theorem u32_eq : Job.u32 = Neon.Job.u32 := rfl

/-- The clamps in the two halves of a register. -/
def clampV (v : Vec) (lo hi : Nat) : Vec := setHi (setLo v (ofB fun _ => (lo : Int))) (ofB fun _ => (hi : Int))

/-- Narrowing to bytes, and the two clamps. -/
def bytesV (o : NOp) (o1 o2 : VOp) (z c : Vec) : Vec :=
  setLo (setLo (setLo (fun _ => 0) (nop o z))
      (vop o1 (setLo (fun _ => 0) (nop o z)) (setLo (fun _ => 0) (nop o z)) c))
    (vop o2 (setLo (setLo (fun _ => 0) (nop o z))
        (vop o1 (setLo (fun _ => 0) (nop o z)) (setLo (fun _ => 0) (nop o z)) c))
      (setLo (setLo (fun _ => 0) (nop o z))
        (vop o1 (setLo (fun _ => 0) (nop o z)) (setLo (fun _ => 0) (nop o z)) c)) (half 1 c))

theorem getH_zpV (x : Int) (a b : Vec) {w : Nat} (hw : w < 2) {u : Nat} (hu : u < 4) :
    getH (zpV (Job.u32 x) a b) (4 * w + u) = sqadd16 (sqxtn16 (getS (if w = 0 then a else b) u)) (wrap16 x) := by
  unfold zpV
  rw [getH_sqadd, getH_narrow _ _ hw hu, getH_ofH, wrap16_u32]

theorem getU_bytesV (x lo hi : Int) (a b v : Vec) {w : Nat} (hw : w < 2) {u : Nat} (hu : u < 4) :
    getU (bytesV .qmovun .umaxB .uminB (zpV (Job.u32 x) a b)
      (clampV v (Job.u32 lo % 2 ^ 8) (Job.u32 hi % 2 ^ 8))) (4 * w + u) =
      Simd.Neon.storeU8 (getS (if w = 0 then a else b) u) x lo hi := by
  have h8 : 4 * w + u < 8 := by omega
  unfold bytesV clampV Simd.Neon.storeU8
  rw [getU_setLo _ _ h8, getU_umin, getU_half _ _ h8, getU_setLo _ _ h8, getU_umax, getU_setLo _ _ h8, getU_setHi _ _ h8,
    getU_setLo _ _ h8, getU_qmovun, getH_zpV _ _ _ hw hu, u32_eq, getU_dup, getU_dup]

theorem getB_bytesV (x lo hi : Int) (a b v : Vec) {w : Nat} (hw : w < 2) {u : Nat} (hu : u < 4) :
    getB (bytesV .qmovnH .smaxB .sminB (zpV (Job.u32 x) a b)
      (clampV v (Job.u32 lo % 2 ^ 8) (Job.u32 hi % 2 ^ 8))) (4 * w + u) =
      Simd.Neon.storeS8 (getS (if w = 0 then a else b) u) x lo hi := by
  have h8 : 4 * w + u < 8 := by omega
  unfold bytesV clampV Simd.Neon.storeS8
  rw [getB_setLo _ _ h8, getB_smin, getB_half _ _ h8, getB_setLo _ _ h8, getB_smax, getB_setLo _ _ h8, getB_setHi _ _ h8,
    getB_setLo _ _ h8, getB_qmovn, getH_zpV _ _ _ hw hu, u32_eq, getB_dup, getB_dup]

/-- The zero point, the narrowing and the clamps for int16. -/
def addV (z : Int) (a : Vec) : Vec := vop .add a a (ofS fun _ => z)
def wordsV (z : Int) (lo hi : Nat) (a b : Vec) : Vec :=
  vop .sminH (vop .smaxH (narrow (addV z a) (addV z b)) (narrow (addV z a) (addV z b)) (ofH fun _ => (lo : Int)))
    (vop .smaxH (narrow (addV z a) (addV z b)) (narrow (addV z a) (addV z b)) (ofH fun _ => (lo : Int)))
    (ofH fun _ => (hi : Int))

theorem getS_addV (x : Int) (a : Vec) (u : Nat) :
    getS (addV ((loadSH (.int (Job.u32 x))).num : Nat) a) u = saddw (getS a u) (wrap16 x) := by
  unfold addV saddw
  rw [getS_add, getS_ofS]
  have : wrap32 (((loadSH (.int (Job.u32 x))).num : Nat) : Int) = wrap16 x := by
    unfold loadSH
    simp only [Val.num]
    rw [wrap16_u32]
    unfold wrap32 wrap16; omega
  rw [this]

theorem getH_wordsV (x lo hi : Int) (a b : Vec) {w : Nat} (hw : w < 2) {u : Nat} (hu : u < 4) :
    getH (wordsV ((loadSH (.int (Job.u32 x))).num : Nat) (Job.u32 lo % 2 ^ 16) (Job.u32 hi % 2 ^ 16) a b) (4 * w + u) =
      Simd.Neon.storeS16 (getS (if w = 0 then a else b) u) x lo hi := by
  unfold wordsV Simd.Neon.storeS16
  rw [getH_smin, getH_smax]
  generalize hl : (ofH fun _ => ((Job.u32 lo % 2 ^ 16 : Nat) : Int)) = vl
  generalize hh : (ofH fun _ => ((Job.u32 hi % 2 ^ 16 : Nat) : Int)) = vh
  have e1 : getH vl (4 * w + u) = wrap16 lo := by rw [← hl, u32_eq]; exact getH_dup _ _
  have e2 : getH vh (4 * w + u) = wrap16 hi := by rw [← hh, u32_eq]; exact getH_dup _ _
  have e3 : getS (if w = 0 then addV ((loadSH (.int (Job.u32 x))).num : Nat) a
      else addV ((loadSH (.int (Job.u32 x))).num : Nat) b) u = saddw (getS (if w = 0 then a else b) u) (wrap16 x) := by
    rcases (show w = 0 ∨ w = 1 by omega) with rfl | rfl
    · rw [if_pos rfl, if_pos rfl, getS_addV]
    · rw [if_neg (by omega), if_neg (by omega), getS_addV]
  rw [e1, e2, getH_narrow _ _ hw hu, e3]

/-! ### The first parts of the four stores -/

def headBad (e : Env) (s : St) (b : Bool) : Bool :=
  b || Nat.blt (s.x 13).num (32 + 4) || (e.field .dstRows).isPtr || (s.x 96).isPtr ||
    Nat.blt (s.x 13).num (48 + 4) || (e.field .dstCols).isPtr || (s.x 112).isPtr

theorem headBad_ok {j : Job} {ty : Dt} {p q : Nat} {s : St} (hm : Mid j ty p q s) : headBad j.env s false = false := by
  unfold headBad
  rw [hm.sp, hm.row, hm.col]; rfl

set_option maxRecDepth 8000 in
theorem a26 (j : Job) (s : St) : Left j s (exec j.env (k26.body.take 29) s) ∧
    (exec j.env (k26.body.take 29) s).bad = headBad j.env s (s.bad || false || false || false || false || false) ∧
    (∀ i, i < 6 → (exec j.env (k26.body.take 29) s).v i = s.v i) ∧
    (∀ i, i < 7 → (exec j.env (k26.body.take 29) s).v (6 + i) = fun _ => 0) := by
  cases s
  refine ⟨⟨by keep, rfl, rfl, rfl, rfl, rfl⟩, rfl, ?_, ?_⟩
  all_goals
    intro i hi
    interval_cases i <;> rfl

set_option maxRecDepth 8000 in
theorem v26 (j : Job) (s : St) : (exec j.env (k26.body.take 29) s).v 15 = bytesV .qmovun .umaxB .uminB
      (zpV (Job.u32 j.dstZp) (s.v 14) (s.v 15))
      (clampV (zpV (Job.u32 j.dstZp) (s.v 14) (s.v 15)) (Job.u32 j.clampMin % 2 ^ 8) (Job.u32 j.clampMax % 2 ^ 8)) := by
  cases s; rfl

set_option maxRecDepth 8000 in
theorem a33 (j : Job) (s : St) : Left j s (exec j.env (k33.body.take 29) s) ∧
    (exec j.env (k33.body.take 29) s).bad = headBad j.env s (s.bad || false || false || false || false || false) ∧
    (∀ i, i < 6 → (exec j.env (k33.body.take 29) s).v i = s.v i) ∧
    (∀ i, i < 7 → (exec j.env (k33.body.take 29) s).v (6 + i) = fun _ => 0) := by
  cases s
  refine ⟨⟨by keep, rfl, rfl, rfl, rfl, rfl⟩, rfl, ?_, ?_⟩
  all_goals
    intro i hi
    interval_cases i <;> rfl

set_option maxRecDepth 8000 in
theorem v33 (j : Job) (s : St) : (exec j.env (k33.body.take 29) s).v 15 = bytesV .qmovnH .smaxB .sminB
      (zpV (Job.u32 j.dstZp) (s.v 14) (s.v 15))
      (clampV (zpV (Job.u32 j.dstZp) (s.v 14) (s.v 15)) (Job.u32 j.clampMin % 2 ^ 8) (Job.u32 j.clampMax % 2 ^ 8)) := by
  cases s; rfl

set_option maxRecDepth 8000 in
theorem a40 (j : Job) (s : St) : Left j s (exec j.env (k40.body.take 29) s) ∧
    (exec j.env (k40.body.take 29) s).bad =
      headBad j.env s (s.bad || false || false || false || false || false || false) ∧
    (∀ i, i < 6 → (exec j.env (k40.body.take 29) s).v i = s.v i) ∧
    (∀ i, i < 8 → (exec j.env (k40.body.take 29) s).v (6 + i) = fun _ => 0) := by
  cases s
  refine ⟨⟨by keep, rfl, rfl, rfl, rfl, rfl⟩, rfl, ?_, ?_⟩
  all_goals
    intro i hi
    interval_cases i <;> rfl

set_option maxRecDepth 8000 in
theorem v40 (j : Job) (s : St) : (exec j.env (k40.body.take 29) s).v 14 =
    wordsV ((loadSH (.int (Job.u32 j.dstZp))).num : Nat) (Job.u32 j.clampMin % 2 ^ 16) (Job.u32 j.clampMax % 2 ^ 16)
      (s.v 14) (s.v 15) := by
  cases s; rfl

theorem a47 (j : Job) (s : St) : Left j s (exec j.env (k47.body.take 16) s) ∧
    (exec j.env (k47.body.take 16) s).bad = headBad j.env s s.bad ∧
    (∀ i, i < 6 → (exec j.env (k47.body.take 16) s).v i = s.v i) ∧
    (∀ i, i < 8 → (exec j.env (k47.body.take 16) s).v (6 + i) = fun _ => 0) ∧
    (∀ i, i < 2 → (exec j.env (k47.body.take 16) s).v (14 + i) = s.v (14 + i)) := by
  cases s
  refine ⟨⟨by keep, rfl, rfl, rfl, rfl, rfl⟩, rfl, ?_, ?_, ?_⟩
  all_goals
    intro i hi
    interval_cases i <;> rfl

/-! ### The stores -/

/-- The bytes of the tile that is stored. -/
def tileByte (k : Nat) (s : St) (b : Nat) : Byte :=
  if k = 1 then s.v 15 b else if k = 2 then s.v 14 b else s.v (14 + b / 16) (b % 16)

/-- After the first block of a store of entries of `k` bytes. -/
structure Headed (j : Job) (ty : Dt) (p q : Nat) (val : Nat → Nat → Int) (s s' : St) : Prop where
  size : Sized j p q s s'
  v : ∀ i, i < 6 → s'.v i = s.v i
  zero : ∀ i, i < 7 → s'.v (6 + i) = fun _ => 0
  zero13 : ty.size ≠ 1 → s'.v 13 = fun _ => 0
  tile : ∀ u, u < 4 → ∀ w, w < 2 → ∀ b, b < ty.size →
    tileByte ty.size s' (4 * ty.size * w + (ty.size * u + b)) = byteOf (val u w) b

/-- The pointer and the stride, which the narrow types load in the same block. -/
def Aim (j : Job) (ty : Dt) (p q : Nat) (s' : St) : Prop :=
  s'.x 4 = .ptr .dst (dstBlk j ty p q) ∧ s'.x 5 = .int j.dstStride

theorem head26 {j : Job} (hf : j.Fits) {ty : Dt} {p q : Nat} (hp : p ≤ j.rowSteps) (hq : q ≤ j.colSteps) {s : St}
    {f : Nat → Nat → Int} (hty : ty = .u8) (hm : Mid j ty p q s) (ht : Tile f s) :
    Headed j ty p q (fun u w => Simd.Neon.storeU8 (f u w) j.dstZp j.clampMin j.clampMax) s (exec j.env k26.body s) ∧
      Aim j ty p q (exec j.env k26.body s) := by
  have hs : exec j.env k26.body s = exec j.env sizeB (exec j.env (k26.body.take 29) s) := by
    rw [← exec_append]; rfl
  rw [hs]
  obtain ⟨l1, b1, v1, z1⟩ := a26 j s
  have t1 := v26 j s
  generalize exec j.env (k26.body.take 29) s = s1 at *
  rw [hm.ok] at b1
  obtain ⟨sz, e2, e3, e4⟩ := sized hf hp hq hm l1 (b1.trans (headBad_ok hm))
  generalize exec j.env sizeB s1 = s2 at *
  subst hty
  refine ⟨⟨sz, fun i hi => by rw [e2]; exact v1 i hi, fun i hi => by rw [e2]; exact z1 i hi, fun h => absurd rfl h,
    fun u hu w hw b hb => ?_⟩, e3, e4⟩
  obtain rfl : b = 0 := by have : b < 1 := hb; omega
  show s2.v 15 (4 * 1 * w + (1 * u + 0)) = _
  rw [show 4 * 1 * w + (1 * u + 0) = 4 * w + u by omega, ← byteOf_getU (s2.v 15), e2, t1, getU_bytesV _ _ _ _ _ _ hw hu,
    tile_reg ht hw hu]

theorem head33 {j : Job} (hf : j.Fits) {ty : Dt} {p q : Nat} (hp : p ≤ j.rowSteps) (hq : q ≤ j.colSteps) {s : St}
    {f : Nat → Nat → Int} (hty : ty = .i8) (hm : Mid j ty p q s) (ht : Tile f s) :
    Headed j ty p q (fun u w => Simd.Neon.storeS8 (f u w) j.dstZp j.clampMin j.clampMax) s (exec j.env k33.body s) ∧
      Aim j ty p q (exec j.env k33.body s) := by
  have hs : exec j.env k33.body s = exec j.env sizeB (exec j.env (k33.body.take 29) s) := by
    rw [← exec_append]; rfl
  rw [hs]
  obtain ⟨l1, b1, v1, z1⟩ := a33 j s
  have t1 := v33 j s
  generalize exec j.env (k33.body.take 29) s = s1 at *
  rw [hm.ok] at b1
  obtain ⟨sz, e2, e3, e4⟩ := sized hf hp hq hm l1 (b1.trans (headBad_ok hm))
  generalize exec j.env sizeB s1 = s2 at *
  subst hty
  refine ⟨⟨sz, fun i hi => by rw [e2]; exact v1 i hi, fun i hi => by rw [e2]; exact z1 i hi, fun h => absurd rfl h,
    fun u hu w hw b hb => ?_⟩, e3, e4⟩
  obtain rfl : b = 0 := by have : b < 1 := hb; omega
  show s2.v 15 (4 * 1 * w + (1 * u + 0)) = _
  rw [show 4 * 1 * w + (1 * u + 0) = 4 * w + u by omega, ← byteOf_getB (s2.v 15), e2, t1, getB_bytesV _ _ _ _ _ _ hw hu,
    tile_reg ht hw hu]

theorem head40 {j : Job} (hf : j.Fits) {ty : Dt} {p q : Nat} (hp : p ≤ j.rowSteps) (hq : q ≤ j.colSteps) {s : St}
    {f : Nat → Nat → Int} (hty : ty = .i16) (hm : Mid j ty p q s) (ht : Tile f s) :
    Headed j ty p q (fun u w => Simd.Neon.storeS16 (f u w) j.dstZp j.clampMin j.clampMax) s (exec j.env k40.body s) ∧
      Aim j ty p q (exec j.env k40.body s) := by
  have hs : exec j.env k40.body s = exec j.env sizeB (exec j.env (k40.body.take 29) s) := by
    rw [← exec_append]; rfl
  rw [hs]
  obtain ⟨l1, b1, v1, z1⟩ := a40 j s
  have t1 := v40 j s
  generalize exec j.env (k40.body.take 29) s = s1 at *
  rw [hm.ok] at b1
  obtain ⟨sz, e2, e3, e4⟩ := sized hf hp hq hm l1 (b1.trans (headBad_ok hm))
  generalize exec j.env sizeB s1 = s2 at *
  subst hty
  refine ⟨⟨sz, fun i hi => by rw [e2]; exact v1 i hi, fun i hi => by rw [e2]; exact z1 i (by omega),
    fun _ => by rw [e2]; exact z1 7 (by omega), fun u hu w hw b hb => ?_⟩, e3, e4⟩
  show s2.v 14 (4 * 2 * w + (2 * u + b)) = _
  rw [show 4 * 2 * w + (2 * u + b) = 2 * (4 * w + u) + b by omega, ← byteOf_getH (s2.v 14) _ _ hb, e2, t1,
    getH_wordsV _ _ _ _ _ hw hu, tile_reg ht hw hu]

theorem head47 {j : Job} (hf : j.Fits) {ty : Dt} {p q : Nat} (hp : p ≤ j.rowSteps) (hq : q ≤ j.colSteps) {s : St}
    {f : Nat → Nat → Int} (hty : ty = .i32) (hm : Mid j ty p q s) (ht : Tile f s) :
    Headed j ty p q f s (exec j.env k47.body s) := by
  have hs : exec j.env k47.body s = exec j.env sizeB32 (exec j.env (k47.body.take 16) s) := by
    rw [← exec_append]; rfl
  rw [hs]
  obtain ⟨l1, b1, v1, z1, t1⟩ := a47 j s
  generalize exec j.env (k47.body.take 16) s = s1 at *
  rw [hm.ok] at b1
  obtain ⟨sz, e2⟩ := sized32 hf hp hq hm l1 (b1.trans (headBad_ok hm))
  generalize exec j.env sizeB32 s1 = s2 at *
  subst hty
  refine ⟨sz, fun i hi => by rw [e2]; exact v1 i hi, fun i hi => by rw [e2]; exact z1 i (by omega),
    fun _ => by rw [e2]; exact z1 7 (by omega), fun u hu w hw b hb => ?_⟩
  have hb' : b < 4 := hb
  show s2.v (14 + (4 * 4 * w + (4 * u + b)) / 16) ((4 * 4 * w + (4 * u + b)) % 16) = _
  rw [show 14 + (4 * 4 * w + (4 * u + b)) / 16 = 14 + w by omega, show (4 * 4 * w + (4 * u + b)) % 16 = 4 * u + b by omega,
    ← byteOf_getS (s2.v (14 + w)) _ _ hb', e2, t1 w hw, ht u hu w hw]

end Ruy.Arm8

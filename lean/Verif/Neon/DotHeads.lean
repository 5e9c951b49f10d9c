import Verif.Neon.DotTypes
import Verif.Neon.Heads
/-
The first blocks of the four stores of the dot-product kernels: conversion of the tile, size of
the part of it inside the destination.
-/
namespace Ruy.Neon.Dot
open Simd (wrap8 wrap16 wrap32 sqxtn16 sqadd16 sqxtun8 sqxtn8 saddw satS16 satU8 satS8 sat)

def Widths (s s' : St) : Prop :=
  s'.x 1 = widthE (s.x rDstRows) (s.x rRow) ∧ s'.x 2 = widthE (s.x rDstCols) (s.x rCol) ∧
    s'.x dstPtr = s.x dstPtr ∧
    s'.z = (decide (sgn (widthE (s.x rDstRows) (s.x rRow)).num = sgn (Val.int 8).num) &&
      decide (sgn (widthE (s.x rDstCols) (s.x rCol)).num = sgn (Val.int 8).num))

theorem widths {j : Job} (hf : Fits j) {p q : Nat} (hp : p ≤ j.rowSteps) (hq : q ≤ j.colSteps) {s s' : St}
    (hm : Mid j p q s) (h : Widths s s') :
    s'.x dstPtr = s.x dstPtr ∧ s'.x 1 = .int (rowsIn j p) ∧ s'.x 2 = .int (colsIn j q) ∧
      s'.z = decide (rowsIn j p = 8 ∧ colsIn j q = 8) := by
  obtain ⟨h1, h2, h4, h5⟩ := h
  have fr := hf.rows
  have fc := hf.cols
  have fr' := hf.rowIn
  have fc' := hf.colIn
  unfold lastRow at fr'
  unfold lastCol at fc'
  have e1 : widthE (s.x rDstRows) (s.x rRow) = .int (rowsIn j p) := by
    rw [hm.rows, hm.row]; exact widthE_eq fr (by omega)
  have e2 : widthE (s.x rDstCols) (s.x rCol) = .int (colsIn j q) := by
    rw [hm.cols, hm.col]; exact widthE_eq fc (by omega)
  rw [e1] at h1 h5
  rw [e2] at h2 h5
  have r4 : rowsIn j p ≤ 8 := by unfold rowsIn; omega
  have c4 : colsIn j q ≤ 8 := by unfold colsIn; omega
  refine ⟨h4, h1, h2, ?_⟩
  rw [h5, sgn_eq (by omega) (by omega), sgn_eq (by omega) (by omega), Bool.decide_and]

/-- Column `w` as halfwords, with the zero point. -/
def colH (s : St) (w : Nat) : Vec := addZp (s.v (16 + 2 * w)) (s.v (16 + 2 * w)) (s.v (17 + 2 * w)) (zpV s)

/-- Columns `2 * c` and `2 * c + 1` as bytes. -/
def colsB (o1 o2 o3 o4 : VOp) (j : Job) (s : St) (c : Nat) : Vec :=
  bytes8 o1 o2 o3 o4 (colH s (2 * c)) (colH s (2 * c + 1))
    (ofB fun _ => (Job.u32 j.clampMin % 2 ^ 8 : Nat)) (ofB fun _ => (Job.u32 j.clampMax % 2 ^ 8 : Nat))

set_option maxRecDepth 8000 in
theorem b25 (j : Job) (s : St) : Same keepStore s (exec (env j) dot25.body s) ∧
    (exec (env j) dot25.body s).m = s.m ∧
    (exec (env j) dot25.body s).bad = (s.bad || false || false || false || false ||
      (s.x rDstRows).isPtr || (s.x rRow).isPtr || (s.x rDstCols).isPtr || (s.x rCol).isPtr ||
      false || false || false || false || false || false || false || false || false || false) ∧
    Widths s (exec (env j) dot25.body s) ∧
    (∀ i, i < 4 → (exec (env j) dot25.body s).v i = s.v i) ∧
    (∀ i, i < 8 → (exec (env j) dot25.body s).v (24 + i) = fun _ => 0) ∧
    (∀ c, c < 4 → (exec (env j) dot25.body s).v (16 + c) = colsB .sqxtun .sqxtun2 .umaxB .uminB j s c) ∧
    (∀ c, c < 4 → (exec (env j) dot25.body s).v (20 + c) =
      lower fun b => colsB .sqxtun .sqxtun2 .umaxB .uminB j s c (8 * 1 + b)) := by
  cases s
  refine ⟨by keep, rfl, rfl, ⟨rfl, rfl, rfl, rfl⟩, ?_, ?_, ?_, ?_⟩
  all_goals
    intro i hi
    interval_cases i <;> rfl

set_option maxRecDepth 8000 in
theorem b34 (j : Job) (s : St) : Same keepStore s (exec (env j) dot34.body s) ∧
    (exec (env j) dot34.body s).m = s.m ∧
    (exec (env j) dot34.body s).bad = (s.bad || false || false || false || false ||
      (s.x rDstRows).isPtr || (s.x rRow).isPtr || (s.x rDstCols).isPtr || (s.x rCol).isPtr ||
      false || false || false || false || false || false || false || false || false || false) ∧
    Widths s (exec (env j) dot34.body s) ∧
    (∀ i, i < 4 → (exec (env j) dot34.body s).v i = s.v i) ∧
    (∀ i, i < 8 → (exec (env j) dot34.body s).v (24 + i) = fun _ => 0) ∧
    (∀ c, c < 4 → (exec (env j) dot34.body s).v (16 + c) = colsB .sqxtnH .sqxtnH2 .smaxB .sminB j s c) ∧
    (∀ c, c < 4 → (exec (env j) dot34.body s).v (20 + c) =
      lower fun b => colsB .sqxtnH .sqxtnH2 .smaxB .sminB j s c (8 * 1 + b)) := by
  cases s
  refine ⟨by keep, rfl, rfl, ⟨rfl, rfl, rfl, rfl⟩, ?_, ?_, ?_, ?_⟩
  all_goals
    intro i hi
    interval_cases i <;> rfl

/-- The clamp bounds, LDRSH. -/
def clampV (j : Job) (f : Field) : Vec := ofH fun _ => (loadSH ((env j).field f)).num

set_option maxRecDepth 8000 in
theorem b43 (j : Job) (s : St) : Same keepStore s (exec (env j) dot43.body s) ∧
    (exec (env j) dot43.body s).m = s.m ∧
    (exec (env j) dot43.body s).bad = (s.bad || false || false || false || false ||
      (s.x rDstRows).isPtr || (s.x rRow).isPtr || (s.x rDstCols).isPtr || (s.x rCol).isPtr ||
      false || false || false || false || false || false || false || false || false || false) ∧
    Widths s (exec (env j) dot43.body s) ∧
    (∀ i, i < 4 → (exec (env j) dot43.body s).v i = s.v i) ∧
    (∀ i, i < 8 → (exec (env j) dot43.body s).v (24 + i) = fun _ => 0) ∧
    (∀ w, w < 8 → (exec (env j) dot43.body s).v (16 + w) =
      words16 (addZp4 (s.v (16 + w)) (zpV s)) (addZp4 (s.v (16 + 2 * w)) (zpV s))
        (addZp4 (s.v (17 + 2 * w)) (zpV s)) (clampV j .clampMin) (clampV j .clampMax)) := by
  cases s
  refine ⟨by keep, rfl, rfl, ⟨rfl, rfl, rfl, rfl⟩, ?_, ?_, ?_⟩
  all_goals
    intro i hi
    interval_cases i <;> rfl

theorem b52 (j : Job) (s : St) : Same keepStore s (exec (env j) dot52.body s) ∧
    (exec (env j) dot52.body s).m = s.m ∧
    (exec (env j) dot52.body s).bad = (s.bad ||
      (s.x rDstRows).isPtr || (s.x rRow).isPtr || (s.x rDstCols).isPtr || (s.x rCol).isPtr ||
      false || false || false || false || false || false || false || false || false || false) ∧
    Widths s (exec (env j) dot52.body s) ∧ (exec (env j) dot52.body s).v = s.v := by
  cases s
  exact ⟨by keep, rfl, rfl, ⟨rfl, rfl, rfl, rfl⟩, rfl⟩

theorem getH_colH {s : St} {z : Int} (h : getH (s.v 13) 4 = wrap16 z) {f : Nat → Nat → Int} (ht : Tile f s)
    {w : Nat} (hw : w < 8) {u : Nat} (hu : u < 8) :
    getH (colH s w) u = sqadd16 (sqxtn16 (f u w)) (wrap16 z) := by
  unfold colH
  have e := getH_addZp h (s.v (16 + 2 * w)) (s.v (16 + 2 * w)) (s.v (17 + 2 * w)) (w := u / 4) (by omega) (u := u % 4)
    (by omega)
  rw [show 4 * (u / 4) + u % 4 = u by omega] at e
  rw [e]
  rcases (show u / 4 = 0 ∨ u / 4 = 1 by omega) with h4 | h4
  · have := ht w hw 0 (by omega) (u % 4) (by omega)
    rw [if_pos h4, ← show 4 * 0 + u % 4 = u by omega, ← this]
    simp
  · have := ht w hw 1 (by omega) (u % 4) (by omega)
    rw [if_neg (by omega), show f u w = f (4 * 1 + u % 4) w by rw [show 4 * 1 + u % 4 = u by omega], ← this,
      show 16 + 2 * w + 1 = 17 + 2 * w by omega]

/-- Where the bytes of a column are. -/
theorem colByte_one {s' : St} {T : Nat → Vec} (h1 : ∀ c, c < 4 → s'.v (16 + c) = T c)
    (h2 : ∀ c, c < 4 → s'.v (20 + c) = lower fun b => T c (8 * 1 + b)) {w : Nat} (hw : w < 8) {u : Nat} (hu : u < 8) :
    colByte 1 s' w (1 * u + 0) = T (w / 2) (8 * (w % 2) + u) := by
  unfold colByte
  rw [if_pos rfl, Nat.one_mul, Nat.add_zero]
  rcases (show w % 2 = 0 ∨ w % 2 = 1 by omega) with h | h
  · rw [h, Nat.mul_zero, Nat.add_zero, h1 _ (by omega), Nat.zero_add]
  · rw [h, show 16 + w / 2 + 4 * 1 = 20 + w / 2 by omega, h2 _ (by omega)]
    unfold lower
    rw [if_pos hu]

theorem head25 {j : Job} (hf : Fits j) {p q : Nat} (hp : p ≤ j.rowSteps) (hq : q ≤ j.colSteps) {s : St}
    (hm : Mid j p q s) (hz : getH (s.v 13) 4 = wrap16 j.dstZp) {f : Nat → Nat → Int} (ht : Tile f s) :
    HeadOk j p q 1 (fun u w => Simd.Neon.storeU8 (f u w) j.dstZp j.clampMin j.clampMax) s
      (exec (env j) dot25.body s) := by
  obtain ⟨k1, k2, k3, k4, k5, k6, k7, k8⟩ := b25 j s
  generalize exec (env j) dot25.body s = s1 at *
  obtain ⟨w0, w1, w2, wz⟩ := widths hf hp hq hm k4
  refine ⟨k1, k2, ?_, w0, w1, w2, wz, k5, .inr k6, fun u hu w hw b hb => ?_⟩
  · rw [k3, hm.ok, hm.rows, hm.row, hm.cols, hm.col]; rfl
  · obtain rfl : b = 0 := by omega
    rw [colByte_one k7 k8 hw hu, ← byteOf_getU (colsB _ _ _ _ j s _)]
    refine congrArg (fun x => byteOf x 0) ?_
    unfold colsB bytes8 Simd.Neon.storeU8
    rw [getU_umin, getU_umax, getU_dup, getU_dup]
    refine congrArg (fun x => min (max x _) _) ?_
    rcases (show w % 2 = 0 ∨ w % 2 = 1 by omega) with h2 | h2
    · rw [h2, Nat.mul_zero, Nat.zero_add, getU_sqxtun_lo _ _ _ _ _ hu, getH_colH hz ht (by omega) hu,
        show 2 * (w / 2) = w by omega]
    · rw [h2, Nat.mul_one, getU_sqxtun_hi, getH_colH hz ht (by omega) hu, show 2 * (w / 2) + 1 = w by omega]

theorem head34 {j : Job} (hf : Fits j) {p q : Nat} (hp : p ≤ j.rowSteps) (hq : q ≤ j.colSteps) {s : St}
    (hm : Mid j p q s) (hz : getH (s.v 13) 4 = wrap16 j.dstZp) {f : Nat → Nat → Int} (ht : Tile f s) :
    HeadOk j p q 1 (fun u w => Simd.Neon.storeS8 (f u w) j.dstZp j.clampMin j.clampMax) s
      (exec (env j) dot34.body s) := by
  obtain ⟨k1, k2, k3, k4, k5, k6, k7, k8⟩ := b34 j s
  generalize exec (env j) dot34.body s = s1 at *
  obtain ⟨w0, w1, w2, wz⟩ := widths hf hp hq hm k4
  refine ⟨k1, k2, ?_, w0, w1, w2, wz, k5, .inr k6, fun u hu w hw b hb => ?_⟩
  · rw [k3, hm.ok, hm.rows, hm.row, hm.cols, hm.col]; rfl
  · obtain rfl : b = 0 := by omega
    rw [colByte_one k7 k8 hw hu, ← byteOf_getB (colsB _ _ _ _ j s _)]
    refine congrArg (fun x => byteOf x 0) ?_
    unfold colsB bytes8 Simd.Neon.storeS8
    rw [getB_smin, getB_smax, getB_dup, getB_dup]
    refine congrArg (fun x => min (max x _) _) ?_
    rcases (show w % 2 = 0 ∨ w % 2 = 1 by omega) with h2 | h2
    · rw [h2, Nat.mul_zero, Nat.zero_add, getB_sqxtn_lo _ _ _ _ _ hu, getH_colH hz ht (by omega) hu,
        show 2 * (w / 2) = w by omega]
    · rw [h2, Nat.mul_one, getB_sqxtn_hi, getH_colH hz ht (by omega) hu, show 2 * (w / 2) + 1 = w by omega]

theorem getH_clampV (j : Job) (i : Nat) : getH (clampV j .clampMin) i = wrap16 j.clampMin ∧
    getH (clampV j .clampMax) i = wrap16 j.clampMax := by
  unfold clampV
  rw [getH_ofH, getH_ofH]
  constructor
  all_goals
    simp only [loadSH, Val.num, env, field, Job.field]
    unfold Job.u32 wrap16
    norm_num
    omega

theorem getH_words {s : St} {z : Int} (h : getH (s.v 13) 4 = wrap16 z) {f : Nat → Nat → Int} (ht : Tile f s) (d : Vec)
    {lo hi : Vec} {w : Nat} (hw : w < 8) {u : Nat} (hu : u < 8) :
    getH (words16 d (addZp4 (s.v (16 + 2 * w)) (zpV s)) (addZp4 (s.v (17 + 2 * w)) (zpV s)) lo hi) u =
      min (max (sqxtn16 (saddw (f u w) (wrap16 z))) (getH lo u)) (getH hi u) := by
  unfold words16
  rw [getH_smin, getH_smax]
  have e : getH (narrow d (addZp4 (s.v (16 + 2 * w)) (zpV s)) (addZp4 (s.v (17 + 2 * w)) (zpV s))) u =
      sqxtn16 (saddw (f u w) (wrap16 z)) := ?_
  · rw [e]
  rcases Nat.lt_or_ge u 4 with h4 | h4
  · have := ht w hw 0 (by omega) u h4
    rw [Nat.mul_zero, Nat.zero_add, Nat.add_zero] at this
    rw [getH_narrow_lo _ _ _ h4]
    unfold addZp4
    rw [getH_saddw, getH_zp h, this]
  · obtain ⟨i, rfl⟩ := Nat.exists_eq_add_of_le h4
    have := ht w hw 1 (by omega) i (by omega)
    rw [getH_narrow_hi]
    unfold addZp4
    rw [getH_saddw, getH_zp h]
    rw [show 17 + 2 * w = 16 + 2 * w + 1 by omega, this, Nat.mul_one]

theorem head43 {j : Job} (hf : Fits j) {p q : Nat} (hp : p ≤ j.rowSteps) (hq : q ≤ j.colSteps) {s : St}
    (hm : Mid j p q s) (hz : getH (s.v 13) 4 = wrap16 j.dstZp) {f : Nat → Nat → Int} (ht : Tile f s) :
    HeadOk j p q 2 (fun u w => Simd.Neon.storeS16 (f u w) j.dstZp j.clampMin j.clampMax) s
      (exec (env j) dot43.body s) := by
  obtain ⟨k1, k2, k3, k4, k5, k6, k7⟩ := b43 j s
  generalize exec (env j) dot43.body s = s1 at *
  obtain ⟨w0, w1, w2, wz⟩ := widths hf hp hq hm k4
  refine ⟨k1, k2, ?_, w0, w1, w2, wz, k5, .inr k6, fun u hu w hw b hb => ?_⟩
  · rw [k3, hm.ok, hm.rows, hm.row, hm.cols, hm.col]; rfl
  · unfold colByte
    rw [if_neg (by omega), if_pos rfl, ← byteOf_getH (s1.v (16 + w)) _ _ hb, k7 w hw, getH_words hz ht _ hw hu,
      (getH_clampV j u).1, (getH_clampV j u).2]
    rfl

theorem head52 {j : Job} (hf : Fits j) {p q : Nat} (hp : p ≤ j.rowSteps) (hq : q ≤ j.colSteps) {s : St}
    (hm : Mid j p q s) {f : Nat → Nat → Int} (ht : Tile f s) :
    HeadOk j p q 4 f s (exec (env j) dot52.body s) := by
  obtain ⟨k1, k2, k3, k4, k5⟩ := b52 j s
  generalize exec (env j) dot52.body s = s1 at *
  obtain ⟨w0, w1, w2, wz⟩ := widths hf hp hq hm k4
  refine ⟨k1, k2, ?_, w0, w1, w2, wz, fun i _ => by rw [k5], .inl rfl, fun u hu w hw b hb => ?_⟩
  · rw [k3, hm.ok, hm.rows, hm.row, hm.cols, hm.col]; rfl
  · unfold colByte
    rw [if_neg (by omega), if_neg (by omega), k5, show (4 * u + b) / 16 = u / 4 by omega,
      show (4 * u + b) % 16 = 4 * (u % 4) + b by omega, ← byteOf_getS (s.v _) (u % 4) _ hb,
      ht w hw (u / 4) (by omega) (u % 4) (by omega), show 4 * (u / 4) + u % 4 = u by omega]

/-! ### Blocks 23, 24: which store -/

theorem b23 (j : Job) (s : St) : Same midRegs s (exec (env j) dot23.body s) ∧
    (exec (env j) dot23.body s).m = s.m ∧ Same [32, 33, 34, 35] s (exec (env j) dot23.body s) ∧
    (exec (env j) dot23.body s).bad = (s.bad || false || false || (s.x dstTypeId).isPtr) ∧
    (∀ i, i < 4 → (exec (env j) dot23.body s).v i = s.v i) ∧
    (∀ i, i < 16 → (exec (env j) dot23.body s).v (16 + i) = s.v (16 + i)) ∧
    (exec (env j) dot23.body s).v 13 =
      (ofH fun i => if i = 4 then ((Job.u32 j.dstZp % 2 ^ 32 : Nat) : Int) else getH (s.v 13) i) ∧
    (exec (env j) dot23.body s).z = decide (sgn (s.x dstTypeId).num = sgn (Val.int 3).num) := by
  cases s
  refine ⟨by keep, rfl, by keep, rfl, ?_, ?_, rfl, rfl⟩
  all_goals
    intro i hi
    interval_cases i <;> rfl

theorem b24 (e : Env) (s : St) : Same midRegs s (exec e dot24.body s) ∧
    Same [32, 33, 34, 35] s (exec e dot24.body s) ∧ (exec e dot24.body s).m = s.m ∧
    (exec e dot24.body s).v = s.v ∧ (exec e dot24.body s).bad = (s.bad || (s.x dstTypeId).isPtr) ∧
    (exec e dot24.body s).z = decide (sgn (s.x dstTypeId).num = sgn (Val.int 2).num) := by
  cases s
  exact ⟨by keep, by keep, rfl, rfl, rfl, rfl⟩

end Ruy.Neon.Dot

import Verif.Neon.Types
/-
The first blocks of the four stores: conversion of the tile, size of the part of it
inside the destination.
-/
namespace Ruy.Neon
open Simd (wrap8 wrap16 wrap32 sqxtn16 sqadd16 sqxtun8 sqxtn8 saddw satS16 satU8 satS8 sat)

theorem byteOf_getU (v : Vec) (i : Nat) : byteOf (getU v i) 0 = v i := by
  apply BitVec.eq_of_toNat_eq
  have h := byteOf_toNat (getU v i) 0
  have := byte_lt (v i)
  rw [pow_zero, Int.ediv_one] at h
  unfold getU at *
  omega
theorem byteOf_getB (v : Vec) (i : Nat) : byteOf (getB v i) 0 = v i := by
  apply BitVec.eq_of_toNat_eq
  have h := byteOf_toNat (getB v i) 0
  have := byte_lt (v i)
  rw [pow_zero, Int.ediv_one] at h
  unfold getB wrap8 at *
  omega

theorem getU_umin (d a b : Vec) (i : Nat) : getU (vop .uminB d a b) i = min (getU a i) (getU b i) := by
  simp only [vop]
  rw [getU_ofB]
  have := getU_range a i
  have := getU_range b i
  omega
theorem getB_smin (d a b : Vec) (i : Nat) : getB (vop .sminB d a b) i = min (getB a i) (getB b i) := by
  simp only [vop]
  rw [getB_ofB]
  have := getB_range a i
  have := getB_range b i
  unfold wrap8
  omega
theorem getH_smin (d a b : Vec) (i : Nat) : getH (vop .sminH d a b) i = min (getH a i) (getH b i) := by
  simp only [vop]
  rw [getH_ofH]
  have := getH_range a i
  have := getH_range b i
  unfold wrap16
  omega

theorem getU_dup (x : Int) (i : Nat) : getU (ofB fun _ => (Job.u32 x % 2 ^ 8 : Nat)) i = x % 256 := by
  rw [getU_ofB, u32_mod _ _ (.inl rfl)]
  omega
theorem getB_dup (x : Int) (i : Nat) : getB (ofB fun _ => (Job.u32 x % 2 ^ 8 : Nat)) i = wrap8 x := by
  rw [getB_ofB, u32_mod _ _ (.inl rfl)]
  unfold wrap8; omega
theorem getH_dup (x : Int) (i : Nat) : getH (ofH fun _ => (Job.u32 x % 2 ^ 16 : Nat)) i = wrap16 x := by
  rw [getH_ofH, u32_mod _ _ (.inr rfl)]
  unfold wrap16; omega

theorem wrap16_wrap16 (x : Int) : wrap16 (wrap16 x) = wrap16 x := by unfold wrap16; omega

theorem getH_zp {s : St} {z : Int} (h : getH (s.v 13) 4 = wrap16 z) (i : Nat) : getH (zpV s) i = wrap16 z := by
  unfold zpV
  rw [getH_ofH, h, wrap16_wrap16]

/-- The tile after the zero point, as halfwords. -/
theorem getH_addZp {s : St} {z : Int} (h : getH (s.v 13) 4 = wrap16 z) (d a b : Vec) {w : Nat} (hw : w < 2) {u : Nat}
    (hu : u < 4) : getH (addZp d a b (zpV s)) (4 * w + u) =
      sqadd16 (sqxtn16 (getS (if w = 0 then a else b) u)) (wrap16 z) := by
  unfold addZp
  rw [getH_sqadd, getH_zp h]
  rcases (show w = 0 ∨ w = 1 by omega) with rfl | rfl
  · rw [Nat.mul_zero, Nat.zero_add, getH_narrow_lo _ _ _ hu, if_pos rfl]
  · rw [Nat.mul_one, getH_narrow_hi, if_neg (by omega)]

theorem tile_reg {f : Nat → Nat → Int} {s : St} (h : Tile f s) (k : Nat) {w : Nat} (hw : w < 2) {u : Nat} (hu : u < 4)
    (hk : k = 0 ∨ k = 2) : getS (if w = 0 then s.v (16 + k) else s.v (16 + k + 1)) u = f u (k + w) := by
  rcases (show w = 0 ∨ w = 1 by omega) with rfl | rfl
  · rw [if_pos rfl]; exact h k (by omega) u hu
  · rw [if_neg (by omega)]; exact h (k + 1) (by omega) u hu

/-- SADDW of the zero point. -/
def zpV4 (s : St) : Vec := lower (ofH fun _ => getH (s.v 13) 4)
def addZp4 (a z : Vec) : Vec := vop .saddw a a z
def words16 (d a b lo hi : Vec) : Vec :=
  vop .sminH (vop .smaxH (narrow d a b) (narrow d a b) lo) (vop .smaxH (narrow d a b) (narrow d a b) lo) hi

theorem b19 (j : Job) (s : St) : Same keepStore s (exec j.env gemm19.body s) ∧
    (exec j.env gemm19.body s).m = s.m ∧
    (exec j.env gemm19.body s).bad = (s.bad || false || false || false || false ||
      (s.x rDstRows).isPtr || (s.x rRow).isPtr || (s.x rDstCols).isPtr || (s.x rCol).isPtr ||
      false || false || false || false || false || false || false || false || false || false) ∧
    Widths s (exec j.env gemm19.body s) ∧
    (∀ i, i < 8 → (exec j.env gemm19.body s).v i = s.v i) ∧
    (∀ i, i < 14 → (exec j.env gemm19.body s).v (18 + i) = fun _ => 0) ∧
    (exec j.env gemm19.body s).v 16 = bytes8 .sqxtun .sqxtun2 .umaxB .uminB
      (addZp (s.v 16) (s.v 16) (s.v 17) (zpV s)) (addZp (s.v 17) (s.v 18) (s.v 19) (zpV s))
      (ofB fun _ => (Job.u32 j.clampMin % 2 ^ 8 : Nat)) (ofB fun _ => (Job.u32 j.clampMax % 2 ^ 8 : Nat)) := by
  cases s
  refine ⟨by keep, rfl, rfl, ⟨rfl, rfl, rfl, rfl, rfl⟩, ?_, ?_, rfl⟩
  all_goals
    intro i hi
    interval_cases i <;> rfl

theorem b27 (j : Job) (s : St) : Same keepStore s (exec j.env gemm27.body s) ∧
    (exec j.env gemm27.body s).m = s.m ∧
    (exec j.env gemm27.body s).bad = (s.bad || false || false || false || false ||
      (s.x rDstRows).isPtr || (s.x rRow).isPtr || (s.x rDstCols).isPtr || (s.x rCol).isPtr ||
      false || false || false || false || false || false || false || false || false || false) ∧
    Widths s (exec j.env gemm27.body s) ∧
    (∀ i, i < 8 → (exec j.env gemm27.body s).v i = s.v i) ∧
    (∀ i, i < 14 → (exec j.env gemm27.body s).v (18 + i) = fun _ => 0) ∧
    (exec j.env gemm27.body s).v 16 = bytes8 .sqxtnH .sqxtnH2 .smaxB .sminB
      (addZp (s.v 16) (s.v 16) (s.v 17) (zpV s)) (addZp (s.v 17) (s.v 18) (s.v 19) (zpV s))
      (ofB fun _ => (Job.u32 j.clampMin % 2 ^ 8 : Nat)) (ofB fun _ => (Job.u32 j.clampMax % 2 ^ 8 : Nat)) := by
  cases s
  refine ⟨by keep, rfl, rfl, ⟨rfl, rfl, rfl, rfl, rfl⟩, ?_, ?_, rfl⟩
  all_goals
    intro i hi
    interval_cases i <;> rfl

theorem b35 (j : Job) (s : St) : Same keepStore s (exec j.env gemm35.body s) ∧
    (exec j.env gemm35.body s).m = s.m ∧
    (exec j.env gemm35.body s).bad = (s.bad || false || false || false || false ||
      (s.x rDstRows).isPtr || (s.x rRow).isPtr || (s.x rDstCols).isPtr || (s.x rCol).isPtr ||
      false || false || false || false || false || false || false || false || false || false) ∧
    Widths s (exec j.env gemm35.body s) ∧
    (∀ i, i < 8 → (exec j.env gemm35.body s).v i = s.v i) ∧
    (∀ i, i < 14 → (exec j.env gemm35.body s).v (18 + i) = fun _ => 0) ∧
    (exec j.env gemm35.body s).v 16 = words16 (addZp4 (s.v 16) (zpV4 s)) (addZp4 (s.v 16) (zpV4 s))
      (addZp4 (s.v 17) (zpV4 s))
      (ofH fun _ => (Job.u32 j.clampMin % 2 ^ 16 : Nat)) (ofH fun _ => (Job.u32 j.clampMax % 2 ^ 16 : Nat)) ∧
    (exec j.env gemm35.body s).v 17 = words16 (addZp4 (s.v 17) (zpV4 s)) (addZp4 (s.v 18) (zpV4 s))
      (addZp4 (s.v 19) (zpV4 s))
      (ofH fun _ => (Job.u32 j.clampMin % 2 ^ 16 : Nat)) (ofH fun _ => (Job.u32 j.clampMax % 2 ^ 16 : Nat)) := by
  cases s
  refine ⟨by keep, rfl, rfl, ⟨rfl, rfl, rfl, rfl, rfl⟩, ?_, ?_, rfl, rfl⟩
  all_goals
    intro i hi
    interval_cases i <;> rfl

theorem b43 (j : Job) (s : St) : Same keepStore s (exec j.env gemm43.body s) ∧
    (exec j.env gemm43.body s).m = s.m ∧
    (exec j.env gemm43.body s).bad = (s.bad ||
      (s.x rDstRows).isPtr || (s.x rRow).isPtr || (s.x rDstCols).isPtr || (s.x rCol).isPtr ||
      false || false || false || false || false || false || false || false || false || false) ∧
    Widths s (exec j.env gemm43.body s) ∧
    (∀ i, i < 8 → (exec j.env gemm43.body s).v i = s.v i) ∧
    (∀ i, i < 12 → (exec j.env gemm43.body s).v (20 + i) = fun _ => 0) ∧
    (∀ i, i < 4 → (exec j.env gemm43.body s).v (16 + i) = s.v (16 + i)) := by
  cases s
  refine ⟨by keep, rfl, rfl, ⟨rfl, rfl, rfl, rfl, rfl⟩, ?_, ?_, ?_⟩
  all_goals
    intro i hi
    interval_cases i <;> rfl

theorem head19 {j : Job} (hf : j.Fits) {p q : Nat} (hp : p ≤ j.rowSteps) (hq : q ≤ j.colSteps) {s : St}
    (hm : Mid j p q s) (hz : getH (s.v 13) 4 = wrap16 j.dstZp) {f : Nat → Nat → Int} (ht : Tile f s) :
    HeadOk j p q 1 2 (fun u w => Simd.Neon.storeU8 (f u w) j.dstZp j.clampMin j.clampMax) s
      (exec j.env gemm19.body s) := by
  obtain ⟨k1, k2, k3, k4, k5, k6, k7⟩ := b19 j s
  generalize exec j.env gemm19.body s = s1 at *
  obtain ⟨w0, w1, w2, w4, wz⟩ := widths hf hp hq hm k4
  refine ⟨k1, k2, ?_, w0, w1, w2, w4, wz, k5, fun i h1 h2 => ?_, fun u hu w hw b hb => ?_⟩
  · rw [k3, hm.ok, hm.rows, hm.row, hm.cols, hm.col]; rfl
  · have := k6 (i - 2) (by omega)
    rwa [show 18 + (i - 2) = 16 + i by omega] at this
  · obtain rfl : b = 0 := by omega
    have key : getU (s1.v 16) (4 * w + u) =
        Simd.Neon.storeU8 (f u w) j.dstZp j.clampMin j.clampMax := by
      rw [k7]
      unfold bytes8 Simd.Neon.storeU8
      rw [getU_umin, getU_umax, getU_dup, getU_dup]
      refine congrArg (fun x => min (max x _) _) ?_
      rcases Nat.lt_or_ge w 2 with h2 | h2
      · rw [getU_sqxtun_lo _ _ _ _ _ (by omega), getH_addZp hz _ _ _ h2 hu, tile_reg ht 0 h2 hu (.inl rfl), Nat.zero_add]
      · obtain ⟨w', rfl⟩ := Nat.exists_eq_add_of_le h2
        rw [show 4 * (2 + w') + u = 8 + (4 * w' + u) by omega, getU_sqxtun_hi,
          getH_addZp hz _ _ _ (by omega) hu, tile_reg ht 2 (by omega) hu (.inr rfl)]
    rw [← key, byteOf_getU]
    unfold tileByte
    rw [show 16 + (4 * 1 * w + (1 * u + 0)) / 16 = 16 by omega, show (4 * 1 * w + (1 * u + 0)) % 16 = 4 * w + u by omega]

theorem head27 {j : Job} (hf : j.Fits) {p q : Nat} (hp : p ≤ j.rowSteps) (hq : q ≤ j.colSteps) {s : St}
    (hm : Mid j p q s) (hz : getH (s.v 13) 4 = wrap16 j.dstZp) {f : Nat → Nat → Int} (ht : Tile f s) :
    HeadOk j p q 1 2 (fun u w => Simd.Neon.storeS8 (f u w) j.dstZp j.clampMin j.clampMax) s
      (exec j.env gemm27.body s) := by
  obtain ⟨k1, k2, k3, k4, k5, k6, k7⟩ := b27 j s
  generalize exec j.env gemm27.body s = s1 at *
  obtain ⟨w0, w1, w2, w4, wz⟩ := widths hf hp hq hm k4
  refine ⟨k1, k2, ?_, w0, w1, w2, w4, wz, k5, fun i h1 h2 => ?_, fun u hu w hw b hb => ?_⟩
  · rw [k3, hm.ok, hm.rows, hm.row, hm.cols, hm.col]; rfl
  · have := k6 (i - 2) (by omega)
    rwa [show 18 + (i - 2) = 16 + i by omega] at this
  · obtain rfl : b = 0 := by omega
    have key : getB (s1.v 16) (4 * w + u) =
        Simd.Neon.storeS8 (f u w) j.dstZp j.clampMin j.clampMax := by
      rw [k7]
      unfold bytes8 Simd.Neon.storeS8
      rw [getB_smin, getB_smax, getB_dup, getB_dup]
      refine congrArg (fun x => min (max x _) _) ?_
      rcases Nat.lt_or_ge w 2 with h2 | h2
      · rw [getB_sqxtn_lo _ _ _ _ _ (by omega), getH_addZp hz _ _ _ h2 hu, tile_reg ht 0 h2 hu (.inl rfl), Nat.zero_add]
      · obtain ⟨w', rfl⟩ := Nat.exists_eq_add_of_le h2
        rw [show 4 * (2 + w') + u = 8 + (4 * w' + u) by omega, getB_sqxtn_hi,
          getH_addZp hz _ _ _ (by omega) hu, tile_reg ht 2 (by omega) hu (.inr rfl)]
    rw [← key, byteOf_getB]
    unfold tileByte
    rw [show 16 + (4 * 1 * w + (1 * u + 0)) / 16 = 16 by omega, show (4 * 1 * w + (1 * u + 0)) % 16 = 4 * w + u by omega]

theorem getH_words16 {s : St} {z : Int} (h : getH (s.v 13) 4 = wrap16 z) (d a b : Vec) (lo hi : Int) {w : Nat}
    (hw : w < 2) {u : Nat} (hu : u < 4) :
    getH (words16 d (addZp4 a (zpV4 s)) (addZp4 b (zpV4 s)) (ofH fun _ => (Job.u32 lo % 2 ^ 16 : Nat))
      (ofH fun _ => (Job.u32 hi % 2 ^ 16 : Nat))) (4 * w + u) =
      Simd.Neon.storeS16 (getS (if w = 0 then a else b) u) z lo hi := by
  unfold words16 Simd.Neon.storeS16
  rw [getH_smin, getH_smax]
  generalize hl : (ofH fun _ => (Job.u32 lo % 2 ^ 16 : Nat)) = vl
  generalize hh : (ofH fun _ => (Job.u32 hi % 2 ^ 16 : Nat)) = vh
  have e1 : getH vl (4 * w + u) = wrap16 lo := by rw [← hl]; exact getH_dup _ _
  have e2 : getH vh (4 * w + u) = wrap16 hi := by rw [← hh]; exact getH_dup _ _
  have hz : getH (zpV4 s) u = wrap16 z := by
    unfold zpV4
    rw [getH_lower _ hu, getH_ofH, h, wrap16_wrap16]
  have hn : getH (narrow d (addZp4 a (zpV4 s)) (addZp4 b (zpV4 s))) (4 * w + u) =
      sqxtn16 (saddw (getS (if w = 0 then a else b) u) (wrap16 z)) := by
    rcases (show w = 0 ∨ w = 1 by omega) with rfl | rfl
    · rw [Nat.mul_zero, Nat.zero_add, getH_narrow_lo _ _ _ hu, if_pos rfl]
      unfold addZp4
      rw [getH_saddw, hz]
    · rw [Nat.mul_one, getH_narrow_hi, if_neg (by omega)]
      unfold addZp4
      rw [getH_saddw, hz]
  rw [e1, e2, hn]

theorem head35 {j : Job} (hf : j.Fits) {p q : Nat} (hp : p ≤ j.rowSteps) (hq : q ≤ j.colSteps) {s : St}
    (hm : Mid j p q s) (hz : getH (s.v 13) 4 = wrap16 j.dstZp) {f : Nat → Nat → Int} (ht : Tile f s) :
    HeadOk j p q 2 2 (fun u w => Simd.Neon.storeS16 (f u w) j.dstZp j.clampMin j.clampMax) s
      (exec j.env gemm35.body s) := by
  obtain ⟨k1, k2, k3, k4, k5, k6, k7, k8⟩ := b35 j s
  generalize exec j.env gemm35.body s = s1 at *
  obtain ⟨w0, w1, w2, w4, wz⟩ := widths hf hp hq hm k4
  refine ⟨k1, k2, ?_, w0, w1, w2, w4, wz, k5, fun i h1 h2 => ?_, fun u hu w hw b hb => ?_⟩
  · rw [k3, hm.ok, hm.rows, hm.row, hm.cols, hm.col]; rfl
  · have := k6 (i - 2) (by omega)
    rwa [show 18 + (i - 2) = 16 + i by omega] at this
  · unfold tileByte
    rcases Nat.lt_or_ge w 2 with h2 | h2
    · rw [show 16 + (4 * 2 * w + (2 * u + b)) / 16 = 16 by omega,
        show (4 * 2 * w + (2 * u + b)) % 16 = 2 * (4 * w + u) + b by omega, ← byteOf_getH (s1.v 16) _ _ hb, k7,
        getH_words16 hz _ _ _ _ _ h2 hu, tile_reg ht 0 h2 hu (.inl rfl), Nat.zero_add]
    · obtain ⟨w', rfl⟩ := Nat.exists_eq_add_of_le h2
      rw [show 16 + (4 * 2 * (2 + w') + (2 * u + b)) / 16 = 17 by omega,
        show (4 * 2 * (2 + w') + (2 * u + b)) % 16 = 2 * (4 * w' + u) + b by omega, ← byteOf_getH (s1.v 17) _ _ hb, k8,
        getH_words16 hz _ _ _ _ _ (by omega) hu, tile_reg ht 2 (by omega) hu (.inr rfl)]

theorem head43 {j : Job} (hf : j.Fits) {p q : Nat} (hp : p ≤ j.rowSteps) (hq : q ≤ j.colSteps) {s : St}
    (hm : Mid j p q s) {f : Nat → Nat → Int} (ht : Tile f s) :
    HeadOk j p q 4 4 f s (exec j.env gemm43.body s) := by
  obtain ⟨k1, k2, k3, k4, k5, k6, k7⟩ := b43 j s
  generalize exec j.env gemm43.body s = s1 at *
  obtain ⟨w0, w1, w2, w4, wz⟩ := widths hf hp hq hm k4
  refine ⟨k1, k2, ?_, w0, w1, w2, w4, wz, k5, fun i h1 h2 => ?_, fun u hu w hw b hb => ?_⟩
  · rw [k3, hm.ok, hm.rows, hm.row, hm.cols, hm.col]; rfl
  · have := k6 (i - 4) (by omega)
    rwa [show 20 + (i - 4) = 16 + i by omega] at this
  · unfold tileByte
    rw [show 16 + (4 * 4 * w + (4 * u + b)) / 16 = 16 + w by omega,
      show (4 * 4 * w + (4 * u + b)) % 16 = 4 * u + b by omega, k7 w hw, ← byteOf_getS (s.v (16 + w)) _ _ hb, ht w hw u hu]

end Ruy.Neon

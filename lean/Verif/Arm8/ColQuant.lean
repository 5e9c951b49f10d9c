import Verif.Arm8.ColAim
/-
The ARM32 8-bit kernel for one column: the terms of the zero points and the multiplier (labels 401, 402, 1001, 1002).
-/
namespace Ruy.Arm8.One
open Ruy.Arm8
open Ruy.Neon (St Val Region Vec VOp vop eop sgn sgn_of sgn_lt sgn_eq Same addVal out bytes
  getB getU getH getS ofS getS_ofS getS_add getS_sub getS_smin getS_sshl getS_srshl getS_sqdmulh getS_mls getS_mul
  getS_sqdmulhE getS_wrap getS_ones wrap32_sub_l wrap32_sub_r wrap32_mul_r wrap32_sub_mul lane_apply)
open Simd (wrap8 wrap16 wrap32 sshl32 srshl32 sqdmulh32)

theorem k10x (e : Env) (s : St) : Same keepN s (exec e k10.body s) ∧ (exec e k10.body s).m = s.m ∧
    (∀ i, i < 5 → (exec e k10.body s).v i = s.v i) ∧
    (exec e k10.body s).bad = (s.bad || Nat.blt (s.x 13).num (48 + 4) || !(e.field .rhsSums).isPtr || (s.x 112).isPtr ||
      out e.base (addVal (e.field .rhsSums) ((s.x 112).num * 2 ^ 2 % 2 ^ 32)) 0 8 || (e.field .lhsZeroPoint).isPtr) ∧
    (exec e k10.body s).v 14 = eop .mls 0 (s.v 14) (ofS fun _ => (e.field .lhsZeroPoint).num)
      (setLo (s.v 6) (bytes s (addVal (e.field .rhsSums) ((s.x 112).num * 2 ^ 2 % 2 ^ 32)) 0)) := by
  cases s
  exact ⟨by keep, rfl, by intro i hi; interval_cases i <;> rfl, rfl, rfl⟩

theorem k11x (e : Env) (s : St) : Same keepN s (exec e k11.body s) ∧ (exec e k11.body s).m = s.m ∧
    (exec e k11.body s).v = s.v ∧ (exec e k11.body s).bad = (s.bad || (e.field .flags).isPtr || false) ∧
    (exec e k11.body s).x 6 = .int ((e.field .flags).num % 2 ^ 8) ∧
    (exec e k11.body s).z = Nat.beq ((e.field .flags).num % 2 ^ 8 % 2 ^ 32 &&& 2) 0 := by
  cases s; exact ⟨by keep, rfl, rfl, rfl, rfl, rfl⟩

theorem k12x (e : Env) (s : St) : Same (6 :: keepN) s (exec e k12.body s) ∧ (exec e k12.body s).m = s.m ∧
    (∀ i, i < 5 → (exec e k12.body s).v i = s.v i) ∧
    (exec e k12.body s).bad = (s.bad || Nat.blt (s.x 13).num (32 + 4) || !(e.field .lhsSums).isPtr || (s.x 96).isPtr ||
      out e.base (addVal (e.field .lhsSums) ((s.x 96).num * 2 ^ 2 % 2 ^ 32)) 0 16 || (e.field .rhsZeroPoint).isPtr ||
      (e.field .dstTypeId).isPtr || false) ∧
    (exec e k12.body s).z = decide (sgn ((e.field .dstTypeId).num % 2 ^ 8) = sgn 4) ∧
    (exec e k12.body s).v 14 = vop .sub (s.v 14) (s.v 14)
      (eop .mul 1 (bytes s (addVal (e.field .lhsSums) ((s.x 96).num * 2 ^ 2 % 2 ^ 32)) 0)
        (bytes s (addVal (e.field .lhsSums) ((s.x 96).num * 2 ^ 2 % 2 ^ 32)) 0)
        (half 1 (setHi (s.v 6) (ofS fun _ => (e.field .rhsZeroPoint).num)))) := by
  cases s
  exact ⟨by keep, rfl, by intro i hi; interval_cases i <;> rfl, rfl, rfl, rfl⟩

theorem rhsSummed {j : Job} (hf : j.Fits) (ho : Single j) {ty : Neon.Dt} {p : Nat}
    {s : St} (h : Work j ty p (fun u => wrap32 (acc1 j p 0 u 0)) s) :
    ∃ s', Reach j.env kernel (if j.hasRhsSums then 10 else 11, s) (11, s') ∧
      Work j ty p (fun u => wrap32 (acc2 j p 0 u 0)) s' ∧ s'.m = s.m := by
  cases hc : j.hasRhsSums
  · refine ⟨s, Reach.refl _, h.next (Same.refl _ _) rfl (fun _ _ => rfl) h.mid.ok ?_, rfl⟩
    intro u hu
    rw [h.tile u hu]
    unfold acc2 rsumAt
    rw [hc]
    simp
  · obtain ⟨b1, b2, b3, b4, b5⟩ := k10x j.env s
    have n2 : Reach j.env kernel (10, s) (11, exec j.env k10.body s) := Reach.block (b := k10) rfl rfl
    generalize exec j.env k10.body s = s2 at *
    have fr := hf.rsums hc
    have mr := hf.memory .rhsSums
    have hl : j.lastCol = j.startCol + 2 * j.colSteps := rfl
    have pe : addVal (j.env.field .rhsSums) ((s.x 112).num * 2 ^ 2 % 2 ^ 32) =
        .ptr .rhsSums (4 * (j.startCol + 2 * 0)) := by
      rw [h.mid.col]
      show Val.ptr .rhsSums (0 + (j.startCol + 2 * 0) * 2 ^ 2 % 2 ^ 32) = _
      rw [Nat.mod_eq_of_lt (by omega)]; exact congrArg _ (by omega)
    rw [pe, h.mid.ok, h.mid.sp, h.mid.col, out_ok (by omega)] at b4
    rw [pe] at b5
    have ms := h.mid.mem .rhsSums (by decide) (by decide)
    refine ⟨s2, n2, h.next b1 b2 b3 b4 ?_, b2⟩
    intro u hu
    have t : getS (s.v 14) u = wrap32 (acc1 j p 0 u 0) := h.tile u hu
    show _ = wrap32 (acc2 j p 0 u 0)
    rw [b5, getS_mls, t, getS_setLo_lo _ _ (by decide), getS_load ms, getS_ofS]
    unfold acc2 rsumAt
    have hz : (j.env.field .lhsZeroPoint).num = Job.u32 j.lhsZp := rfl
    rw [if_pos hc, hz, wrap32_u32, wrap32_sub_mul]

theorem lhsSummed {j : Job} (hf : j.Fits) {p : Nat} (hp : p ≤ j.rowSteps)
    {s : St} (h : Work j j.ty p (fun u => wrap32 (acc2 j p 0 u 0)) s) :
    ∃ s', Reach j.env kernel (11, s) (if j.ty = .i32 then 34 else 13, s') ∧ s'.x 6 = .int (j.flags % 2 ^ 8) ∧
      Work j j.ty p (fun u => wrap32 (accInt j p 0 u 0)) s' ∧ s'.m = s.m := by
  obtain ⟨a1, a2, a3, a4, a6, a5⟩ := k11x j.env s
  have n1 : ∀ l, (bif (exec j.env k11.body s).z then 13 else 12) = l →
      Reach j.env kernel (11, s) (l, exec j.env k11.body s) := fun l hl => Reach.block (b := k11) rfl hl
  generalize exec j.env k11.body s = s1 at *
  rw [h.mid.ok] at a4
  have z1 : s1.z = !j.hasLhsSums := a5.trans (flag_lhs j)
  have h1 : Work j j.ty p (fun u => wrap32 (acc2 j p 0 u 0)) s1 :=
    h.next a1 a2 (fun i _ => by rw [a3]) a4 (h.tile.congr a3)
  cases hc : j.hasLhsSums
  · have ht : j.ty ≠ .i32 := by
      unfold Job.ty; rw [hc]
      cases j.dt <;> simp
    rw [if_neg ht]
    refine ⟨s1, n1 13 (by rw [z1, hc]; rfl), a6, h1.next (Same.refl _ _) rfl (fun _ _ => rfl) a4 ?_, a2⟩
    intro u hu
    rw [h1.tile u hu]
    unfold accInt lsumAt
    rw [hc]
    simp
  · have ht : j.ty = j.dt := by unfold Job.ty; rw [hc]; simp
    obtain ⟨b1, b2, b3, b4, b6, b5⟩ := k12x j.env s1
    have n2 : ∀ l, (bif (exec j.env k12.body s1).z then 34 else 13) = l →
      Reach j.env kernel (12, s1) (l, exec j.env k12.body s1) := fun l hl => Reach.block (b := k12) rfl hl
    generalize exec j.env k12.body s1 = s2 at *
    have fr := hf.lsums hc
    have mr := hf.memory .lhsSums
    have hl : j.lastRow = j.startRow + 4 * j.rowSteps := rfl
    have pe : addVal (j.env.field .lhsSums) ((s1.x 96).num * 2 ^ 2 % 2 ^ 32) =
        .ptr .lhsSums (4 * (j.startRow + 4 * p)) := by
      rw [h1.mid.row]
      show Val.ptr .lhsSums (0 + (j.startRow + 4 * p) * 2 ^ 2 % 2 ^ 32) = _
      rw [Nat.mod_eq_of_lt (by omega)]; exact congrArg _ (by omega)
    rw [pe, h1.mid.ok, h1.mid.sp, h1.mid.row, out_ok (by omega)] at b4
    rw [pe] at b5
    have ms := h1.mid.mem .lhsSums (by decide) (by decide)
    have z2 : s2.z = decide (j.dt = .i32) := b6.trans (type_id j)
    refine ⟨s2, (n1 12 (by rw [z1, hc]; rfl)).trans (n2 _ ?_), (b1.get (by decide)).trans a6,
      h1.next (b1.sub (by decide)) b2 b3 b4 ?_, b2.trans a2⟩
    · rw [z2, ht]
      by_cases hd : j.dt = .i32
      · rw [decide_eq_true hd, if_pos hd]; rfl
      · rw [decide_eq_false hd, if_neg hd]; rfl
    intro u hu
    have t : getS (s1.v 14) u = wrap32 (acc2 j p 0 u 0) := h1.tile u hu
    show _ = wrap32 (accInt j p 0 u 0)
    rw [b5, getS_sub, getS_mul, t, getS_half_hi _ (by decide), getS_setHi_hi _ _ (by decide), getS_load ms, getS_ofS]
    unfold accInt lsumAt
    have hz : (j.env.field .rhsZeroPoint).num = Job.u32 j.rhsZp := rfl
    rw [if_pos hc, hz, wrap32_u32, wrap32_mul_r, wrap32_sub_r, wrap32_sub_l, Int.mul_comm (j.word .lhsSums _)]

/-! ### The multiplier -/

theorem k13x (e : Env) (s : St) : Same (6 :: keepN) s (exec e k13.body s) ∧ (exec e k13.body s).m = s.m ∧
    (exec e k13.body s).v = s.v ∧ (exec e k13.body s).bad = (s.bad || (s.x 6).isPtr || Nat.blt (s.x 13).num (32 + 4)) ∧
    (exec e k13.body s).x 1 = e.field .mulExp ∧ (exec e k13.body s).x 4 = s.x 96 ∧
    (exec e k13.body s).z = Nat.beq ((s.x 6).num % 2 ^ 32 &&& 8) 0 := by
  cases s; exact ⟨by keep, rfl, rfl, rfl, rfl, rfl, rfl⟩

theorem k14x (e : Env) (s : St) : Same (4 :: 6 :: keepN) s (exec e k14.body s) ∧ (exec e k14.body s).m = s.m ∧
    (exec e k14.body s).v = s.v ∧ (exec e k14.body s).bad = (s.bad || !(s.x 1).isPtr || (s.x 4).isPtr) ∧
    (exec e k14.body s).x 1 = addVal (s.x 1) ((s.x 4).num * 2 ^ 2 % 2 ^ 32) := by
  cases s; exact ⟨by keep, rfl, rfl, rfl, rfl⟩

theorem k15x (e : Env) (s : St) : Same (4 :: 6 :: keepN) s (exec e k15.body s) ∧ (exec e k15.body s).m = s.m ∧
    (∀ i, i < 5 → (exec e k15.body s).v i = s.v i) ∧
    (exec e k15.body s).bad = (s.bad || out e.base (s.x 1) 0 16 || (s.x 6).isPtr) ∧
    (exec e k15.body s).x 1 = e.field .mulFix ∧
    (exec e k15.body s).z = Nat.beq ((s.x 6).num % 2 ^ 32 &&& 8) 0 ∧
    (exec e k15.body s).v 13 = vop .smin (s.v 0) (bytes s (s.x 1) 0) (fun _ => 255) ∧
    (exec e k15.body s).v 14 = vop .sshl (s.v 0) (s.v 14) (vop .sub (s.v 0) (bytes s (s.x 1) 0)
      (vop .smin (s.v 0) (bytes s (s.x 1) 0) (fun _ => 255))) := by
  cases s
  exact ⟨by keep, rfl, by intro i hi; interval_cases i <;> rfl, rfl, rfl, rfl, rfl, rfl⟩

theorem k16x (e : Env) (s : St) : Same (4 :: 6 :: keepN) s (exec e k16.body s) ∧ (exec e k16.body s).m = s.m ∧
    (exec e k16.body s).v = s.v ∧ (exec e k16.body s).bad = (s.bad || !(s.x 1).isPtr || (s.x 4).isPtr) ∧
    (exec e k16.body s).x 1 = addVal (s.x 1) ((s.x 4).num * 2 ^ 2 % 2 ^ 32) := by
  cases s; exact ⟨by keep, rfl, rfl, rfl, rfl⟩

theorem k17x (e : Env) (s : St) : Same keepN s (exec e k17.body s) ∧ (exec e k17.body s).m = s.m ∧
    (∀ i, i < 5 → (exec e k17.body s).v i = s.v i) ∧
    (exec e k17.body s).bad = (s.bad || out e.base (s.x 1) 0 16 || (e.field .dstTypeId).isPtr || false) ∧
    (exec e k17.body s).x 10 = .int ((e.field .dstTypeId).num % 2 ^ 8) ∧
    (exec e k17.body s).z = decide (sgn ((e.field .dstTypeId).num % 2 ^ 8) = sgn 3) ∧
    (exec e k17.body s).v 14 =
      vop .srshl (s.v 0) (vop .sqdmulh (s.v 0) (s.v 14) (bytes s (s.x 1) 0)) (s.v 13) := by
  cases s
  exact ⟨by keep, rfl, by intro i hi; interval_cases i <;> rfl, rfl, rfl, rfl, rfl⟩

theorem k18x (e : Env) (s : St) : Same keepN s (exec e k18.body s) ∧ (exec e k18.body s).m = s.m ∧
    (exec e k18.body s).v = s.v ∧ (exec e k18.body s).bad = (s.bad || (s.x 10).isPtr) ∧
    (exec e k18.body s).z = decide (sgn (s.x 10).num = sgn 2) := by
  cases s; exact ⟨by keep, rfl, rfl, rfl, rfl⟩

/-- From label 402 to the test of the destination type. -/
theorem multiplied {j : Job} (hf : j.Fits) (ho : Single j) {ty : Neon.Dt} {p : Nat} (hp : p ≤ j.rowSteps)
    {s : St} (h6 : s.x 6 = .int (j.flags % 2 ^ 8)) (h : Work j ty p (fun u => wrap32 (accInt j p 0 u 0)) s) :
    ∃ s', Reach j.env kernel (13, s) (if j.dt = .i16 then 29 else 18, s') ∧ s'.x 10 = .int (j.dt.id % 2 ^ 8) ∧
      Work j ty p (fun u => scaledAt j p 0 u 0) s' ∧ s'.m = s.m := by
  obtain ⟨⟨_, f16⟩, _, e16⟩ := mult_bound hf hp (Nat.zero_le j.colSteps)
  have f16 := f16 ho.chan
  have e16 := e16 ho.chan
  have mf := hf.memory .mulFix
  have me := hf.memory .mulExp
  obtain ⟨a1, a2, a3, a4, a5, a6, a7⟩ := k13x j.env s
  have n1 : ∀ l, (bif (exec j.env k13.body s).z then 15 else 14) = l →
      Reach j.env kernel (13, s) (l, exec j.env k13.body s) := fun l hl => Reach.block (b := k13) rfl hl
  generalize exec j.env k13.body s = s1 at *
  rw [h6, h.mid.ok, h.mid.sp] at a4
  have a4' : s1.bad = false := a4
  rw [h6] at a7
  have z1 : s1.z = !j.perChannel := a7.trans (flag_per j)
  have x4 : s1.x 4 = .int (j.startRow + 4 * p) := a6.trans h.mid.row
  have x6 : s1.x 6 = .int (j.flags % 2 ^ 8) := (a1.get (by decide)).trans h6
  have c1 : ∃ s2, Reach j.env kernel (13, s) (15, s2) ∧ Same (4 :: 6 :: keepN) s1 s2 ∧ s2.m = s.m ∧ s2.v = s.v ∧
      s2.bad = false ∧ s2.x 1 = .ptr .mulExp (4 * multBase j p 0) := by
    cases hb : j.perChannel
    · have e0 : multBase j p 0 = 0 := by unfold multBase; rw [hb]; rfl
      exact ⟨s1, n1 15 (by rw [z1, hb]; rfl), Same.refl _ _, a2, a3, a4', by rw [a5, e0]; rfl⟩
    · have e0 : multBase j p 0 = j.startRow + 4 * p := by unfold multBase; rw [hb]; exact chan_row ho p
      obtain ⟨b1, b2, b3, b4, b5⟩ := k14x j.env s1
      have n2 : Reach j.env kernel (14, s1) (15, exec j.env k14.body s1) := Reach.block (b := k14) rfl rfl
      generalize exec j.env k14.body s1 = s2 at *
      rw [a4', a5, x4] at b4
      rw [a5, x4] at b5
      rw [e0] at e16 ⊢
      refine ⟨s2, (n1 14 (by rw [z1, hb]; rfl)).trans n2, b1, b2.trans a2, b3.trans a3, b4, ?_⟩
      rw [b5]
      show Val.ptr .mulExp (0 + (j.startRow + 4 * p) * 2 ^ 2 % 2 ^ 32) = _
      rw [Nat.mod_eq_of_lt (by omega)]; exact congrArg _ (by omega)
  obtain ⟨s2, r2, b1, b2, b3, b4, b5⟩ := c1
  have h2 : Work j ty p (fun u => wrap32 (accInt j p 0 u 0)) s2 :=
    h.next ((a1.sub (by decide)).trans (b1.sub (by decide))) b2 (fun i _ => by rw [b3]) b4 (h.tile.congr b3)
  have y6 : s2.x 6 = .int (j.flags % 2 ^ 8) := (b1.get (by decide)).trans x6
  obtain ⟨c1, c2, c3, c4, c5, c6, c7, c8⟩ := k15x j.env s2
  have n3 : ∀ l, (bif (exec j.env k15.body s2).z then 17 else 16) = l →
      Reach j.env kernel (15, s2) (l, exec j.env k15.body s2) := fun l hl => Reach.block (b := k15) rfl hl
  generalize exec j.env k15.body s2 = s3 at *
  rw [b4, b5, y6, out_ok (by omega)] at c4
  have c4' : s3.bad = false := c4
  rw [y6] at c6
  have z3 : s3.z = !j.perChannel := c6.trans (flag_per j)
  have y4 : s3.x 4 = .int (j.startRow + 4 * p) := (c1.get (by decide)).trans ((b1.get (by decide)).trans x4)
  have d1 : ∃ s4, Reach j.env kernel (15, s2) (17, s4) ∧ Same (4 :: 6 :: keepN) s3 s4 ∧ s4.m = s3.m ∧ s4.v = s3.v ∧
      s4.bad = false ∧ s4.x 1 = .ptr .mulFix (4 * multBase j p 0) := by
    cases hb : j.perChannel
    · have e0 : multBase j p 0 = 0 := by unfold multBase; rw [hb]; rfl
      exact ⟨s3, n3 17 (by rw [z3, hb]; rfl), Same.refl _ _, rfl, rfl, c4', by rw [c5, e0]; rfl⟩
    · have e0 : multBase j p 0 = j.startRow + 4 * p := by unfold multBase; rw [hb]; exact chan_row ho p
      obtain ⟨g1, g2, g3, g4, g5⟩ := k16x j.env s3
      have n2 : Reach j.env kernel (16, s3) (17, exec j.env k16.body s3) := Reach.block (b := k16) rfl rfl
      generalize exec j.env k16.body s3 = s4 at *
      rw [c4', c5, y4] at g4
      rw [c5, y4] at g5
      rw [e0] at f16 ⊢
      refine ⟨s4, (n3 16 (by rw [z3, hb]; rfl)).trans n2, g1, g2, g3, g4, ?_⟩
      rw [g5]
      show Val.ptr .mulFix (0 + (j.startRow + 4 * p) * 2 ^ 2 % 2 ^ 32) = _
      rw [Nat.mod_eq_of_lt (by omega)]; exact congrArg _ (by omega)
  obtain ⟨s4, r4, g1, g2, g3, g4, g5⟩ := d1
  obtain ⟨l1, l2, l3, l4, l5, l6, l7⟩ := k17x j.env s4
  have n5 : ∀ l, (bif (exec j.env k17.body s4).z then 29 else 18) = l →
      Reach j.env kernel (17, s4) (l, exec j.env k17.body s4) := fun l hl => Reach.block (b := k17) rfl hl
  generalize exec j.env k17.body s4 = s5 at *
  rw [g4, g5, out_ok (by omega)] at l4
  have z5 : s5.z = decide (j.dt = .i16) := l6.trans (by
    show decide (sgn (j.dt.id % 2 ^ 8) = sgn 3) = _
    cases j.dt <;> rfl)
  have me2 := h2.mid.mem .mulExp (by decide) (by decide)
  have mf4 : s4.m .mulFix = j.m .mulFix := by
    rw [g2, c2]; exact h2.mid.mem .mulFix (by decide) (by decide)
  have hw32 : ∀ i, wrap32 (j.word .mulExp i) = j.word .mulExp i := fun i => by
    unfold Job.word; exact Simd.wrap32_wrap32 _
  refine ⟨s5, (r2.trans r4).trans (n5 _ ?_), l5,
    h2.next ((c1.sub (by decide)).trans ((g1.sub (by decide)).trans l1)) (l2.trans (g2.trans c2)) ?_ l4 ?_,
    l2.trans (g2.trans (c2.trans b2))⟩
  · rw [z5]
    by_cases hd : j.dt = .i16
    · rw [decide_eq_true hd, if_pos hd]; rfl
    · rw [decide_eq_false hd, if_neg hd]; rfl
  · intro i hi
    rw [l3 i hi, g3, c3 i hi]
  · intro u hu
    have t : getS (s2.v 14) u = wrap32 (accInt j p 0 u 0) := h2.tile u hu
    rw [l7, getS_srshl, getS_sqdmulh, g3, c7, c8, getS_sshl, getS_sub, getS_smin, t, b5, g5, getS_load me2, getS_load mf4,
      getS_ones, lane_apply' _ _ _ (Simd.wrap32_wrap32 _) (hw32 _)]
    show _ = scaledAt j p 0 u 0
    unfold scaledAt
    rw [lane_row ho]

/-- Where the entries of a type are stored. -/
def storeAt : Neon.Dt → Nat | .u8 => 19 | .i8 => 24 | .i16 => 29 | .i32 => 34

/-- From the branch after label 1000 to the code that stores. -/
theorem computed {j : Job} (hf : j.Fits) (ho : Single j) {p : Nat} (hp : p ≤ j.rowSteps)
    {s : St} (h : Work j j.ty p (fun u => wrap32 (acc1 j p 0 u 0)) s) :
    ∃ s', Reach j.env kernel (if j.hasRhsSums then 10 else 11, s) (storeAt j.ty, s') ∧
      Work j j.ty p (fun u => valAt j p 0 u 0) s' ∧ s'.m = s.m := by
  obtain ⟨s1, r1, h1, m1⟩ := rhsSummed hf ho h
  obtain ⟨s2, r2, x2, h2, m2⟩ := lhsSummed hf hp h1
  by_cases ht : j.ty = .i32
  · rw [if_pos ht] at r2
    refine ⟨s2, by rw [ht]; exact r1.trans r2, ?_, m2.trans m1⟩
    refine h2.next (Same.refl _ _) rfl (fun _ _ => rfl) h2.mid.ok ?_
    intro u hu
    show _ = valAt j p 0 u 0
    rw [h2.tile u hu]; unfold valAt; rw [if_pos ht]
  · rw [if_neg ht] at r2
    obtain ⟨s3, r3, x3, h3, m3⟩ := multiplied hf ho hp x2 h2
    have ev : ∀ u w, scaledAt j p 0 u w = valAt j p 0 u w := fun u w => by unfold valAt; rw [if_neg ht]
    have m4 : s3.m = s.m := m3.trans (m2.trans m1)
    by_cases h16 : j.dt = .i16
    · have e : j.ty = .i16 := by unfold Job.ty; rw [h16]; rfl
      rw [if_pos h16] at r3
      refine ⟨s3, by rw [e]; exact (r1.trans r2).trans r3, ?_, m4⟩
      refine h3.next (Same.refl _ _) rfl (fun _ _ => rfl) h3.mid.ok ?_
      intro u hu
      rw [h3.tile u hu]; exact ev u 0
    · rw [if_neg h16] at r3
      obtain ⟨b1, b2, b3, b4, b5⟩ := k18x j.env s3
      have n2 : ∀ l, (bif (exec j.env k18.body s3).z then 24 else 19) = l →
        Reach j.env kernel (18, s3) (l, exec j.env k18.body s3) := fun l hl => Reach.block (b := k18) rfl hl
      generalize exec j.env k18.body s3 = s5 at *
      rw [h3.mid.ok, x3] at b4
      rw [x3] at b5
      have z5 : s5.z = decide (j.dt = .i8) := b5.trans (by
        show decide (sgn (j.dt.id % 2 ^ 8) = sgn 2) = _
        cases j.dt <;> rfl)
      have e : storeAt j.ty = if j.dt = .i8 then 24 else 19 := by
        unfold Job.ty at ht ⊢
        cases hd : j.dt <;> rw [hd] at ht h16 <;> cases hl : j.hasLhsSums <;> rw [hl] at ht <;>
          first | rfl | exact absurd rfl h16 | exact absurd (by simp) ht
      refine ⟨s5, ((r1.trans r2).trans r3).trans
        (n2 _ (by rw [z5, e]; by_cases h8 : j.dt = .i8 <;> simp [h8])), ?_, b2.trans m4⟩
      refine h3.next b1 b2 (fun i _ => by rw [b3]) b4 ?_
      intro u hu
      rw [b3, h3.tile u hu]; exact ev u 0

end Ruy.Arm8.One

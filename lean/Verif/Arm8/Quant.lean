import Verif.Arm8.Aim
/-
The ARM32 8-bit kernel: the terms of the zero points and the multiplier (labels 7, 401, 402, 1003, 8, 9).
-/
namespace Ruy.Arm8
open Ruy.Neon (St Val Region Vec VOp vop eop sgn sgn_of sgn_lt sgn_eq Same addVal out bytes
  getB getU getH getS ofS getS_ofS getS_add getS_sub getS_smin getS_sshl getS_srshl getS_sqdmulh getS_mls getS_mul
  getS_sqdmulhE getS_wrap getS_ones wrap32_sub_l wrap32_sub_r wrap32_mul_r wrap32_sub_mul lane_apply)
open Simd (wrap8 wrap16 wrap32 sshl32 srshl32 sqdmulh32)

/-- The type as which the kernel stores: it looks for int32 only after it has used the sums of the LHS. -/
def Job.ty (j : Job) : Neon.Dt := if j.dt = .i32 ∧ j.hasLhsSums = false then .u8 else j.dt

theorem k15x (e : Env) (s : St) : Same keepNext s (exec e k15.body s) ∧ (exec e k15.body s).m = s.m ∧
    (exec e k15.body s).v = s.v ∧ (exec e k15.body s).bad = (s.bad || (e.field .flags).isPtr || false) ∧
    (exec e k15.body s).z = Nat.beq ((e.field .flags).num % 2 ^ 8 % 2 ^ 32 &&& 4) 0 := by
  cases s; exact ⟨by keep, rfl, rfl, rfl, rfl⟩

theorem k16x (e : Env) (s : St) : Same keepNext s (exec e k16.body s) ∧ (exec e k16.body s).m = s.m ∧
    (∀ i, i < 6 → (exec e k16.body s).v i = s.v i) ∧
    (exec e k16.body s).bad = (s.bad || Nat.blt (s.x 13).num (48 + 4) || !(e.field .rhsSums).isPtr || (s.x 112).isPtr ||
      out e.base (addVal (e.field .rhsSums) ((s.x 112).num * 2 ^ 2 % 2 ^ 32)) 0 8 || (e.field .lhsZeroPoint).isPtr) ∧
    (∀ w, w < 2 → (exec e k16.body s).v (14 + w) = eop .mls w (s.v (14 + w)) (ofS fun _ => (e.field .lhsZeroPoint).num)
      (setLo (s.v 6) (bytes s (addVal (e.field .rhsSums) ((s.x 112).num * 2 ^ 2 % 2 ^ 32)) 0))) := by
  cases s
  exact ⟨by keep, rfl, by intro i hi; interval_cases i <;> rfl, rfl, by intro i hi; interval_cases i <;> rfl⟩

theorem k17x (e : Env) (s : St) : Same keepNext s (exec e k17.body s) ∧ (exec e k17.body s).m = s.m ∧
    (exec e k17.body s).v = s.v ∧ (exec e k17.body s).bad = (s.bad || (e.field .flags).isPtr || false) ∧
    (exec e k17.body s).x 6 = .int ((e.field .flags).num % 2 ^ 8) ∧
    (exec e k17.body s).z = Nat.beq ((e.field .flags).num % 2 ^ 8 % 2 ^ 32 &&& 2) 0 := by
  cases s; exact ⟨by keep, rfl, rfl, rfl, rfl, rfl⟩

theorem k18a (e : Env) (s : St) : Same (6 :: keepNext) s (exec e (k18.body.take 7) s) ∧
    (exec e (k18.body.take 7) s).m = s.m ∧ (∀ i, i < 6 → (exec e (k18.body.take 7) s).v i = s.v i) ∧
    (exec e (k18.body.take 7) s).bad = (s.bad || Nat.blt (s.x 13).num (32 + 4) || !(e.field .lhsSums).isPtr ||
      (s.x 96).isPtr || out e.base (addVal (e.field .lhsSums) ((s.x 96).num * 2 ^ 2 % 2 ^ 32)) 0 16 ||
      (e.field .rhsZeroPoint).isPtr) ∧
    (∀ w, w < 2 → (exec e (k18.body.take 7) s).v (14 + w) = s.v (14 + w)) ∧
    (exec e (k18.body.take 7) s).v 11 =
      eop .mul 1 (bytes s (addVal (e.field .lhsSums) ((s.x 96).num * 2 ^ 2 % 2 ^ 32)) 0)
        (bytes s (addVal (e.field .lhsSums) ((s.x 96).num * 2 ^ 2 % 2 ^ 32)) 0)
        (half 1 (setHi (s.v 6) (ofS fun _ => (e.field .rhsZeroPoint).num))) := by
  cases s
  exact ⟨by keep, rfl, by intro i hi; interval_cases i <;> rfl, rfl, by intro i hi; interval_cases i <;> rfl, rfl⟩

theorem k18b (e : Env) (s : St) : Same (6 :: keepNext) s (exec e (k18.body.drop 7) s) ∧
    (exec e (k18.body.drop 7) s).m = s.m ∧ (∀ i, i < 6 → (exec e (k18.body.drop 7) s).v i = s.v i) ∧
    (exec e (k18.body.drop 7) s).bad = (s.bad || (e.field .dstTypeId).isPtr || false) ∧
    (exec e (k18.body.drop 7) s).z = decide (sgn ((e.field .dstTypeId).num % 2 ^ 8) = sgn 4) ∧
    (∀ w, w < 2 → (exec e (k18.body.drop 7) s).v (14 + w) = vop .sub (s.v (14 + w)) (s.v (14 + w)) (s.v 11)) := by
  cases s
  exact ⟨by keep, rfl, by intro i hi; interval_cases i <;> rfl, rfl, rfl, by intro i hi; interval_cases i <;> rfl⟩

theorem k18x (e : Env) (s : St) : Same (6 :: keepNext) s (exec e k18.body s) ∧ (exec e k18.body s).m = s.m ∧
    (∀ i, i < 6 → (exec e k18.body s).v i = s.v i) ∧
    (exec e k18.body s).bad = (s.bad || Nat.blt (s.x 13).num (32 + 4) || !(e.field .lhsSums).isPtr || (s.x 96).isPtr ||
      out e.base (addVal (e.field .lhsSums) ((s.x 96).num * 2 ^ 2 % 2 ^ 32)) 0 16 || (e.field .rhsZeroPoint).isPtr ||
      (e.field .dstTypeId).isPtr || false) ∧
    (exec e k18.body s).z = decide (sgn ((e.field .dstTypeId).num % 2 ^ 8) = sgn 4) ∧
    (∀ w, w < 2 → (exec e k18.body s).v (14 + w) = vop .sub (s.v (14 + w)) (s.v (14 + w))
      (eop .mul 1 (bytes s (addVal (e.field .lhsSums) ((s.x 96).num * 2 ^ 2 % 2 ^ 32)) 0)
        (bytes s (addVal (e.field .lhsSums) ((s.x 96).num * 2 ^ 2 % 2 ^ 32)) 0)
        (half 1 (setHi (s.v 6) (ofS fun _ => (e.field .rhsZeroPoint).num))))) := by
  have hs : exec e k18.body s = exec e (k18.body.drop 7) (exec e (k18.body.take 7) s) := by
    rw [← exec_append]; rfl
  rw [hs]
  obtain ⟨a1, a2, a3, a4, a5, a6⟩ := k18a e s
  generalize exec e (k18.body.take 7) s = t at *
  obtain ⟨b1, b2, b3, b4, b5, b6⟩ := k18b e t
  generalize exec e (k18.body.drop 7) t = u at *
  refine ⟨a1.trans b1, b2.trans a2, fun i hi => (b3 i hi).trans (a3 i hi), by rw [b4, a4], b5, ?_⟩
  intro w hw
  rw [b6 w hw, a5 w hw, a6]

theorem Work.next {j : Job} {ty : Neon.Dt} {p q : Nat} {f g : Nat → Nat → Int} {s s' : St} (h : Work j ty p q f s)
    (hs : Same keepNext s s') (hm : s'.m = s.m) (hv : ∀ i, i < 6 → s'.v i = s.v i) (ok : s'.bad = false)
    (ht : Tile g s') : Work j ty p q g s' :=
  ⟨h.mid.next (hs.sub (by decide)) hm ok, h.nxt.next (hs.sub (by decide)) hv, (hs.get (by decide)).trans h.x8, ht⟩

/-- The accumulator with the terms for the zero points, as an integer. -/
def rsumAt (j : Job) (q w : Nat) : Int := if j.hasRhsSums then j.word .rhsSums (j.startCol + 2 * q + w) else 0
def lsumAt (j : Job) (p u : Nat) : Int := if j.hasLhsSums then j.word .lhsSums (j.startRow + 4 * p + u) else 0
def acc2 (j : Job) (p q u w : Nat) : Int := acc1 j p q u w - j.lhsZp * rsumAt j q w
def accInt (j : Job) (p q u w : Nat) : Int := acc2 j p q u w - j.rhsZp * lsumAt j p u

theorem rhsSummed {j : Job} (hf : j.Fits) {ty : Neon.Dt} {p q : Nat} (hq : q ≤ j.colSteps)
    {s : St} (h : Work j ty p q (fun u w => wrap32 (acc1 j p q u w)) s) :
    ∃ s', Reach j.env kernel (15, s) (17, s') ∧ Work j ty p q (fun u w => wrap32 (acc2 j p q u w)) s' ∧ s'.m = s.m := by
  obtain ⟨a1, a2, a3, a4, a5⟩ := k15x j.env s
  have n1 : ∀ l, (bif (exec j.env k15.body s).z then 17 else 16) = l →
      Reach j.env kernel (15, s) (l, exec j.env k15.body s) := fun l hl => Reach.block (b := k15) rfl hl
  generalize exec j.env k15.body s = s1 at *
  rw [h.mid.ok] at a4
  have z1 : s1.z = !j.hasRhsSums := a5.trans (flag_rhs j)
  have h1 : Work j ty p q (fun u w => wrap32 (acc1 j p q u w)) s1 :=
    h.next a1 a2 (fun i _ => by rw [a3]) a4 (by intro u hu w hw; rw [a3]; exact h.tile u hu w hw)
  cases hc : j.hasRhsSums
  · refine ⟨s1, n1 17 (by rw [z1, hc]; rfl), h1.next (Same.refl _ _) rfl (fun _ _ => rfl) a4 ?_, a2⟩
    intro u hu w hw
    rw [h1.tile u hu w hw]
    unfold acc2 rsumAt
    rw [hc]
    simp
  · obtain ⟨b1, b2, b3, b4, b5⟩ := k16x j.env s1
    have n2 : Reach j.env kernel (16, s1) (17, exec j.env k16.body s1) := Reach.block (b := k16) rfl rfl
    generalize exec j.env k16.body s1 = s2 at *
    have fr := hf.rsums hc
    have mr := hf.memory .rhsSums
    have hl : j.lastCol = j.startCol + 2 * j.colSteps := rfl
    have pe : addVal (j.env.field .rhsSums) ((s1.x 112).num * 2 ^ 2 % 2 ^ 32) =
        .ptr .rhsSums (4 * (j.startCol + 2 * q)) := by
      rw [h1.mid.col]
      show Val.ptr .rhsSums (0 + (j.startCol + 2 * q) * 2 ^ 2 % 2 ^ 32) = _
      rw [Nat.mod_eq_of_lt (by omega)]; exact congrArg _ (by omega)
    rw [pe, h1.mid.ok, h1.mid.sp, h1.mid.col, out_ok (by omega)] at b4
    rw [pe] at b5
    have ms := h1.mid.mem .rhsSums (by decide) (by decide)
    refine ⟨s2, (n1 16 (by rw [z1, hc]; rfl)).trans n2, h1.next b1 b2 b3 b4 ?_, b2.trans a2⟩
    intro u hu w hw
    have t : getS (s1.v (14 + w)) u = wrap32 (acc1 j p q u w) := h1.tile u hu w hw
    show _ = wrap32 (acc2 j p q u w)
    rw [b5 w hw, getS_mls, t, getS_setLo_lo _ _ hw, getS_load ms, getS_ofS]
    unfold acc2 rsumAt
    have hz : (j.env.field .lhsZeroPoint).num = Job.u32 j.lhsZp := rfl
    rw [if_pos hc, hz, wrap32_u32, wrap32_sub_mul]

theorem type_id (j : Job) : decide (sgn (j.dt.id % 2 ^ 8) = sgn 4) = decide (j.dt = .i32) := by
  cases j.dt <;> rfl

theorem lhsSummed {j : Job} (hf : j.Fits) {p q : Nat} (hp : p ≤ j.rowSteps)
    {s : St} (h : Work j j.ty p q (fun u w => wrap32 (acc2 j p q u w)) s) :
    ∃ s', Reach j.env kernel (17, s) (if j.ty = .i32 then 47 else 19, s') ∧ s'.x 6 = .int (j.flags % 2 ^ 8) ∧
      Work j j.ty p q (fun u w => wrap32 (accInt j p q u w)) s' ∧ s'.m = s.m := by
  obtain ⟨a1, a2, a3, a4, a6, a5⟩ := k17x j.env s
  have n1 : ∀ l, (bif (exec j.env k17.body s).z then 19 else 18) = l →
      Reach j.env kernel (17, s) (l, exec j.env k17.body s) := fun l hl => Reach.block (b := k17) rfl hl
  generalize exec j.env k17.body s = s1 at *
  rw [h.mid.ok] at a4
  have z1 : s1.z = !j.hasLhsSums := a5.trans (flag_lhs j)
  have h1 : Work j j.ty p q (fun u w => wrap32 (acc2 j p q u w)) s1 :=
    h.next a1 a2 (fun i _ => by rw [a3]) a4 (by intro u hu w hw; rw [a3]; exact h.tile u hu w hw)
  cases hc : j.hasLhsSums
  · have ht : j.ty ≠ .i32 := by
      unfold Job.ty; rw [hc]
      cases j.dt <;> simp
    rw [if_neg ht]
    refine ⟨s1, n1 19 (by rw [z1, hc]; rfl), a6, h1.next (Same.refl _ _) rfl (fun _ _ => rfl) a4 ?_, a2⟩
    intro u hu w hw
    rw [h1.tile u hu w hw]
    unfold accInt lsumAt
    rw [hc]
    simp
  · have ht : j.ty = j.dt := by unfold Job.ty; rw [hc]; simp
    obtain ⟨b1, b2, b3, b4, b6, b5⟩ := k18x j.env s1
    have n2 : ∀ l, (bif (exec j.env k18.body s1).z then 47 else 19) = l →
      Reach j.env kernel (18, s1) (l, exec j.env k18.body s1) := fun l hl => Reach.block (b := k18) rfl hl
    generalize exec j.env k18.body s1 = s2 at *
    have fr := hf.lsums hc
    have mr := hf.memory .lhsSums
    have hl : j.lastRow = j.startRow + 4 * j.rowSteps := rfl
    have pe : addVal (j.env.field .lhsSums) ((s1.x 96).num * 2 ^ 2 % 2 ^ 32) =
        .ptr .lhsSums (4 * (j.startRow + 4 * p)) := by
      rw [h1.mid.row]
      show Val.ptr .lhsSums (0 + (j.startRow + 4 * p) * 2 ^ 2 % 2 ^ 32) = _
      rw [Nat.mod_eq_of_lt (by omega)]; exact congrArg _ (by omega)
    rw [pe, h1.mid.ok, h1.mid.sp, h1.mid.row, out_ok (by omega)] at b4
    rw [pe] at b5
    have ms := h1.mid.mem .lhsSums (by decide) (by decide)
    have z2 : s2.z = decide (j.dt = .i32) := b6.trans (type_id j)
    refine ⟨s2, (n1 18 (by rw [z1, hc]; rfl)).trans (n2 _ ?_), (b1.get (by decide)).trans a6,
      h1.next (b1.sub (by decide)) b2 b3 b4 ?_, b2.trans a2⟩
    · rw [z2, ht]
      by_cases hd : j.dt = .i32
      · rw [decide_eq_true hd, if_pos hd]; rfl
      · rw [decide_eq_false hd, if_neg hd]; rfl
    intro u hu w hw
    have t : getS (s1.v (14 + w)) u = wrap32 (acc2 j p q u w) := h1.tile u hu w hw
    show _ = wrap32 (accInt j p q u w)
    rw [b5 w hw, getS_sub, getS_mul, t, getS_half_hi _ (by decide), getS_setHi_hi _ _ (by decide), getS_load ms, getS_ofS]
    unfold accInt lsumAt
    have hz : (j.env.field .rhsZeroPoint).num = Job.u32 j.rhsZp := rfl
    rw [if_pos hc, hz, wrap32_u32, wrap32_mul_r, wrap32_sub_r, wrap32_sub_l, Int.mul_comm (j.word .lhsSums _)]

/-! ### The multiplier -/

theorem k19x (e : Env) (s : St) : Same (6 :: keepNext) s (exec e k19.body s) ∧ (exec e k19.body s).m = s.m ∧
    (exec e k19.body s).v = s.v ∧ (exec e k19.body s).bad = (s.bad || (s.x 6).isPtr) ∧
    (exec e k19.body s).x 1 = e.field .mulExp ∧ (exec e k19.body s).x 2 = e.field .mulFix ∧
    (exec e k19.body s).z = Nat.beq ((s.x 6).num % 2 ^ 32 &&& 8) 0 := by
  cases s; exact ⟨by keep, rfl, rfl, rfl, rfl, rfl, rfl⟩

theorem k20x (e : Env) (s : St) : Same (6 :: keepNext) s (exec e k20.body s) ∧ (exec e k20.body s).m = s.m ∧
    (exec e k20.body s).v = s.v ∧
    (exec e k20.body s).bad = (s.bad || !(s.x 1).isPtr || (s.x 8).isPtr || !(s.x 2).isPtr || (s.x 8).isPtr) ∧
    (exec e k20.body s).x 1 = addVal (s.x 1) ((s.x 8).num * 2 ^ 2 % 2 ^ 32) ∧
    (exec e k20.body s).x 2 = addVal (s.x 2) ((s.x 8).num * 2 ^ 2 % 2 ^ 32) := by
  cases s; exact ⟨by keep, rfl, rfl, rfl, rfl, rfl⟩

theorem k21x (e : Env) (s : St) : Same (6 :: keepNext) s (exec e k21.body s) ∧ (exec e k21.body s).m = s.m ∧
    (∀ i, i < 6 → (exec e k21.body s).v i = s.v i) ∧
    (∀ i, i < 2 → (exec e k21.body s).v (14 + i) = s.v (14 + i)) ∧
    (exec e k21.body s).bad = (s.bad || out e.base (s.x 1) 0 8 || out e.base (s.x 2) 0 8 || (s.x 6).isPtr) ∧
    (exec e k21.body s).x 1 = addVal (s.x 1) 8 ∧ (exec e k21.body s).x 2 = addVal (s.x 2) 8 ∧
    (exec e k21.body s).z = Nat.beq ((s.x 6).num % 2 ^ 32 &&& 32) 0 ∧
    (exec e k21.body s).v 8 = (fun _ => 255) ∧
    (exec e k21.body s).v 10 = setLo (s.v 10) (bytes s (s.x 1) 0) ∧
    (exec e k21.body s).v 6 = setLo (s.v 6) (bytes s (s.x 2) 0) := by
  cases s
  exact ⟨by keep, rfl, by intro i hi; interval_cases i <;> rfl, by intro i hi; interval_cases i <;> rfl, rfl, rfl, rfl,
    rfl, rfl, rfl, rfl⟩

/-- The shifts of two or four channels. -/
def minV (o : Vec) (s : St) : Vec := vop .smin (s.v 11) (setHi (s.v 10) o) (s.v 8)

theorem k22x (e : Env) (s : St) : Same keepNext s (exec e k22.body s) ∧ (exec e k22.body s).m = s.m ∧
    (∀ i, i < 6 → (exec e k22.body s).v i = s.v i) ∧
    (exec e k22.body s).bad = (s.bad || out e.base (s.x 1) 0 8 || out e.base (s.x 2) 0 8) ∧
    (∀ w, w < 2 → (exec e k22.body s).v (14 + w) =
      vop .srshl (s.v 0) (vop .sqdmulh (s.v 0) (vop .sshl (s.v 0) (s.v (14 + w))
        (vop .sub (s.v 0) (setHi (s.v 10) (bytes s (s.x 1) 0))
          (vop .smin (s.v 0) (setHi (s.v 10) (bytes s (s.x 1) 0)) (s.v 8))))
        (setHi (s.v 6) (bytes s (s.x 2) 0))) (vop .smin (s.v 0) (setHi (s.v 10) (bytes s (s.x 1) 0)) (s.v 8))) := by
  cases s with | mk x v m z lt bad =>
  refine ⟨?_, rfl, by intro i hi; interval_cases i <;> rfl, rfl, by intro i hi; interval_cases i <;> rfl⟩
  keep

theorem k23x (e : Env) (s : St) : Same keepNext s (exec e k23.body s) ∧ (exec e k23.body s).m = s.m ∧
    (∀ i, i < 6 → (exec e k23.body s).v i = s.v i) ∧ (exec e k23.body s).bad = s.bad ∧
    (∀ w, w < 2 → (exec e k23.body s).v (14 + w) =
      vop .srshl (s.v 0) (eop .sqdmulh w (s.v 0) (vop .sshl (s.v 0) (s.v (14 + w))
        (ofS fun _ => getS (setLo (s.v 10) (vop .sub (s.v 0) (s.v 10)
          (setLo (s.v 11) (vop .smin (s.v 0) (s.v 10) (s.v 8))))) w)) (s.v 6))
        (ofS fun _ => getS (setLo (s.v 11) (vop .smin (s.v 0) (s.v 10) (s.v 8))) w)) := by
  cases s with | mk x v m z lt bad =>
  refine ⟨?_, rfl, by intro i hi; interval_cases i <;> rfl, rfl, by intro i hi; interval_cases i <;> rfl⟩
  keep

theorem k24x (e : Env) (s : St) : Same keepNext s (exec e k24.body s) ∧ (exec e k24.body s).m = s.m ∧
    (exec e k24.body s).v = s.v ∧ (exec e k24.body s).bad = (s.bad || (e.field .dstTypeId).isPtr || false) ∧
    (exec e k24.body s).x 10 = .int ((e.field .dstTypeId).num % 2 ^ 8) ∧
    (exec e k24.body s).z = decide (sgn ((e.field .dstTypeId).num % 2 ^ 8) = sgn 3) := by
  cases s; exact ⟨by keep, rfl, rfl, rfl, rfl, rfl⟩

theorem k25x (e : Env) (s : St) : Same keepNext s (exec e k25.body s) ∧ (exec e k25.body s).m = s.m ∧
    (exec e k25.body s).v = s.v ∧ (exec e k25.body s).bad = (s.bad || (s.x 10).isPtr) ∧
    (exec e k25.body s).z = decide (sgn (s.x 10).num = sgn 2) := by
  cases s; exact ⟨by keep, rfl, rfl, rfl, rfl⟩

/-- The result before the addition of the zero point. -/
def scaledAt (j : Job) (p q u w : Nat) : Int :=
  Simd.Neon.apply (wrap32 (accInt j p q u w)) (j.word .mulFix (multBase j p q + lane j u w))
    (j.word .mulExp (multBase j p q + lane j u w))

theorem mult_bound {j : Job} (hf : j.Fits) {p q : Nat} (hp : p ≤ j.rowSteps) (hq : q ≤ j.colSteps) :
    (4 * multBase j p q + 8 ≤ j.size .mulFix ∧ (j.chanCol = false → 4 * multBase j p q + 16 ≤ j.size .mulFix)) ∧
    (4 * multBase j p q + 8 ≤ j.size .mulExp ∧ (j.chanCol = false → 4 * multBase j p q + 16 ≤ j.size .mulExp)) := by
  have h := hf.mfix
  have h' := hf.mexp
  unfold Job.channels Job.lastRow Job.lastCol at h h'
  unfold multBase chan
  cases hb : j.perChannel <;> cases hc : j.chanCol <;> rw [hb] at h h' <;> rw [hc] at h h' <;>
    simp only [Bool.false_eq_true, if_false, if_true] at h h' ⊢ <;> refine ⟨⟨?_, ?_⟩, ?_, ?_⟩ <;>
    first | omega | (intro hh; first | omega | cases hh)

theorem lane_apply' (x e m : Int) (hx : wrap32 x = x) (he : wrap32 e = e) :
    wrap32 (srshl32 (wrap32 (sqdmulh32 (wrap32 (sshl32 x (wrap32 (e - wrap32 (min e (-1)))))) m))
      (wrap32 (min e (-1)))) = Simd.Neon.apply x m e := by
  rw [min_comm e]; exact lane_apply x e m hx he

/-- From label 402 to label 9. -/
theorem multiplied {j : Job} (hf : j.Fits) {ty : Neon.Dt} {p q : Nat} (hp : p ≤ j.rowSteps) (hq : q ≤ j.colSteps)
    {s : St} (h6 : s.x 6 = .int (j.flags % 2 ^ 8)) (h : Work j ty p q (fun u w => wrap32 (accInt j p q u w)) s) :
    ∃ s', Reach j.env kernel (19, s) (24, s') ∧ Work j ty p q (scaledAt j p q) s' ∧ s'.m = s.m := by
  obtain ⟨⟨f8, f16⟩, e8, e16⟩ := mult_bound hf hp hq
  have mf := hf.memory .mulFix
  have me := hf.memory .mulExp
  obtain ⟨a1, a2, a3, a4, a5, a6, a7⟩ := k19x j.env s
  have n1 : ∀ l, (bif (exec j.env k19.body s).z then 21 else 20) = l →
      Reach j.env kernel (19, s) (l, exec j.env k19.body s) := fun l hl => Reach.block (b := k19) rfl hl
  generalize exec j.env k19.body s = s1 at *
  rw [h6, h.mid.ok] at a4
  have a4' : s1.bad = false := a4
  rw [h6] at a7
  have z1 : s1.z = !j.perChannel := a7.trans (flag_per j)
  have x8 : s1.x 8 = .int (chan j p q) := (a1.get (by decide)).trans h.x8
  have c1 : ∃ s2, Reach j.env kernel (19, s) (21, s2) ∧ Same (6 :: keepNext) s s2 ∧ s2.m = s.m ∧ s2.v = s.v ∧
      s2.bad = false ∧ s2.x 1 = .ptr .mulExp (4 * multBase j p q) ∧ s2.x 2 = .ptr .mulFix (4 * multBase j p q) := by
    cases hb : j.perChannel
    · have e0 : multBase j p q = 0 := by unfold multBase; rw [hb]; rfl
      exact ⟨s1, n1 21 (by rw [z1, hb]; rfl), a1, a2, a3, a4', by rw [a5, e0]; rfl, by rw [a6, e0]; rfl⟩
    · have e0 : multBase j p q = chan j p q := by unfold multBase; rw [hb]; rfl
      obtain ⟨b1, b2, b3, b4, b5, b6⟩ := k20x j.env s1
      have n2 : Reach j.env kernel (20, s1) (21, exec j.env k20.body s1) := Reach.block (b := k20) rfl rfl
      generalize exec j.env k20.body s1 = s2 at *
      rw [a4', a5, a6, x8] at b4
      rw [a5, x8] at b5
      rw [a6, x8] at b6
      rw [e0] at f8 e8 ⊢
      refine ⟨s2, (n1 20 (by rw [z1, hb]; rfl)).trans n2, a1.trans b1, b2.trans a2, b3.trans a3, b4, ?_, ?_⟩
      · rw [b5]
        show Val.ptr .mulExp (0 + chan j p q * 2 ^ 2 % 2 ^ 32) = _
        rw [Nat.mod_eq_of_lt (by omega)]; exact congrArg _ (by omega)
      · rw [b6]
        show Val.ptr .mulFix (0 + chan j p q * 2 ^ 2 % 2 ^ 32) = _
        rw [Nat.mod_eq_of_lt (by omega)]; exact congrArg _ (by omega)
  obtain ⟨s2, r2, b1, b2, b3, b4, b5, b6⟩ := c1
  have h2 : Work j ty p q (fun u w => wrap32 (accInt j p q u w)) s2 :=
    h.next (b1.sub (by decide)) b2 (fun i _ => by rw [b3]) b4 (by intro u hu w hw; rw [b3]; exact h.tile u hu w hw)
  have x6 : s2.x 6 = .int (j.flags % 2 ^ 8) := (b1.get (by decide)).trans h6
  obtain ⟨c1, c2, c3, c4, c5, c6, c7, c8, c9, c10, c11⟩ := k21x j.env s2
  have n3 : ∀ l, (bif !(exec j.env k21.body s2).z then 23 else 22) = l →
      Reach j.env kernel (21, s2) (l, exec j.env k21.body s2) := fun l hl => Reach.block (b := k21) rfl hl
  generalize exec j.env k21.body s2 = s3 at *
  rw [b4, b5, b6, x6, out_ok (by omega), out_ok (by omega)] at c5
  have c5' : s3.bad = false := c5
  rw [x6] at c8
  have z3 : s3.z = !j.chanCol := c8.trans (flag_col j)
  have h3 : Work j ty p q (fun u w => wrap32 (accInt j p q u w)) s3 :=
    h2.next (c1.sub (by decide)) c2 c3 c5' (by intro u hu w hw; rw [c4 w hw]; exact h2.tile u hu w hw)
  have me2 := h2.mid.mem .mulExp (by decide) (by decide)
  have mf2 := h2.mid.mem .mulFix (by decide) (by decide)
  have me3 := h3.mid.mem .mulExp (by decide) (by decide)
  have mf3 := h3.mid.mem .mulFix (by decide) (by decide)
  have y1 : s3.x 1 = .ptr .mulExp (4 * (multBase j p q + 2)) := by
    rw [c6, b5]; show Val.ptr .mulExp (4 * multBase j p q + 8) = _; exact congrArg _ (by omega)
  have y2 : s3.x 2 = .ptr .mulFix (4 * (multBase j p q + 2)) := by
    rw [c7, b6]; show Val.ptr .mulFix (4 * multBase j p q + 8) = _; exact congrArg _ (by omega)
  have v10 : ∀ i, i < 2 → getS (s3.v 10) i = j.word .mulExp (multBase j p q + i) := by
    intro i hi; rw [c10, getS_setLo_lo _ _ hi, b5, getS_load me2]
  have v6 : ∀ i, i < 2 → getS (s3.v 6) i = j.word .mulFix (multBase j p q + i) := by
    intro i hi; rw [c11, getS_setLo_lo _ _ hi, b6, getS_load mf2]
  have v8 : ∀ i, getS (s3.v 8) i = -1 := by intro i; rw [c9, getS_ones]
  have hw32 : ∀ i, wrap32 (j.word .mulExp i) = j.word .mulExp i := fun i => by
    unfold Job.word; exact Simd.wrap32_wrap32 _
  cases hc : j.chanCol
  · obtain ⟨d1, d2, d3, d4, d5⟩ := k22x j.env s3
    have n4 : Reach j.env kernel (22, s3) (24, exec j.env k22.body s3) := Reach.block (b := k22) rfl rfl
    generalize exec j.env k22.body s3 = s4 at *
    have e16' := e16 hc
    have f16' := f16 hc
    rw [c5', y1, y2, out_ok (by omega), out_ok (by omega)] at d4
    refine ⟨s4, (r2.trans (n3 22 (by rw [z3, hc]; rfl))).trans n4, h3.next d1 d2 d3 d4 ?_, d2.trans (c2.trans b2)⟩
    intro u hu w hw
    have t : getS (s3.v (14 + w)) u = wrap32 (accInt j p q u w) := h3.tile u hu w hw
    have le : getS (setHi (s3.v 10) (bytes s3 (s3.x 1) 0)) u = j.word .mulExp (multBase j p q + u) := by
      rcases Nat.lt_or_ge u 2 with hu2 | hu2
      · rw [getS_setHi_lo _ _ hu2, v10 u hu2]
      · obtain ⟨i, rfl⟩ := Nat.exists_eq_add_of_le hu2
        rw [getS_setHi_hi _ _ (by omega), y1, getS_load me3, Nat.add_assoc]
    have lf : getS (setHi (s3.v 6) (bytes s3 (s3.x 2) 0)) u = j.word .mulFix (multBase j p q + u) := by
      rcases Nat.lt_or_ge u 2 with hu2 | hu2
      · rw [getS_setHi_lo _ _ hu2, v6 u hu2]
      · obtain ⟨i, rfl⟩ := Nat.exists_eq_add_of_le hu2
        rw [getS_setHi_hi _ _ (by omega), y2, getS_load mf3, Nat.add_assoc]
    rw [d5 w hw, getS_srshl, getS_sqdmulh, getS_sshl, getS_sub, getS_smin, t, le, lf, v8,
      lane_apply' _ _ _ (Simd.wrap32_wrap32 _) (hw32 _)]
    unfold scaledAt lane
    simp only [hc, Bool.false_eq_true, if_false]
  · obtain ⟨d1, d2, d3, d4, d5⟩ := k23x j.env s3
    have n4 : Reach j.env kernel (23, s3) (24, exec j.env k23.body s3) := Reach.block (b := k23) rfl rfl
    generalize exec j.env k23.body s3 = s4 at *
    refine ⟨s4, (r2.trans (n3 23 (by rw [z3, hc]; rfl))).trans n4, h3.next d1 d2 d3 (d4.trans c5') ?_,
      d2.trans (c2.trans b2)⟩
    intro u hu w hw
    have t : getS (s3.v (14 + w)) u = wrap32 (accInt j p q u w) := h3.tile u hu w hw
    rw [d5 w hw, getS_srshl, getS_sqdmulhE, getS_sshl, t, getS_ofS, getS_ofS, getS_wrap, getS_wrap,
      getS_setLo_lo _ _ hw, getS_setLo_lo _ _ hw, getS_sub, getS_setLo_lo _ _ hw, getS_smin, v8, v10 w hw, v6 w hw,
      lane_apply' _ _ _ (Simd.wrap32_wrap32 _) (hw32 _)]
    unfold scaledAt lane
    simp only [hc, if_true]

/-- Where the entries of a type are stored, and what they are before the narrowing. -/
def storeAt : Neon.Dt → Nat | .u8 => 26 | .i8 => 33 | .i16 => 40 | .i32 => 47
def valAt (j : Job) (p q u w : Nat) : Int :=
  if j.ty = .i32 then wrap32 (accInt j p q u w) else scaledAt j p q u w

/-- From label 7 to the code that stores. -/
theorem computed {j : Job} (hf : j.Fits) {p q : Nat} (hp : p ≤ j.rowSteps) (hq : q ≤ j.colSteps)
    {s : St} (h : Work j j.ty p q (fun u w => wrap32 (acc1 j p q u w)) s) :
    ∃ s', Reach j.env kernel (15, s) (storeAt j.ty, s') ∧ Work j j.ty p q (valAt j p q) s' ∧ s'.m = s.m := by
  obtain ⟨s1, r1, h1, m1⟩ := rhsSummed hf hq h
  obtain ⟨s2, r2, x2, h2, m2⟩ := lhsSummed hf hp h1
  by_cases ht : j.ty = .i32
  · rw [if_pos ht] at r2
    refine ⟨s2, by rw [ht]; exact r1.trans r2, ?_, m2.trans m1⟩
    refine h2.next (Same.refl _ _) rfl (fun _ _ => rfl) h2.mid.ok ?_
    intro u hu w hw
    rw [h2.tile u hu w hw]; unfold valAt; rw [if_pos ht]
  · rw [if_neg ht] at r2
    obtain ⟨s3, r3, h3, m3⟩ := multiplied hf hp hq x2 h2
    obtain ⟨a1, a2, a3, a4, a5, a6⟩ := k24x j.env s3
    have n1 : ∀ l, (bif (exec j.env k24.body s3).z then 40 else 25) = l →
      Reach j.env kernel (24, s3) (l, exec j.env k24.body s3) := fun l hl => Reach.block (b := k24) rfl hl
    generalize exec j.env k24.body s3 = s4 at *
    rw [h3.mid.ok] at a4
    have a4' : s4.bad = false := a4
    have z4 : s4.z = decide (j.dt = .i16) := a6.trans (by
      show decide (sgn (j.dt.id % 2 ^ 8) = sgn 3) = _
      cases j.dt <;> rfl)
    have h4 : Work j j.ty p q (scaledAt j p q) s4 :=
      h3.next a1 a2 (fun i _ => by rw [a3]) a4 (by intro u hu w hw; rw [a3]; exact h3.tile u hu w hw)
    have ev : ∀ u w, scaledAt j p q u w = valAt j p q u w := fun u w => by unfold valAt; rw [if_neg ht]
    have m4 : s4.m = s.m := a2.trans (m3.trans (m2.trans m1))
    by_cases h16 : j.dt = .i16
    · have e : j.ty = .i16 := by unfold Job.ty; rw [h16]; rfl
      refine ⟨s4, by rw [e]; exact ((r1.trans r2).trans r3).trans (n1 40 (by rw [z4, decide_eq_true h16]; rfl)), ?_, m4⟩
      refine h4.next (Same.refl _ _) rfl (fun _ _ => rfl) a4' ?_
      intro u hu w hw
      rw [h4.tile u hu w hw, ev]
    · obtain ⟨b1, b2, b3, b4, b5⟩ := k25x j.env s4
      have n2 : ∀ l, (bif (exec j.env k25.body s4).z then 33 else 26) = l →
        Reach j.env kernel (25, s4) (l, exec j.env k25.body s4) := fun l hl => Reach.block (b := k25) rfl hl
      generalize exec j.env k25.body s4 = s5 at *
      rw [a4', a5] at b4
      rw [a5] at b5
      have z5 : s5.z = decide (j.dt = .i8) := b5.trans (by
        show decide (sgn (j.dt.id % 2 ^ 8) = sgn 2) = _
        cases j.dt <;> rfl)
      have e : storeAt j.ty = if j.dt = .i8 then 33 else 26 := by
        unfold Job.ty at ht ⊢
        cases hd : j.dt <;> rw [hd] at ht h16 <;> cases hl : j.hasLhsSums <;> rw [hl] at ht <;>
          first | rfl | exact absurd rfl h16 | exact absurd (by simp) ht
      refine ⟨s5, (((r1.trans r2).trans r3).trans (n1 25 (by rw [z4, decide_eq_false h16]; rfl))).trans
        (n2 _ (by rw [z5, e]; by_cases h8 : j.dt = .i8 <;> simp [h8])), ?_, b2.trans m4⟩
      refine h4.next b1 b2 (fun i _ => by rw [b3]) b4 ?_
      intro u hu w hw
      rw [b3, h4.tile u hu w hw, ev]

end Ruy.Arm8

import Verif.Neon.DotColDepth
import Verif.Neon.DotQuant
import Verif.Neon.ColQuant
/-
`Kernel8bitNeonDotprod1Col` from the loads for the next block to the scaled results (labels 5, 401, 402, 403).
-/
namespace Ruy.Neon.Dot
open Simd (wrap8 wrap16 wrap32 satS32 sshl32 srshl32 sqdmulh32)

theorem chan_row {j : Job} (h : OneCol j) (p : Nat) : chan j p 0 = j.startRow + 8 * p := by
  unfold chan; rw [h.chan]; rfl

theorem rowBias_eq {j : Job} (h1 : OneCol j) {p : Nat} {s : St} (h : Mid j p 0 s) :
    rowPtr (j.flags % 2 ^ 8) s .bias 1 = .ptr .bias (4 * biasBase j p 0) := by
  unfold rowPtr biasBase
  rw [chan_row h1, flag_bias, h.row]
  cases j.hasBias
  · rfl
  · simp only [Bool.not_true, cond_false, if_true, addVal, Val.num]
    exact congrArg _ (by omega)

theorem rowMult_eq {j : Job} (h1 : OneCol j) {p : Nat} {s : St} (h : Mid j p 0 s) (r : Region) :
    rowPtr (j.flags % 2 ^ 8) s r 8 = .ptr r (4 * multBase j p 0) := by
  unfold rowPtr multBase
  rw [chan_row h1, flag_per, h.row]
  cases j.perChannel
  · rfl
  · simp only [Bool.not_true, cond_false, if_true, addVal, Val.num]
    exact congrArg _ (by omega)

theorem c7 (j : Job) (s : St) : Same midRegs s (exec (env j) doto7.body s) ∧
    (exec (env j) doto7.body s).m = s.m ∧
    (exec (env j) doto7.body s).bad = (s.bad || false || false || false || false || false || (s.x rRow).isPtr || false ||
      (s.x rRow).isPtr || false ||
      out (env j) (addN (rowPtr (j.flags % 2 ^ 8) s .bias 1) 0) 0 16 ||
      out (env j) (addN (rowPtr (j.flags % 2 ^ 8) s .bias 1) 1) 0 16 ||
      out (env j) (addN (s.x lhsColPtr) 0) 0 16 || out (env j) (addN (s.x lhsColPtr) 1) 0 16 ||
      out (env j) (s.x rhsColPtr) 0 8 || false) ∧
    (exec (env j) doto7.body s).x 6 = .int (j.flags % 2 ^ 8) ∧
    (exec (env j) doto7.body s).z = Nat.beq (j.flags % 2 ^ 8 % 2 ^ 32 &&& 4) 0 ∧
    (exec (env j) doto7.body s).v 8 = (fun _ => 255) ∧
    (exec (env j) doto7.body s).v 13 =
      (ofH fun i => if i = 4 then (Job.u32 j.dstZp % 2 ^ 32 : Nat) else getH (s.v 13) i) ∧
    (∀ h, h < 2 → (exec (env j) doto7.body s).v (16 + h) = vop .add (s.v (16 + h)) (s.v (16 + h))
      (vop .add (bytes s (addN (rowPtr (j.flags % 2 ^ 8) s .bias 1) h) 0)
        (bytes s (addN (rowPtr (j.flags % 2 ^ 8) s .bias 1) h) 0) (ofS fun _ => (Job.u32 j.prodZp % 2 ^ 32 : Nat)))) ∧
    (exec (env j) doto7.body s).x 4 = rowPtr (j.flags % 2 ^ 8) s .mulFix 8 ∧
    (exec (env j) doto7.body s).x lhsPtr = addN (s.x lhsColPtr) 2 ∧
    (exec (env j) doto7.body s).x rhsPtr = addVal (addVal (s.x rhsColPtr) 0) 32 ∧
    (∀ i, i < 2 → (exec (env j) doto7.body s).v i = bytes s (addN (s.x lhsColPtr) i) 0) ∧
    (exec (env j) doto7.body s).v 2 = lower (bytes s (s.x rhsColPtr) 0) ∧
    Same [32, 33] s (exec (env j) doto7.body s) := by
  cases s
  refine ⟨by keep, rfl, rfl, rfl, rfl, rfl, rfl, ?_, rfl, rfl, rfl, ?_, rfl, by keep⟩
  all_goals
    intro i hi
    interval_cases i <;> rfl

/-- From label 401 on. -/
structure Work1 (j : Job) (p : Nat) (f : Nat → Int) (s : St) : Prop where
  mid : Mid j p 0 s
  x6 : s.x 6 = .int (j.flags % 2 ^ 8)
  x4 : s.x 4 = .ptr .mulFix (4 * multBase j p 0)
  ones : s.v 8 = fun _ => 255
  zp : getH (s.v 13) 4 = wrap16 j.dstZp
  lc : s.x lhsColPtr = .ptr .lhs (lhsBlk j (nextP j p))
  rc : s.x rhsColPtr = .ptr .rhs (rhsBlk j 0)
  lp : s.x lhsPtr = .ptr .lhs (lhsBlk j (nextP j p) + 32)
  rp : s.x rhsPtr = .ptr .rhs (rhsBlk j 0 + 32)
  data : Loaded1 j (lhsBlk j (nextP j p)) (rhsBlk j 0) s
  tile : Tile1 f s

theorem biased1 {j : Job} (hf : Fits j) (h1c : OneCol j) {p : Nat} (hp : p ≤ j.rowSteps)
    {s : St} (h : Summed1 j p s) :
    ∃ s', Reach (env j) dotoCode (7, s) (8, s') ∧
      Work1 j p (fun u => wrap32 (acc1 j p 0 u 0)) s' ∧ s'.m = s.m := by
  obtain ⟨k, mm, bad, x6, z, v8, v13, v16, x4, lp, rp, vl, vr, kk⟩ := c7 j s
  have nx : ∀ l, (bif (exec (env j) doto7.body s).z then 9 else 8) = l →
      Reach (env j) dotoCode (7, s) (l, exec (env j) doto7.body s) := fun l hl =>
    Reach.block (b := doto7) rfl hl
  generalize exec (env j) doto7.body s = s1 at *
  have hq : 0 ≤ j.colSteps := Nat.zero_le _
  have hp' : nextP j p ≤ j.rowSteps := by unfold nextP; split_ifs <;> omega
  have hr := readable hf hp' hq h.mid.mem
  have h1 := hr.sl
  have h2 := hr.sr
  have h3 := bias_fits hf hp hq
  rw [rowBias_eq h1c h.mid, h.lc, h.rc] at bad
  simp only [addN_ptr] at bad
  have ok : s1.bad = false := by
    rw [bad, h.mid.ok, h.mid.row, out_ptr (by show _ ≤ j.size .bias; omega), out_ptr (by show _ ≤ j.size .bias; omega),
      out_ptr (by show _ ≤ j.size .lhs; omega), out_ptr (by show _ ≤ j.size .lhs; omega),
      out_ptr (by show _ ≤ j.size .rhs; omega)]
    rfl
  have m1 : Mid j p 0 s1 := h.mid.of k mm ok
  have mb := h.mid.mem .bias (by decide) (by decide)
  have r1 := nx 8 (by rw [z, flag_rhs]; rfl)
  refine ⟨s1, r1, ⟨m1, x6, by rw [x4, rowMult_eq h1c h.mid], v8, by rw [v13, getH_ofH, if_pos rfl, wrap16_u32],
    (kk.get (by decide)).trans h.lc, (kk.get (by decide)).trans h.rc,
    by rw [lp, h.lc, addN_ptr], by rw [rp, h.rc]; rfl,
    ⟨fun i hi => by rw [vl i hi, h.lc, addN_ptr]; exact bytes_eq hr.ml rfl,
      by rw [vr, h.rc, bytes_eq hr.mr rfl]⟩, fun u hu i hi => ?_⟩, mm⟩
  rw [v16 u hu, getS_add, getS_add, rowBias_eq h1c h.mid, addN_ptr,
    show 4 * biasBase j p 0 + 16 * u = 4 * (biasBase j p 0 + 4 * u) by omega, getS_load mb, getS_dupS, wrap32_u32,
    wrap32_add_r (j.word .bias _), h.tile u hu i hi, wrap32_two]
  unfold acc1
  rw [lane_row h1c, Nat.add_assoc]

theorem c8 (j : Job) (s : St) : Same midRegs s (exec (env j) doto8.body s) ∧
    (exec (env j) doto8.body s).m = s.m ∧
    (exec (env j) doto8.body s).bad = (s.bad || (s.x rCol).isPtr ||
      out (env j) (.ptr .rhsSums (0 + (s.x rCol).num * 2 ^ 2)) 0 16 ||
      out (env j) (.ptr .rhsSums (0 + (s.x rCol).num * 2 ^ 2 + 16)) 0 16 || false || false) ∧
    Same [4, 6, 32, 33, 34, 35] s (exec (env j) doto8.body s) ∧
    (∀ i, i < 9 → (exec (env j) doto8.body s).v i = s.v i) ∧
    (exec (env j) doto8.body s).v 13 = s.v 13 ∧
    (∀ h, h < 2 → (exec (env j) doto8.body s).v (16 + h) =
      eop .mls 0 (s.v (16 + h)) (ofS fun _ => (Job.u32 j.lhsZp % 2 ^ 32 : Nat))
        (bytes s (.ptr .rhsSums (0 + (s.x rCol).num * 2 ^ 2)) 0)) := by
  cases s
  refine ⟨by keep, rfl, rfl, by keep, ?_, rfl, ?_⟩
  all_goals
    intro i hi
    interval_cases i <;> rfl

theorem Work1.of {j : Job} {p : Nat} {f g : Nat → Int} {s s' : St} (h : Work1 j p f s) (hk : Same midRegs s s')
    (hm : s'.m = s.m) (hb : s'.bad = false) (kk : Same [4, 6, 32, 33, 34, 35] s s')
    (hv : ∀ i, i < 9 → s'.v i = s.v i) (h13 : getH (s'.v 13) 4 = getH (s.v 13) 4)
    (ht : Tile1 g s') : Work1 j p g s' where
  mid := h.mid.of hk hm hb
  x6 := (kk.get (by decide)).trans h.x6
  x4 := (kk.get (by decide)).trans h.x4
  ones := (hv 8 (by omega)).trans h.ones
  zp := h13.trans h.zp
  lc := (kk.get (by decide)).trans h.lc
  rc := (kk.get (by decide)).trans h.rc
  lp := (kk.get (by decide)).trans h.lp
  rp := (kk.get (by decide)).trans h.rp
  data := ⟨fun i hi => (hv i (by omega)).trans (h.data.l i hi), (hv 2 (by omega)).trans h.data.r⟩
  tile := ht

theorem rhsSummed1 {j : Job} (hf : Fits j) {p : Nat}
    {s : St} (h : Work1 j p (fun u => wrap32 (acc1 j p 0 u 0)) s) :
    ∃ s', Reach (env j) dotoCode (8, s) (9, s') ∧ s'.m = s.m ∧
      Work1 j p (fun u => wrap32 (acc1 j p 0 u 0 - j.lhsZp * j.word .rhsSums (j.startCol + 8 * 0 + 0))) s' := by
  have r2 : Reach (env j) dotoCode (8, s) (9, exec (env j) doto8.body s) := Reach.block (b := doto8) rfl rfl
  obtain ⟨k2, mm2, bad2, kk2, v2, v13, w2⟩ := c8 j s
  generalize exec (env j) doto8.body s = s2 at *
  have fr := hf.rsums
  have hl : lastCol j = j.startCol + 8 * j.colSteps := rfl
  have pe : (0 : Nat) + (s.x rCol).num * 2 ^ 2 = 4 * (j.startCol + 8 * 0) := by
    rw [h.mid.col]; simp only [Val.num]; omega
  rw [pe] at bad2 w2
  have ms := h.mid.mem .rhsSums (by decide) (by decide)
  refine ⟨s2, r2, mm2, h.of k2 mm2 ?_ kk2 v2 (by rw [v13]) ?_⟩
  · rw [bad2, h.mid.ok, h.mid.col, out_ptr (by show _ ≤ j.size .rhsSums; omega),
      out_ptr (by show _ ≤ j.size .rhsSums; omega)]; rfl
  · intro u hu i hi
    rw [w2 u hu, getS_mls, getS_dupS, wrap32_u32, h.tile u hu i hi, getS_load ms, wrap32_sub_mul]

theorem c10 (j : Job) (s : St) : Same midRegs s (exec (env j) doto10.body s) ∧
    (exec (env j) doto10.body s).m = s.m ∧
    (exec (env j) doto10.body s).bad = (s.bad || (s.x rRow).isPtr || false ||
      out (env j) (addN (.ptr .lhsSums (0 + (s.x rRow).num * 2 ^ 2)) 0) 0 16 ||
      out (env j) (addN (.ptr .lhsSums (0 + (s.x rRow).num * 2 ^ 2)) 1) 0 16 || false ||
      (s.x dstTypeId).isPtr) ∧
    Same [4, 6, 32, 33, 34, 35] s (exec (env j) doto10.body s) ∧
    (∀ i, i < 9 → (exec (env j) doto10.body s).v i = s.v i) ∧
    (exec (env j) doto10.body s).v 13 =
      (ofS fun i => if i = 1 then ((Job.u32 j.rhsZp % 2 ^ 32 : Nat) : Int) else getS (s.v 13) i) ∧
    (∀ h, h < 2 → (exec (env j) doto10.body s).v (16 + h) =
      vop .sub (s.v (16 + h)) (s.v (16 + h))
        (eop .mul 1 (bytes s (addN (.ptr .lhsSums (0 + (s.x rRow).num * 2 ^ 2)) h) 0)
          (bytes s (addN (.ptr .lhsSums (0 + (s.x rRow).num * 2 ^ 2)) h) 0)
          (ofS fun i => if i = 1 then ((Job.u32 j.rhsZp % 2 ^ 32 : Nat) : Int) else getS (s.v 13) i))) ∧
    (exec (env j) doto10.body s).z = decide (sgn (s.x dstTypeId).num = sgn 4) := by
  cases s
  refine ⟨by keep, rfl, rfl, by keep, ?_, rfl, ?_, rfl⟩
  all_goals
    intro i hi
    interval_cases i <;> rfl

theorem lhsSummed1 {j : Job} (hf : Fits j) {p : Nat} (hp : p ≤ j.rowSteps) {s : St}
    (h : Work1 j p (fun u => wrap32 (acc1 j p 0 u 0 - j.lhsZp * j.word .rhsSums (j.startCol + 8 * 0 + 0))) s) :
    ∃ s', Reach (env j) dotoCode (9, s) (if j.dt = .i32 then 38 else 11, s') ∧ s'.m = s.m ∧
      Work1 j p (fun u => wrap32 (accInt j p 0 u 0)) s' := by
  have r1 : Reach (env j) dotoCode (9, s) (10, exec (env j) dot16.body s) := by
    refine Reach.block (b := doto9) rfl ?_
    show (bif (exec (env j) dot16.body s).z then 11 else 10) = 10
    rw [b16, h.x6]
    show (bif Nat.beq (j.flags % 2 ^ 8 % 2 ^ 32 &&& 2) 0 then 11 else 10) = 10
    rw [flag_lhs]; rfl
  have h1 : Work1 j p
      (fun u => wrap32 (acc1 j p 0 u 0 - j.lhsZp * j.word .rhsSums (j.startCol + 8 * 0 + 0)))
      (exec (env j) dot16.body s) := by
    rw [b16]
    refine h.of (by keep) rfl ?_ (by keep) (fun _ _ => rfl) rfl h.tile
    show (s.bad || (s.x 6).isPtr) = false
    rw [h.mid.ok, h.x6]; rfl
  have mm1 : (exec (env j) dot16.body s).m = s.m := by rw [b16]
  generalize exec (env j) dot16.body s = s1 at *
  obtain ⟨k2, mm2, bad2, kk2, v2, v13, w2, z2⟩ := c10 j s1
  have nx : ∀ l, (bif (exec (env j) doto10.body s1).z then 38 else 11) = l →
      Reach (env j) dotoCode (10, s1) (l, exec (env j) doto10.body s1) := fun l hl =>
    Reach.block (b := doto10) rfl hl
  generalize exec (env j) doto10.body s1 = s2 at *
  have r2 := nx (if j.dt = .i32 then 38 else 11) (by
    rw [z2, h1.mid.type]; cases j.dt <;> rfl)
  have fr := hf.lsums
  have hl : lastRow j = j.startRow + 8 * j.rowSteps := rfl
  have pe : (0 : Nat) + (s1.x rRow).num * 2 ^ 2 = 4 * (j.startRow + 8 * p) := by
    rw [h1.mid.row]; simp only [Val.num]; omega
  rw [pe] at bad2 w2
  simp only [addN_ptr] at bad2 w2
  have ms := h1.mid.mem .lhsSums (by decide) (by decide)
  refine ⟨s2, r1.trans r2, mm2.trans mm1, h1.of k2 mm2 ?_ kk2 v2 ?_ ?_⟩
  · rw [bad2, h1.mid.ok, h1.mid.row, h1.mid.type, out_ptr (by show _ ≤ j.size .lhsSums; omega),
      out_ptr (by show _ ≤ j.size .lhsSums; omega)]; rfl
  · rw [v13, getH_insS (fun _ => _) _ _ _ (by decide)]
  · intro u hu i hi
    rw [w2 u hu, getS_sub, getS_mul, h1.tile u hu i hi,
      show 4 * (j.startRow + 8 * p) + 16 * u = 4 * (j.startRow + 8 * p + 4 * u) by omega, getS_load ms,
      getS_ofS, if_pos rfl, wrap32_u32]
    rw [wrap32_mul_r, wrap32_sub_r, wrap32_sub_l, Int.mul_comm (j.word .lhsSums _), Nat.add_assoc _ (4 * u)]
    rfl

theorem c11 (j : Job) (s : St) : Same midRegs s (exec (env j) doto11.body s) ∧
    (exec (env j) doto11.body s).m = s.m ∧
    (exec (env j) doto11.body s).bad = (s.bad || (s.x 6).isPtr || (s.x rRow).isPtr ||
      out (env j) (rowPtr (s.x 6).num s .mulExp 8) 0 16 ||
      out (env j) (addVal (rowPtr (s.x 6).num s .mulExp 8) 0) 16 16) ∧
    Same [4, 6, 32, 33, 34, 35] s (exec (env j) doto11.body s) ∧
    (∀ i, i < 9 → (exec (env j) doto11.body s).v i = s.v i) ∧
    (exec (env j) doto11.body s).v 13 = s.v 13 ∧
    (exec (env j) doto11.body s).v (16 + 0) =
      vop .sshl (s.v 0) (s.v (16 + 0)) (vop .sub (s.v 9) (bytes s (rowPtr (s.x 6).num s .mulExp 8) 0)
        (vop .smin (s.v 11) (s.v 8) (bytes s (rowPtr (s.x 6).num s .mulExp 8) 0))) ∧
    (exec (env j) doto11.body s).v (16 + 1) =
      vop .sshl (s.v 0) (s.v (16 + 1)) (vop .sub (s.v 9) (bytes s (addVal (rowPtr (s.x 6).num s .mulExp 8) 0) 16)
        (vop .smin (s.v 11) (s.v 8) (bytes s (addVal (rowPtr (s.x 6).num s .mulExp 8) 0) 16))) ∧
    (exec (env j) doto11.body s).v (11 + 0) =
      vop .smin (s.v 11) (s.v 8) (bytes s (rowPtr (s.x 6).num s .mulExp 8) 0) ∧
    (exec (env j) doto11.body s).v (11 + 1) =
      vop .smin (s.v 11) (s.v 8) (bytes s (addVal (rowPtr (s.x 6).num s .mulExp 8) 0) 16) := by
  cases s
  refine ⟨by keep, rfl, rfl, by keep, ?_, rfl, rfl, rfl, rfl, rfl⟩
  intro i hi
  interval_cases i <;> rfl

theorem c12 (j : Job) (s : St) : Same midRegs s (exec (env j) doto12.body s) ∧
    (exec (env j) doto12.body s).m = s.m ∧
    (exec (env j) doto12.body s).bad = (s.bad || out (env j) (s.x 4) 0 16 ||
      out (env j) (addVal (s.x 4) 0) 16 16 || (s.x dstTypeId).isPtr) ∧
    Same [6, 32, 33, 34, 35] s (exec (env j) doto12.body s) ∧
    (exec (env j) doto12.body s).x 4 = addVal (addVal (s.x 4) 0) 0 ∧
    (∀ i, i < 9 → (exec (env j) doto12.body s).v i = s.v i) ∧
    (exec (env j) doto12.body s).v 13 = s.v 13 ∧
    (exec (env j) doto12.body s).v (16 + 0) =
      vop .srshl (s.v 0) (vop .sqdmulh (s.v 0) (s.v (16 + 0)) (bytes s (s.x 4) 0)) (s.v (11 + 0)) ∧
    (exec (env j) doto12.body s).v (16 + 1) =
      vop .srshl (s.v 0) (vop .sqdmulh (s.v 0) (s.v (16 + 1)) (bytes s (addVal (s.x 4) 0) 16)) (s.v (11 + 1)) ∧
    (exec (env j) doto12.body s).z = decide (sgn (s.x dstTypeId).num = sgn 3) := by
  cases s
  refine ⟨by keep, rfl, rfl, by keep, rfl, ?_, rfl, rfl, rfl, rfl⟩
  intro i hi
  interval_cases i <;> rfl

theorem multiplied1 {j : Job} (hf : Fits j) (h1c : OneCol j) {p : Nat} (hp : p ≤ j.rowSteps)
    {s : St} (h : Work1 j p (fun u => wrap32 (accInt j p 0 u 0)) s) :
    ∃ s', Reach (env j) dotoCode (11, s) (if j.dt = .i16 then 30 else 13, s') ∧ s'.m = s.m ∧
      Work1 j p (fun u => scaledAt j p 0 u 0) s' := by
  obtain ⟨k1, mm1, bad1, kk1, v1, v13, w0, w1, va, vb⟩ := c11 j s
  have r1 : Reach (env j) dotoCode (11, s) (12, exec (env j) doto11.body s) := Reach.block (b := doto11) rfl rfl
  generalize exec (env j) doto11.body s = s1 at *
  rw [h.x6] at bad1 w0 w1 va vb
  simp only [Val.num] at bad1 w0 w1 va vb
  rw [rowMult_eq h1c h.mid] at bad1 w0 w1 va vb
  have me := h.mid.mem .mulExp (by decide) (by decide)
  have mf := h.mid.mem .mulFix (by decide) (by decide)
  have h3 := fix_fits hf hp (Nat.zero_le j.colSteps)
  have h4 := exp_fits hf hp (Nat.zero_le j.colSteps)
  have ok1 : s1.bad = false := by
    rw [bad1, h.mid.ok, h.mid.row]
    simp only [addVal]
    rw [out_ptr (by show _ ≤ j.size .mulExp; omega), out_ptr (by show _ ≤ j.size .mulExp; omega)]
    rfl
  have m1 : Mid j p 0 s1 := h.mid.of k1 mm1 ok1
  have hx4 : s1.x 4 = .ptr .mulFix (4 * multBase j p 0) := (kk1.get (by decide)).trans h.x4
  have mf1 : s1.m .mulFix = j.m .mulFix := by rw [mm1]; exact mf
  have l16 : ∀ u, u < 2 → ∀ l, l < 4 → getS (s1.v (16 + u)) l =
      wrap32 (sshl32 (wrap32 (accInt j p 0 (4 * u + l) 0)) (wrap32 (j.word .mulExp (multBase j p 0 + (4 * u + l)) -
      wrap32 (min (-1) (j.word .mulExp (multBase j p 0 + (4 * u + l))))))) := by
    intro u hu l hl
    have t : getS (s.v (16 + u)) l = wrap32 (accInt j p 0 (4 * u + l) 0) := h.tile u hu l hl
    rcases (show u = 0 ∨ u = 1 by omega) with rfl | rfl
    · rw [w0, getS_sshl, t, getS_sub, getS_smin, h.ones, getS_ones, getS_load me, Nat.mul_zero, Nat.zero_add]
    · rw [w1, getS_sshl, t, getS_sub, getS_smin, h.ones, getS_ones, getS_load16 me, Nat.mul_one]
  have l11 : ∀ u, u < 2 → ∀ l, getS (s1.v (11 + u)) l = wrap32 (min (-1) (j.word .mulExp (multBase j p 0 + (4 * u + l)))) := by
    intro u hu l
    match u, hu with
    | 0, _ => rw [va, getS_smin, h.ones, getS_ones, getS_load me, Nat.mul_zero, Nat.zero_add]
    | 1, _ => rw [vb, getS_smin, h.ones, getS_ones, getS_load16 me, Nat.mul_one]
  have hw32 : ∀ i, wrap32 (j.word .mulExp i) = j.word .mulExp i := fun i => by
    unfold Job.word; exact Simd.wrap32_wrap32 _
  obtain ⟨k2, mm2, bad2, kk2, x4, v2, w13, u0, u1, z2⟩ := c12 j s1
  have nx : ∀ l, (bif (exec (env j) doto12.body s1).z then 30 else 13) = l →
      Reach (env j) dotoCode (12, s1) (l, exec (env j) doto12.body s1) := fun l hl =>
    Reach.block (b := doto12) rfl hl
  generalize exec (env j) doto12.body s1 = s2 at *
  rw [hx4] at bad2 x4 u0 u1
  have ok2 : s2.bad = false := by
    rw [bad2, ok1, m1.type]
    simp only [addVal]
    rw [out_ptr (by show _ ≤ j.size .mulFix; omega), out_ptr (by show _ ≤ j.size .mulFix; omega)]
    rfl
  refine ⟨s2, r1.trans (nx _ (by rw [z2, m1.type]; cases j.dt <;> rfl)), mm2.trans mm1,
    h.of (k1.trans k2) (mm2.trans mm1) ok2 ⟨?_, (kk1.sub (by decide)).trans kk2⟩
      (fun i hi => (v2 i hi).trans (v1 i hi)) (by rw [w13, v13]) ?_⟩
  · rw [x4, h.x4]; rfl
  · intro u hu i hi
    show _ = scaledAt j p 0 (4 * u + i) 0
    unfold scaledAt
    rw [lane_row h1c]
    have e1 := l16 u hu i hi
    have e2 := l11 u hu i
    rcases (show u = 0 ∨ u = 1 by omega) with rfl | rfl
    · rw [u0, getS_srshl, getS_sqdmulh, e1, e2, getS_load mf1, Nat.mul_zero, Nat.zero_add,
        lane_apply _ _ _ (Simd.wrap32_wrap32 _) (hw32 _)]
    · rw [u1, getS_srshl, getS_sqdmulh, e1, e2, getS_load16 mf1, Nat.mul_one,
        lane_apply _ _ _ (Simd.wrap32_wrap32 _) (hw32 _)]

end Ruy.Neon.Dot

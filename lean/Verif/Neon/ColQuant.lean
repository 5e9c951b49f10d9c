import Verif.Neon.ColDepth
import Verif.Neon.Quant
/-
`Kernel8bitNeon1Col` from the loads for the next block to the scaled results (labels 5, 401, 402).
-/
namespace Ruy.Neon
open Simd (wrap8 wrap16 wrap32 satS32 sshl32 srshl32 sqdmulh32)

/-- `csel` of an array or the entry of the row. -/
def rowPtr (F : Nat) (s : St) (r : Region) (bit : Nat) : Val :=
  bif Nat.beq (F % 2 ^ 32 &&& bit) 0 then .ptr r 0 else addVal (.ptr r 0) ((s.x rRow).num * 2 ^ 2)

theorem chan_row {j : Job} (h : OneCol j) (p : Nat) : chan j p 0 = j.startRow + 4 * p := by
  unfold chan; rw [h.chan]; rfl

theorem rowBias_eq {j : Job} (h1 : OneCol j) {p : Nat} {s : St} (h : Mid j p 0 s) :
    rowPtr (j.flags % 2 ^ 8) s .bias 1 = .ptr .bias (4 * biasBase j p 0) := by
  unfold rowPtr biasBase
  rw [chan_row h1, flag_bias, h.row]
  cases j.hasBias
  · rfl
  · simp only [Bool.not_true, cond_false, if_true, addVal, Val.num]
    exact congrArg _ (by omega)

theorem rowMult_eq {j : Job} (h1 : OneCol j) {p : Nat} {s : St} (h : Mid j p 0 s) (r : Region) :
    rowPtr (j.flags % 2 ^ 8) s r 8 = .ptr r (4 * multBase j p 0) := by
  unfold rowPtr multBase
  rw [chan_row h1, flag_per, h.row]
  cases j.perChannel
  · rfl
  · simp only [Bool.not_true, cond_false, if_true, addVal, Val.num]
    exact congrArg _ (by omega)

theorem cb7 (j : Job) (s : St) : Same midRegs s (exec j.env col7.body s) ∧
    (exec j.env col7.body s).m = s.m ∧
    (exec j.env col7.body s).bad = (s.bad || false || false || false || false || false || (s.x rRow).isPtr || false ||
      out j.env (rowPtr (j.flags % 2 ^ 8) s .mulFix 8) 0 16 || (s.x rRow).isPtr || false ||
      out j.env (rowPtr (j.flags % 2 ^ 8) s .bias 1) 0 16 ||
      out j.env (addN (s.x lhsColPtr) 0) 0 16 || out j.env (addN (s.x lhsColPtr) 1) 0 16 ||
      out j.env (addN (s.x lhsColPtr) 2) 0 16 || out j.env (addN (s.x lhsColPtr) 3) 0 16 ||
      out j.env (addN (s.x rhsColPtr) 0) 0 16 || false) ∧
    (exec j.env col7.body s).x 6 = .int (j.flags % 2 ^ 8) ∧
    (exec j.env col7.body s).z = Nat.beq (j.flags % 2 ^ 8 % 2 ^ 32 &&& 4) 0 ∧
    (exec j.env col7.body s).v 8 = (fun _ => 255) ∧
    (exec j.env col7.body s).v 13 =
      (ofH fun i => if i = 4 then (Job.u32 j.dstZp % 2 ^ 32 : Nat) else getH (s.v 13) i) ∧
    (exec j.env col7.body s).v 16 = vop .add (s.v 16) (s.v 16)
      (vop .add (bytes s (rowPtr (j.flags % 2 ^ 8) s .bias 1) 0)
        (bytes s (rowPtr (j.flags % 2 ^ 8) s .bias 1) 0) (ofS fun _ => (Job.u32 j.prodZp % 2 ^ 32 : Nat))) ∧
    (exec j.env col7.body s).v 15 = bytes s (rowPtr (j.flags % 2 ^ 8) s .mulFix 8) 0 ∧
    (exec j.env col7.body s).x lhsPtr = addN (s.x lhsColPtr) 4 ∧
    (exec j.env col7.body s).x rhsPtr = addVal (addVal (s.x rhsColPtr) 16) 48 ∧
    (∀ i, i < 4 → (exec j.env col7.body s).v i = bytes s (addN (s.x lhsColPtr) i) 0) ∧
    (exec j.env col7.body s).v 4 = bytes s (s.x rhsColPtr) 0 ∧
    Same [32, 33] s (exec j.env col7.body s) := by
  cases s
  refine ⟨by keep, rfl, rfl, rfl, rfl, rfl, rfl, rfl, rfl, rfl, rfl, ?_, rfl, by keep⟩
  all_goals
    intro i hi
    interval_cases i <;> rfl

/-- From label 401 on. -/
structure Work1 (j : Job) (p : Nat) (f : Nat → Int) (s : St) : Prop where
  mid : Mid j p 0 s
  x6 : s.x 6 = .int (j.flags % 2 ^ 8)
  ones : s.v 8 = fun _ => 255
  zp : getH (s.v 13) 4 = wrap16 j.dstZp
  fix : ∀ l, l < 4 → getS (s.v 15) l = j.word .mulFix (multBase j p 0 + l)
  lc : s.x lhsColPtr = .ptr .lhs (lhsBlk j (nextP j p))
  rc : s.x rhsColPtr = .ptr .rhs (rhsBlk j 0)
  data : Loaded1 j (lhsBlk j (nextP j p)) (rhsBlk j 0) s
  tile : Tile1 f s

theorem lane_row {j : Job} (h : OneCol j) (u : Nat) : lane j u 0 = u := by
  unfold lane; rw [h.chan]; rfl

theorem biased1 {j : Job} (hf : j.Fits) (h1c : OneCol j) {p : Nat} (hp : p ≤ j.rowSteps)
    {s : St} (h : Summed1 j p s) :
    ∃ s', Reach j.env colCode (7, s) (8, s') ∧
      Work1 j p (fun u => wrap32 (acc1 j p 0 u 0)) s' ∧ s'.m = s.m := by
  obtain ⟨k, mm, bad, x6, z, v8, v13, v16, v15, lp, rp, vl, vr, kk⟩ := cb7 j s
  have nx : ∀ l, (bif (exec j.env col7.body s).z then 9 else 8) = l →
      Reach j.env colCode (7, s) (l, exec j.env col7.body s) := fun l hl =>
    Reach.block (b := col7) rfl hl
  generalize exec j.env col7.body s = s1 at *
  have hq : 0 ≤ j.colSteps := Nat.zero_le _
  have hp' : nextP j p ≤ j.rowSteps := by unfold nextP; split_ifs <;> omega
  have hr := readable hf hp' hq h.mid.mem
  have h1 := hr.sl
  have h2 := hr.sr
  rw [rowBias_eq h1c h.mid, rowMult_eq h1c h.mid, h.lc, h.rc] at bad
  simp only [addN_ptr] at bad
  have ok : s1.bad = false := by
    rw [bad, h.mid.ok, h.mid.row, out_ptr (fix_fits hf hp hq), out_ptr (bias_fits hf hp hq),
      out_ptr (by show _ ≤ j.size .lhs; omega), out_ptr (by show _ ≤ j.size .lhs; omega),
      out_ptr (by show _ ≤ j.size .lhs; omega), out_ptr (by show _ ≤ j.size .lhs; omega),
      out_ptr (by show _ ≤ j.size .rhs; omega)]
    rfl
  have m1 : Mid j p 0 s1 := h.mid.of k mm ok
  have mb := h.mid.mem .bias (by decide) (by decide)
  have mf := h.mid.mem .mulFix (by decide) (by decide)
  have r1 := nx 8 (by rw [z, flag_rhs]; rfl)
  refine ⟨s1, r1, ⟨m1, x6, v8, by rw [v13, getH_ofH, if_pos rfl, wrap16_u32], fun l _ => ?_,
    (kk.get (by decide)).trans h.lc, (kk.get (by decide)).trans h.rc,
    ⟨by rw [lp, h.lc, addN_ptr], by rw [rp, h.rc]; rfl,
      fun i hi => by rw [vl i hi, h.lc, addN_ptr]; exact bytes_eq hr.ml rfl,
      by rw [vr, h.rc]; exact bytes_eq hr.mr rfl⟩, fun u hu => ?_⟩, mm⟩
  · rw [v15, rowMult_eq h1c h.mid, getS_load mf]
  · rw [v16, getS_add, getS_add, rowBias_eq h1c h.mid, getS_load mb, getS_dupS, wrap32_u32,
      wrap32_add_r (j.word .bias _), h.tile u hu, wrap32_two]
    unfold acc1
    rw [lane_row h1c]

theorem cb8 (j : Job) (s : St) : Same midRegs s (exec j.env col8.body s) ∧
    (exec j.env col8.body s).m = s.m ∧
    (exec j.env col8.body s).bad = (s.bad || (s.x rCol).isPtr ||
      out j.env (.ptr .rhsSums (0 + (s.x rCol).num * 2 ^ 2)) 0 16 || false || false) ∧
    Same [6, 32, 33, 34, 35] s (exec j.env col8.body s) ∧
    (∀ i, i < 9 → (exec j.env col8.body s).v i = s.v i) ∧
    (exec j.env col8.body s).v 13 = s.v 13 ∧ (exec j.env col8.body s).v 15 = s.v 15 ∧
    (exec j.env col8.body s).v 16 =
      eop .mls 0 (s.v 16) (ofS fun _ => (Job.u32 j.lhsZp % 2 ^ 32 : Nat))
        (bytes s (.ptr .rhsSums (0 + (s.x rCol).num * 2 ^ 2)) 0) := by
  cases s
  refine ⟨by keep, rfl, rfl, by keep, ?_, rfl, rfl, rfl⟩
  intro i hi
  interval_cases i <;> rfl

theorem Work1.of {j : Job} {p : Nat} {f g : Nat → Int} {s s' : St} (h : Work1 j p f s) (hk : Same midRegs s s')
    (hm : s'.m = s.m) (hb : s'.bad = false) (kk : Same [6, 32, 33, 34, 35] s s')
    (hv : ∀ i, i < 9 → s'.v i = s.v i) (h13 : getH (s'.v 13) 4 = getH (s.v 13) 4) (h15 : s'.v 15 = s.v 15)
    (ht : Tile1 g s') : Work1 j p g s' where
  mid := h.mid.of hk hm hb
  x6 := (kk.get (by decide)).trans h.x6
  ones := (hv 8 (by omega)).trans h.ones
  zp := h13.trans h.zp
  fix := by rw [h15]; exact h.fix
  lc := (kk.get (by decide)).trans h.lc
  rc := (kk.get (by decide)).trans h.rc
  data := ⟨(kk.get (by decide)).trans h.data.lp, (kk.get (by decide)).trans h.data.rp,
    fun i hi => (hv i (by omega)).trans (h.data.l i hi), (hv 4 (by omega)).trans h.data.r⟩
  tile := ht

theorem rhsSummed1 {j : Job} (hf : j.Fits) {p : Nat}
    {s : St} (h : Work1 j p (fun u => wrap32 (acc1 j p 0 u 0)) s) :
    ∃ s', Reach j.env colCode (8, s) (9, s') ∧ s'.m = s.m ∧
      Work1 j p (fun u => wrap32 (acc1 j p 0 u 0 - j.lhsZp * j.word .rhsSums (j.startCol + 4 * 0 + 0))) s' := by
  have r2 : Reach j.env colCode (8, s) (9, exec j.env col8.body s) := Reach.block (b := col8) rfl rfl
  obtain ⟨k2, mm2, bad2, kk2, v2, v13, v15, w2⟩ := cb8 j s
  generalize exec j.env col8.body s = s2 at *
  have fr := hf.rsums
  have hl : j.lastCol = j.startCol + 4 * j.colSteps := rfl
  have pe : (0 : Nat) + (s.x rCol).num * 2 ^ 2 = 4 * (j.startCol + 4 * 0) := by
    rw [h.mid.col]; simp only [Val.num]; omega
  rw [pe] at bad2 w2
  have ms := h.mid.mem .rhsSums (by decide) (by decide)
  refine ⟨s2, r2, mm2, h.of k2 mm2 ?_ kk2 v2 (by rw [v13]) v15 ?_⟩
  · rw [bad2, h.mid.ok, h.mid.col, out_ptr (by show _ ≤ j.size .rhsSums; omega)]; rfl
  · intro u hu
    rw [w2, getS_mls, getS_dupS, wrap32_u32, h.tile u hu, getS_load ms, wrap32_sub_mul]

theorem cb10 (j : Job) (s : St) : Same midRegs s (exec j.env col10.body s) ∧
    (exec j.env col10.body s).m = s.m ∧
    (exec j.env col10.body s).bad = (s.bad || (s.x rRow).isPtr || false ||
      out j.env (.ptr .lhsSums (0 + (s.x rRow).num * 2 ^ 2)) 0 16 || false ||
      (s.x dstTypeId).isPtr) ∧
    Same [6, 32, 33, 34, 35] s (exec j.env col10.body s) ∧
    (∀ i, i < 9 → (exec j.env col10.body s).v i = s.v i) ∧
    (exec j.env col10.body s).v 13 =
      (ofS fun i => if i = 1 then ((Job.u32 j.rhsZp % 2 ^ 32 : Nat) : Int) else getS (s.v 13) i) ∧
    (exec j.env col10.body s).v 15 = s.v 15 ∧
    (exec j.env col10.body s).v 16 =
      vop .sub (s.v 16) (s.v 16)
        (eop .mul 1 (bytes s (.ptr .lhsSums (0 + (s.x rRow).num * 2 ^ 2)) 0)
          (bytes s (.ptr .lhsSums (0 + (s.x rRow).num * 2 ^ 2)) 0)
          (ofS fun i => if i = 1 then ((Job.u32 j.rhsZp % 2 ^ 32 : Nat) : Int) else getS (s.v 13) i)) ∧
    (exec j.env col10.body s).z = decide (sgn (s.x dstTypeId).num = sgn 4) := by
  cases s
  refine ⟨by keep, rfl, rfl, by keep, ?_, rfl, rfl, rfl, rfl⟩
  intro i hi
  interval_cases i <;> rfl

theorem lhsSummed1 {j : Job} (hf : j.Fits) {p : Nat} (hp : p ≤ j.rowSteps) {s : St}
    (h : Work1 j p (fun u => wrap32 (acc1 j p 0 u 0 - j.lhsZp * j.word .rhsSums (j.startCol + 4 * 0 + 0))) s) :
    ∃ s', Reach j.env colCode (9, s) (if j.dt = .i32 then 35 else 11, s') ∧ s'.m = s.m ∧
      Work1 j p (fun u => wrap32 (accInt j p 0 u 0)) s' := by
  have r1 : Reach j.env colCode (9, s) (10, exec j.env gemm12.body s) := by
    refine Reach.block (b := col9) rfl ?_
    show (bif (exec j.env gemm12.body s).z then 11 else 10) = 10
    rw [b12, h.x6]
    show (bif Nat.beq (j.flags % 2 ^ 8 % 2 ^ 32 &&& 2) 0 then 11 else 10) = 10
    rw [flag_lhs]; rfl
  have h1 : Work1 j p
      (fun u => wrap32 (acc1 j p 0 u 0 - j.lhsZp * j.word .rhsSums (j.startCol + 4 * 0 + 0)))
      (exec j.env gemm12.body s) := by
    rw [b12]
    refine h.of (by keep) rfl ?_ (by keep) (fun _ _ => rfl) rfl rfl h.tile
    show (s.bad || (s.x 6).isPtr) = false
    rw [h.mid.ok, h.x6]; rfl
  have mm1 : (exec j.env gemm12.body s).m = s.m := by rw [b12]
  generalize exec j.env gemm12.body s = s1 at *
  obtain ⟨k2, mm2, bad2, kk2, v2, v13, v15, w2, z2⟩ := cb10 j s1
  have nx : ∀ l, (bif (exec j.env col10.body s1).z then 35 else 11) = l →
      Reach j.env colCode (10, s1) (l, exec j.env col10.body s1) := fun l hl =>
    Reach.block (b := col10) rfl hl
  generalize exec j.env col10.body s1 = s2 at *
  have r2 := nx (if j.dt = .i32 then 35 else 11) (by
    rw [z2, h1.mid.type]; cases j.dt <;> rfl)
  have fr := hf.lsums
  have hl : j.lastRow = j.startRow + 4 * j.rowSteps := rfl
  have pe : (0 : Nat) + (s1.x rRow).num * 2 ^ 2 = 4 * (j.startRow + 4 * p) := by
    rw [h1.mid.row]; simp only [Val.num]; omega
  rw [pe] at bad2 w2
  have ms := h1.mid.mem .lhsSums (by decide) (by decide)
  refine ⟨s2, r1.trans r2, mm2.trans mm1, h1.of k2 mm2 ?_ kk2 v2 ?_ v15 ?_⟩
  · rw [bad2, h1.mid.ok, h1.mid.row, h1.mid.type, out_ptr (by show _ ≤ j.size .lhsSums; omega)]; rfl
  · rw [v13, getH_insS (fun _ => _) _ _ _ (by decide)]
  · intro u hu
    rw [w2, getS_sub, getS_mul, h1.tile u hu, getS_load ms, getS_ofS, if_pos rfl, wrap32_u32]
    rw [wrap32_mul_r, wrap32_sub_r, wrap32_sub_l, Int.mul_comm (j.word .lhsSums _)]
    rfl

theorem cb11 (j : Job) (s : St) : Same midRegs s (exec j.env col11.body s) ∧
    (exec j.env col11.body s).m = s.m ∧
    (exec j.env col11.body s).bad = (s.bad || (s.x 6).isPtr || (s.x rRow).isPtr ||
      out j.env (rowPtr (s.x 6).num s .mulExp 8) 0 16 || (s.x dstTypeId).isPtr) ∧
    Same [6, 32, 33, 34, 35] s (exec j.env col11.body s) ∧
    (∀ i, i < 9 → (exec j.env col11.body s).v i = s.v i) ∧
    (exec j.env col11.body s).v 13 = s.v 13 ∧ (exec j.env col11.body s).v 15 = s.v 15 ∧
    (exec j.env col11.body s).v 16 =
      vop .srshl (s.v 0) (vop .sqdmulh (s.v 0) (vop .sshl (s.v 0) (s.v 16)
        (vop .sub (s.v 12) (bytes s (rowPtr (s.x 6).num s .mulExp 8) 0)
          (vop .smin (s.v 11) (s.v 8) (bytes s (rowPtr (s.x 6).num s .mulExp 8) 0)))) (s.v 15))
        (vop .smin (s.v 11) (s.v 8) (bytes s (rowPtr (s.x 6).num s .mulExp 8) 0)) ∧
    (exec j.env col11.body s).z = decide (sgn (s.x dstTypeId).num = sgn 3) := by
  cases s
  refine ⟨by keep, rfl, rfl, by keep, ?_, rfl, rfl, rfl, rfl⟩
  intro i hi
  interval_cases i <;> rfl

theorem multiplied1 {j : Job} (hf : j.Fits) (h1c : OneCol j) {p : Nat} (hp : p ≤ j.rowSteps)
    {s : St} (h : Work1 j p (fun u => wrap32 (accInt j p 0 u 0)) s) :
    ∃ s', Reach j.env colCode (11, s) (if j.dt = .i16 then 27 else 12, s') ∧ s'.m = s.m ∧
      Work1 j p (fun u => scaledAt j p 0 u 0) s' := by
  obtain ⟨k1, mm1, bad1, kk1, v1, v13, v15, w1, z1⟩ := cb11 j s
  have nx : ∀ l, (bif (exec j.env col11.body s).z then 27 else 12) = l →
      Reach j.env colCode (11, s) (l, exec j.env col11.body s) := fun l hl =>
    Reach.block (b := col11) rfl hl
  generalize exec j.env col11.body s = s1 at *
  rw [h.x6] at bad1 w1
  simp only [Val.num] at bad1 w1
  rw [rowMult_eq h1c h.mid] at bad1 w1
  have me := h.mid.mem .mulExp (by decide) (by decide)
  have hw32 : ∀ i, wrap32 (j.word .mulExp i) = j.word .mulExp i := fun i => by
    unfold Job.word; exact Simd.wrap32_wrap32 _
  refine ⟨s1, nx _ (by rw [z1, h.mid.type]; cases j.dt <;> rfl), mm1, h.of k1 mm1 ?_ kk1 v1 (by rw [v13]) v15 ?_⟩
  · rw [bad1, h.mid.ok, h.mid.row, h.mid.type, out_ptr (exp_fits hf hp (Nat.zero_le _))]; rfl
  · intro u hu
    rw [w1, getS_srshl, getS_sqdmulh, getS_sshl, h.tile u hu, getS_sub, getS_smin, h.ones, getS_ones, getS_load me,
      h.fix u hu, lane_apply _ _ _ (Simd.wrap32_wrap32 _) (hw32 _)]
    show _ = scaledAt j p 0 u 0
    unfold scaledAt
    rw [lane_row h1c]

end Ruy.Neon

import Verif.Neon.Block
import Verif.Simd.Mult
/-
`Kernel8bitNeon` from the loads for the next block to the scaled results (labels 5 to 9,
401, 402).
-/
namespace Ruy.Neon
open Simd (wrap8 wrap16 wrap32 satS32 sshl32 srshl32 sqdmulh32)

/-! ### Lanes -/

theorem getS_add (d n m : Vec) (i : Nat) : getS (vop .add d n m) i = wrap32 (getS n i + getS m i) := by
  simp only [vop]; rw [getS_ofS]
theorem getS_sub (d n m : Vec) (i : Nat) : getS (vop .sub d n m) i = wrap32 (getS n i - getS m i) := by
  simp only [vop]; rw [getS_ofS]
theorem getS_smin (d n m : Vec) (i : Nat) : getS (vop .smin d n m) i = wrap32 (min (getS n i) (getS m i)) := by
  simp only [vop]; rw [getS_ofS]
theorem getS_sshl (d n m : Vec) (i : Nat) : getS (vop .sshl d n m) i = wrap32 (sshl32 (getS n i) (getS m i)) := by
  simp only [vop]; rw [getS_ofS]
theorem getS_srshl (d n m : Vec) (i : Nat) : getS (vop .srshl d n m) i = wrap32 (srshl32 (getS n i) (getS m i)) := by
  simp only [vop]; rw [getS_ofS]
theorem getS_sqdmulh (d n m : Vec) (i : Nat) :
    getS (vop .sqdmulh d n m) i = wrap32 (sqdmulh32 (getS n i) (getS m i)) := by
  simp only [vop]; rw [getS_ofS]
theorem getS_mls (k : Nat) (d n m : Vec) (i : Nat) :
    getS (eop .mls k d n m) i = wrap32 (getS d i - getS n i * getS m k) := by
  simp only [eop]; rw [getS_ofS]
theorem getS_mul (k : Nat) (d n m : Vec) (i : Nat) :
    getS (eop .mul k d n m) i = wrap32 (getS n i * getS m k) := by
  simp only [eop]; rw [getS_ofS]
theorem getS_sqdmulhE (k : Nat) (d n m : Vec) (i : Nat) :
    getS (eop .sqdmulh k d n m) i = wrap32 (sqdmulh32 (getS n i) (getS m k)) := by
  simp only [eop]; rw [getS_ofS]
theorem getS_dupS (n : Int) (i : Nat) : getS (ofS fun _ => n) i = wrap32 n := by rw [getS_ofS]

theorem getS_wrap (v : Vec) (i : Nat) : wrap32 (getS v i) = getS v i := by
  unfold getS; exact Simd.wrap32_wrap32 _

theorem wrap32_sqdmulh (a b : Int) : wrap32 (sqdmulh32 a b) = sqdmulh32 a b := by
  unfold sqdmulh32 satS32 Simd.sat
  apply Simd.wrap32_of <;> split_ifs <;> omega

theorem wrap32_srshl (a b : Int) : wrap32 (srshl32 a b) = srshl32 a b := by
  unfold srshl32
  split_ifs <;> exact Simd.wrap32_wrap32 _

theorem wrap32_sshl (a b : Int) (h : wrap32 a = a) : wrap32 (sshl32 a b) = sshl32 a b := by
  unfold sshl32
  split_ifs with h0
  · exact Simd.wrap32_wrap32 _
  · obtain ⟨h1, h2⟩ := Simd.wrap32_range a
    rw [h] at h1 h2
    have h3 : (1 : Int) ≤ 2 ^ (-wrap8 b).toNat := by
      have : (0 : Int) < 2 ^ (-wrap8 b).toNat := by positivity
      omega
    generalize (2 : Int) ^ (-wrap8 b).toNat = d at h3
    have h4 : -2147483648 * d ≤ -2147483648 := by nlinarith
    have h5 : 2147483648 ≤ 2147483648 * d := by nlinarith
    apply Simd.wrap32_of
    · exact (Int.le_ediv_iff_mul_le (by omega)).2 (by omega)
    · exact (Int.ediv_lt_iff_lt_mul (by omega)).2 (by omega)

/-- The lane-wise multiplication by a quantized multiplier. -/
theorem lane_apply (x e m : Int) (hx : wrap32 x = x) (he : wrap32 e = e) :
    wrap32 (srshl32 (wrap32 (sqdmulh32 (wrap32 (sshl32 x (wrap32 (e - wrap32 (min (-1) e))))) m))
      (wrap32 (min (-1) e))) = Simd.Neon.apply x m e := by
  have h1 : wrap32 (min (-1) e) = min (-1) e := by
    rcases le_total (-1) e with h | h
    · rw [min_eq_left h]; rfl
    · rw [min_eq_right h, he]
  rw [h1, wrap32_srshl, wrap32_sqdmulh, wrap32_sshl _ _ hx]
  rfl

/-- Lane of a vector loaded from an int32 array. -/
theorem getS_load {j : Job} {s : St} {r : Region} {i : Nat} (h : s.m r = j.m r) (l : Nat) :
    getS (bytes s (.ptr r (4 * i)) 0) l = j.word r (i + l) := by
  unfold getS Job.word bytes
  simp only [Val.region, Val.off, h]
  have e : le4 (fun b => j.m r (4 * i + 0 + b)) (4 * l) = le4 (j.m r) (4 * (i + l)) := by
    unfold le4 le2
    dsimp only
    rw [show 4 * i + 0 + 4 * l = 4 * (i + l) by omega, show 4 * i + 0 + (4 * l + 1) = 4 * (i + l) + 1 by omega,
      show 4 * i + 0 + (4 * l + 2) = 4 * (i + l) + 2 by omega,
      show 4 * i + 0 + (4 * l + 2 + 1) = 4 * (i + l) + 2 + 1 by omega]
  rw [e]

theorem wrap32_u32 (x : Int) : wrap32 ((Job.u32 x % 2 ^ 32 : Nat) : Int) = wrap32 x := by
  unfold Job.u32 wrap32; omega
theorem wrap16_u32 (x : Int) : wrap16 ((Job.u32 x % 2 ^ 32 : Nat) : Int) = wrap16 x := by
  unfold Job.u32 wrap16; omega

/-! ### The flags -/

theorem flag_chan (j : Job) : Nat.beq (j.flags % 2 ^ 8 % 2 ^ 32 &&& 32) 0 = !j.chanCol := by
  unfold Job.flags
  cases j.hasBias <;> cases j.perChannel <;> cases j.chanCol <;> rfl
theorem flag_bias (j : Job) : Nat.beq (j.flags % 2 ^ 8 % 2 ^ 32 &&& 1) 0 = !j.hasBias := by
  unfold Job.flags
  cases j.hasBias <;> cases j.perChannel <;> cases j.chanCol <;> rfl
theorem flag_per (j : Job) : Nat.beq (j.flags % 2 ^ 8 % 2 ^ 32 &&& 8) 0 = !j.perChannel := by
  unfold Job.flags
  cases j.hasBias <;> cases j.perChannel <;> cases j.chanCol <;> rfl
theorem flag_rhs (j : Job) : Nat.beq (j.flags % 2 ^ 8 % 2 ^ 32 &&& 4) 0 = false := by
  unfold Job.flags
  cases j.hasBias <;> cases j.perChannel <;> cases j.chanCol <;> rfl
theorem flag_lhs (j : Job) : Nat.beq (j.flags % 2 ^ 8 % 2 ^ 32 &&& 2) 0 = false := by
  unfold Job.flags
  cases j.hasBias <;> cases j.perChannel <;> cases j.chanCol <;> rfl

/-! ### Channels -/

/-- First channel of the block. -/
def chan (j : Job) (p q : Nat) : Nat := if j.chanCol then j.startCol + 4 * q else j.startRow + 4 * p

/-- Index in the bias array: it only has four (zero) entries when there is no bias. -/
def biasBase (j : Job) (p q : Nat) : Nat := if j.hasBias then chan j p q else 0
/-- Index in the arrays of multipliers: they have four equal entries unless `perchannel`. -/
def multBase (j : Job) (p q : Nat) : Nat := if j.perChannel then chan j p q else 0

/-- `F` is the byte `flags`. -/
def chanNum (F : Nat) (s : St) : Nat :=
  (bif Nat.beq (F % 2 ^ 32 &&& 32) 0 then (s.x rRow).num else (s.x rCol).num) % 2 ^ 32

/-- `csel` of the array or the entry of the channel. -/
def chanPtr (F : Nat) (s : St) (r : Region) (bit : Nat) : Val :=
  bif Nat.beq (F % 2 ^ 32 &&& bit) 0 then .ptr r 0 else addVal (.ptr r 0) (chanNum F s * 2 ^ 2)

theorem chanNum_eq {j : Job} (hf : j.Fits) {p q : Nat} (hp : p ≤ j.rowSteps) (hq : q ≤ j.colSteps)
    {s : St} (h : Mid j p q s) : chanNum (j.flags % 2 ^ 8) s = chan j p q := by
  have h1 := hf.row
  have h2 := hf.col
  unfold Job.lastRow at h1
  unfold Job.lastCol at h2
  unfold chanNum chan
  rw [flag_chan, h.row, h.col]
  simp only [Val.num]
  cases j.chanCol
  · simp only [Bool.not_false, cond_true, Bool.false_eq_true, if_false]
    exact Nat.mod_eq_of_lt (by omega)
  · simp only [Bool.not_true, cond_false, if_true]
    exact Nat.mod_eq_of_lt (by omega)

theorem biasPtr_eq {j : Job} (hf : j.Fits) {p q : Nat} (hp : p ≤ j.rowSteps) (hq : q ≤ j.colSteps)
    {s : St} (h : Mid j p q s) : chanPtr (j.flags % 2 ^ 8) s .bias 1 = .ptr .bias (4 * biasBase j p q) := by
  unfold chanPtr biasBase
  rw [chanNum_eq hf hp hq h, flag_bias]
  cases j.hasBias
  · rfl
  · simp only [Bool.not_true, cond_false, if_true, addVal]
    exact congrArg _ (by omega)

theorem multPtr_eq {j : Job} (hf : j.Fits) {p q : Nat} (hp : p ≤ j.rowSteps) (hq : q ≤ j.colSteps)
    {s : St} (h : Mid j p q s) (r : Region) : chanPtr (j.flags % 2 ^ 8) s r 8 = .ptr r (4 * multBase j p q) := by
  unfold chanPtr multBase
  rw [chanNum_eq hf hp hq h, flag_per]
  cases j.perChannel
  · rfl
  · simp only [Bool.not_true, cond_false, if_true, addVal]
    exact congrArg _ (by omega)

theorem chan_le {j : Job} {p q : Nat} (hp : p ≤ j.rowSteps) (hq : q ≤ j.colSteps) :
    chan j p q + 4 ≤ j.channels := by
  unfold chan Job.channels Job.lastRow Job.lastCol
  split_ifs <;> omega

theorem bias_fits {j : Job} (hf : j.Fits) {p q : Nat} (hp : p ≤ j.rowSteps) (hq : q ≤ j.colSteps) :
    4 * biasBase j p q + 0 + 16 ≤ j.size .bias := by
  have h := hf.bias
  have := chan_le hp hq
  unfold biasBase
  split_ifs at h ⊢ <;> omega

theorem fix_fits {j : Job} (hf : j.Fits) {p q : Nat} (hp : p ≤ j.rowSteps) (hq : q ≤ j.colSteps) :
    4 * multBase j p q + 0 + 16 ≤ j.size .mulFix := by
  have h := hf.mfix
  have := chan_le hp hq
  unfold multBase
  split_ifs at h ⊢ <;> omega

theorem exp_fits {j : Job} (hf : j.Fits) {p q : Nat} (hp : p ≤ j.rowSteps) (hq : q ≤ j.colSteps) :
    4 * multBase j p q + 0 + 16 ≤ j.size .mulExp := by
  have h := hf.mexp
  have := chan_le hp hq
  unfold multBase
  split_ifs at h ⊢ <;> omega

/-! ### Blocks 7 to 9: the bias -/

theorem b7 (j : Job) (s : St) : Same midRegs s (exec j.env gemm7.body s) ∧
    (exec j.env gemm7.body s).m = s.m ∧
    (exec j.env gemm7.body s).bad = (s.bad || false || false || false || false || false || false ||
      (s.x rRow).isPtr || (s.x rCol).isPtr || false || false || out j.env (chanPtr (j.flags % 2 ^ 8) s .bias 1) 0 16 ||
      false || false || out j.env (chanPtr (j.flags % 2 ^ 8) s .mulFix 8) 0 16 ||
      out j.env (addN (s.x lhsColPtr) 0) 0 16 || out j.env (addN (s.x lhsColPtr) 1) 0 16 ||
      out j.env (addN (s.x lhsColPtr) 2) 0 16 || out j.env (addN (s.x lhsColPtr) 3) 0 16 ||
      out j.env (addN (s.x rhsColPtr) 0) 0 16 || out j.env (addN (s.x rhsColPtr) 1) 0 16 ||
      out j.env (addN (s.x rhsColPtr) 2) 0 16 || out j.env (addN (s.x rhsColPtr) 3) 0 16 || false) ∧
    (exec j.env gemm7.body s).x 6 = .int (j.flags % 2 ^ 8) ∧
    (exec j.env gemm7.body s).z = Nat.beq (j.flags % 2 ^ 8 % 2 ^ 32 &&& 32) 0 ∧
    (exec j.env gemm7.body s).v 8 = (fun _ => 255) ∧
    (exec j.env gemm7.body s).v 13 =
      (ofH fun i => if i = 4 then (Job.u32 j.dstZp % 2 ^ 32 : Nat) else getH (s.v 13) i) ∧
    (exec j.env gemm7.body s).v 14 = vop .add (bytes s (chanPtr (j.flags % 2 ^ 8) s .bias 1) 0)
      (bytes s (chanPtr (j.flags % 2 ^ 8) s .bias 1) 0) (ofS fun _ => (Job.u32 j.prodZp % 2 ^ 32 : Nat)) ∧
    (exec j.env gemm7.body s).v 15 = bytes s (chanPtr (j.flags % 2 ^ 8) s .mulFix 8) 0 ∧
    (exec j.env gemm7.body s).x lhsPtr = addN (s.x lhsColPtr) 4 ∧
    (exec j.env gemm7.body s).x rhsPtr = addN (s.x rhsColPtr) 4 ∧
    (∀ i, i < 4 → (exec j.env gemm7.body s).v i = bytes s (addN (s.x lhsColPtr) i) 0) ∧
    (∀ i, i < 4 → (exec j.env gemm7.body s).v (4 + i) = bytes s (addN (s.x rhsColPtr) i) 0) ∧
    (∀ i, i < 4 → (exec j.env gemm7.body s).v (16 + i) = s.v (16 + i)) ∧
    Same [32, 33] s (exec j.env gemm7.body s) := by
  cases s
  refine ⟨by keep, rfl, rfl, rfl, rfl, rfl, rfl, rfl, rfl, rfl, rfl, ?_, ?_, ?_, by keep⟩
  all_goals
    intro i hi
    interval_cases i <;> rfl

theorem b8 (e : Env) (s : St) : Same midRegs s (exec e gemm8.body s) ∧
    (exec e gemm8.body s).m = s.m ∧ (exec e gemm8.body s).bad = s.bad ∧
    (exec e gemm8.body s).x = s.x ∧
    (∀ i, i < 16 → (exec e gemm8.body s).v i = s.v i) ∧
    (∀ w, w < 4 → (exec e gemm8.body s).v (16 + w) = vop .add (s.v (16 + w)) (s.v (16 + w)) (s.v 14)) := by
  cases s
  refine ⟨by keep, rfl, rfl, rfl, ?_, ?_⟩
  all_goals
    intro i hi
    interval_cases i <;> rfl

theorem b9 (e : Env) (s : St) : Same midRegs s (exec e gemm9.body s) ∧
    (exec e gemm9.body s).m = s.m ∧ (exec e gemm9.body s).bad = s.bad ∧
    (exec e gemm9.body s).x = s.x ∧
    (∀ i, i < 16 → (exec e gemm9.body s).v i = s.v i) ∧
    (∀ w, w < 4 → (exec e gemm9.body s).v (16 + w) =
      vop .add (s.v (16 + w)) (s.v (16 + w)) (ofS fun _ => getS (s.v 14) w)) := by
  cases s
  refine ⟨by keep, rfl, rfl, rfl, ?_, ?_⟩
  all_goals
    intro i hi
    interval_cases i <;> rfl

/-- From label 7 on: the operands of the next block are loaded; flags, zero point and multipliers are
in registers. -/
structure Work (j : Job) (p q : Nat) (f : Nat → Nat → Int) (s : St) : Prop where
  mid : Mid j p q s
  x6 : s.x 6 = .int (j.flags % 2 ^ 8)
  ones : s.v 8 = fun _ => 255
  zp : getH (s.v 13) 4 = wrap16 j.dstZp
  fix : ∀ l, l < 4 → getS (s.v 15) l = j.word .mulFix (multBase j p q + l)
  lc : s.x lhsColPtr = .ptr .lhs (lhsBlk j (nextP j p))
  rc : s.x rhsColPtr = .ptr .rhs (rhsBlk j (nextQ j p q))
  data : Loaded j (lhsBlk j (nextP j p)) (rhsBlk j (nextQ j p q)) s
  tile : Tile f s

/-- The part of an accumulator computed by blocks 7 to 9. -/
def lane (j : Job) (u w : Nat) : Nat := if j.chanCol then w else u

def acc1 (j : Job) (p q u w : Nat) : Int :=
  blockDot j (lhsBlk j p) (rhsBlk j q) u w (j.depthSteps + 1) +
    (j.word .bias (biasBase j p q + lane j u w) + j.prodZp)

theorem biased {j : Job} (hf : j.Fits) {p q : Nat} (hp : p ≤ j.rowSteps) (hq : q ≤ j.colSteps)
    {s : St} (h : Summed j p q s) :
    ∃ s', Reach j.env gemmCode (7, s) (10, s') ∧
      Work j p q (fun u w => wrap32 (acc1 j p q u w)) s' ∧ s'.m = s.m := by
  obtain ⟨k, mm, bad, x6, z, v8, v13, v14, v15, lp, rp, vl, vr, vt, kk⟩ := b7 j s
  have nx : ∀ l, (bif !(exec j.env gemm7.body s).z then 9 else 8) = l →
      Reach j.env gemmCode (7, s) (l, exec j.env gemm7.body s) := fun l hl =>
    Reach.block (b := gemm7) rfl hl
  generalize exec j.env gemm7.body s = s1 at *
  have hp' : nextP j p ≤ j.rowSteps := by unfold nextP; split_ifs <;> omega
  have hq' : nextQ j p q ≤ j.colSteps := by unfold nextQ; split_ifs <;> omega
  have hr := readable hf hp' hq' h.mid.mem
  have h1 := hr.sl
  have h2 := hr.sr
  rw [biasPtr_eq hf hp hq h.mid, multPtr_eq hf hp hq h.mid, h.lc, h.rc] at bad
  simp only [addN_ptr] at bad
  have ok : s1.bad = false := by
    rw [bad, h.mid.ok, h.mid.row, h.mid.col, out_ptr (bias_fits hf hp hq), out_ptr (fix_fits hf hp hq),
      out_ptr (by show _ ≤ j.size .lhs; omega), out_ptr (by show _ ≤ j.size .lhs; omega),
      out_ptr (by show _ ≤ j.size .lhs; omega), out_ptr (by show _ ≤ j.size .lhs; omega),
      out_ptr (by show _ ≤ j.size .rhs; omega), out_ptr (by show _ ≤ j.size .rhs; omega),
      out_ptr (by show _ ≤ j.size .rhs; omega), out_ptr (by show _ ≤ j.size .rhs; omega)]
    rfl
  have m1 : Mid j p q s1 := h.mid.of k mm ok
  have mb := h.mid.mem .bias (by decide) (by decide)
  have mf := h.mid.mem .mulFix (by decide) (by decide)
  have l14 : ∀ l, l < 4 → getS (s1.v 14) l = wrap32 (j.word .bias (biasBase j p q + l) + j.prodZp) := by
    intro l _
    rw [v14, getS_add, biasPtr_eq hf hp hq h.mid, getS_load mb, getS_dupS, wrap32_u32, wrap32_add_r]
  have l15 : ∀ l, l < 4 → getS (s1.v 15) l = j.word .mulFix (multBase j p q + l) := by
    intro l _
    rw [v15, multPtr_eq hf hp hq h.mid, getS_load mf]
  have l13 : getH (s1.v 13) 4 = wrap16 j.dstZp := by
    rw [v13, getH_ofH, if_pos rfl, wrap16_u32]
  have dat : Loaded j (lhsBlk j (nextP j p)) (rhsBlk j (nextQ j p q)) s1 :=
    ⟨by rw [lp, h.lc, addN_ptr], by rw [rp, h.rc, addN_ptr],
      fun i hi => by rw [vl i hi, h.lc, addN_ptr]; exact bytes_eq hr.ml rfl,
      fun i hi => by rw [vr i hi, h.rc, addN_ptr]; exact bytes_eq hr.mr rfl⟩
  have t1 : ∀ w, w < 4 → ∀ u, u < 4 → getS (s1.v (16 + w)) u =
      wrap32 (blockDot j (lhsBlk j p) (rhsBlk j q) u w (j.depthSteps + 1)) := by
    intro w hw u hu
    rw [vt w hw]; exact h.tile w hw u hu
  have lc : s1.x lhsColPtr = _ := (kk.get (by decide)).trans h.lc
  have rc : s1.x rhsColPtr = _ := (kk.get (by decide)).trans h.rc
  rw [flag_chan] at z
  cases hc : j.chanCol with
  | false =>
    have r1 := nx 8 (by rw [z, hc]; rfl)
    have r2 : Reach j.env gemmCode (8, s1) (10, exec j.env gemm8.body s1) :=
      Reach.block (b := gemm8) rfl rfl
    obtain ⟨k2, mm2, bad2, xx2, v2, w2⟩ := b8 j.env s1
    generalize exec j.env gemm8.body s1 = s2 at *
    refine ⟨s2, r1.trans r2, ⟨m1.of k2 mm2 (bad2.trans ok), by rw [xx2]; exact x6,
      by rw [v2 8 (by omega)]; exact v8, by rw [v2 13 (by omega)]; exact l13,
      by rw [v2 15 (by omega)]; exact l15, by rw [xx2]; exact lc, by rw [xx2]; exact rc,
      ⟨by rw [xx2]; exact dat.lp, by rw [xx2]; exact dat.rp,
        fun i hi => by rw [v2 i (by omega)]; exact dat.l i hi,
        fun i hi => by rw [v2 (4 + i) (by omega)]; exact dat.r i hi⟩, ?_⟩, by rw [mm2, mm]⟩
    intro w hw u hu
    rw [w2 w hw, getS_add, t1 w hw u hu, l14 u hu, wrap32_two]
    unfold acc1 lane
    simp only [hc, Bool.false_eq_true, if_false]
  | true =>
    have r1 := nx 9 (by rw [z, hc]; rfl)
    have r2 : Reach j.env gemmCode (9, s1) (10, exec j.env gemm9.body s1) :=
      Reach.block (b := gemm9) rfl rfl
    obtain ⟨k2, mm2, bad2, xx2, v2, w2⟩ := b9 j.env s1
    generalize exec j.env gemm9.body s1 = s2 at *
    refine ⟨s2, r1.trans r2, ⟨m1.of k2 mm2 (bad2.trans ok), by rw [xx2]; exact x6,
      by rw [v2 8 (by omega)]; exact v8, by rw [v2 13 (by omega)]; exact l13,
      by rw [v2 15 (by omega)]; exact l15, by rw [xx2]; exact lc, by rw [xx2]; exact rc,
      ⟨by rw [xx2]; exact dat.lp, by rw [xx2]; exact dat.rp,
        fun i hi => by rw [v2 i (by omega)]; exact dat.l i hi,
        fun i hi => by rw [v2 (4 + i) (by omega)]; exact dat.r i hi⟩, ?_⟩, by rw [mm2, mm]⟩
    intro w hw u hu
    rw [w2 w hw, getS_add, t1 w hw u hu, getS_dupS, getS_wrap, l14 w hw, wrap32_two]
    unfold acc1 lane
    simp only [hc, if_true]

/-! ### Blocks 10 to 13: the sums -/

theorem b10 (e : Env) (s : St) : exec e gemm10.body s =
    { s with z := Nat.beq ((s.x 6).num % 2 ^ 32 &&& 4) 0, lt := false, bad := s.bad || (s.x 6).isPtr } := by
  cases s; rfl

theorem b12 (e : Env) (s : St) : exec e gemm12.body s =
    { s with z := Nat.beq ((s.x 6).num % 2 ^ 32 &&& 2) 0, lt := false, bad := s.bad || (s.x 6).isPtr } := by
  cases s; rfl

/-- Only the flags of the processor differ. -/
theorem Work.flags {j : Job} {p q : Nat} {f : Nat → Nat → Int} {s : St} (h : Work j p q f s)
    (z lt b : Bool) (hb : b = false) : Work j p q f { s with z := z, lt := lt, bad := b } where
  mid := h.mid.of (by keep) rfl hb
  x6 := h.x6
  ones := h.ones
  zp := h.zp
  fix := h.fix
  lc := h.lc
  rc := h.rc
  data := ⟨h.data.lp, h.data.rp, h.data.l, h.data.r⟩
  tile := h.tile

theorem b11 (j : Job) (s : St) : Same midRegs s (exec j.env gemm11.body s) ∧
    (exec j.env gemm11.body s).m = s.m ∧
    (exec j.env gemm11.body s).bad = (s.bad || (s.x rCol).isPtr ||
      out j.env (.ptr .rhsSums (0 + (s.x rCol).num * 2 ^ 2)) 0 16 || false || false) ∧
    Same [6, 32, 33, 34, 35] s (exec j.env gemm11.body s) ∧
    (∀ i, i < 9 → (exec j.env gemm11.body s).v i = s.v i) ∧
    (exec j.env gemm11.body s).v 13 = s.v 13 ∧ (exec j.env gemm11.body s).v 15 = s.v 15 ∧
    (∀ w, w < 4 → (exec j.env gemm11.body s).v (16 + w) =
      eop .mls w (s.v (16 + w)) (ofS fun _ => (Job.u32 j.lhsZp % 2 ^ 32 : Nat))
        (bytes s (.ptr .rhsSums (0 + (s.x rCol).num * 2 ^ 2)) 0)) := by
  cases s
  refine ⟨by keep, rfl, rfl, by keep, ?_, rfl, rfl, ?_⟩
  all_goals
    intro i hi
    interval_cases i <;> rfl

theorem b13 (j : Job) (s : St) : Same midRegs s (exec j.env gemm13.body s) ∧
    (exec j.env gemm13.body s).m = s.m ∧
    (exec j.env gemm13.body s).bad = (s.bad || (s.x rRow).isPtr || false ||
      out j.env (.ptr .lhsSums (0 + (s.x rRow).num * 2 ^ 2)) 0 16 || false ||
      (s.x dstTypeId).isPtr) ∧
    Same [6, 32, 33, 34, 35] s (exec j.env gemm13.body s) ∧
    (∀ i, i < 9 → (exec j.env gemm13.body s).v i = s.v i) ∧
    (exec j.env gemm13.body s).v 13 =
      (ofS fun i => if i = 1 then ((Job.u32 j.rhsZp % 2 ^ 32 : Nat) : Int) else getS (s.v 13) i) ∧
    (exec j.env gemm13.body s).v 15 = s.v 15 ∧
    (∀ w, w < 4 → (exec j.env gemm13.body s).v (16 + w) =
      vop .sub (s.v (16 + w)) (s.v (16 + w))
        (eop .mul 1 (bytes s (.ptr .lhsSums (0 + (s.x rRow).num * 2 ^ 2)) 0)
          (bytes s (.ptr .lhsSums (0 + (s.x rRow).num * 2 ^ 2)) 0)
          (ofS fun i => if i = 1 then ((Job.u32 j.rhsZp % 2 ^ 32 : Nat) : Int) else getS (s.v 13) i))) ∧
    (exec j.env gemm13.body s).z = decide (sgn (s.x dstTypeId).num = sgn 4) := by
  cases s
  refine ⟨by keep, rfl, rfl, by keep, ?_, rfl, rfl, ?_, rfl⟩
  all_goals
    intro i hi
    interval_cases i <;> rfl

theorem wrap32_sub_l (x y : Int) : wrap32 (wrap32 x - y) = wrap32 (x - y) := by
  unfold wrap32; omega
theorem wrap32_sub_r (x y : Int) : wrap32 (x - wrap32 y) = wrap32 (x - y) := by
  unfold wrap32; omega
theorem wrap32_mul_l (x y : Int) : wrap32 (wrap32 x * y) = wrap32 (x * y) := by
  obtain ⟨t, ht⟩ := wrap32_ex x
  rw [ht, ← wrap32_mul_add (x * y) (t * y)]
  exact congrArg wrap32 (by ring)
theorem wrap32_mul_r (x y : Int) : wrap32 (x * wrap32 y) = wrap32 (x * y) := by
  rw [Int.mul_comm, wrap32_mul_l, Int.mul_comm]
theorem wrap32_sub_mul (x y z : Int) : wrap32 (wrap32 x - wrap32 y * z) = wrap32 (x - y * z) := by
  rw [wrap32_sub_l, ← wrap32_sub_r, wrap32_mul_l, wrap32_sub_r]

/-- The accumulator with the terms for the zero points, as an integer. -/
def accInt (j : Job) (p q u w : Nat) : Int :=
  acc1 j p q u w - j.lhsZp * j.word .rhsSums (j.startCol + 4 * q + w) -
    j.rhsZp * j.word .lhsSums (j.startRow + 4 * p + u)

theorem rhsSummed {j : Job} (hf : j.Fits) {p q : Nat} (hq : q ≤ j.colSteps)
    {s : St} (h : Work j p q (fun u w => wrap32 (acc1 j p q u w)) s) :
    ∃ s', Reach j.env gemmCode (10, s) (12, s') ∧ s'.m = s.m ∧
      Work j p q (fun u w => wrap32 (acc1 j p q u w - j.lhsZp * j.word .rhsSums (j.startCol + 4 * q + w))) s' := by
  have r1 : Reach j.env gemmCode (10, s) (11, exec j.env gemm10.body s) := by
    refine Reach.block (b := gemm10) rfl ?_
    show (bif (exec j.env gemm10.body s).z then 12 else 11) = 11
    rw [b10, h.x6]
    show (bif Nat.beq (j.flags % 2 ^ 8 % 2 ^ 32 &&& 4) 0 then 12 else 11) = 11
    rw [flag_rhs]; rfl
  have h1 : Work j p q (fun u w => wrap32 (acc1 j p q u w)) (exec j.env gemm10.body s) := by
    rw [b10]
    refine h.flags _ _ _ ?_
    rw [h.mid.ok, h.x6]; rfl
  have mm1 : (exec j.env gemm10.body s).m = s.m := by rw [b10]
  generalize exec j.env gemm10.body s = s1 at *
  have r2 : Reach j.env gemmCode (11, s1) (12, exec j.env gemm11.body s1) :=
    Reach.block (b := gemm11) rfl rfl
  obtain ⟨k2, mm2, bad2, kk2, v2, v13, v15, w2⟩ := b11 j s1
  generalize exec j.env gemm11.body s1 = s2 at *
  have fr := hf.rsums
  have hl : j.lastCol = j.startCol + 4 * j.colSteps := rfl
  have pe : (0 : Nat) + (s1.x rCol).num * 2 ^ 2 = 4 * (j.startCol + 4 * q) := by
    rw [h1.mid.col]; simp only [Val.num]; omega
  rw [pe] at bad2 w2
  have ms := h1.mid.mem .rhsSums (by decide) (by decide)
  refine ⟨s2, r1.trans r2, mm2.trans mm1, ⟨h1.mid.of k2 mm2 ?_, (kk2.get (by decide)).trans h1.x6,
    (v2 8 (by omega)).trans h1.ones, by rw [v13]; exact h1.zp, by rw [v15]; exact h1.fix,
    (kk2.get (by decide)).trans h1.lc, (kk2.get (by decide)).trans h1.rc,
    ⟨(kk2.get (by decide)).trans h1.data.lp, (kk2.get (by decide)).trans h1.data.rp,
      fun i hi => (v2 i (by omega)).trans (h1.data.l i hi),
      fun i hi => (v2 (4 + i) (by omega)).trans (h1.data.r i hi)⟩, ?_⟩⟩
  · rw [bad2, h1.mid.ok, h1.mid.col, out_ptr (by show _ ≤ j.size .rhsSums; omega)]; rfl
  · intro w hw u hu
    rw [w2 w hw, getS_mls, getS_dupS, wrap32_u32, h1.tile w hw u hu, getS_load ms, wrap32_sub_mul]

theorem lhsSummed {j : Job} (hf : j.Fits) {p q : Nat} (hp : p ≤ j.rowSteps)
    {s : St} (h : Work j p q
      (fun u w => wrap32 (acc1 j p q u w - j.lhsZp * j.word .rhsSums (j.startCol + 4 * q + w))) s) :
    ∃ s', Reach j.env gemmCode (12, s) (if j.dt = .i32 then 43 else 14, s') ∧ s'.m = s.m ∧
      Work j p q (fun u w => wrap32 (accInt j p q u w)) s' := by
  have r1 : Reach j.env gemmCode (12, s) (13, exec j.env gemm12.body s) := by
    refine Reach.block (b := gemm12) rfl ?_
    show (bif (exec j.env gemm12.body s).z then 14 else 13) = 13
    rw [b12, h.x6]
    show (bif Nat.beq (j.flags % 2 ^ 8 % 2 ^ 32 &&& 2) 0 then 14 else 13) = 13
    rw [flag_lhs]; rfl
  have h1 : Work j p q
      (fun u w => wrap32 (acc1 j p q u w - j.lhsZp * j.word .rhsSums (j.startCol + 4 * q + w)))
      (exec j.env gemm12.body s) := by
    rw [b12]
    refine h.flags _ _ _ ?_
    rw [h.mid.ok, h.x6]; rfl
  have mm1 : (exec j.env gemm12.body s).m = s.m := by rw [b12]
  generalize exec j.env gemm12.body s = s1 at *
  obtain ⟨k2, mm2, bad2, kk2, v2, v13, v15, w2, z2⟩ := b13 j s1
  have nx : ∀ l, (bif (exec j.env gemm13.body s1).z then 43 else 14) = l →
      Reach j.env gemmCode (13, s1) (l, exec j.env gemm13.body s1) := fun l hl =>
    Reach.block (b := gemm13) rfl hl
  generalize exec j.env gemm13.body s1 = s2 at *
  have r2 := nx (if j.dt = .i32 then 43 else 14) (by
    rw [z2, h1.mid.type]; cases j.dt <;> rfl)
  have fr := hf.lsums
  have hl : j.lastRow = j.startRow + 4 * j.rowSteps := rfl
  have pe : (0 : Nat) + (s1.x rRow).num * 2 ^ 2 = 4 * (j.startRow + 4 * p) := by
    rw [h1.mid.row]; simp only [Val.num]; omega
  rw [pe] at bad2 w2
  have ms := h1.mid.mem .lhsSums (by decide) (by decide)
  refine ⟨s2, r1.trans r2, mm2.trans mm1, ⟨h1.mid.of k2 mm2 ?_, (kk2.get (by decide)).trans h1.x6,
    (v2 8 (by omega)).trans h1.ones, ?_, by rw [v15]; exact h1.fix,
    (kk2.get (by decide)).trans h1.lc, (kk2.get (by decide)).trans h1.rc,
    ⟨(kk2.get (by decide)).trans h1.data.lp, (kk2.get (by decide)).trans h1.data.rp,
      fun i hi => (v2 i (by omega)).trans (h1.data.l i hi),
      fun i hi => (v2 (4 + i) (by omega)).trans (h1.data.r i hi)⟩, ?_⟩⟩
  · rw [bad2, h1.mid.ok, h1.mid.row, h1.mid.type, out_ptr (by show _ ≤ j.size .lhsSums; omega)]; rfl
  · rw [v13, getH_insS (fun _ => _) _ _ _ (by decide)]
    exact h1.zp
  · intro w hw u hu
    rw [w2 w hw, getS_sub, getS_mul, h1.tile w hw u hu, getS_load ms, getS_ofS, if_pos rfl, wrap32_u32]
    rw [wrap32_mul_r, wrap32_sub_r, wrap32_sub_l, Int.mul_comm (j.word .lhsSums _)]
    rfl

/-! ### Blocks 14 to 16: the multiplier -/

theorem b14 (j : Job) (s : St) :
    Same midRegs s (exec j.env gemm14.body s) ∧
    (exec j.env gemm14.body s).m = s.m ∧
    (exec j.env gemm14.body s).bad = (s.bad || (s.x 6).isPtr || (s.x rRow).isPtr || (s.x rCol).isPtr ||
      (s.x 6).isPtr || false || out j.env (chanPtr (s.x 6).num s .mulExp 8) 0 16 || (s.x 6).isPtr) ∧
    Same [6, 32, 33, 34, 35] s (exec j.env gemm14.body s) ∧
    (∀ i, i < 9 → (exec j.env gemm14.body s).v i = s.v i) ∧
    (exec j.env gemm14.body s).v 13 = s.v 13 ∧ (exec j.env gemm14.body s).v 15 = s.v 15 ∧
    (∀ w, w < 4 → (exec j.env gemm14.body s).v (16 + w) = s.v (16 + w)) ∧
    (exec j.env gemm14.body s).z = Nat.beq ((s.x 6).num % 2 ^ 32 &&& 32) 0 ∧
    (exec j.env gemm14.body s).v 11 =
      vop .smin (s.v 11) (s.v 8) (bytes s (chanPtr (s.x 6).num s .mulExp 8) 0) ∧
    (exec j.env gemm14.body s).v 12 = vop .sub (s.v 12) (bytes s (chanPtr (s.x 6).num s .mulExp 8) 0)
      (vop .smin (s.v 11) (s.v 8) (bytes s (chanPtr (s.x 6).num s .mulExp 8) 0)) := by
  cases s
  refine ⟨by keep, rfl, rfl, by keep, ?_, rfl, rfl, ?_, rfl, rfl, rfl⟩
  all_goals
    intro i hi
    interval_cases i <;> rfl

theorem b15 (e : Env) (s : St) : Same midRegs s (exec e gemm15.body s) ∧
    (exec e gemm15.body s).m = s.m ∧ (exec e gemm15.body s).bad = s.bad ∧
    (exec e gemm15.body s).x = s.x ∧
    (∀ i, i < 16 → (exec e gemm15.body s).v i = s.v i) ∧
    (∀ w, w < 4 → (exec e gemm15.body s).v (16 + w) =
      vop .srshl (s.v 0) (vop .sqdmulh (s.v 0) (vop .sshl (s.v 0) (s.v (16 + w)) (s.v 12)) (s.v 15))
        (s.v 11)) := by
  cases s
  refine ⟨by keep, rfl, rfl, rfl, ?_, ?_⟩
  all_goals
    intro i hi
    interval_cases i <;> rfl

theorem b16 (e : Env) (s : St) : Same midRegs s (exec e gemm16.body s) ∧
    (exec e gemm16.body s).m = s.m ∧ (exec e gemm16.body s).bad = s.bad ∧
    (exec e gemm16.body s).x = s.x ∧
    (∀ i, i < 16 → (exec e gemm16.body s).v i = s.v i) ∧
    (∀ w, w < 4 → (exec e gemm16.body s).v (16 + w) =
      vop .srshl (s.v 0) (eop .sqdmulh w (s.v 0) (vop .sshl (s.v 0) (s.v (16 + w))
        (ofS fun _ => getS (s.v 12) w)) (s.v 15)) (ofS fun _ => getS (s.v 11) w)) := by
  cases s
  refine ⟨by keep, rfl, rfl, rfl, ?_, ?_⟩
  all_goals
    intro i hi
    interval_cases i <;> rfl

/-- The result before the addition of the zero point. -/
def scaledAt (j : Job) (p q u w : Nat) : Int :=
  Simd.Neon.apply (wrap32 (accInt j p q u w)) (j.word .mulFix (multBase j p q + lane j u w))
    (j.word .mulExp (multBase j p q + lane j u w))

theorem multiplied {j : Job} (hf : j.Fits) {p q : Nat} (hp : p ≤ j.rowSteps) (hq : q ≤ j.colSteps)
    {s : St} (h : Work j p q (fun u w => wrap32 (accInt j p q u w)) s) :
    ∃ s', Reach j.env gemmCode (14, s) (17, s') ∧ s'.m = s.m ∧
      Work j p q (scaledAt j p q) s' := by
  obtain ⟨k1, mm1, bad1, kk1, v1, v13, v15, w1, z1, v11, v12⟩ := b14 j s
  have nx : ∀ l, (bif !(exec j.env gemm14.body s).z then 16 else 15) = l →
      Reach j.env gemmCode (14, s) (l, exec j.env gemm14.body s) := fun l hl =>
    Reach.block (b := gemm14) rfl hl
  generalize exec j.env gemm14.body s = s1 at *
  rw [h.x6] at bad1 v11 v12 z1
  simp only [Val.num] at bad1 v11 v12 z1
  rw [multPtr_eq hf hp hq h.mid] at bad1 v11 v12
  have me := h.mid.mem .mulExp (by decide) (by decide)
  have ok : s1.bad = false := by
    rw [bad1, h.mid.ok, h.mid.row, h.mid.col, out_ptr (exp_fits hf hp hq)]; rfl
  have h1 : Work j p q (fun u w => wrap32 (accInt j p q u w)) s1 :=
    ⟨h.mid.of k1 mm1 ok, (kk1.get (by decide)).trans h.x6,
    (v1 8 (by omega)).trans h.ones, by rw [v13]; exact h.zp, by rw [v15]; exact h.fix,
    (kk1.get (by decide)).trans h.lc, (kk1.get (by decide)).trans h.rc,
    ⟨(kk1.get (by decide)).trans h.data.lp, (kk1.get (by decide)).trans h.data.rp,
      fun i hi => (v1 i (by omega)).trans (h.data.l i hi),
      fun i hi => (v1 (4 + i) (by omega)).trans (h.data.r i hi)⟩,
    fun w hw u hu => by rw [w1 w hw]; exact h.tile w hw u hu⟩
  have l11 : ∀ l, getS (s1.v 11) l = wrap32 (min (-1) (j.word .mulExp (multBase j p q + l))) := by
    intro l
    rw [v11, getS_smin, h.ones, getS_ones, getS_load me]
  have l12 : ∀ l, getS (s1.v 12) l = wrap32 (j.word .mulExp (multBase j p q + l) -
      wrap32 (min (-1) (j.word .mulExp (multBase j p q + l)))) := by
    intro l
    rw [v12, getS_sub, getS_smin, h.ones, getS_ones, getS_load me]
  have hw32 : ∀ i, wrap32 (j.word .mulExp i) = j.word .mulExp i := fun i => by
    unfold Job.word; exact Simd.wrap32_wrap32 _
  have fin : ∀ s2, Same midRegs s1 s2 → s2.m = s1.m → s2.bad = s1.bad → s2.x = s1.x →
      (∀ i, i < 16 → s2.v i = s1.v i) → Tile (scaledAt j p q) s2 → s2.m = s.m ∧ Work j p q (scaledAt j p q) s2 := by
    intro s2 k2 mm2 bad2 xx2 v2 t2
    exact ⟨mm2.trans mm1, h1.mid.of k2 mm2 (bad2.trans ok), by rw [xx2]; exact h1.x6,
      by rw [v2 8 (by omega)]; exact h1.ones, by rw [v2 13 (by omega)]; exact h1.zp,
      by rw [v2 15 (by omega)]; exact h1.fix, by rw [xx2]; exact h1.lc, by rw [xx2]; exact h1.rc,
      ⟨by rw [xx2]; exact h1.data.lp, by rw [xx2]; exact h1.data.rp,
        fun i hi => by rw [v2 i (by omega)]; exact h1.data.l i hi,
        fun i hi => by rw [v2 (4 + i) (by omega)]; exact h1.data.r i hi⟩, t2⟩
  rw [flag_chan] at z1
  cases hc : j.chanCol with
  | false =>
    have r1 := nx 15 (by rw [z1, hc]; rfl)
    have r2 : Reach j.env gemmCode (15, s1) (17, exec j.env gemm15.body s1) :=
      Reach.block (b := gemm15) rfl rfl
    obtain ⟨k2, mm2, bad2, xx2, v2, w2⟩ := b15 j.env s1
    generalize exec j.env gemm15.body s1 = s2 at *
    refine ⟨s2, r1.trans r2, fin s2 k2 mm2 bad2 xx2 v2 ?_⟩
    intro w hw u hu
    rw [w2 w hw, getS_srshl, getS_sqdmulh, getS_sshl, h1.tile w hw u hu, l11, l12, h1.fix u hu,
      lane_apply _ _ _ (Simd.wrap32_wrap32 _) (hw32 _)]
    unfold scaledAt lane
    simp only [hc, Bool.false_eq_true, if_false]
  | true =>
    have r1 := nx 16 (by rw [z1, hc]; rfl)
    have r2 : Reach j.env gemmCode (16, s1) (17, exec j.env gemm16.body s1) :=
      Reach.block (b := gemm16) rfl rfl
    obtain ⟨k2, mm2, bad2, xx2, v2, w2⟩ := b16 j.env s1
    generalize exec j.env gemm16.body s1 = s2 at *
    refine ⟨s2, r1.trans r2, fin s2 k2 mm2 bad2 xx2 v2 ?_⟩
    intro w hw u hu
    rw [w2 w hw, getS_srshl, getS_sqdmulhE, getS_sshl, h1.tile w hw u hu, getS_dupS, getS_dupS,
      getS_wrap, getS_wrap, l11, l12, h1.fix w hw, lane_apply _ _ _ (Simd.wrap32_wrap32 _) (hw32 _)]
    unfold scaledAt lane
    simp only [hc, if_true]

end Ruy.Neon

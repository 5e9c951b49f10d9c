import Verif.Neon.DotBlock
import Verif.Neon.Quant
/-
The dot-product kernels from the loads for the next block to the scaled results (labels 5 to 9,
401, 402).
-/
namespace Ruy.Neon.Dot
open Simd (wrap8 wrap16 wrap32 satS32 sshl32 srshl32 sqdmulh32)

/-! ### Channels -/

/-- First channel of the block. -/
def chan (j : Job) (p q : Nat) : Nat := if j.chanCol then j.startCol + 8 * q else j.startRow + 8 * p

/-- Index in the bias array: it only has (zero) entries for one block when there is no bias. -/
def biasBase (j : Job) (p q : Nat) : Nat := if j.hasBias then chan j p q else 0
/-- Index in the arrays of multipliers: they have eight equal entries unless `perchannel`. -/
def multBase (j : Job) (p q : Nat) : Nat := if j.perChannel then chan j p q else 0

theorem chanNum_eq {j : Job} (hf : Fits j) {p q : Nat} (hp : p ≤ j.rowSteps) (hq : q ≤ j.colSteps)
    {s : St} (h : Mid j p q s) : chanNum (j.flags % 2 ^ 8) s = chan j p q := by
  have h1 := hf.row
  have h2 := hf.col
  unfold lastRow at h1
  unfold lastCol at h2
  unfold chanNum chan
  rw [flag_chan, h.row, h.col]
  simp only [Val.num]
  cases j.chanCol
  · simp only [Bool.not_false, cond_true, Bool.false_eq_true, if_false]
    exact Nat.mod_eq_of_lt (by omega)
  · simp only [Bool.not_true, cond_false, if_true]
    exact Nat.mod_eq_of_lt (by omega)

theorem biasPtr_eq {j : Job} (hf : Fits j) {p q : Nat} (hp : p ≤ j.rowSteps) (hq : q ≤ j.colSteps)
    {s : St} (h : Mid j p q s) : chanPtr (j.flags % 2 ^ 8) s .bias 1 = .ptr .bias (4 * biasBase j p q) := by
  unfold chanPtr biasBase
  rw [chanNum_eq hf hp hq h, flag_bias]
  cases j.hasBias
  · rfl
  · simp only [Bool.not_true, cond_false, if_true, addVal]
    exact congrArg _ (by omega)

theorem multPtr_eq {j : Job} (hf : Fits j) {p q : Nat} (hp : p ≤ j.rowSteps) (hq : q ≤ j.colSteps)
    {s : St} (h : Mid j p q s) (r : Region) : chanPtr (j.flags % 2 ^ 8) s r 8 = .ptr r (4 * multBase j p q) := by
  unfold chanPtr multBase
  rw [chanNum_eq hf hp hq h, flag_per]
  cases j.perChannel
  · rfl
  · simp only [Bool.not_true, cond_false, if_true, addVal]
    exact congrArg _ (by omega)

theorem chan_le {j : Job} {p q : Nat} (hp : p ≤ j.rowSteps) (hq : q ≤ j.colSteps) :
    chan j p q + 8 ≤ channels j := by
  unfold chan channels lastRow lastCol
  split_ifs <;> omega

theorem bias_fits {j : Job} (hf : Fits j) {p q : Nat} (hp : p ≤ j.rowSteps) (hq : q ≤ j.colSteps) :
    4 * biasBase j p q + 32 ≤ j.size .bias := by
  have h := hf.bias
  have := chan_le hp hq
  unfold biasBase
  split_ifs at h ⊢ <;> omega

theorem fix_fits {j : Job} (hf : Fits j) {p q : Nat} (hp : p ≤ j.rowSteps) (hq : q ≤ j.colSteps) :
    4 * multBase j p q + 32 ≤ j.size .mulFix := by
  have h := hf.mfix
  have := chan_le hp hq
  unfold multBase
  split_ifs at h ⊢ <;> omega

theorem exp_fits {j : Job} (hf : Fits j) {p q : Nat} (hp : p ≤ j.rowSteps) (hq : q ≤ j.colSteps) :
    4 * multBase j p q + 32 ≤ j.size .mulExp := by
  have h := hf.mexp
  have := chan_le hp hq
  unfold multBase
  split_ifs at h ⊢ <;> omega

/-! ### Blocks 11 to 13: the bias -/

theorem b11 (j : Job) (s : St) : Same midRegs s (exec (env j) dot11.body s) ∧
    (exec (env j) dot11.body s).m = s.m ∧
    (exec (env j) dot11.body s).bad = (s.bad || false || false || false || false ||
      (s.x rRow).isPtr || (s.x rCol).isPtr || false || false || out (env j) (chanPtr (j.flags % 2 ^ 8) s .bias 1) 0 16 ||
      out (env j) (addN (chanPtr (j.flags % 2 ^ 8) s .bias 1) 1) 0 16 ||
      out (env j) (addN (s.x lhsColPtr) 0) 0 16 || out (env j) (addN (s.x lhsColPtr) 1) 0 16 ||
      out (env j) (addN (s.x rhsColPtr) 0) 0 16 || out (env j) (addN (s.x rhsColPtr) 1) 0 16 || false) ∧
    (exec (env j) dot11.body s).x 6 = .int (j.flags % 2 ^ 8) ∧
    (exec (env j) dot11.body s).z = Nat.beq (j.flags % 2 ^ 8 % 2 ^ 32 &&& 32) 0 ∧
    (exec (env j) dot11.body s).v 8 = (fun _ => 255) ∧
    (∀ u, u < 2 → (exec (env j) dot11.body s).v (14 + u) =
      vop .add (bytes s (addN (chanPtr (j.flags % 2 ^ 8) s .bias 1) u) 0)
      (bytes s (addN (chanPtr (j.flags % 2 ^ 8) s .bias 1) u) 0) (ofS fun _ => (Job.u32 j.prodZp % 2 ^ 32 : Nat))) ∧
    (exec (env j) dot11.body s).x lhsPtr = addN (s.x lhsColPtr) 2 ∧
    (exec (env j) dot11.body s).x rhsPtr = addN (s.x rhsColPtr) 2 ∧
    (∀ i, i < 2 → (exec (env j) dot11.body s).v i = bytes s (addN (s.x lhsColPtr) i) 0) ∧
    (∀ i, i < 2 → (exec (env j) dot11.body s).v (2 + i) = bytes s (addN (s.x rhsColPtr) i) 0) ∧
    (∀ i, i < 16 → (exec (env j) dot11.body s).v (16 + i) = s.v (16 + i)) ∧
    Same [32, 33] s (exec (env j) dot11.body s) := by
  cases s
  refine ⟨by keep, rfl, rfl, rfl, rfl, rfl, ?_, rfl, rfl, ?_, ?_, ?_, by keep⟩
  all_goals
    intro i hi
    interval_cases i <;> rfl

theorem b12 (e : Env) (s : St) : Same midRegs s (exec e dot12.body s) ∧
    (exec e dot12.body s).m = s.m ∧ (exec e dot12.body s).bad = s.bad ∧
    (exec e dot12.body s).x = s.x ∧
    (∀ i, i < 9 → (exec e dot12.body s).v i = s.v i) ∧
    (∀ w, w < 8 → ∀ h, h < 2 → (exec e dot12.body s).v (16 + 2 * w + h) =
      vop .add (s.v (16 + 2 * w + h)) (s.v (16 + 2 * w + h)) (s.v (14 + h))) := by
  cases s
  refine ⟨by keep, rfl, rfl, rfl, ?_, ?_⟩
  · intro i hi
    interval_cases i <;> rfl
  · intro w hw h hh
    interval_cases w <;> interval_cases h <;> rfl

theorem b13 (e : Env) (s : St) : Same midRegs s (exec e dot13.body s) ∧
    (exec e dot13.body s).m = s.m ∧ (exec e dot13.body s).bad = s.bad ∧
    (exec e dot13.body s).x = s.x ∧
    (∀ i, i < 9 → (exec e dot13.body s).v i = s.v i) ∧
    (∀ q, q < 2 → ∀ k, k < 4 → ∀ h, h < 2 → (exec e dot13.body s).v (16 + 2 * (4 * q + k) + h) =
      vop .add (s.v (16 + 2 * (4 * q + k) + h)) (s.v (16 + 2 * (4 * q + k) + h)) (ofS fun _ => getS (s.v (14 + q)) k)) := by
  cases s
  refine ⟨by keep, rfl, rfl, rfl, ?_, ?_⟩
  · intro i hi
    interval_cases i <;> rfl
  · intro q hq k hk h hh
    interval_cases q <;> interval_cases k <;> interval_cases h <;> rfl

/-- The operands of the next block are loaded. -/
structure Next (j : Job) (p q : Nat) (s : St) : Prop where
  lc : s.x lhsColPtr = .ptr .lhs (lhsBlk j (nextP j p))
  rc : s.x rhsColPtr = .ptr .rhs (rhsBlk j (nextQ j p q))
  lp : s.x lhsPtr = .ptr .lhs (lhsBlk j (nextP j p) + 32)
  rp : s.x rhsPtr = .ptr .rhs (rhsBlk j (nextQ j p q) + 32)
  data : Groups j (lhsBlk j (nextP j p)) (rhsBlk j (nextQ j p q)) 0 1 s

theorem Next.of {j : Job} {p q : Nat} {s s' : St} (h : Next j p q s) (hs : Same [32, 33, 34, 35] s s')
    (hv : ∀ i, i < 4 → s'.v i = s.v i) : Next j p q s' where
  lc := (hs.get (by decide)).trans h.lc
  rc := (hs.get (by decide)).trans h.rc
  lp := (hs.get (by decide)).trans h.lp
  rp := (hs.get (by decide)).trans h.rp
  data := by
    intro u hu i hi
    obtain rfl : u = 0 := by omega
    obtain ⟨d1, d2⟩ := h.data 0 (by omega) i hi
    exact ⟨(hv _ (by omega)).trans d1, (hv _ (by omega)).trans d2⟩

/-- From label 7 on. -/
structure Work (j : Job) (p q : Nat) (f : Nat → Nat → Int) (s : St) : Prop where
  mid : Mid j p q s
  x6 : s.x 6 = .int (j.flags % 2 ^ 8)
  ones : s.v 8 = fun _ => 255
  nxt : Next j p q s
  tile : Tile f s

theorem Work.of {j : Job} {p q : Nat} {f f' : Nat → Nat → Int} {s s' : St} (h : Work j p q f s) (hs : Same midRegs s s')
    (hm : s'.m = s.m) (hb : s'.bad = false) (hk : Same [6, 32, 33, 34, 35] s s') (hv : ∀ i, i < 9 → s'.v i = s.v i)
    (ht : Tile f' s') : Work j p q f' s' :=
  ⟨h.mid.of hs hm hb, (hk.get (by decide)).trans h.x6, (hv 8 (by omega)).trans h.ones,
    h.nxt.of (hk.sub (by decide)) (fun i hi => hv i (by omega)), ht⟩

theorem same_of_x {l : List Nat} {s s' : St} (h : s'.x = s.x) : Same l s s' := by
  induction l with
  | nil => trivial
  | cons a l ih => exact ⟨by rw [h], ih⟩

/-- The part of an accumulator computed by blocks 11 to 13. -/
def acc1 (j : Job) (p q u w : Nat) : Int :=
  blockDot j (lhsBlk j p) (rhsBlk j q) u w + (j.word .bias (biasBase j p q + lane j u w) + j.prodZp)

theorem biased {P : List Block} (hP : Prog P) {j : Job} (hf : Fits j) {p q : Nat} (hp : p ≤ j.rowSteps)
    (hq : q ≤ j.colSteps) {s : St} (h : Summed j p q s) :
    ∃ s', Reach (env j) P (11, s) (14, s') ∧
      Work j p q (fun u w => wrap32 (acc1 j p q u w)) s' ∧ s'.m = s.m := by
  obtain ⟨k, mm, bad, x6, z, v8, v14, lp, rp, vl, vr, vt, kk⟩ := b11 j s
  have nx : ∀ l, (bif !(exec (env j) dot11.body s).z then 13 else 12) = l →
      Reach (env j) P (11, s) (l, exec (env j) dot11.body s) := fun l hl =>
    hP.block (b := dot11) (by omega) rfl hl
  generalize exec (env j) dot11.body s = s1 at *
  have hp' : nextP j p ≤ j.rowSteps := by unfold nextP; split_ifs <;> omega
  have hq' : nextQ j p q ≤ j.colSteps := by unfold nextQ; split_ifs <;> omega
  have hr := readable hf hp' hq' h.mid.mem
  have h1 := hr.sl
  have h2 := hr.sr
  have h3 := bias_fits hf hp hq
  rw [biasPtr_eq hf hp hq h.mid, h.lc, h.rc] at bad
  simp only [addN_ptr] at bad
  have ok : s1.bad = false := by
    rw [bad, h.mid.ok, h.mid.row, h.mid.col, out_ptr (by show _ ≤ j.size .bias; omega),
      out_ptr (by show _ ≤ j.size .bias; omega),
      out_ptr (by show _ ≤ j.size .lhs; omega), out_ptr (by show _ ≤ j.size .lhs; omega),
      out_ptr (by show _ ≤ j.size .rhs; omega), out_ptr (by show _ ≤ j.size .rhs; omega)]
    rfl
  have m1 : Mid j p q s1 := h.mid.of k mm ok
  have mb := h.mid.mem .bias (by decide) (by decide)
  have l14 : ∀ u, u < 2 → ∀ l, l < 4 →
      getS (s1.v (14 + u)) l = wrap32 (j.word .bias (biasBase j p q + (4 * u + l)) + j.prodZp) := by
    intro u hu l _
    rw [v14 u hu, getS_add, biasPtr_eq hf hp hq h.mid, addN_ptr,
      show 4 * biasBase j p q + 16 * u = 4 * (biasBase j p q + 4 * u) by omega, getS_load mb, getS_dupS, wrap32_u32,
      wrap32_add_r, Nat.add_assoc]
  have nxt : Next j p q s1 :=
    ⟨(kk.get (by decide)).trans h.lc, (kk.get (by decide)).trans h.rc, by rw [lp, h.lc, addN_ptr],
      by rw [rp, h.rc, addN_ptr], by
        intro u hu i hi
        obtain rfl : u = 0 := by omega
        rw [Nat.mul_zero, Nat.zero_add, Nat.zero_add, vl i hi, vr i hi, h.lc, h.rc, addN_ptr, addN_ptr]
        exact ⟨bytes_eq hr.ml rfl, bytes_eq hr.mr rfl⟩⟩
  have t1 : ∀ w, w < 8 → ∀ u, u < 2 → ∀ i, i < 4 → getS (s1.v (16 + 2 * w + u)) i =
      wrap32 (blockDot j (lhsBlk j p) (rhsBlk j q) (4 * u + i) w) := by
    intro w hw u hu i hi
    rw [Nat.add_assoc, vt _ (by omega), ← Nat.add_assoc]; exact h.tile w hw u hu i hi
  rw [flag_chan] at z
  have fin : ∀ s2, Same midRegs s1 s2 → s2.m = s1.m → s2.bad = s1.bad → s2.x = s1.x →
      (∀ i, i < 9 → s2.v i = s1.v i) → Tile (fun u w => wrap32 (acc1 j p q u w)) s2 →
      Work j p q (fun u w => wrap32 (acc1 j p q u w)) s2 ∧ s2.m = s.m := by
    intro s2 k2 mm2 bad2 xx2 v2 t2
    exact ⟨⟨m1.of k2 mm2 (bad2.trans ok), by rw [xx2]; exact x6, (v2 8 (by omega)).trans v8,
      nxt.of (same_of_x xx2) (fun i hi => v2 i (by omega)), t2⟩, mm2.trans mm⟩
  cases hc : j.chanCol with
  | false =>
    have r1 := nx 12 (by rw [z, hc]; rfl)
    have r2 : Reach (env j) P (12, s1) (14, exec (env j) dot12.body s1) :=
      hP.block (b := dot12) (by omega) rfl rfl
    obtain ⟨k2, mm2, bad2, xx2, v2, w2⟩ := b12 (env j) s1
    generalize exec (env j) dot12.body s1 = s2 at *
    refine ⟨s2, r1.trans r2, fin s2 k2 mm2 bad2 xx2 v2 ?_⟩
    intro w hw u hu i hi
    rw [w2 w hw u hu, getS_add, t1 w hw u hu i hi, l14 u hu i hi, wrap32_two]
    unfold acc1 lane
    simp only [hc, Bool.false_eq_true, if_false]
  | true =>
    have r1 := nx 13 (by rw [z, hc]; rfl)
    have r2 : Reach (env j) P (13, s1) (14, exec (env j) dot13.body s1) :=
      hP.block (b := dot13) (by omega) rfl rfl
    obtain ⟨k2, mm2, bad2, xx2, v2, w2⟩ := b13 (env j) s1
    generalize exec (env j) dot13.body s1 = s2 at *
    refine ⟨s2, r1.trans r2, fin s2 k2 mm2 bad2 xx2 v2 ?_⟩
    intro w hw u hu i hi
    have e := w2 (w / 4) (by omega) (w % 4) (by omega) u hu
    rw [show 4 * (w / 4) + w % 4 = w by omega] at e
    rw [e, getS_add, t1 w hw u hu i hi, getS_dupS, getS_wrap, l14 (w / 4) (by omega) (w % 4) (by omega), wrap32_two,
      show 4 * (w / 4) + w % 4 = w by omega]
    unfold acc1 lane
    simp only [hc, if_true]

/-! ### Blocks 14 to 17: the sums -/

theorem b14 (e : Env) (s : St) : exec e dot14.body s =
    { s with z := Nat.beq ((s.x 6).num % 2 ^ 32 &&& 4) 0, lt := false, bad := s.bad || (s.x 6).isPtr } := by
  cases s; rfl

theorem b16 (e : Env) (s : St) : exec e dot16.body s =
    { s with z := Nat.beq ((s.x 6).num % 2 ^ 32 &&& 2) 0, lt := false, bad := s.bad || (s.x 6).isPtr } := by
  cases s; rfl

/-- Only the flags of the processor differ. -/
theorem Work.flags {j : Job} {p q : Nat} {f : Nat → Nat → Int} {s : St} (h : Work j p q f s)
    (z lt b : Bool) (hb : b = false) : Work j p q f { s with z := z, lt := lt, bad := b } :=
  h.of (by keep) rfl hb (by keep) (fun _ _ => rfl) h.tile

theorem b15 (j : Job) (s : St) : Same midRegs s (exec (env j) dot15.body s) ∧
    (exec (env j) dot15.body s).m = s.m ∧
    (exec (env j) dot15.body s).bad = (s.bad || (s.x rCol).isPtr ||
      out (env j) (addN (.ptr .rhsSums (0 + (s.x rCol).num * 2 ^ 2)) 0) 0 16 ||
      out (env j) (addN (.ptr .rhsSums (0 + (s.x rCol).num * 2 ^ 2)) 1) 0 16 || false || false) ∧
    Same [6, 32, 33, 34, 35] s (exec (env j) dot15.body s) ∧
    (∀ i, i < 9 → (exec (env j) dot15.body s).v i = s.v i) ∧
    (∀ q, q < 2 → ∀ k, k < 4 → ∀ h, h < 2 → (exec (env j) dot15.body s).v (16 + 2 * (4 * q + k) + h) =
      eop .mls k (s.v (16 + 2 * (4 * q + k) + h)) (ofS fun _ => (Job.u32 j.lhsZp % 2 ^ 32 : Nat))
        (bytes s (addN (.ptr .rhsSums (0 + (s.x rCol).num * 2 ^ 2)) q) 0)) := by
  cases s
  refine ⟨by keep, rfl, rfl, by keep, ?_, ?_⟩
  · intro i hi
    interval_cases i <;> rfl
  · intro q hq k hk h hh
    interval_cases q <;> interval_cases k <;> interval_cases h <;> rfl

theorem b17 (j : Job) (s : St) : Same midRegs s (exec (env j) dot17.body s) ∧
    (exec (env j) dot17.body s).m = s.m ∧
    (exec (env j) dot17.body s).bad = (s.bad || (s.x rRow).isPtr || false ||
      out (env j) (addN (.ptr .lhsSums (0 + (s.x rRow).num * 2 ^ 2)) 0) 0 16 ||
      out (env j) (addN (.ptr .lhsSums (0 + (s.x rRow).num * 2 ^ 2)) 1) 0 16 || false ||
      (s.x dstTypeId).isPtr) ∧
    Same [6, 32, 33, 34, 35] s (exec (env j) dot17.body s) ∧
    (∀ i, i < 9 → (exec (env j) dot17.body s).v i = s.v i) ∧
    (∀ w, w < 8 → ∀ h, h < 2 → (exec (env j) dot17.body s).v (16 + 2 * w + h) =
      vop .sub (s.v (16 + 2 * w + h)) (s.v (16 + 2 * w + h))
        (eop .mul 1 (bytes s (addN (.ptr .lhsSums (0 + (s.x rRow).num * 2 ^ 2)) h) 0)
          (bytes s (addN (.ptr .lhsSums (0 + (s.x rRow).num * 2 ^ 2)) h) 0)
          (ofS fun i => if i = 1 then ((Job.u32 j.rhsZp % 2 ^ 32 : Nat) : Int) else getS (s.v 13) i))) ∧
    (exec (env j) dot17.body s).z = decide (sgn (s.x dstTypeId).num = sgn 4) := by
  cases s
  refine ⟨by keep, rfl, rfl, by keep, ?_, ?_, rfl⟩
  · intro i hi
    interval_cases i <;> rfl
  · intro w hw h hh
    interval_cases w <;> interval_cases h <;> rfl

/-- The accumulator with the terms for the zero points, as an integer. -/
def accInt (j : Job) (p q u w : Nat) : Int :=
  acc1 j p q u w - j.lhsZp * j.word .rhsSums (j.startCol + 8 * q + w) -
    j.rhsZp * j.word .lhsSums (j.startRow + 8 * p + u)

theorem rhsSummed {P : List Block} (hP : Prog P) {j : Job} (hf : Fits j) {p q : Nat} (hq : q ≤ j.colSteps)
    {s : St} (h : Work j p q (fun u w => wrap32 (acc1 j p q u w)) s) :
    ∃ s', Reach (env j) P (14, s) (16, s') ∧ s'.m = s.m ∧
      Work j p q (fun u w => wrap32 (acc1 j p q u w - j.lhsZp * j.word .rhsSums (j.startCol + 8 * q + w))) s' := by
  have r1 : Reach (env j) P (14, s) (15, exec (env j) dot14.body s) := by
    refine hP.block (b := dot14) (by omega) rfl ?_
    show (bif (exec (env j) dot14.body s).z then 16 else 15) = 15
    rw [b14, h.x6]
    show (bif Nat.beq (j.flags % 2 ^ 8 % 2 ^ 32 &&& 4) 0 then 16 else 15) = 15
    rw [flag_rhs]; rfl
  have h1 : Work j p q (fun u w => wrap32 (acc1 j p q u w)) (exec (env j) dot14.body s) := by
    rw [b14]
    refine h.flags _ _ _ ?_
    rw [h.mid.ok, h.x6]; rfl
  have mm1 : (exec (env j) dot14.body s).m = s.m := by rw [b14]
  generalize exec (env j) dot14.body s = s1 at *
  have r2 : Reach (env j) P (15, s1) (16, exec (env j) dot15.body s1) :=
    hP.block (b := dot15) (by omega) rfl rfl
  obtain ⟨k2, mm2, bad2, kk2, v2, w2⟩ := b15 j s1
  generalize exec (env j) dot15.body s1 = s2 at *
  have fr := hf.rsums
  have hl : lastCol j = j.startCol + 8 * j.colSteps := rfl
  have pe : (0 : Nat) + (s1.x rCol).num * 2 ^ 2 = 4 * (j.startCol + 8 * q) := by
    rw [h1.mid.col]; simp only [Val.num]; omega
  rw [pe] at bad2 w2
  simp only [addN_ptr] at bad2 w2
  have ms := h1.mid.mem .rhsSums (by decide) (by decide)
  refine ⟨s2, r1.trans r2, mm2.trans mm1, h1.of k2 mm2 ?_ kk2 v2 ?_⟩
  · rw [bad2, h1.mid.ok, h1.mid.col, out_ptr (by show _ ≤ j.size .rhsSums; omega),
      out_ptr (by show _ ≤ j.size .rhsSums; omega)]; rfl
  · intro w hw u hu i hi
    have e := w2 (w / 4) (by omega) (w % 4) (by omega) u hu
    rw [show 4 * (w / 4) + w % 4 = w by omega,
      show 4 * (j.startCol + 8 * q) + 16 * (w / 4) = 4 * (j.startCol + 8 * q + 4 * (w / 4)) by omega] at e
    rw [e, getS_mls, getS_dupS, wrap32_u32, h1.tile w hw u hu i hi, getS_load ms, wrap32_sub_mul,
      show j.startCol + 8 * q + 4 * (w / 4) + w % 4 = j.startCol + 8 * q + w by omega]

theorem lhsSummed {P : List Block} (hP : Prog P) {j : Job} (hf : Fits j) {p q : Nat} (hp : p ≤ j.rowSteps)
    {s : St} (h : Work j p q
      (fun u w => wrap32 (acc1 j p q u w - j.lhsZp * j.word .rhsSums (j.startCol + 8 * q + w))) s) :
    ∃ s', Reach (env j) P (16, s) (if j.dt = .i32 then 52 else 18, s') ∧ s'.m = s.m ∧
      Work j p q (fun u w => wrap32 (accInt j p q u w)) s' := by
  have r1 : Reach (env j) P (16, s) (17, exec (env j) dot16.body s) := by
    refine hP.block (b := dot16) (by omega) rfl ?_
    show (bif (exec (env j) dot16.body s).z then 18 else 17) = 17
    rw [b16, h.x6]
    show (bif Nat.beq (j.flags % 2 ^ 8 % 2 ^ 32 &&& 2) 0 then 18 else 17) = 17
    rw [flag_lhs]; rfl
  have h1 : Work j p q
      (fun u w => wrap32 (acc1 j p q u w - j.lhsZp * j.word .rhsSums (j.startCol + 8 * q + w)))
      (exec (env j) dot16.body s) := by
    rw [b16]
    refine h.flags _ _ _ ?_
    rw [h.mid.ok, h.x6]; rfl
  have mm1 : (exec (env j) dot16.body s).m = s.m := by rw [b16]
  generalize exec (env j) dot16.body s = s1 at *
  obtain ⟨k2, mm2, bad2, kk2, v2, w2, z2⟩ := b17 j s1
  have nx : ∀ l, (bif (exec (env j) dot17.body s1).z then 52 else 18) = l →
      Reach (env j) P (17, s1) (l, exec (env j) dot17.body s1) := fun l hl =>
    hP.block (b := dot17) (by omega) rfl hl
  generalize exec (env j) dot17.body s1 = s2 at *
  have r2 := nx (if j.dt = .i32 then 52 else 18) (by
    rw [z2, h1.mid.type]; cases j.dt <;> rfl)
  have fr := hf.lsums
  have hl : lastRow j = j.startRow + 8 * j.rowSteps := rfl
  have pe : (0 : Nat) + (s1.x rRow).num * 2 ^ 2 = 4 * (j.startRow + 8 * p) := by
    rw [h1.mid.row]; simp only [Val.num]; omega
  rw [pe] at bad2 w2
  simp only [addN_ptr] at bad2 w2
  have ms := h1.mid.mem .lhsSums (by decide) (by decide)
  refine ⟨s2, r1.trans r2, mm2.trans mm1, h1.of k2 mm2 ?_ kk2 v2 ?_⟩
  · rw [bad2, h1.mid.ok, h1.mid.row, h1.mid.type, out_ptr (by show _ ≤ j.size .lhsSums; omega),
      out_ptr (by show _ ≤ j.size .lhsSums; omega)]; rfl
  · intro w hw u hu i hi
    rw [w2 w hw u hu, getS_sub, getS_mul, h1.tile w hw u hu i hi,
      show 4 * (j.startRow + 8 * p) + 16 * u = 4 * (j.startRow + 8 * p + 4 * u) by omega, getS_load ms,
      getS_ofS, if_pos rfl, wrap32_u32]
    rw [wrap32_mul_r, wrap32_sub_r, wrap32_sub_l, Int.mul_comm (j.word .lhsSums _), Nat.add_assoc _ (4 * u)]
    rfl

/-! ### Blocks 18 to 22: the multiplier -/

theorem b18 (j : Job) (s : St) :
    Same midRegs s (exec (env j) dot18.body s) ∧
    (exec (env j) dot18.body s).m = s.m ∧
    (exec (env j) dot18.body s).bad = (s.bad || (s.x 6).isPtr || (s.x rRow).isPtr || (s.x rCol).isPtr ||
      (s.x 6).isPtr || false || out (env j) (chanPtr (s.x 6).num s .mulExp 8) 0 16 ||
      out (env j) (addVal (chanPtr (s.x 6).num s .mulExp 8) 0) 16 16 || false ||
      out (env j) (chanPtr (s.x 6).num s .mulFix 8) 0 16 ||
      out (env j) (addVal (chanPtr (s.x 6).num s .mulFix 8) 0) 16 16 || (s.x 6).isPtr) ∧
    Same [6, 32, 33, 34, 35] s (exec (env j) dot18.body s) ∧
    (∀ i, i < 9 → (exec (env j) dot18.body s).v i = s.v i) ∧
    (∀ i, i < 16 → (exec (env j) dot18.body s).v (16 + i) = s.v (16 + i)) ∧
    (exec (env j) dot18.body s).z = Nat.beq ((s.x 6).num % 2 ^ 32 &&& 32) 0 ∧
    ((exec (env j) dot18.body s).v (11 + 0) =
      vop .smin (s.v 11) (s.v 8) (bytes s (chanPtr (s.x 6).num s .mulExp 8) 0)) ∧
    ((exec (env j) dot18.body s).v (11 + 1) =
      vop .smin (s.v 12) (s.v 8) (bytes s (addVal (chanPtr (s.x 6).num s .mulExp 8) 0) 16)) ∧
    ((exec (env j) dot18.body s).v (9 + 0) = vop .sub (s.v 9) (bytes s (chanPtr (s.x 6).num s .mulExp 8) 0)
      (vop .smin (s.v 11) (s.v 8) (bytes s (chanPtr (s.x 6).num s .mulExp 8) 0))) ∧
    ((exec (env j) dot18.body s).v (9 + 1) = vop .sub (s.v 10) (bytes s (addVal (chanPtr (s.x 6).num s .mulExp 8) 0) 16)
      (vop .smin (s.v 12) (s.v 8) (bytes s (addVal (chanPtr (s.x 6).num s .mulExp 8) 0) 16))) ∧
    ((exec (env j) dot18.body s).v (14 + 0) = bytes s (chanPtr (s.x 6).num s .mulFix 8) 0) ∧
    ((exec (env j) dot18.body s).v (14 + 1) = bytes s (addVal (chanPtr (s.x 6).num s .mulFix 8) 0) 16) := by
  cases s
  refine ⟨by keep, rfl, rfl, by keep, ?_, ?_, rfl, rfl, rfl, rfl, rfl, rfl, rfl⟩
  all_goals
    intro i hi
    interval_cases i <;> rfl

theorem b19 (e : Env) (s : St) : Same midRegs s (exec e dot19.body s) ∧
    (exec e dot19.body s).m = s.m ∧ (exec e dot19.body s).bad = s.bad ∧
    (exec e dot19.body s).x = s.x ∧
    (∀ i, i < 16 → (exec e dot19.body s).v i = s.v i) ∧
    (∀ w, w < 8 → ∀ h, h < 2 → (exec e dot19.body s).v (16 + 2 * w + h) =
      vop .sshl (s.v 0) (s.v (16 + 2 * w + h)) (s.v (9 + h))) := by
  cases s
  refine ⟨by keep, rfl, rfl, rfl, ?_, ?_⟩
  · intro i hi
    interval_cases i <;> rfl
  · intro w hw h hh
    interval_cases w <;> interval_cases h <;> rfl

theorem b20 (e : Env) (s : St) : Same midRegs s (exec e dot20.body s) ∧
    (exec e dot20.body s).m = s.m ∧ (exec e dot20.body s).bad = s.bad ∧
    (exec e dot20.body s).x = s.x ∧
    (∀ i, i < 16 → (exec e dot20.body s).v i = s.v i) ∧
    (∀ w, w < 8 → ∀ h, h < 2 → (exec e dot20.body s).v (16 + 2 * w + h) =
      vop .srshl (s.v 0) (vop .sqdmulh (s.v 0) (s.v (16 + 2 * w + h)) (s.v (14 + h))) (s.v (11 + h))) := by
  cases s
  refine ⟨by keep, rfl, rfl, rfl, ?_, ?_⟩
  · intro i hi
    interval_cases i <;> rfl
  · intro w hw h hh
    interval_cases w <;> interval_cases h <;> rfl

theorem b21 (e : Env) (s : St) : Same midRegs s (exec e dot21.body s) ∧
    (exec e dot21.body s).m = s.m ∧ (exec e dot21.body s).bad = s.bad ∧
    (exec e dot21.body s).x = s.x ∧
    (∀ i, i < 4 → (exec e dot21.body s).v i = s.v i) ∧
    (∀ i, i < 8 → (exec e dot21.body s).v (8 + i) = s.v (8 + i)) ∧
    (∀ q, q < 2 → ∀ k, k < 4 → ∀ h, h < 2 → (exec e dot21.body s).v (16 + 2 * (4 * q + k) + h) =
      vop .sshl (s.v 0) (s.v (16 + 2 * (4 * q + k) + h)) (ofS fun _ => getS (s.v (9 + q)) k)) := by
  cases s
  refine ⟨by keep, rfl, rfl, rfl, ?_, ?_, ?_⟩
  · intro i hi
    interval_cases i <;> rfl
  · intro i hi
    interval_cases i <;> rfl
  · intro q hq k hk h hh
    interval_cases q <;> interval_cases k <;> interval_cases h <;> rfl

theorem b22 (e : Env) (s : St) : Same midRegs s (exec e dot22.body s) ∧
    (exec e dot22.body s).m = s.m ∧ (exec e dot22.body s).bad = s.bad ∧
    (exec e dot22.body s).x = s.x ∧
    (∀ i, i < 4 → (exec e dot22.body s).v i = s.v i) ∧
    (∀ q, q < 2 → ∀ k, k < 4 → ∀ h, h < 2 → (exec e dot22.body s).v (16 + 2 * (4 * q + k) + h) =
      vop .srshl (s.v 0) (eop .sqdmulh k (s.v 0) (s.v (16 + 2 * (4 * q + k) + h)) (s.v (14 + q)))
        (ofS fun _ => getS (s.v (11 + q)) k)) := by
  cases s
  refine ⟨by keep, rfl, rfl, rfl, ?_, ?_⟩
  · intro i hi
    interval_cases i <;> rfl
  · intro q hq k hk h hh
    interval_cases q <;> interval_cases k <;> interval_cases h <;> rfl

/-- The result before the addition of the zero point. -/
def scaledAt (j : Job) (p q u w : Nat) : Int :=
  Simd.Neon.apply (wrap32 (accInt j p q u w)) (j.word .mulFix (multBase j p q + lane j u w))
    (j.word .mulExp (multBase j p q + lane j u w))

/-- At label 9, and before the store of int32: what is needed by the stores. -/
structure Done (j : Job) (p q : Nat) (f : Nat → Nat → Int) (s : St) : Prop where
  mid : Mid j p q s
  nxt : Next j p q s
  tile : Tile f s

theorem getS_load16 {j : Job} {s : St} {r : Region} {i : Nat} (h : s.m r = j.m r) (l : Nat) :
    getS (bytes s (addVal (.ptr r (4 * i)) 0) 16) l = j.word r (i + (4 + l)) := by
  have e : bytes s (addVal (.ptr r (4 * i)) 0) 16 = bytes s (.ptr r (4 * (i + 4))) 0 := by
    unfold bytes
    simp only [addVal, Val.region, Val.off]
    funext b
    exact congrArg _ (by omega)
  rw [e, getS_load h, Nat.add_assoc]

theorem multiplied {P : List Block} (hP : Prog P) {j : Job} (hf : Fits j) {p q : Nat} (hp : p ≤ j.rowSteps)
    (hq : q ≤ j.colSteps) {s : St} (h : Work j p q (fun u w => wrap32 (accInt j p q u w)) s) :
    ∃ s', Reach (env j) P (18, s) (23, s') ∧ s'.m = s.m ∧ Done j p q (scaledAt j p q) s' := by
  obtain ⟨k1, mm1, bad1, kk1, v1, w1, z1, va, vb, vc, vd, ve, vf⟩ := b18 j s
  have nx : ∀ l, (bif !(exec (env j) dot18.body s).z then 21 else 19) = l →
      Reach (env j) P (18, s) (l, exec (env j) dot18.body s) := fun l hl =>
    hP.block (b := dot18) (by omega) rfl hl
  generalize exec (env j) dot18.body s = s1 at *
  rw [h.x6] at bad1 va vb vc vd ve vf z1
  simp only [Val.num] at bad1 va vb vc vd ve vf z1
  rw [multPtr_eq hf hp hq h.mid] at va vb vc vd ve vf
  rw [multPtr_eq hf hp hq h.mid, multPtr_eq hf hp hq h.mid] at bad1
  have me := h.mid.mem .mulExp (by decide) (by decide)
  have mf := h.mid.mem .mulFix (by decide) (by decide)
  have h3 := fix_fits hf hp hq
  have h4 := exp_fits hf hp hq
  have ok : s1.bad = false := by
    rw [bad1, h.mid.ok, h.mid.row, h.mid.col]
    simp only [addVal]
    rw [out_ptr (by show _ ≤ j.size .mulExp; omega), out_ptr (by show _ ≤ j.size .mulExp; omega),
      out_ptr (by show _ ≤ j.size .mulFix; omega), out_ptr (by show _ ≤ j.size .mulFix; omega)]
    rfl
  have h1 : Work j p q (fun u w => wrap32 (accInt j p q u w)) s1 :=
    h.of k1 mm1 ok kk1 v1 (fun w hw u hu i hi => by
      rw [Nat.add_assoc, w1 _ (by omega), ← Nat.add_assoc]; exact h.tile w hw u hu i hi)
  have l11 : ∀ u, u < 2 → ∀ l, getS (s1.v (11 + u)) l = wrap32 (min (-1) (j.word .mulExp (multBase j p q + (4 * u + l)))) := by
    intro u hu l
    match u, hu with
    | 0, _ => rw [va, getS_smin, h.ones, getS_ones, getS_load me, Nat.mul_zero, Nat.zero_add]
    | 1, _ => rw [vb, getS_smin, h.ones, getS_ones, getS_load16 me, Nat.mul_one]
  have l9 : ∀ u, u < 2 → ∀ l, getS (s1.v (9 + u)) l = wrap32 (j.word .mulExp (multBase j p q + (4 * u + l)) -
      wrap32 (min (-1) (j.word .mulExp (multBase j p q + (4 * u + l))))) := by
    intro u hu l
    match u, hu with
    | 0, _ => rw [vc, getS_sub, getS_smin, h.ones, getS_ones, getS_load me, Nat.mul_zero, Nat.zero_add]
    | 1, _ => rw [vd, getS_sub, getS_smin, h.ones, getS_ones, getS_load16 me, Nat.mul_one]
  have l14 : ∀ u, u < 2 → ∀ l, getS (s1.v (14 + u)) l = j.word .mulFix (multBase j p q + (4 * u + l)) := by
    intro u hu l
    match u, hu with
    | 0, _ => rw [ve, getS_load mf, Nat.mul_zero, Nat.zero_add]
    | 1, _ => rw [vf, getS_load16 mf, Nat.mul_one]
  have hw32 : ∀ i, wrap32 (j.word .mulExp i) = j.word .mulExp i := fun i => by
    unfold Job.word; exact Simd.wrap32_wrap32 _
  rw [flag_chan] at z1
  cases hc : j.chanCol with
  | false =>
    have r1 := nx 19 (by rw [z1, hc]; rfl)
    have r2 : Reach (env j) P (19, s1) (20, exec (env j) dot19.body s1) :=
      hP.block (b := dot19) (by omega) rfl rfl
    obtain ⟨k2, mm2, bad2, xx2, v2, w2⟩ := b19 (env j) s1
    generalize exec (env j) dot19.body s1 = s2 at *
    have r3 : Reach (env j) P (20, s2) (23, exec (env j) dot20.body s2) :=
      hP.block (b := dot20) (by omega) rfl rfl
    obtain ⟨k3, mm3, bad3, xx3, v3, w3⟩ := b20 (env j) s2
    generalize exec (env j) dot20.body s2 = s3 at *
    refine ⟨s3, r1.trans (r2.trans r3), mm3.trans (mm2.trans mm1),
      h1.mid.of (k2.trans k3) (mm3.trans mm2) (bad3.trans (bad2.trans ok)),
      h1.nxt.of (same_of_x (xx3.trans xx2)) (fun i hi => (v3 i (by omega)).trans (v2 i (by omega))), ?_⟩
    intro w hw u hu i hi
    rw [w3 w hw u hu, getS_srshl, getS_sqdmulh, w2 w hw u hu, getS_sshl, h1.tile w hw u hu i hi, v2 (14 + u) (by omega),
      v2 (11 + u) (by omega), l9 u hu, l11 u hu, l14 u hu, lane_apply _ _ _ (Simd.wrap32_wrap32 _) (hw32 _)]
    unfold scaledAt lane
    simp only [hc, Bool.false_eq_true, if_false]
  | true =>
    have r1 := nx 21 (by rw [z1, hc]; rfl)
    have r2 : Reach (env j) P (21, s1) (22, exec (env j) dot21.body s1) :=
      hP.block (b := dot21) (by omega) rfl rfl
    obtain ⟨k2, mm2, bad2, xx2, v2, v2', w2⟩ := b21 (env j) s1
    generalize exec (env j) dot21.body s1 = s2 at *
    have r3 : Reach (env j) P (22, s2) (23, exec (env j) dot22.body s2) :=
      hP.block (b := dot22) (by omega) rfl rfl
    obtain ⟨k3, mm3, bad3, xx3, v3, w3⟩ := b22 (env j) s2
    generalize exec (env j) dot22.body s2 = s3 at *
    refine ⟨s3, r1.trans (r2.trans r3), mm3.trans (mm2.trans mm1),
      h1.mid.of (k2.trans k3) (mm3.trans mm2) (bad3.trans (bad2.trans ok)),
      h1.nxt.of (same_of_x (xx3.trans xx2)) (fun i hi => (v3 i (by omega)).trans (v2 i (by omega))), ?_⟩
    intro w hw u hu i hi
    have e3 := w3 (w / 4) (by omega) (w % 4) (by omega) u hu
    have e2 := w2 (w / 4) (by omega) (w % 4) (by omega) u hu
    rw [show 4 * (w / 4) + w % 4 = w by omega] at e3 e2
    have f1 : s2.v (14 + w / 4) = s1.v (14 + w / 4) := by
      have := v2' (6 + w / 4) (by omega); rwa [show 8 + (6 + w / 4) = 14 + w / 4 by omega] at this
    have f2 : s2.v (11 + w / 4) = s1.v (11 + w / 4) := by
      have := v2' (3 + w / 4) (by omega); rwa [show 8 + (3 + w / 4) = 11 + w / 4 by omega] at this
    rw [e3, getS_srshl, getS_sqdmulhE, e2, getS_sshl, h1.tile w hw u hu i hi, f1, f2, getS_dupS, getS_dupS,
      getS_wrap, getS_wrap, l9 _ (by omega), l11 _ (by omega), l14 _ (by omega),
      lane_apply _ _ _ (Simd.wrap32_wrap32 _) (hw32 _), show 4 * (w / 4) + w % 4 = w by omega]
    unfold scaledAt lane
    simp only [hc, if_true]

theorem Work.done {j : Job} {p q : Nat} {f : Nat → Nat → Int} {s : St} (h : Work j p q f s) : Done j p q f s :=
  ⟨h.mid, h.nxt, h.tile⟩

end Ruy.Neon.Dot

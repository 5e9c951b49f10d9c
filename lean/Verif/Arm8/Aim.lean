import Verif.Arm8.Depth
import Verif.Neon.Quant
/-
The ARM32 8-bit kernel: the addresses of the next block, and the bias (labels 4, 5, 1000, 1001, 1002, 6).
-/
namespace Ruy.Arm8
open Ruy.Neon (St Val Region Vec VOp vop sgn sgn_of sgn_lt sgn_eq Same addVal addN addN_ptr out bytes le2 le4
  getB getU getH getS ofS getS_ofS getS_add getS_wrap wrap32_add_l wrap32_add_r wrap32_two)
open Simd (wrap8 wrap16 wrap32)

/-! ### The addresses of the next block -/

def nextP (j : Job) (p : Nat) : Nat := if p < j.rowSteps then p + 1 else 0
def nextQ (j : Job) (p q : Nat) : Nat := if p < j.rowSteps then q else if q < j.colSteps then q + 1 else q

theorem k4x (e : Env) (s : St) : Same midRegs s (exec e k4.body s) ∧ (exec e k4.body s).m = s.m ∧
    (exec e k4.body s).v = s.v ∧
    (exec e k4.body s).bad = (s.bad || Nat.blt (s.x 13).num (64 + 4) || !(s.x 128).isPtr || (e.field .lhsStride).isPtr ||
      Nat.blt (s.x 13).num (64 + 4)) ∧
    (exec e k4.body s).x 128 = addVal (s.x 128) ((e.field .lhsStride).num * 2 ^ 2 % 2 ^ 32) ∧
    (exec e k4.body s).x 144 = s.x 144 := by
  cases s; exact ⟨by keep, rfl, rfl, rfl, rfl, rfl⟩

theorem k5x (e : Env) (s : St) : Same midRegs s (exec e k5.body s) ∧ (exec e k5.body s).m = s.m ∧
    (exec e k5.body s).v = s.v ∧
    (exec e k5.body s).bad = (s.bad || Nat.blt (s.x 13).num (64 + 4) || Nat.blt (s.x 13).num (48 + 4) ||
      (s.x 112).isPtr || (e.field .lastCol).isPtr) ∧
    (exec e k5.body s).x 128 = e.field .lhsBasePtr ∧ (exec e k5.body s).x 144 = s.x 144 ∧
    (exec e k5.body s).lt = decide (sgn (s.x 112).num < sgn (e.field .lastCol).num) := by
  cases s; exact ⟨by keep, rfl, rfl, rfl, rfl, rfl, rfl⟩

theorem k6x (e : Env) (s : St) : Same midRegs s (exec e k6.body s) ∧ (exec e k6.body s).m = s.m ∧
    (exec e k6.body s).v = s.v ∧
    (exec e k6.body s).bad = (s.bad || Nat.blt (s.x 13).num (80 + 4) || !(s.x 144).isPtr || (e.field .rhsStride).isPtr ||
      Nat.blt (s.x 13).num (80 + 4)) ∧
    (exec e k6.body s).x 144 = addVal (s.x 144) ((e.field .rhsStride).num * 2 ^ 1 % 2 ^ 32) ∧
    (exec e k6.body s).x 128 = s.x 128 := by
  cases s; exact ⟨by keep, rfl, rfl, rfl, rfl, rfl⟩

/-- Label 5: the addresses of the next block are known. -/
structure Aimed (j : Job) (ty : Neon.Dt) (p q : Nat) (f : Nat → Nat → Int) (s : St) : Prop where
  mid : Mid j ty p q s
  lc : s.x 128 = .ptr .lhs (lhsBlk j (nextP j p))
  rc : s.x 144 = .ptr .rhs (rhsBlk j (nextQ j p q))
  tile : Tile f s

theorem Tile.congr {f : Nat → Nat → Int} {s s' : St} (h : Tile f s) (hv : s'.v = s.v) : Tile f s' := by
  intro u hu w hw; rw [hv]; exact h u hu w hw

theorem aimed {j : Job} (hf : j.Fits) {ty : Neon.Dt} {p q : Nat} (hq : q ≤ j.colSteps) {s : St}
    (h : Summed j ty p q s) : ∃ s', Reach j.env kernel (if p < j.rowSteps then 4 else 5, s) (7, s') ∧
      Aimed j ty p q (fun u w => wrap32 (blockDot j (lhsBlk j p) (rhsBlk j q) u w (j.depthSteps + 1))) s' ∧ s'.m = s.m := by
  have hcol := hf.col
  have hlc : j.lastCol = j.startCol + 2 * j.colSteps := rfl
  by_cases hp' : p < j.rowSteps
  · rw [if_pos hp']
    have eP : nextP j p = p + 1 := by unfold nextP; rw [if_pos hp']
    have eQ : nextQ j p q = q := by unfold nextQ; rw [if_pos hp']
    obtain ⟨a1, a2, a3, a4, a5, a6⟩ := k4x j.env s
    have n1 : Reach j.env kernel (4, s) (7, exec j.env k4.body s) := Reach.block (b := k4) rfl rfl
    generalize exec j.env k4.body s = s1 at *
    rw [h.mid.ok, h.mid.sp, h.lc] at a4
    rw [h.lc] at a5
    have small : j.lhsStride * 2 ^ 2 < 2 ^ 32 := by
      have e1 := hf.lhsSize
      have e2 := hf.memory .lhs
      have e3 : 2 * (4 * j.lhsStride) ≤ (j.rowSteps + 1) * (4 * j.lhsStride) := Nat.mul_le_mul_right _ (by omega)
      have hdep : j.depth = 16 * (j.depthSteps + 1) := rfl
      have := hf.lhsDepth
      omega
    refine ⟨s1, n1, ⟨h.mid.next a1 a2 a4, ?_, by rw [a6, eQ]; exact h.rc, h.tile.congr a3⟩, a2⟩
    rw [a5, eP]
    show Val.ptr .lhs (lhsBlk j p + j.lhsStride * 2 ^ 2 % 2 ^ 32) = _
    rw [Nat.mod_eq_of_lt small]
    exact congrArg _ (by unfold lhsBlk; ring)
  · rw [if_neg hp']
    have eP : nextP j p = 0 := by unfold nextP; rw [if_neg hp']
    have e0 : lhsBlk j 0 = j.lhsBase := by unfold lhsBlk; omega
    obtain ⟨a1, a2, a3, a4, a5, a6, a7⟩ := k5x j.env s
    have n1 : ∀ l, (bif !(exec j.env k5.body s).lt then 7 else 6) = l →
      Reach j.env kernel (5, s) (l, exec j.env k5.body s) := fun l hl => Reach.block (b := k5) rfl hl
    generalize exec j.env k5.body s = s1 at *
    rw [h.mid.ok, h.mid.sp, h.mid.col] at a4
    rw [h.mid.col] at a7
    have a4' : s1.bad = false := a4
    have a5' : s1.x 128 = .ptr .lhs (lhsBlk j (nextP j p)) := by rw [a5, eP, e0]; rfl
    have a7' : s1.lt = decide (j.startCol + 2 * q < j.lastCol) := a7.trans (sgn_lt (by omega) (by omega))
    have mid1 := h.mid.next a1 a2 a4'
    by_cases hq' : q < j.colSteps
    · have eQ : nextQ j p q = q + 1 := by unfold nextQ; rw [if_neg hp', if_pos hq']
      have n1' := n1 6 (by rw [a7', decide_eq_true (by omega)]; rfl)
      obtain ⟨b1, b2, b3, b4, b5, b6⟩ := k6x j.env s1
      have n2 : Reach j.env kernel (6, s1) (7, exec j.env k6.body s1) := Reach.block (b := k6) rfl rfl
      generalize exec j.env k6.body s1 = s2 at *
      have x144 : s1.x 144 = _ := a6.trans h.rc
      rw [a4', mid1.sp, x144] at b4
      rw [x144] at b5
      have small : j.rhsStride * 2 ^ 1 < 2 ^ 32 := by
        have e1 := hf.rhsSize
        have e2 := hf.memory .rhs
        have e3 : 2 * (2 * j.rhsStride) ≤ (j.colSteps + 1) * (2 * j.rhsStride) := Nat.mul_le_mul_right _ (by omega)
        have hdep : j.depth = 16 * (j.depthSteps + 1) := rfl
        have := hf.rhsDepth
        omega
      refine ⟨s2, n1'.trans n2, ⟨mid1.next b1 b2 b4, by rw [b6]; exact a5', ?_, h.tile.congr (b3.trans a3)⟩, b2.trans a2⟩
      rw [b5, eQ]
      show Val.ptr .rhs (rhsBlk j q + j.rhsStride * 2 ^ 1 % 2 ^ 32) = _
      rw [Nat.mod_eq_of_lt small]
      exact congrArg _ (by unfold rhsBlk; ring)
    · have eQ : nextQ j p q = q := by unfold nextQ; rw [if_neg hp', if_neg hq']
      exact ⟨s1, n1 7 (by rw [a7', decide_eq_false (by omega)]; rfl),
        ⟨mid1, a5', by rw [a6, eQ]; exact h.rc, h.tile.congr a3⟩, a2⟩

/-! ### Bias, and the first level of the next block -/

theorem k7x (e : Env) (s : St) : Same (128 :: 144 :: midRegs) s (exec e k7.body s) ∧ (exec e k7.body s).m = s.m ∧
    (exec e k7.body s).v = s.v ∧
    (exec e k7.body s).bad = (s.bad || Nat.blt (s.x 13).num (64 + 4) || Nat.blt (s.x 13).num (80 + 4) ||
      (e.field .flags).isPtr || false) ∧
    (exec e k7.body s).x 34 = s.x 128 ∧ (exec e k7.body s).x 35 = s.x 144 ∧
    (exec e k7.body s).x 4 = .int ((e.field .flags).num % 2 ^ 8) ∧ (exec e k7.body s).x 1 = e.field .bias ∧
    (exec e k7.body s).z = Nat.beq ((e.field .flags).num % 2 ^ 8 % 2 ^ 32 &&& 32) 0 := by
  cases s; exact ⟨by keep, rfl, rfl, rfl, rfl, rfl, rfl, rfl, rfl⟩

/-- Registers that matter in this part. -/
def keepBias : List Nat := 4 :: 34 :: 35 :: 128 :: 144 :: midRegs

theorem k8x (e : Env) (s : St) : Same (1 :: keepBias) s (exec e k8.body s) ∧ (exec e k8.body s).m = s.m ∧
    (exec e k8.body s).v = s.v ∧ (exec e k8.body s).bad = s.bad ∧ (exec e k8.body s).x 8 = .int 32 := by
  cases s; exact ⟨by keep, rfl, rfl, rfl, rfl⟩

theorem k9x (e : Env) (s : St) : Same (1 :: keepBias) s (exec e k9.body s) ∧ (exec e k9.body s).m = s.m ∧
    (exec e k9.body s).v = s.v ∧ (exec e k9.body s).bad = s.bad ∧ (exec e k9.body s).x 8 = .int 48 := by
  cases s; exact ⟨by keep, rfl, rfl, rfl, rfl⟩

theorem k10x (e : Env) (s : St) : Same (1 :: keepBias) s (exec e k10.body s) ∧ (exec e k10.body s).m = s.m ∧
    (exec e k10.body s).v = s.v ∧
    (exec e k10.body s).bad = (s.bad || (s.x 8).isPtr || Nat.blt (s.x 13).num ((s.x 8).num + 4) || (s.x 4).isPtr) ∧
    (exec e k10.body s).x 8 = s.x (64 + (s.x 8).num) ∧
    (exec e k10.body s).z = Nat.beq ((s.x 4).num % 2 ^ 32 &&& 1) 0 := by
  cases s; exact ⟨by keep, rfl, rfl, rfl, rfl, rfl⟩

theorem k11x (e : Env) (s : St) : Same keepBias s (exec e k11.body s) ∧ (exec e k11.body s).x 8 = s.x 8 ∧
    (exec e k11.body s).m = s.m ∧
    (exec e k11.body s).v = s.v ∧
    (exec e k11.body s).bad = (s.bad || !(s.x 1).isPtr || (s.x 8).isPtr) ∧
    (exec e k11.body s).x 1 = addVal (s.x 1) ((s.x 8).num * 2 ^ 2 % 2 ^ 32) := by
  cases s; exact ⟨by keep, rfl, rfl, rfl, rfl, rfl⟩

theorem k12x (e : Env) (s : St) : Same (8 :: 128 :: 144 :: midRegs) s (exec e k12.body s) ∧
    (exec e k12.body s).m = s.m ∧
    (exec e k12.body s).bad = (s.bad || out e.base (s.x 1) 0 8 || out e.base (s.x 34) 0 16 ||
      out e.base (addN (s.x 34) 1) 0 16 || out e.base (s.x 35) 0 16 || out e.base (addN (s.x 35) 1) 0 16 ||
      (e.field .prodZpDepth).isPtr || (s.x 4).isPtr) ∧
    (exec e k12.body s).x 1 = addVal (s.x 1) 8 ∧ (exec e k12.body s).x 34 = addN (s.x 34) 2 ∧
    (exec e k12.body s).x 35 = addN (s.x 35) 2 ∧
    (exec e k12.body s).z = Nat.beq ((s.x 4).num % 2 ^ 32 &&& 32) 0 ∧
    (exec e k12.body s).v 0 = bytes s (addN (s.x 34) 0) 0 ∧ (exec e k12.body s).v 1 = bytes s (addN (s.x 34) 1) 0 ∧
    (exec e k12.body s).v 4 = bytes s (addN (s.x 35) 0) 0 ∧ (exec e k12.body s).v 5 = bytes s (addN (s.x 35) 1) 0 ∧
    (exec e k12.body s).v 9 = (ofS fun _ => (e.field .prodZpDepth).num) ∧
    (exec e k12.body s).v 12 = setLo (setLo (s.v 12) (bytes s (s.x 1) 0))
      (vop .add (setLo (s.v 12) (bytes s (s.x 1) 0)) (setLo (s.v 12) (bytes s (s.x 1) 0))
        (ofS fun _ => (e.field .prodZpDepth).num)) ∧
    (∀ i, i < 2 → (exec e k12.body s).v (14 + i) = s.v (14 + i)) := by
  cases s
  exact ⟨by keep, rfl, rfl, rfl, rfl, rfl, rfl, rfl, rfl, rfl, rfl, rfl, rfl, by intro i hi; interval_cases i <;> rfl⟩

/-- Registers that the next block needs. -/
def keepNext : List Nat := 8 :: 34 :: 35 :: 128 :: 144 :: midRegs

theorem k13x (e : Env) (s : St) : Same keepNext s (exec e k13.body s) ∧
    (exec e k13.body s).m = s.m ∧ (exec e k13.body s).bad = (s.bad || out e.base (s.x 1) 0 8) ∧
    (∀ i, i < 6 → (exec e k13.body s).v i = s.v i) ∧
    (∀ w, w < 2 → (exec e k13.body s).v (14 + w) = vop .add (s.v (14 + w)) (s.v (14 + w))
      (setHi (setHi (s.v 12) (bytes s (s.x 1) 0))
        (vop .add (half 1 (setHi (s.v 12) (bytes s (s.x 1) 0))) (half 1 (setHi (s.v 12) (bytes s (s.x 1) 0)))
          (half 1 (s.v 9))))) := by
  cases s with | mk x v m z lt bad =>
  refine ⟨?_, rfl, rfl, by intro i hi; interval_cases i <;> rfl, by intro i hi; interval_cases i <;> rfl⟩
  keep

theorem k14x (e : Env) (s : St) : Same keepNext s (exec e k14.body s) ∧
    (exec e k14.body s).m = s.m ∧ (exec e k14.body s).bad = s.bad ∧
    (∀ i, i < 6 → (exec e k14.body s).v i = s.v i) ∧
    (∀ w, w < 2 → (exec e k14.body s).v (14 + w) = vop .add (s.v (14 + w)) (s.v (14 + w))
      (ofS fun _ => getS (s.v 12) w)) := by
  cases s
  exact ⟨by keep, rfl, rfl, by intro i hi; interval_cases i <;> rfl, by intro w hw; interval_cases w <;> rfl⟩

/-- Lane of a vector loaded from an int32 array. -/
theorem getS_load {j : Job} {s : St} {r : Region} {i : Nat} (h : s.m r = j.m r) (l : Nat) :
    getS (bytes s (.ptr r (4 * i)) 0) l = j.word r (i + l) := by
  unfold getS Job.word bytes
  simp only [Val.region, Val.off, h]
  have e : le4 (fun b => j.m r (4 * i + 0 + b)) (4 * l) = le4 (j.m r) (4 * (i + l)) := by
    unfold le4 le2
    dsimp only
    rw [show 4 * i + 0 + 4 * l = 4 * (i + l) by omega, show 4 * i + 0 + (4 * l + 1) = 4 * (i + l) + 1 by omega,
      show 4 * i + 0 + (4 * l + 2) = 4 * (i + l) + 2 by omega,
      show 4 * i + 0 + (4 * l + 2 + 1) = 4 * (i + l) + 2 + 1 by omega]
  rw [e]

theorem wrap32_u32 (x : Int) : wrap32 ((Job.u32 x : Nat) : Int) = wrap32 x := by
  unfold Job.u32 wrap32; omega
theorem wrap16_u32 (x : Int) : wrap16 ((Job.u32 x : Nat) : Int) = wrap16 x := by
  unfold Job.u32 wrap16; omega

/-- First channel of the block, where its bias and multipliers start, and the one that an entry uses. -/
def chan (j : Job) (p q : Nat) : Nat := if j.chanCol then j.startCol + 2 * q else j.startRow + 4 * p
def biasBase (j : Job) (p q : Nat) : Nat := if j.hasBias then chan j p q else 0
def multBase (j : Job) (p q : Nat) : Nat := if j.perChannel then chan j p q else 0
def lane (j : Job) (u w : Nat) : Nat := if j.chanCol then w else u

/-- An entry with its bias. -/
def acc1 (j : Job) (p q u w : Nat) : Int :=
  blockDot j (lhsBlk j p) (rhsBlk j q) u w (j.depthSteps + 1) +
    (j.word .bias (biasBase j p q + lane j u w) + j.prodZp)

/-- The next block is ready. -/
structure Ready (j : Job) (p q : Nat) (s : St) : Prop where
  lc : s.x 128 = .ptr .lhs (lhsBlk j (nextP j p))
  rc : s.x 144 = .ptr .rhs (rhsBlk j (nextQ j p q))
  lp : s.x lp = .ptr .lhs (lhsBlk j (nextP j p) + 32)
  rp : s.x rp = .ptr .rhs (rhsBlk j (nextQ j p q) + 32)
  data : Data j (lhsBlk j (nextP j p)) (rhsBlk j (nextQ j p q)) 0 s

theorem Ready.next {j : Job} {p q : Nat} {s s' : St} (h : Ready j p q s) (hs : Same [34, 35, 128, 144] s s')
    (hv : ∀ i, i < 6 → s'.v i = s.v i) : Ready j p q s' :=
  ⟨(hs.get (by decide)).trans h.lc, (hs.get (by decide)).trans h.rc, (hs.get (by decide)).trans h.lp,
    (hs.get (by decide)).trans h.rp, (hv 0 (by decide)).trans h.data.1, (hv 1 (by decide)).trans h.data.2.1,
    (hv 4 (by decide)).trans h.data.2.2.1, (hv 5 (by decide)).trans h.data.2.2.2⟩

/-- A block whose entries are being computed; register 8 is its first channel. -/
structure Work (j : Job) (ty : Neon.Dt) (p q : Nat) (f : Nat → Nat → Int) (s : St) : Prop where
  mid : Mid j ty p q s
  nxt : Ready j p q s
  x8 : s.x 8 = .int (chan j p q)
  tile : Tile f s

theorem flag_col (j : Job) : Nat.beq (j.flags % 2 ^ 8 % 2 ^ 32 &&& 32) 0 = !j.chanCol := by
  unfold Job.flags
  cases j.hasBias <;> cases j.hasLhsSums <;> cases j.hasRhsSums <;> cases j.perChannel <;> cases j.chanCol <;> rfl
theorem flag_bias (j : Job) : Nat.beq (j.flags % 2 ^ 8 % 2 ^ 32 &&& 1) 0 = !j.hasBias := by
  unfold Job.flags
  cases j.hasBias <;> cases j.hasLhsSums <;> cases j.hasRhsSums <;> cases j.perChannel <;> cases j.chanCol <;> rfl
theorem flag_lhs (j : Job) : Nat.beq (j.flags % 2 ^ 8 % 2 ^ 32 &&& 2) 0 = !j.hasLhsSums := by
  unfold Job.flags
  cases j.hasBias <;> cases j.hasLhsSums <;> cases j.hasRhsSums <;> cases j.perChannel <;> cases j.chanCol <;> rfl
theorem flag_rhs (j : Job) : Nat.beq (j.flags % 2 ^ 8 % 2 ^ 32 &&& 4) 0 = !j.hasRhsSums := by
  unfold Job.flags
  cases j.hasBias <;> cases j.hasLhsSums <;> cases j.hasRhsSums <;> cases j.perChannel <;> cases j.chanCol <;> rfl
theorem flag_per (j : Job) : Nat.beq (j.flags % 2 ^ 8 % 2 ^ 32 &&& 8) 0 = !j.perChannel := by
  unfold Job.flags
  cases j.hasBias <;> cases j.hasLhsSums <;> cases j.hasRhsSums <;> cases j.perChannel <;> cases j.chanCol <;> rfl

theorem nextP_le {j : Job} {p : Nat} : nextP j p ≤ j.rowSteps := by
  unfold nextP; split_ifs <;> omega
theorem nextQ_le {j : Job} {p q : Nat} (hq : q ≤ j.colSteps) : nextQ j p q ≤ j.colSteps := by
  unfold nextQ; split_ifs <;> omega

theorem bias_bound {j : Job} (hf : j.Fits) {p q : Nat} (hp : p ≤ j.rowSteps) (hq : q ≤ j.colSteps) :
    4 * biasBase j p q + 8 ≤ j.size .bias ∧ (j.chanCol = false → 4 * biasBase j p q + 16 ≤ j.size .bias) := by
  have h := hf.bias
  unfold Job.channels Job.lastRow Job.lastCol at h
  unfold biasBase chan
  cases hb : j.hasBias <;> cases hc : j.chanCol <;> rw [hb] at h <;> rw [hc] at h <;>
    simp only [Bool.false_eq_true, if_false, if_true] at h ⊢ <;> constructor <;> first | omega | (intro hh; first | omega | cases hh)

/-- From label 5 to label 7. -/
theorem biased {j : Job} (hf : j.Fits) {ty : Neon.Dt} {p q : Nat} (hp : p ≤ j.rowSteps) (hq : q ≤ j.colSteps) {s : St}
    (h : Aimed j ty p q (fun u w => wrap32 (blockDot j (lhsBlk j p) (rhsBlk j q) u w (j.depthSteps + 1))) s) :
    ∃ s', Reach j.env kernel (7, s) (15, s') ∧ Work j ty p q (fun u w => wrap32 (acc1 j p q u w)) s' ∧ s'.m = s.m := by
  obtain ⟨bb, bb8⟩ := bias_bound hf hp hq
  have hmem := hf.memory .bias
  have frow := hf.row
  have fcol := hf.col
  have flr : j.lastRow = j.startRow + 4 * j.rowSteps := rfl
  have flc : j.lastCol = j.startCol + 2 * j.colSteps := rfl
  have bl := lhs_bound hf (nextP_le (j := j) (p := p))
  have br := rhs_bound hf (nextQ_le (p := p) hq)
  -- label 5
  obtain ⟨a1, a2, a3, a4, a5, a6, a7, a8, a9⟩ := k7x j.env s
  have n1 : ∀ l, (bif !(exec j.env k7.body s).z then 9 else 8) = l →
      Reach j.env kernel (7, s) (l, exec j.env k7.body s) := fun l hl => Reach.block (b := k7) rfl hl
  generalize exec j.env k7.body s = s1 at *
  rw [h.mid.ok, h.mid.sp] at a4
  have a4' : s1.bad = false := a4
  have z1 : s1.z = !j.chanCol := a9.trans (flag_col j)
  have mid1 := h.mid.next (a1.sub (by decide)) a2 a4'
  -- label 1001, with the offset of the channel variable
  have c1 : ∃ s2, Reach j.env kernel (7, s) (10, s2) ∧ Same (1 :: keepBias) s1 s2 ∧ s2.m = s.m ∧ s2.v = s.v ∧
      s2.bad = false ∧ s2.x 8 = .int (if j.chanCol then 48 else 32) := by
    cases hc : j.chanCol
    · obtain ⟨b1, b2, b3, b4, b5⟩ := k8x j.env s1
      have n2 : Reach j.env kernel (8, s1) (10, exec j.env k8.body s1) := Reach.block (b := k8) rfl rfl
      exact ⟨_, (n1 8 (by rw [z1, hc]; rfl)).trans n2, b1, b2.trans a2, b3.trans a3, b4.trans a4', b5⟩
    · obtain ⟨b1, b2, b3, b4, b5⟩ := k9x j.env s1
      have n2 : Reach j.env kernel (9, s1) (10, exec j.env k9.body s1) := Reach.block (b := k9) rfl rfl
      exact ⟨_, (n1 9 (by rw [z1, hc]; rfl)).trans n2, b1, b2.trans a2, b3.trans a3, b4.trans a4', b5⟩
  obtain ⟨s2, r2, b1, b2, b3, b4, b5⟩ := c1
  have mid2 : Mid j ty p q s2 := mid1.next (b1.sub (by decide)) (b2.trans a2.symm) b4
  have x8 : s2.x (64 + (s2.x 8).num) = .int (chan j p q) := by
    rw [b5]; unfold chan
    cases j.chanCol
    · exact mid2.row
    · exact mid2.col
  have in8 : Nat.blt (s2.x 13).num ((s2.x 8).num + 4) = false := by
    rw [b5, mid2.sp]; cases j.chanCol <;> rfl
  obtain ⟨d1, d2, d3, d4, d5, d6⟩ := k10x j.env s2
  have n3 : ∀ l, (bif (exec j.env k10.body s2).z then 12 else 11) = l →
      Reach j.env kernel (10, s2) (l, exec j.env k10.body s2) := fun l hl => Reach.block (b := k10) rfl hl
  generalize exec j.env k10.body s2 = s3 at *
  have x4 : s2.x 4 = .int (j.flags % 2 ^ 8) := (b1.get (by decide)).trans a7
  rw [x8] at d5
  rw [in8, b4, x4, b5] at d4
  have d4' : s3.bad = false := d4
  rw [x4] at d6
  have z3 : s3.z = !j.hasBias := d6.trans (flag_bias j)
  have x1 : s3.x 1 = .ptr .bias 0 := (d1.get (by decide)).trans ((b1.get (by decide)).trans a8)
  have same3 : Same (1 :: keepBias) s1 s3 := b1.trans d1
  -- label 1002
  have c2 : ∃ s4, Reach j.env kernel (10, s2) (12, s4) ∧ Same keepBias s1 s4 ∧ s4.x 8 = .int (chan j p q) ∧ s4.m = s.m ∧ s4.v = s.v ∧
      s4.bad = false ∧ s4.x 1 = .ptr .bias (4 * biasBase j p q) := by
    cases hb : j.hasBias
    · refine ⟨s3, n3 12 (by rw [z3, hb]; rfl), same3.sub (by decide), d5, d2.trans b2, d3.trans b3, d4', ?_⟩
      rw [x1]; unfold biasBase; rw [hb]; rfl
    · obtain ⟨f1, f0, f2, f3, f4, f5⟩ := k11x j.env s3
      have n4 : Reach j.env kernel (11, s3) (12, exec j.env k11.body s3) := Reach.block (b := k11) rfl rfl
      generalize exec j.env k11.body s3 = s4 at *
      rw [x1, d5, d4'] at f4
      rw [x1, d5] at f5
      refine ⟨s4, (n3 11 (by rw [z3, hb]; rfl)).trans n4, (same3.sub (by decide)).trans f1, f0.trans d5,
        f2.trans (d2.trans b2), f3.trans (d3.trans b3), f4, ?_⟩
      rw [f5]
      show Val.ptr .bias (0 + chan j p q * 2 ^ 2 % 2 ^ 32) = _
      have : biasBase j p q = chan j p q := by unfold biasBase; rw [hb]; rfl
      rw [this] at bb ⊢
      rw [Nat.mod_eq_of_lt (by omega)]
      exact congrArg _ (by omega)
  obtain ⟨s4, r4, f1, f0, f2, f3, f4, f5⟩ := c2
  have mid4 : Mid j ty p q s4 := mid1.next (f1.sub (by decide)) (f2.trans a2.symm) f4
  have x4' : s4.x 4 = .int (j.flags % 2 ^ 8) := (f1.get (by decide)).trans a7
  have x128 : s4.x 128 = _ := ((f1.get (by decide)).trans (a1.get (by decide))).trans h.lc
  have x144 : s4.x 144 = _ := ((f1.get (by decide)).trans (a1.get (by decide))).trans h.rc
  have x34 : s4.x 34 = _ := ((f1.get (by decide)).trans a5).trans h.lc
  have x35 : s4.x 35 = _ := ((f1.get (by decide)).trans a6).trans h.rc
  have ml : s4.m .lhs = j.m .lhs := mid4.mem _ (by decide) (by decide)
  have mr : s4.m .rhs = j.m .rhs := mid4.mem _ (by decide) (by decide)
  have mb : s4.m .bias = j.m .bias := mid4.mem _ (by decide) (by decide)
  obtain ⟨g1, g2, g3, g4, g5, g6, g7, g8, g9, g10, g11, g12, g13, g14⟩ := k12x j.env s4
  have n5 : ∀ l, (bif !(exec j.env k12.body s4).z then 14 else 13) = l →
      Reach j.env kernel (12, s4) (l, exec j.env k12.body s4) := fun l hl => Reach.block (b := k12) rfl hl
  generalize exec j.env k12.body s4 = s5 at *
  rw [f5, x34, x35, x4', f4, addN_ptr, addN_ptr, out_ok (by omega), out_ok (by omega), out_ok (by omega),
    out_ok (by omega), out_ok (by omega)] at g3
  have g3' : s5.bad = false := g3
  rw [f5] at g4
  have g4' : s5.x 1 = .ptr .bias (4 * (biasBase j p q + 2)) := by
    rw [g4]; show Val.ptr .bias (4 * biasBase j p q + 8) = _; exact congrArg _ (by omega)
  rw [x34, addN_ptr] at g5 g8 g9
  rw [x35, addN_ptr] at g6 g10 g11
  rw [bytes_eq ml] at g8 g9
  rw [bytes_eq mr] at g10 g11
  rw [x4'] at g7
  have z5 : s5.z = !j.chanCol := g7.trans (flag_col j)
  have mid5 := mid4.next (g1.sub (by decide)) g2 g3'
  have nine : ∀ i, getS (s5.v 9) i = wrap32 j.prodZp := by
    intro i
    rw [g12, getS_ofS]; exact wrap32_u32 _
  have twelve : ∀ i, i < 2 → getS (s5.v 12) i = wrap32 (j.word .bias (biasBase j p q + i) + j.prodZp) := by
    intro i hi
    rw [g13, getS_setLo_lo _ _ hi, getS_add, getS_setLo_lo _ _ hi, f5, getS_load mb, getS_ofS]
    show wrap32 (_ + wrap32 ((Job.u32 j.prodZp : Nat) : Int)) = _
    rw [wrap32_u32, wrap32_add_r]
  have tile5 : Tile (fun u w => wrap32 (blockDot j (lhsBlk j p) (rhsBlk j q) u w (j.depthSteps + 1))) s5 := by
    intro u hu w hw
    rw [g14 w hw, f3]
    exact h.tile u hu w hw
  have rdy : ∀ s6 : St, Same keepNext s5 s6 → (∀ i, i < 6 → s6.v i = s5.v i) →
      Ready j p q s6 := fun s6 k1 k2 =>
    ⟨(k1.get (by decide)).trans ((g1.get (by decide)).trans x128),
      (k1.get (by decide)).trans ((g1.get (by decide)).trans x144),
      (k1.get (by decide)).trans g5,
      (k1.get (by decide)).trans g6,
      (k2 0 (by omega)).trans (g8.trans (congrArg (j.vec _) (by omega))),
      (k2 1 (by omega)).trans (g9.trans (congrArg (j.vec _) (by omega))),
      (k2 4 (by omega)).trans (g10.trans (congrArg (j.vec _) (by omega))),
      (k2 5 (by omega)).trans (g11.trans (congrArg (j.vec _) (by omega)))⟩
  have eight : ∀ s6 : St, Same keepNext s5 s6 → s6.x 8 = .int (chan j p q) := fun s6 k1 =>
    (k1.get (by decide)).trans ((g1.get (by decide)).trans f0)
  cases hc : j.chanCol
  · have mb5 : s5.m .bias = j.m .bias := mid5.mem _ (by decide) (by decide)
    obtain ⟨e1, e2, e3, e4, e5⟩ := k13x j.env s5
    have n6 : Reach j.env kernel (13, s5) (15, exec j.env k13.body s5) := Reach.block (b := k13) rfl rfl
    generalize exec j.env k13.body s5 = s6 at *
    have b8 := bb8 hc
    rw [g4', g3', out_ok (by omega)] at e3
    refine ⟨s6, ((r2.trans r4).trans (n5 13 (by rw [z5, hc]; rfl))).trans n6, ⟨mid5.next (e1.sub (by decide)) e2 e3,
      rdy s6 e1 e4, eight s6 e1, ?_⟩, e2.trans (g2.trans f2)⟩
    intro u hu w hw
    have t : getS (s5.v (14 + w)) u = wrap32 (blockDot j (lhsBlk j p) (rhsBlk j q) u w (j.depthSteps + 1)) :=
      tile5 u hu w hw
    have el : lane j u w = u := by unfold lane; rw [hc]; rfl
    show _ = wrap32 (acc1 j p q u w)
    unfold acc1
    rw [e5 w hw, getS_add, t, el]
    rcases Nat.lt_or_ge u 2 with hu2 | hu2
    · rw [getS_setHi_lo _ _ hu2, getS_setHi_lo _ _ hu2, twelve u hu2, wrap32_two]
    · obtain ⟨i, rfl⟩ := Nat.exists_eq_add_of_le hu2
      have hi : i < 2 := by omega
      rw [getS_setHi_hi _ _ hi, getS_add, getS_half_hi _ hi, getS_half_hi _ hi, getS_setHi_hi _ _ hi, nine, g4',
        getS_load mb5, wrap32_add_r (j.word .bias _), wrap32_two, Nat.add_assoc]
  · obtain ⟨e1, e2, e3, e4, e5⟩ := k14x j.env s5
    have n6 : Reach j.env kernel (14, s5) (15, exec j.env k14.body s5) := Reach.block (b := k14) rfl rfl
    generalize exec j.env k14.body s5 = s6 at *
    refine ⟨s6, ((r2.trans r4).trans (n5 14 (by rw [z5, hc]; rfl))).trans n6, ⟨mid5.next (e1.sub (by decide)) e2
      (e3.trans g3'), rdy s6 e1 e4, eight s6 e1, ?_⟩, e2.trans (g2.trans f2)⟩
    intro u hu w hw
    have t : getS (s5.v (14 + w)) u = wrap32 (blockDot j (lhsBlk j p) (rhsBlk j q) u w (j.depthSteps + 1)) :=
      tile5 u hu w hw
    have el : lane j u w = w := by unfold lane; rw [hc]; rfl
    show _ = wrap32 (acc1 j p q u w)
    unfold acc1
    rw [e5 w hw, getS_add, t, el, getS_ofS, twelve w hw, Simd.wrap32_wrap32, wrap32_two]

end Ruy.Arm8

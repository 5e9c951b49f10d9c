import Verif.Arm8.ColDepth
import Verif.Arm8.Quant
/-
The ARM32 8-bit kernel for one column: the addresses of the next block, and the bias (labels 4, 5, 1000).
-/
namespace Ruy.Arm8.One
open Ruy.Arm8
open Ruy.Neon (St Val Region Vec VOp vop sgn sgn_of sgn_lt sgn_eq Same addVal addN addN_ptr out bytes le2 le4
  getB getU getH getS ofS getS_ofS getS_add getS_wrap wrap32_add_l wrap32_add_r wrap32_two)
open Simd (wrap8 wrap16 wrap32)

/-- The kernel is called when the destination has one column and channels are rows (kernel_arm.h:96-99). -/
structure Single (j : Job) : Prop where
  cols : j.dstCols = 1
  chan : j.chanCol = false

theorem Single.steps {j : Job} (h : Single j) (hf : j.Fits) : j.startCol = 0 ∧ j.colSteps = 0 := by
  have h1 := hf.colIn
  have h2 := h.cols
  unfold Job.lastCol at h1
  omega

/-- Label 5: the addresses of the next block are known. -/
structure Aimed (j : Job) (ty : Neon.Dt) (p : Nat) (f : Nat → Int) (s : St) : Prop where
  mid : Mid j ty p 0 s
  lc : s.x 128 = .ptr .lhs (lhsBlk j (nextP j p))
  rc : s.x 144 = .ptr .rhs (rhsBlk j 0)
  tile : Tile f s

theorem Tile.congr {f : Nat → Int} {s s' : St} (h : Tile f s) (hv : s'.v = s.v) : Tile f s' := by
  intro u hu; rw [hv]; exact h u hu

theorem aimed {j : Job} (hf : j.Fits) (ho : Single j) {ty : Neon.Dt} {p : Nat} {s : St}
    (h : Summed j ty p s) : ∃ s', Reach j.env kernel (if p < j.rowSteps then 4 else 5, s) (7, s') ∧
      Aimed j ty p (fun u => wrap32 (blockDot j (lhsBlk j p) (rhsBlk j 0) u 0 (j.depthSteps + 1))) s' ∧ s'.m = s.m := by
  have hcol := hf.col
  obtain ⟨st1, st2⟩ := ho.steps hf
  have hlc : j.lastCol = j.startCol + 2 * j.colSteps := rfl
  by_cases hp' : p < j.rowSteps
  · rw [if_pos hp']
    have eP : nextP j p = p + 1 := by unfold nextP; rw [if_pos hp']
    obtain ⟨a1, a2, a3, a4, a5, a6⟩ := Arm8.k4x j.env s
    have n1 : Reach j.env kernel (4, s) (7, exec j.env Arm8.k4.body s) := Reach.block (b := k4) rfl rfl
    generalize exec j.env Arm8.k4.body s = s1 at *
    rw [h.mid.ok, h.mid.sp, h.lc] at a4
    rw [h.lc] at a5
    have small : j.lhsStride * 2 ^ 2 < 2 ^ 32 := by
      have e1 := hf.lhsSize
      have e2 := hf.memory .lhs
      have e3 : 2 * (4 * j.lhsStride) ≤ (j.rowSteps + 1) * (4 * j.lhsStride) := Nat.mul_le_mul_right _ (by omega)
      have hdep : j.depth = 16 * (j.depthSteps + 1) := rfl
      have := hf.lhsDepth
      omega
    refine ⟨s1, n1, ⟨h.mid.next a1 a2 a4, ?_, a6.trans h.rc, h.tile.congr a3⟩, a2⟩
    rw [a5, eP]
    show Val.ptr .lhs (lhsBlk j p + j.lhsStride * 2 ^ 2 % 2 ^ 32) = _
    rw [Nat.mod_eq_of_lt small]
    exact congrArg _ (by unfold lhsBlk; ring)
  · rw [if_neg hp']
    have eP : nextP j p = 0 := by unfold nextP; rw [if_neg hp']
    have e0 : lhsBlk j 0 = j.lhsBase := by unfold lhsBlk; omega
    obtain ⟨a1, a2, a3, a4, a5, a6, a7⟩ := Arm8.k5x j.env s
    have n1 : ∀ l, (bif !(exec j.env Arm8.k5.body s).lt then 7 else 6) = l →
      Reach j.env kernel (5, s) (l, exec j.env Arm8.k5.body s) := fun l hl => Reach.block (b := k5) rfl hl
    generalize exec j.env Arm8.k5.body s = s1 at *
    rw [h.mid.ok, h.mid.sp, h.mid.col] at a4
    rw [h.mid.col] at a7
    have a5' : s1.x 128 = .ptr .lhs (lhsBlk j (nextP j p)) := by rw [a5, eP, e0]; rfl
    have a7' : s1.lt = decide (j.startCol + 2 * 0 < j.lastCol) := a7.trans (sgn_lt (by omega) (by omega))
    exact ⟨s1, n1 7 (by rw [a7', decide_eq_false (by omega)]; rfl),
      ⟨h.mid.next a1 a2 a4, a5', a6.trans h.rc, h.tile.congr a3⟩, a2⟩

/-! ### Bias, and the first level of the next block -/

theorem k7x (e : Env) (s : St) : Same (128 :: 144 :: midRegs) s (exec e k7.body s) ∧ (exec e k7.body s).m = s.m ∧
    (exec e k7.body s).v = s.v ∧
    (exec e k7.body s).bad = (s.bad || Nat.blt (s.x 13).num (64 + 4) || Nat.blt (s.x 13).num (80 + 4) ||
      (e.field .flags).isPtr || Nat.blt (s.x 13).num (32 + 4) || false) ∧
    (exec e k7.body s).x 34 = s.x 128 ∧ (exec e k7.body s).x 35 = s.x 144 ∧
    (exec e k7.body s).x 1 = e.field .bias ∧ (exec e k7.body s).x 8 = s.x 96 ∧
    (exec e k7.body s).z = Nat.beq ((e.field .flags).num % 2 ^ 8 % 2 ^ 32 &&& 1) 0 := by
  cases s; exact ⟨by keep, rfl, rfl, rfl, rfl, rfl, rfl, rfl, rfl⟩

/-- Registers that the next block needs. -/
def keepN : List Nat := 34 :: 35 :: 128 :: 144 :: midRegs

theorem k8x (e : Env) (s : St) : Same keepN s (exec e k8.body s) ∧
    (exec e k8.body s).m = s.m ∧ (exec e k8.body s).v = s.v ∧
    (exec e k8.body s).bad = (s.bad || !(s.x 1).isPtr || (s.x 8).isPtr) ∧
    (exec e k8.body s).x 1 = addVal (s.x 1) ((s.x 8).num * 2 ^ 2 % 2 ^ 32) := by
  cases s; exact ⟨by keep, rfl, rfl, rfl, rfl⟩

theorem k9x (e : Env) (s : St) : Same (128 :: 144 :: midRegs) s (exec e k9.body s) ∧
    (exec e k9.body s).m = s.m ∧
    (exec e k9.body s).bad = (s.bad || out e.base (s.x 1) 0 16 || out e.base (s.x 34) 0 16 ||
      out e.base (addN (s.x 34) 1) 0 16 || out e.base (addN (s.x 34) 2) 0 16 || out e.base (addN (s.x 34) 3) 0 16 ||
      out e.base (s.x 35) 0 16 || !(addN (s.x 35) 1).isPtr || (e.field .prodZpDepth).isPtr ||
      (e.field .flags).isPtr || false) ∧
    (exec e k9.body s).x 34 = addN (s.x 34) 4 ∧ (exec e k9.body s).x 35 = addN (s.x 35) 2 ∧
    (exec e k9.body s).z = Nat.beq ((e.field .flags).num % 2 ^ 8 % 2 ^ 32 &&& 4) 0 ∧
    (∀ i, i < 4 → (exec e k9.body s).v i = bytes s (addN (s.x 34) i) 0) ∧
    (exec e k9.body s).v 4 = bytes s (addN (s.x 35) 0) 0 ∧
    (exec e k9.body s).v 14 = vop .add (s.v 14) (s.v 14)
      (vop .add (bytes s (s.x 1) 0) (bytes s (s.x 1) 0) (ofS fun _ => (e.field .prodZpDepth).num)) := by
  cases s
  exact ⟨by keep, rfl, rfl, rfl, rfl, rfl, by intro i hi; interval_cases i <;> rfl, rfl, rfl⟩

/-- The next block is ready. -/
structure Ready (j : Job) (p : Nat) (s : St) : Prop where
  lc : s.x 128 = .ptr .lhs (lhsBlk j (nextP j p))
  rc : s.x 144 = .ptr .rhs (rhsBlk j 0)
  lp : s.x lp = .ptr .lhs (lhsBlk j (nextP j p) + 64)
  rp : s.x rp = .ptr .rhs (rhsBlk j 0 + 32)
  data : Data j (lhsBlk j (nextP j p)) (rhsBlk j 0) 0 s

theorem Ready.next {j : Job} {p : Nat} {s s' : St} (h : Ready j p s) (hs : Same [34, 35, 128, 144] s s')
    (hv : ∀ i, i < 5 → s'.v i = s.v i) : Ready j p s' :=
  ⟨(hs.get (by decide)).trans h.lc, (hs.get (by decide)).trans h.rc, (hs.get (by decide)).trans h.lp,
    (hs.get (by decide)).trans h.rp, fun i hi => (hv i (by omega)).trans (h.data.1 i hi),
    (hv 4 (by decide)).trans h.data.2⟩

/-- A block whose entries are being computed. -/
structure Work (j : Job) (ty : Neon.Dt) (p : Nat) (f : Nat → Int) (s : St) : Prop where
  mid : Mid j ty p 0 s
  nxt : Ready j p s
  tile : Tile f s

theorem Work.next {j : Job} {ty : Neon.Dt} {p : Nat} {f g : Nat → Int} {s s' : St} (h : Work j ty p f s)
    (hs : Same keepN s s') (hm : s'.m = s.m) (hv : ∀ i, i < 5 → s'.v i = s.v i) (ok : s'.bad = false)
    (ht : Tile g s') : Work j ty p g s' :=
  ⟨h.mid.next (hs.sub (by decide)) hm ok, h.nxt.next (hs.sub (by decide)) hv, ht⟩

theorem chan_row {j : Job} (ho : Single j) (p : Nat) : chan j p 0 = j.startRow + 4 * p := by
  unfold chan; rw [ho.chan]; rfl
theorem lane_row {j : Job} (ho : Single j) (u : Nat) : lane j u 0 = u := by
  unfold lane; rw [ho.chan]; rfl

/-- From label 5 to the branch after label 1000. -/
theorem biased {j : Job} (hf : j.Fits) (ho : Single j) {ty : Neon.Dt} {p : Nat} (hp : p ≤ j.rowSteps) {s : St}
    (h : Aimed j ty p (fun u => wrap32 (blockDot j (lhsBlk j p) (rhsBlk j 0) u 0 (j.depthSteps + 1))) s) :
    ∃ s', Reach j.env kernel (7, s) (if j.hasRhsSums then 10 else 11, s') ∧
      Work j ty p (fun u => wrap32 (acc1 j p 0 u 0)) s' ∧ s'.m = s.m := by
  have bb := (bias_bound hf hp (Nat.zero_le j.colSteps)).2 ho.chan
  have hmem := hf.memory .bias
  have bl := lhs_bound hf (nextP_le (j := j) (p := p))
  have br := rhs_bound hf (Nat.zero_le j.colSteps)
  -- label 5
  obtain ⟨a1, a2, a3, a4, a5, a6, a7, a8, a9⟩ := k7x j.env s
  have n1 : ∀ l, (bif (exec j.env k7.body s).z then 9 else 8) = l →
      Reach j.env kernel (7, s) (l, exec j.env k7.body s) := fun l hl => Reach.block (b := k7) rfl hl
  generalize exec j.env k7.body s = s1 at *
  rw [h.mid.ok, h.mid.sp] at a4
  have a4' : s1.bad = false := a4
  have z1 : s1.z = !j.hasBias := a9.trans (flag_bias j)
  have mid1 := h.mid.next (a1.sub (by decide)) a2 a4'
  have x1 : s1.x 1 = .ptr .bias 0 := a7
  have x8 : s1.x 8 = .int (j.startRow + 4 * p) := a8.trans h.mid.row
  -- label 1000
  have c2 : ∃ s4, Reach j.env kernel (7, s) (9, s4) ∧ Same keepN s1 s4 ∧ s4.m = s.m ∧ s4.v = s.v ∧
      s4.bad = false ∧ s4.x 1 = .ptr .bias (4 * biasBase j p 0) := by
    cases hb : j.hasBias
    · refine ⟨s1, n1 9 (by rw [z1, hb]; rfl), Same.refl _ _, a2, a3, a4', ?_⟩
      rw [x1]; unfold biasBase; rw [hb]; rfl
    · obtain ⟨f1, f2, f3, f4, f5⟩ := k8x j.env s1
      have n4 : Reach j.env kernel (8, s1) (9, exec j.env k8.body s1) := Reach.block (b := k8) rfl rfl
      generalize exec j.env k8.body s1 = s4 at *
      rw [x1, x8, a4'] at f4
      rw [x1, x8] at f5
      refine ⟨s4, (n1 8 (by rw [z1, hb]; rfl)).trans n4, f1, f2.trans a2, f3.trans a3, f4, ?_⟩
      rw [f5]
      show Val.ptr .bias (0 + (j.startRow + 4 * p) * 2 ^ 2 % 2 ^ 32) = _
      have : biasBase j p 0 = j.startRow + 4 * p := by
        unfold biasBase; rw [hb]; exact chan_row ho p
      rw [this] at bb ⊢
      rw [Nat.mod_eq_of_lt (by omega)]
      exact congrArg _ (by omega)
  obtain ⟨s4, r4, f1, f2, f3, f4, f5⟩ := c2
  have mid4 : Mid j ty p 0 s4 := mid1.next (f1.sub (by decide)) (f2.trans a2.symm) f4
  have x128 : s4.x 128 = _ := ((f1.get (by decide)).trans (a1.get (by decide))).trans h.lc
  have x144 : s4.x 144 = _ := ((f1.get (by decide)).trans (a1.get (by decide))).trans h.rc
  have x34 : s4.x 34 = _ := ((f1.get (by decide)).trans a5).trans h.lc
  have x35 : s4.x 35 = _ := ((f1.get (by decide)).trans a6).trans h.rc
  have ml : s4.m .lhs = j.m .lhs := mid4.mem _ (by decide) (by decide)
  have mr : s4.m .rhs = j.m .rhs := mid4.mem _ (by decide) (by decide)
  have mb : s4.m .bias = j.m .bias := mid4.mem _ (by decide) (by decide)
  obtain ⟨g1, g2, g3, g5, g6, g7, g8, g10, g14⟩ := k9x j.env s4
  have n5 : ∀ l, (bif (exec j.env k9.body s4).z then 11 else 10) = l →
      Reach j.env kernel (9, s4) (l, exec j.env k9.body s4) := fun l hl => Reach.block (b := k9) rfl hl
  generalize exec j.env k9.body s4 = s5 at *
  rw [f5, x34, x35, f4, addN_ptr, addN_ptr, addN_ptr, addN_ptr, out_ok (by omega), out_ok (by omega), out_ok (by omega),
    out_ok (by omega), out_ok (by omega), out_ok (by omega)] at g3
  have g3' : s5.bad = false := g3
  rw [x34, addN_ptr] at g5
  rw [x35, addN_ptr] at g6 g10
  rw [bytes_eq mr] at g10
  have z5 : s5.z = !j.hasRhsSums := g7.trans (flag_rhs j)
  refine ⟨s5, r4.trans (n5 _ (by rw [z5]; cases j.hasRhsSums <;> rfl)), ⟨mid4.next (g1.sub (by decide)) g2 g3',
    ⟨(g1.get (by decide)).trans x128, (g1.get (by decide)).trans x144, g5, g6, ?_, ?_⟩, ?_⟩, g2.trans f2⟩
  · intro i hi
    rw [g8 i hi, x34, addN_ptr, bytes_eq ml]
    exact congrArg (j.vec _) (by omega)
  · exact g10.trans (congrArg (j.vec _) (by omega))
  · intro u hu
    show _ = wrap32 (acc1 j p 0 u 0)
    have t := h.tile u hu
    unfold acc1
    rw [g14, getS_add, f3, t, getS_add, f5, getS_load mb, getS_ofS, lane_row ho]
    show wrap32 (_ + wrap32 (_ + wrap32 ((Job.u32 j.prodZp : Nat) : Int))) = _
    rw [wrap32_u32, wrap32_add_r (j.word .bias _), wrap32_two]

end Ruy.Arm8.One

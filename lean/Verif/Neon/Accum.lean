import Verif.Neon.Job
import Mathlib.Algebra.BigOperators.Intervals
import Mathlib.Tactic.Linarith
/-
The accumulation of one 4x4 block by `Kernel8bitNeon` (labels 1, 2, 79).
-/
namespace Ruy.Neon
open Simd (wrap8 wrap16 wrap32)

/-! ### Registers that a part of the program leaves alone -/

def Same : List Nat → St → St → Prop
  | [], _, _ => True
  | r :: l, s, s' => s'.x r = s.x r ∧ Same l s s'

theorem Same.get {l : List Nat} {s s' : St} (h : Same l s s') {r : Nat} (hr : r ∈ l) :
    s'.x r = s.x r := by
  induction l with
  | nil => simp at hr
  | cons a l ih =>
    rcases List.mem_cons.1 hr with rfl | hr
    · exact h.1
    · exact ih h.2 hr

theorem Same.refl (l : List Nat) (s : St) : Same l s s := by
  induction l with
  | nil => trivial
  | cons a l ih => exact ⟨rfl, ih⟩

theorem Same.trans {l : List Nat} {a b c : St} (h : Same l a b) (h' : Same l b c) : Same l a c := by
  induction l with
  | nil => trivial
  | cons r l ih => exact ⟨h'.1.trans h.1, ih h.2 h'.2⟩

theorem Same.sub {l k : List Nat} {a b : St} (h : Same l a b) (hk : ∀ r ∈ k, r ∈ l) : Same k a b := by
  induction k with
  | nil => trivial
  | cons r k ih =>
    exact ⟨h.get (hk r (by simp)), ih (fun r' hr' => hk r' (by simp [hr']))⟩

/-- Everything but the registers of the depth loop. -/
def keepLoop : List Nat := [5, 6, 7, 8, 9, 10, 11, 12, 32, 33, 36, 37, 38, 39, 40, 41, 42, 43]

theorem out_ptr {e : Env} {r : Region} {a o n : Nat} (h : a + o + n ≤ e.size r) :
    out e (.ptr r a) o n = false := by
  unfold out
  have : Nat.blt (e.size r) (a + o + n) = false := by
    rw [Bool.eq_false_iff]; intro hb; rw [Nat.blt_eq] at hb; omega
  simp only [Val.isPtr, Val.region, Val.off, this, Bool.not_true, Bool.or_self]

theorem sgn_of {n : Nat} (h : n < 2 ^ 31) : sgn n = n := by
  unfold sgn
  rw [Nat.mod_eq_of_lt (by omega), show Nat.blt n (2 ^ 31) = true by rw [Nat.blt_eq]; exact h]
  rfl

theorem sgn_lt {a b : Nat} (ha : a < 2 ^ 31) (hb : b < 2 ^ 31) :
    decide (sgn (Val.int a).num < sgn (Val.int b).num) = decide (a < b) := by
  rw [decide_eq_decide]
  show sgn a < sgn b ↔ _
  rw [sgn_of ha, sgn_of hb]
  omega

theorem sgn_eq {a b : Nat} (ha : a < 2 ^ 31) (hb : b < 2 ^ 31) :
    decide (sgn (Val.int a).num = sgn (Val.int b).num) = decide (a = b) := by
  rw [decide_eq_decide]
  show sgn a = sgn b ↔ _
  rw [sgn_of ha, sgn_of hb]
  omega

/-! ### The data flow -/

/-- SMULL of the lower halves, then SMLAL2 of the upper halves. -/
def prodV (l r : Vec) : Vec :=
  ofH fun i => getH (ofH fun k => getB l k * getB r k) i + getB l (8 + i) * getB r (8 + i)

/-- SADALP of `t` products: column `i` of the LHS, column `k` of the RHS. -/
def accV (j : Job) (a b i k : Nat) : Nat → Vec
  | 0 => fun _ => 0
  | t + 1 => ofS fun l => getS (accV j a b i k t) l +
      (getH (prodV (j.vec .lhs (a + 64 * t + 16 * i)) (j.vec .rhs (b + 64 * t + 16 * k))) (2 * l) +
        getH (prodV (j.vec .lhs (a + 64 * t + 16 * i)) (j.vec .rhs (b + 64 * t + 16 * k))) (2 * l + 1))

/-- What is loaded and multiplied before the depth loop, and between its iterations. -/
structure Loaded (j : Job) (a b : Nat) (s : St) : Prop where
  lp : s.x lhsPtr = .ptr .lhs (a + 64)
  rp : s.x rhsPtr = .ptr .rhs (b + 64)
  l : ∀ i, i < 4 → s.v i = j.vec .lhs (a + 16 * i)
  r : ∀ i, i < 4 → s.v (4 + i) = j.vec .rhs (b + 16 * i)

def Prods (j : Job) (a b : Nat) (s : St) : Prop :=
  ∀ i, i < 4 → ∀ k, k < 2 →
    s.v (8 + 4 * k + i) = prodV (j.vec .lhs (a + 16 * i)) (j.vec .rhs (b + 16 * k))

structure Loop (j : Job) (a b t : Nat) (s s' : St) : Prop where
  x1 : s'.x 1 = .int (16 * (t + 1))
  same : Same keepLoop s s'
  m : s'.m = s.m
  ok : s'.bad = false
  data : Loaded j (a + 64 * t) (b + 64 * t) s'
  p : Prods j (a + 64 * t) (b + 64 * t) s'
  acc : ∀ i, i < 4 → ∀ k, k < 4 → s'.v (16 + 4 * k + i) = accV j a b i k t

/-- The operands are readable. -/
structure Readable (j : Job) (a b : Nat) (s : St) : Prop where
  ml : s.m .lhs = j.m .lhs
  mr : s.m .rhs = j.m .rhs
  sl : a + 64 * (j.depthSteps + 1) ≤ j.size .lhs
  sr : b + 64 * (j.depthSteps + 1) ≤ j.size .rhs

theorem bytes_eq {j : Job} {s : St} {r : Region} {a b : Nat} (h : s.m r = j.m r) (hb : a = b) :
    bytes s (.ptr r a) 0 = j.vec r b := by
  subst hb
  unfold bytes Job.vec
  simp only [Val.region, Val.off, h, Nat.add_zero]

/-- `n` post-increments by 16. -/
def addN (p : Val) : Nat → Val
  | 0 => p
  | n + 1 => addVal (addN p n) 16

theorem addN_ptr (r : Region) (o n : Nat) : addN (.ptr r o) n = .ptr r (o + 16 * n) := by
  induction n with
  | zero => rfl
  | succ n ih => rw [addN, ih]; rfl

theorem loop_step {j : Job} {a b t : Nat} {s s' : St} (hf : j.depth < 2 ^ 31)
    (hd : Readable j a b s) (ht : t + 1 < j.depthSteps + 1) (hx : s.x 12 = .int j.depth) (h : Loop j a b t s s') :
    Loop j a b (t + 1) s (exec j.env gemm2.body s') := by
  have hml : s'.m .lhs = j.m .lhs := by rw [h.m]; exact hd.ml
  have hmr : s'.m .rhs = j.m .rhs := by rw [h.m]; exact hd.mr
  have hdep : j.depth = 16 * (j.depthSteps + 1) := rfl
  have bl : ∀ i, i < 4 → bytes s' (addN (s'.x lhsPtr) i) 0 = j.vec .lhs (a + 64 * (t + 1) + 16 * i) := by
    intro i _
    rw [h.data.lp, addN_ptr]; exact bytes_eq hml (by omega)
  have br : ∀ i, i < 4 → bytes s' (addN (s'.x rhsPtr) i) 0 = j.vec .rhs (b + 64 * (t + 1) + 16 * i) := by
    intro i _
    rw [h.data.rp, addN_ptr]; exact bytes_eq hmr (by omega)
  have hl : ∀ i, i < 4 → (exec j.env gemm2.body s').v i = bytes s' (addN (s'.x lhsPtr) i) 0 := by
    intro i hi
    interval_cases i <;> rfl
  have hr : ∀ i, i < 4 → (exec j.env gemm2.body s').v (4 + i) = bytes s' (addN (s'.x rhsPtr) i) 0 := by
    intro i hi
    interval_cases i <;> rfl
  refine ⟨?_, h.same.trans (by repeat' first | exact rfl | constructor), h.m, ?_, ⟨?_, ?_, fun i hi => (hl i hi).trans (bl i hi), fun i hi => (hr i hi).trans (br i hi)⟩, ?_, ?_⟩
  · show Val.int (((s'.x 1).num + 16) % 2 ^ 32) = _
    rw [h.x1]
    show Val.int ((16 * (t + 1) + 16) % 2 ^ 32) = _
    rw [Nat.mod_eq_of_lt (by omega)]
    rfl
  · show (s'.bad || out j.env (s'.x rhsPtr) 0 16 || out j.env (addVal (s'.x rhsPtr) 16) 0 16 ||
      out j.env (addVal (addVal (s'.x rhsPtr) 16) 16) 0 16 || out j.env (s'.x lhsPtr) 0 16 ||
      out j.env (addVal (s'.x lhsPtr) 16) 0 16 || out j.env (addVal (addVal (s'.x lhsPtr) 16) 16) 0 16 ||
      out j.env (addVal (addVal (addVal (s'.x lhsPtr) 16) 16) 16) 0 16 ||
      out j.env (addVal (addVal (addVal (s'.x rhsPtr) 16) 16) 16) 0 16 || (s'.x 1).isPtr || false ||
      (s'.x 12).isPtr) = false
    have h1 := hd.sl
    have h2 := hd.sr
    have h12 : (s'.x 12).isPtr = false := by
      rw [h.same.get (show 12 ∈ keepLoop by decide), hx]; rfl
    rw [h.ok, h.data.lp, h.data.rp, h.x1, h12]
    simp only [addVal]
    rw [out_ptr (by show _ ≤ j.size .rhs; omega), out_ptr (by show _ ≤ j.size .rhs; omega),
      out_ptr (by show _ ≤ j.size .rhs; omega), out_ptr (by show _ ≤ j.size .lhs; omega),
      out_ptr (by show _ ≤ j.size .lhs; omega), out_ptr (by show _ ≤ j.size .lhs; omega),
      out_ptr (by show _ ≤ j.size .lhs; omega), out_ptr (by show _ ≤ j.size .rhs; omega)]
    rfl
  · show addVal (addVal (addVal (addVal (s'.x lhsPtr) 16) 16) 16) 16 = _
    rw [h.data.lp]; rfl
  · show addVal (addVal (addVal (addVal (s'.x rhsPtr) 16) 16) 16) 16 = _
    rw [h.data.rp]; rfl
  · have e : ∀ i, i < 4 → ∀ k, k < 2 → (exec j.env gemm2.body s').v (8 + 4 * k + i) =
        prodV (bytes s' (addN (s'.x lhsPtr) i) 0) (bytes s' (addN (s'.x rhsPtr) k) 0) := by
      intro i hi k hk
      interval_cases i <;> interval_cases k <;> rfl
    intro i hi k hk
    rw [e i hi k hk, bl i hi, br k (by omega)]
  · have e0 : ∀ i, i < 4 → ∀ k, k < 2 → (exec j.env gemm2.body s').v (16 + 4 * k + i) =
        ofS fun l => getS (s'.v (16 + 4 * k + i)) l + (getH (s'.v (8 + 4 * k + i)) (2 * l) +
          getH (s'.v (8 + 4 * k + i)) (2 * l + 1)) := by
      intro i hi k hk
      interval_cases i <;> interval_cases k <;> rfl
    have e1 : ∀ i, i < 4 → ∀ k, k < 2 → (exec j.env gemm2.body s').v (16 + 4 * (2 + k) + i) =
        ofS fun l => getS (s'.v (16 + 4 * (2 + k) + i)) l + (getH (prodV (s'.v i) (s'.v (4 + (2 + k)))) (2 * l) +
          getH (prodV (s'.v i) (s'.v (4 + (2 + k)))) (2 * l + 1)) := by
      intro i hi k hk
      interval_cases i <;> interval_cases k <;> rfl
    intro i hi k hk
    rcases Nat.lt_or_ge k 2 with h2 | h2
    · rw [e0 i hi k h2, h.acc i hi k hk, h.p i hi k h2]
      rfl
    · obtain ⟨k, rfl⟩ := Nat.exists_eq_add_of_le h2
      rw [e1 i hi k (by omega), h.acc i hi _ hk, h.data.l i hi, h.data.r _ hk]
      rfl

/-- Labels 1 and 2: the products of all but the last sixteen levels of depth. -/
theorem accumulate {j : Job} {a b : Nat} {s : St} (hf : j.depth < 2 ^ 31)
    (hd : Readable j a b s) (hx : s.x 12 = .int j.depth) (h : Loop j a b 0 s s) :
    ∃ s', Reach j.env gemmCode (1, s) (3, s') ∧ Loop j a b j.depthSteps s s' := by
  have hdep : j.depth = 16 * (j.depthSteps + 1) := rfl
  have ex : ∀ r, (exec j.env gemm1.body s).x r = s.x r := fun _ => rfl
  have ev : ∀ r, (exec j.env gemm1.body s).v r = s.v r := fun _ => rfl
  have h0 : Loop j a b 0 s (exec j.env gemm1.body s) :=
    ⟨(ex 1).trans h.x1, (by repeat' first | exact rfl | constructor), by simp only [gemm1, exec, step], by
      show (s.bad || (s.x 1).isPtr || (s.x 12).isPtr) = false
      rw [h.ok, h.x1, hx]; rfl,
      ⟨(ex _).trans h.data.lp, (ex _).trans h.data.rp, fun i hi => (ev _).trans (h.data.l i hi),
        fun i hi => (ev _).trans (h.data.r i hi)⟩,
      fun i hi k hk => (ev _).trans (h.p i hi k hk), fun i hi k hk => (ev _).trans (h.acc i hi k hk)⟩
  have hz : (exec j.env gemm1.body s).z = decide (j.depthSteps = 0) := by
    show decide (sgn (s.x 1).num = sgn (s.x 12).num) = _
    rw [h.x1, hx]
    show decide (sgn (16 * (0 + 1)) = sgn j.depth) = _
    rw [sgn_of (by norm_num), sgn_of hf, decide_eq_decide]
    omega
  rcases Nat.eq_zero_or_pos j.depthSteps with hn | hn
  · refine ⟨_, Reach.block (b := gemm1) rfl ?_, by rw [hn]; exact h0⟩
    show (bif (exec j.env gemm1.body s).z then 3 else 2) = 3
    rw [hz, hn]; rfl
  · have hb : Reach j.env gemmCode (1, s) (2, exec j.env gemm1.body s) := by
      refine Reach.block (b := gemm1) rfl ?_
      show (bif (exec j.env gemm1.body s).z then 3 else 2) = 2
      rw [hz, decide_eq_false (by omega)]; rfl
    have key : ∀ d t s', t + 1 + d = j.depthSteps → Loop j a b t s s' →
        ∃ s'', Reach j.env gemmCode (2, s') (3, s'') ∧ Loop j a b j.depthSteps s s'' := by
      intro d
      induction d with
      | zero =>
        intro t s' ht hl
        have hl' := loop_step hf hd (by omega) hx hl
        refine ⟨_, Reach.block (b := gemm2) rfl ?_, by rw [show j.depthSteps = t + 1 by omega]; exact hl'⟩
        show (bif decide (sgn ((exec j.env gemm2.body s').x 1).num <
          sgn ((exec j.env gemm2.body s').x 12).num) then 2 else 3) = 3
        rw [hl'.x1, hl'.same.get (show 12 ∈ keepLoop by decide), hx]
        show (bif decide (sgn (16 * (t + 1 + 1)) < sgn j.depth) then 2 else 3) = 3
        rw [sgn_of (by omega), sgn_of hf, decide_eq_false (by omega)]; rfl
      | succ d ih =>
        intro t s' ht hl
        have hl' := loop_step hf hd (by omega) hx hl
        obtain ⟨s'', h1, h2⟩ := ih (t + 1) _ (by omega) hl'
        refine ⟨s'', Reach.trans (Reach.block (b := gemm2) rfl ?_) h1, h2⟩
        show (bif decide (sgn ((exec j.env gemm2.body s').x 1).num <
          sgn ((exec j.env gemm2.body s').x 12).num) then 2 else 3) = 2
        rw [hl'.x1, hl'.same.get (show 12 ∈ keepLoop by decide), hx]
        show (bif decide (sgn (16 * (t + 1 + 1)) < sgn j.depth) then 2 else 3) = 2
        rw [sgn_of (by omega), sgn_of hf, decide_eq_true (by omega)]; rfl
    obtain ⟨s'', h1, h2⟩ := key (j.depthSteps - 1) 0 _ (by omega) h0
    exact ⟨s'', hb.trans h1, h2⟩

/-! ### Values -/

theorem wrap32_add_l (x y : Int) : wrap32 (wrap32 x + y) = wrap32 (x + y) := by
  unfold wrap32; omega
theorem wrap32_add_r (x y : Int) : wrap32 (x + wrap32 y) = wrap32 (x + y) := by
  unfold wrap32; omega
theorem wrap16_add_l (x y : Int) : wrap16 (wrap16 x + y) = wrap16 (x + y) := by
  unfold wrap16; omega

theorem wrap32_ex (x : Int) : ∃ t, wrap32 x = x + 4294967296 * t :=
  ⟨-((x + 2147483648) / 4294967296), by unfold wrap32; omega⟩
theorem wrap32_mul_add (x t : Int) : wrap32 (x + 4294967296 * t) = wrap32 x := by
  unfold wrap32; omega
theorem wrap32_four (x y z w : Int) : wrap32 (wrap32 x + wrap32 y + wrap32 z + wrap32 w) =
    wrap32 (x + y + z + w) := by
  obtain ⟨a, ha⟩ := wrap32_ex x
  obtain ⟨b, hb⟩ := wrap32_ex y
  obtain ⟨c, hc⟩ := wrap32_ex z
  obtain ⟨d, hd⟩ := wrap32_ex w
  rw [ha, hb, hc, hd, ← wrap32_mul_add (x + y + z + w) (a + b + c + d)]
  exact congrArg wrap32 (by ring)
theorem wrap32_two (x y : Int) : wrap32 (wrap32 x + wrap32 y) = wrap32 (x + y) := by
  rw [wrap32_add_l, wrap32_add_r]

/-- Two products accumulated in 16 bits. -/
def pair (l r : Vec) (i : Nat) : Int := wrap16 (getB l i * getB r i + getB l (8 + i) * getB r (8 + i))

theorem getH_prodV (l r : Vec) (i : Nat) : getH (prodV l r) i = pair l r i := by
  unfold prodV pair
  rw [getH_ofH, getH_ofH, wrap16_add_l]

/-- Accumulator of column `i` of the LHS and column `k` of the RHS. -/
def blockDot (j : Job) (a b i k : Nat) (n : Nat) : Int :=
  ∑ t ∈ Finset.range n, ∑ q ∈ Finset.range 8,
    pair (j.vec .lhs (a + 64 * t + 16 * i)) (j.vec .rhs (b + 64 * t + 16 * k)) q

theorem getS_accV (j : Job) (a b i k t l : Nat) : getS (accV j a b i k t) l =
    wrap32 (∑ t ∈ Finset.range t,
      (pair (j.vec .lhs (a + 64 * t + 16 * i)) (j.vec .rhs (b + 64 * t + 16 * k)) (2 * l) +
        pair (j.vec .lhs (a + 64 * t + 16 * i)) (j.vec .rhs (b + 64 * t + 16 * k)) (2 * l + 1))) := by
  induction t with
  | zero =>
    rw [accV, getS_zero, Finset.sum_range_zero]
    rfl
  | succ t ih =>
    rw [accV, getS_ofS, ih, getH_prodV, getH_prodV, wrap32_add_l, Finset.sum_range_succ]

/-- The two rounds of ADDP. -/
def tileV (v0 v1 v2 v3 : Vec) : Vec :=
  vop .addp v0 (vop .addp v0 v0 v1) (vop .addp v2 v2 v3)

theorem getS_addp_lo (d n m : Vec) (u : Nat) (hu : u < 2) :
    getS (vop .addp d n m) u = wrap32 (getS n (2 * u) + getS n (2 * u + 1)) := by
  simp only [vop]
  rw [getS_ofS, if_pos hu]

theorem getS_addp_hi (d n m : Vec) (u : Nat) :
    getS (vop .addp d n m) (2 + u) = wrap32 (getS m (2 * u) + getS m (2 * u + 1)) := by
  simp only [vop]
  rw [getS_ofS, if_neg (by omega), Nat.add_sub_cancel_left]

theorem getS_tileV (v : Nat → Vec) (u : Nat) (hu : u < 4) :
    getS (tileV (v 0) (v 1) (v 2) (v 3)) u =
      wrap32 (getS (v u) 0 + getS (v u) 1 + getS (v u) 2 + getS (v u) 3) := by
  have h4 : ∀ x y z w : Int, x + y + (z + w) = x + y + z + w := fun x y z w => by ring
  unfold tileV
  interval_cases u
  · rw [getS_addp_lo _ _ _ 0 (by omega), getS_addp_lo _ _ _ 0 (by omega),
      getS_addp_lo _ _ _ 1 (by omega), wrap32_two, h4]
  · rw [getS_addp_lo _ _ _ 1 (by omega), getS_addp_hi _ _ _ 0, getS_addp_hi _ _ _ 1, wrap32_two, h4]
  · rw [getS_addp_hi _ _ _ 0, getS_addp_lo _ _ _ 0 (by omega), getS_addp_lo _ _ _ 1 (by omega),
      wrap32_two, h4]
  · rw [getS_addp_hi _ _ _ 1, getS_addp_hi _ _ _ 0, getS_addp_hi _ _ _ 1, wrap32_two, h4]

theorem tile_value (j : Job) (a b w n : Nat) (u : Nat) (hu : u < 4) :
    getS (tileV (accV j a b 0 w n) (accV j a b 1 w n) (accV j a b 2 w n) (accV j a b 3 w n)) u =
      wrap32 (blockDot j a b u w n) := by
  rw [getS_tileV (fun i => accV j a b i w n) u hu]
  simp only [getS_accV]
  rw [wrap32_four]
  refine congrArg wrap32 ?_
  unfold blockDot
  rw [← Finset.sum_add_distrib, ← Finset.sum_add_distrib, ← Finset.sum_add_distrib]
  refine Finset.sum_congr rfl (fun t _ => ?_)
  simp only [Finset.sum_range_succ, Finset.sum_range_zero]
  ring

end Ruy.Neon

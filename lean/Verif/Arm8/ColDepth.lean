import Verif.Arm8.ColCode
import Verif.Arm8.Depth
/-
The ARM32 8-bit kernel for one column: the depth loop.

The accumulators of row `i < 4` of the block are the four lanes of register `6 + i`; after label 79 the entry `i` is
lane `i` of register 14.
-/
namespace Ruy.Arm8.One
open Ruy.Arm8
open Ruy.Neon (St Val Region Vec VOp vop sgn sgn_of sgn_lt sgn_eq Same addVal addN addN_ptr out out_ptr bytes
  getB getU getH getS ofS prodV pair getH_prodV getS_ofS getS_zero wrap32_add_l wrap32_add_r wrap32_two wrap32_four)
open Simd (wrap8 wrap16 wrap32)

/-- The operands in registers: the four rows of the LHS and the first column of the RHS, levels `16 * g`, …. -/
def Data (j : Job) (a b g : Nat) (s : St) : Prop :=
  (∀ i, i < 4 → s.v i = j.vec .lhs (a + 64 * g + 16 * i)) ∧ s.v 4 = j.vec .rhs (b + 32 * g)

/-- Label 1, before block `p`. -/
structure Head (j : Job) (t : Neon.Dt) (p : Nat) (s : St) : Prop where
  mid : Mid j t p 0 s
  x1 : s.x 1 = .int 16
  lc : s.x 128 = .ptr .lhs (lhsBlk j p)
  rc : s.x 144 = .ptr .rhs (rhsBlk j 0)
  lp : s.x lp = .ptr .lhs (lhsBlk j p + 64)
  rp : s.x rp = .ptr .rhs (rhsBlk j 0 + 32)
  data : Data j (lhsBlk j p) (rhsBlk j 0) 0 s
  fresh : ∀ i, i < 4 → s.v (6 + i) = fun _ => 0

/-- Label 2: `t` groups of levels accumulated, group `t` in registers. -/
structure Loop (j : Job) (a b t : Nat) (s s' : St) : Prop where
  same : Same keepLoop s s'
  m : s'.m = s.m
  ok : s'.bad = false
  x1 : s'.x 1 = .int (16 * (t + 1))
  x10 : s'.x 10 = .int j.depth
  lp : s'.x Arm8.lp = .ptr .lhs (a + 64 * t + 64)
  rp : s'.x Arm8.rp = .ptr .rhs (b + 32 * t + 32)
  data : Data j a b t s'
  acc : ∀ i, i < 4 → s'.v (6 + i) = accV j a b i 0 t

theorem k1x (e : Env) (s : St) : Same keepLoop s (exec e k1.body s) ∧ Same [1, 34, 35] s (exec e k1.body s) ∧
    (exec e k1.body s).m = s.m ∧ (exec e k1.body s).v = s.v ∧
    (exec e k1.body s).bad = (s.bad || (s.x 1).isPtr || (e.field .depth).isPtr) ∧
    (exec e k1.body s).x 10 = e.field .depth ∧
    (exec e k1.body s).z = decide (sgn (s.x 1).num = sgn (e.field .depth).num) := Arm8.k1x e s

theorem k2v (e : Env) (s : St) :
    (∀ i, i < 4 → (exec e k2.body s).v i = bytes s (addN (s.x 34) i) 0) ∧
    (exec e k2.body s).v 4 = bytes s (addN (s.x 35) 0) 0 ∧
    (∀ i, i < 4 → (exec e k2.body s).v (6 + i) =
      vop .sadalp (s.v (6 + i)) (prodV (s.v i) (s.v 4)) (prodV (s.v i) (s.v 4))) := by
  refine ⟨?_, rfl, ?_⟩
  · intro i hi
    interval_cases i <;> rfl
  · intro i hi
    interval_cases i <;> rfl

theorem k2x (e : Env) (s : St) : Same keepLoop s (exec e k2.body s) ∧ (exec e k2.body s).m = s.m ∧
    (exec e k2.body s).x 1 = .int (((s.x 1).num + 16) % 2 ^ 32) ∧ (exec e k2.body s).x 10 = s.x 10 ∧
    (exec e k2.body s).x 34 = addN (s.x 34) 4 ∧ (exec e k2.body s).x 35 = addN (s.x 35) 2 ∧
    (exec e k2.body s).bad = (s.bad || out e.base (s.x 34) 0 16 || out e.base (addN (s.x 34) 1) 0 16 ||
      out e.base (addN (s.x 34) 2) 0 16 || out e.base (addN (s.x 34) 3) 0 16 ||
      out e.base (s.x 35) 0 16 || !(addN (s.x 35) 1).isPtr || (s.x 1).isPtr || false || (s.x 10).isPtr) ∧
    (exec e k2.body s).lt = decide (sgn (((s.x 1).num + 16) % 2 ^ 32) < sgn (s.x 10).num) := by
  cases s
  exact ⟨by keep, rfl, rfl, rfl, rfl, rfl, rfl, rfl⟩

/-- What a group of levels adds. -/
theorem level_add {j : Job} {a b t : Nat} {s s' : St} (hd : Data j a b t s)
    (ha : ∀ i, i < 4 → s.v (6 + i) = accV j a b i 0 t)
    (hv : ∀ i, i < 4 → s'.v (6 + i) =
      vop .sadalp (s.v (6 + i)) (prodV (s.v i) (s.v 4)) (prodV (s.v i) (s.v 4))) :
    ∀ i, i < 4 → s'.v (6 + i) = accV j a b i 0 (t + 1) := by
  intro i hi
  rw [hv i hi, ha i hi, hd.1 i hi, hd.2]
  rfl

theorem loop_step {j : Job} (hf : j.Fits) {p t : Nat} (hp : p ≤ j.rowSteps) {s s' : St}
    (hl : s.m .lhs = j.m .lhs) (hr : s.m .rhs = j.m .rhs) (h : Loop j (lhsBlk j p) (rhsBlk j 0) t s s')
    (ht : t < j.depthSteps) :
    Loop j (lhsBlk j p) (rhsBlk j 0) (t + 1) s (exec j.env k2.body s') ∧
      (exec j.env k2.body s').lt = decide (t + 1 < j.depthSteps) := by
  have b1 := lhs_bound hf hp
  have b2 := rhs_bound hf (Nat.zero_le j.colSteps)
  have b3 := hf.deep
  have hdep : j.depth = 16 * (j.depthSteps + 1) := rfl
  have hml : s'.m .lhs = j.m .lhs := by rw [h.m]; exact hl
  have hmr : s'.m .rhs = j.m .rhs := by rw [h.m]; exact hr
  have lp34 : s'.x 34 = _ := h.lp
  have rp35 : s'.x 35 = _ := h.rp
  obtain ⟨v0, v4, v6⟩ := k2v j.env s'
  obtain ⟨c1, c2, c3, c4, c5, c6, c7, c8⟩ := k2x j.env s'
  generalize exec j.env k2.body s' = s1 at *
  have ac := level_add h.data h.acc v6
  rw [rp35, addN_ptr, bytes_eq hmr] at v4
  rw [h.x1] at c3 c8
  rw [h.x10] at c8
  rw [lp34, addN_ptr] at c5
  rw [rp35, addN_ptr] at c6
  rw [h.ok, h.x1, h.x10, lp34, rp35, addN_ptr, addN_ptr, addN_ptr, addN_ptr, out_ok (by omega), out_ok (by omega),
    out_ok (by omega), out_ok (by omega), out_ok (by omega)] at c7
  have e1 : (16 * (t + 1) + 16) % 2 ^ 32 = 16 * (t + 1 + 1) := Nat.mod_eq_of_lt (by omega)
  refine ⟨⟨h.same.trans c1, c2.trans h.m, c7, ?_, c4.trans h.x10, ?_, ?_, ⟨?_, ?_⟩, ac⟩, ?_⟩
  · rw [c3]; exact congrArg Val.int e1
  · exact c5.trans (congrArg _ (by omega))
  · exact c6.trans (congrArg _ (by omega))
  · intro i hi
    rw [v0 i hi, lp34, addN_ptr, bytes_eq hml]
    exact congrArg (j.vec _) (by omega)
  · exact v4.trans (congrArg (j.vec _) (by omega))
  · rw [c8]
    show decide (sgn ((16 * (t + 1) + 16) % 2 ^ 32) < sgn j.depth) = _
    rw [e1, sgn_of (by omega), sgn_of b3, decide_eq_decide]
    omega

theorem loop_all {j : Job} (hf : j.Fits) {p : Nat} (hp : p ≤ j.rowSteps) {s : St}
    (hl : s.m .lhs = j.m .lhs) (hr : s.m .rhs = j.m .rhs) (d : Nat) : ∀ {t : Nat} {s' : St},
    Loop j (lhsBlk j p) (rhsBlk j 0) t s s' → t + 1 + d = j.depthSteps →
    ∃ s'', Reach j.env kernel (2, s') (3, s'') ∧ Loop j (lhsBlk j p) (rhsBlk j 0) j.depthSteps s s'' := by
  induction d with
  | zero =>
    intro t s' h ht
    obtain ⟨h1, l1⟩ := loop_step hf hp hl hr h (by omega)
    refine ⟨_, Reach.block (b := k2) rfl ?_, by rwa [show j.depthSteps = t + 1 by omega]⟩
    show (bif (exec j.env k2.body s').lt then 2 else 3) = 3
    rw [l1, decide_eq_false (by omega)]; rfl
  | succ d ih =>
    intro t s' h ht
    obtain ⟨h1, l1⟩ := loop_step hf hp hl hr h (by omega)
    obtain ⟨s'', r, h2⟩ := ih h1 (by omega)
    refine ⟨s'', Reach.trans (Reach.block (b := k2) rfl (l := 2) ?_) r, h2⟩
    show (bif (exec j.env k2.body s').lt then 2 else 3) = 2
    rw [l1, decide_eq_true (by omega)]; rfl

/-! ### Label 79 -/

def k3a : List Instr := k3.body.take 12
def k3b : List Instr := k3.body.drop 12

theorem k3_split (e : Env) (s : St) : exec e k3.body s = exec e k3b (exec e k3a s) := by
  rw [← exec_append]; rfl

theorem k3av (e : Env) (s : St) : ∀ i, i < 4 → (exec e k3a s).v (6 + i) =
      vop .sadalp (s.v (6 + i)) (prodV (s.v i) (s.v 4)) (prodV (s.v i) (s.v 4)) := by
  intro i hi
  interval_cases i <;> rfl

theorem k3ax (e : Env) (s : St) : Same keepLoop s (exec e k3a s) ∧ (exec e k3a s).m = s.m ∧
    (exec e k3a s).bad = s.bad := by
  cases s
  exact ⟨by keep, rfl, rfl⟩

theorem k3bx (e : Env) (s : St) : Same keepLoop s (exec e k3b s) ∧ (exec e k3b s).m = s.m ∧
    (exec e k3b s).bad = (s.bad || Nat.blt (s.x 13).num (32 + 4) || (s.x 96).isPtr || (e.field .lastRow).isPtr) ∧
    (exec e k3b s).lt = decide (sgn (s.x 96).num < sgn (e.field .lastRow).num) ∧
    (exec e k3b s).v 14 = tileV (s.v 14) (s.v 0) (s.v 1) (fun i => s.v (6 + i)) := by
  cases s
  exact ⟨by keep, rfl, rfl, rfl, rfl⟩

/-- The entries of a block: `f u` for row `u`. -/
def Tile (f : Nat → Int) (s : St) : Prop := ∀ u, u < 4 → getS (s.v 14) u = f u

/-- A tile that has been summed up. -/
structure Summed (j : Job) (t : Neon.Dt) (p : Nat) (s : St) : Prop where
  mid : Mid j t p 0 s
  lc : s.x 128 = .ptr .lhs (lhsBlk j p)
  rc : s.x 144 = .ptr .rhs (rhsBlk j 0)
  tile : Tile (fun u => wrap32 (blockDot j (lhsBlk j p) (rhsBlk j 0) u 0 (j.depthSteps + 1))) s

/-- From label 1 to the branch after label 79. -/
theorem summed {j : Job} (hf : j.Fits) {ty : Neon.Dt} {p : Nat} (hp : p ≤ j.rowSteps) {s : St}
    (h : Head j ty p s) : ∃ s', Reach j.env kernel (1, s) (if p < j.rowSteps then 4 else 5, s') ∧ Summed j ty p s' ∧
      s'.m = s.m := by
  have b3 := hf.deep
  have hdep : j.depth = 16 * (j.depthSteps + 1) := rfl
  have hrow := hf.row
  have hlr : j.lastRow = j.startRow + 4 * j.rowSteps := rfl
  have hl : s.m .lhs = j.m .lhs := h.mid.mem _ (by decide) (by decide)
  have hr : s.m .rhs = j.m .rhs := h.mid.mem _ (by decide) (by decide)
  obtain ⟨a1, a1', a2, a3, a4, a5, a6⟩ := k1x j.env s
  have n1 : ∀ l, (bif (exec j.env k1.body s).z then 3 else 2) = l →
      Reach j.env kernel (1, s) (l, exec j.env k1.body s) := fun l hl => Reach.block (b := k1) rfl hl
  generalize exec j.env k1.body s = s1 at *
  rw [h.x1] at a4 a6
  rw [h.mid.ok] at a4
  have z1 : s1.z = decide (16 = j.depth) := a6.trans (sgn_eq (by omega) b3)
  have l1 : Loop j (lhsBlk j p) (rhsBlk j 0) 0 s s1 :=
    ⟨a1, a2, a4, (a1'.get (by decide)).trans h.x1, a5, (a1'.get (by decide)).trans h.lp, (a1'.get (by decide)).trans h.rp,
      by unfold Data; rw [a3]; exact h.data, fun i hi => by rw [a3, h.fresh _ hi]; rfl⟩
  have key : ∃ s2, Reach j.env kernel (1, s) (3, s2) ∧ Loop j (lhsBlk j p) (rhsBlk j 0) j.depthSteps s s2 := by
    by_cases hd : j.depthSteps = 0
    · exact ⟨s1, n1 3 (by rw [z1, decide_eq_true (by omega)]; rfl), by rwa [hd]⟩
    · obtain ⟨s2, r2, l2⟩ := loop_all hf hp hl hr (j.depthSteps - 1) l1 (by omega)
      exact ⟨s2, (n1 2 (by rw [z1, decide_eq_false (by omega)]; rfl)).trans r2, l2⟩
  obtain ⟨s2, r2, l2⟩ := key
  have n3 : ∀ l, (bif !(exec j.env k3.body s2).lt then 5 else 4) = l →
      Reach j.env kernel (3, s2) (l, exec j.env k3.body s2) := fun l hl => Reach.block (b := k3) rfl hl
  rw [k3_split] at n3
  have v3 := level_add l2.data l2.acc (k3av j.env s2)
  obtain ⟨c1, c2, c3⟩ := k3ax j.env s2
  generalize exec j.env k3a s2 = s3 at *
  have c3' : s3.bad = false := c3.trans l2.ok
  obtain ⟨d1, d2, d3, d4, d5⟩ := k3bx j.env s3
  generalize exec j.env k3b s3 = s4 at *
  have k := (l2.same.trans c1)
  have x13 : s3.x 13 = .int 96 := (k.get (by decide)).trans h.mid.sp
  have x96 : s3.x 96 = .int (j.startRow + 4 * p) := (k.get (by decide)).trans h.mid.row
  rw [c3', x13, x96] at d3
  have d3' : s4.bad = false := d3
  rw [x96] at d4
  have d4' : s4.lt = decide (j.startRow + 4 * p < j.lastRow) := d4.trans (sgn_lt (by omega) (by omega))
  have k' := k.trans d1
  have mm : s4.m = s.m := d2.trans (c2.trans l2.m)
  refine ⟨s4, r2.trans (n3 _ ?_), ⟨h.mid.next (k'.sub (by decide)) mm d3',
    (k'.get (by decide)).trans h.lc, (k'.get (by decide)).trans h.rc, ?_⟩, mm⟩
  · rw [d4']
    by_cases hp' : p < j.rowSteps
    · rw [if_pos hp', decide_eq_true (by omega)]; rfl
    · rw [if_neg hp', decide_eq_false (by omega)]; rfl
  · intro u hu
    refine Eq.trans ?_ (tile_value j _ _ 0 _ (s3.v 14) (s3.v 0) (s3.v 1) hu)
    rw [d5, getS_tileV _ _ _ _ hu, getS_tileV _ _ _ _ hu]
    simp only [v3 u hu]

end Ruy.Arm8.One

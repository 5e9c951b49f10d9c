import Verif.Arm8.Job
import Verif.Neon.Block
/-
The ARM32 8-bit kernel: the depth loop.

The accumulators of row `i < 4` of the block and column `k < 2` are the four lanes of register `6 + 4 * k + i`;
after label 79 the entry (`i`, `k`) is lane `i` of register `14 + k`.
-/
namespace Ruy.Arm8
open Ruy.Neon (St Val Region Vec VOp vop sgn sgn_of sgn_lt sgn_eq Same addVal addN addN_ptr out out_ptr bytes
  getB getU getH getS ofS prodV pair getH_prodV getS_ofS getS_zero wrap32_add_l wrap32_add_r wrap32_two wrap32_four)
open Simd (wrap8 wrap16 wrap32)

theorem stops_of {e : Env} {P : List Block} {s s' : St} (h : Reach e P (0, s) (P.length, s')) : Stops e P s s' := by
  obtain ⟨N, hN⟩ := h
  refine ⟨N, fun n hn => ?_⟩
  obtain ⟨k, rfl⟩ := Nat.exists_eq_add_of_le hn
  rw [run_add, hN]
  induction k with
  | zero => rfl
  | succ k ih =>
    show run e P k (bstep e P (P.length, s')) = _
    have : bstep e P (P.length, s') = (P.length, s') := by
      unfold bstep
      simp
    rw [this]
    exact ih (by omega)

theorem stops_unique {e : Env} {P : List Block} {s a b : St} (ha : Stops e P s a) (hb : Stops e P s b) : a = b := by
  obtain ⟨n, hn⟩ := ha
  obtain ⟨k, hk⟩ := hb
  have h1 := hn (n + k) (by omega)
  rw [hk (n + k) (by omega)] at h1
  exact (Prod.mk.inj h1).2.symm

/-! ### Halves -/

theorem getS_setLo_lo (v a : Vec) {i : Nat} (h : i < 2) : getS (setLo v a) i = getS a i := by
  interval_cases i <;> rfl
theorem getS_setLo_hi (v a : Vec) {i : Nat} (h : i < 2) : getS (setLo v a) (2 + i) = getS v (2 + i) := by
  interval_cases i <;> rfl
theorem getS_setHi_lo (v a : Vec) {i : Nat} (h : i < 2) : getS (setHi v a) i = getS v i := by
  interval_cases i <;> rfl
theorem getS_setHi_hi (v a : Vec) {i : Nat} (h : i < 2) : getS (setHi v a) (2 + i) = getS a i := by
  interval_cases i <;> rfl
theorem getS_half_lo (v : Vec) (i : Nat) : getS (half 0 v) i = getS v i := rfl
theorem getS_half_hi (v : Vec) {i : Nat} (h : i < 2) : getS (half 1 v) i = getS v (2 + i) := by
  interval_cases i <;> rfl

/-! ### Memory -/

theorem bytes_eq {j : Job} {s : St} {r : Region} {a : Nat} (h : s.m r = j.m r) :
    bytes s (.ptr r a) 0 = j.vec r a := by
  unfold bytes Job.vec
  simp only [Val.region, Val.off, h, Nat.add_zero]

theorem out_ok {j : Job} {r : Region} {a n : Nat} (h : a + n ≤ j.size r) :
    out j.env.base (.ptr r a) 0 n = false := out_ptr (by show a + 0 + n ≤ j.size r; omega)

/-! ### Places -/

def lhsBlk (j : Job) (p : Nat) : Nat := j.lhsBase + p * (4 * j.lhsStride)
def rhsBlk (j : Job) (q : Nat) : Nat := j.rhsBase + q * (2 * j.rhsStride)
def dstBlk (j : Job) (t : Neon.Dt) (p q : Nat) : Nat := j.dstBase + q * (2 * j.dstStride) + p * (4 * t.size)

/-- The variables of the block (`p`, `q`) on the stack, without those that are changed ahead of time.  Entries are
stored as type `t`. -/
structure Mid (j : Job) (t : Neon.Dt) (p q : Nat) (s : St) : Prop where
  sp : s.x 13 = .int 96
  tmp : s.x tmp = .ptr .tmp 0
  dc : s.x 64 = .ptr .dst (j.dstBase + q * (2 * j.dstStride))
  dp : s.x 80 = .ptr .dst (dstBlk j t p q)
  row : s.x 96 = .int (j.startRow + 4 * p)
  col : s.x 112 = .int (j.startCol + 2 * q)
  mem : ∀ r, r ≠ .dst → r ≠ .tmp → s.m r = j.m r
  ok : s.bad = false

def midRegs : List Nat := [13, 42, 64, 80, 96, 112]

theorem Mid.next {j : Job} {t : Neon.Dt} {p q : Nat} {s s' : St} (h : Mid j t p q s) (hs : Same midRegs s s')
    (hm : s'.m = s.m) (ok : s'.bad = false) : Mid j t p q s' :=
  ⟨(hs.get (by decide)).trans h.sp, (hs.get (by decide)).trans h.tmp, (hs.get (by decide)).trans h.dc,
    (hs.get (by decide)).trans h.dp, (hs.get (by decide)).trans h.row, (hs.get (by decide)).trans h.col,
    by rw [hm]; exact h.mem, ok⟩

/-- The operands in registers: the first two rows of the LHS and both columns of the RHS, levels `16 * g`, …. -/
def Data (j : Job) (a b g : Nat) (s : St) : Prop :=
  s.v 0 = j.vec .lhs (a + 64 * g) ∧ s.v 1 = j.vec .lhs (a + 64 * g + 16) ∧
    s.v 4 = j.vec .rhs (b + 32 * g) ∧ s.v 5 = j.vec .rhs (b + 32 * g + 16)

/-- VPADAL of `t` products: row `i` of the LHS block at `a`, column `k` of the RHS block at `b`. -/
def accV (j : Job) (a b i k : Nat) : Nat → Vec
  | 0 => fun _ => 0
  | t + 1 => vop .sadalp (accV j a b i k t) (prodV (j.vec .lhs (a + 64 * t + 16 * i)) (j.vec .rhs (b + 32 * t + 16 * k)))
      (prodV (j.vec .lhs (a + 64 * t + 16 * i)) (j.vec .rhs (b + 32 * t + 16 * k)))

/-- The products of row `i` and column `k` of two packed blocks, `n` groups of 16 levels. -/
def blockDot (j : Job) (a b i k n : Nat) : Int :=
  ∑ t ∈ Finset.range n, ∑ l ∈ Finset.range 8,
    pair (j.vec .lhs (a + 64 * t + 16 * i)) (j.vec .rhs (b + 32 * t + 16 * k)) l

theorem getS_accV (j : Job) (a b i k t l : Nat) : getS (accV j a b i k t) l =
    wrap32 (∑ t ∈ Finset.range t,
      (pair (j.vec .lhs (a + 64 * t + 16 * i)) (j.vec .rhs (b + 32 * t + 16 * k)) (2 * l) +
        pair (j.vec .lhs (a + 64 * t + 16 * i)) (j.vec .rhs (b + 32 * t + 16 * k)) (2 * l + 1))) := by
  induction t with
  | zero =>
    rw [accV, getS_zero, Finset.sum_range_zero]
    rfl
  | succ t ih =>
    rw [accV]
    simp only [vop]
    rw [getS_ofS, ih, getH_prodV, getH_prodV, wrap32_add_l, Finset.sum_range_succ]

/-- Label 1, before block (`p`, `q`). -/
structure Head (j : Job) (t : Neon.Dt) (p q : Nat) (s : St) : Prop where
  mid : Mid j t p q s
  x1 : s.x 1 = .int 16
  lc : s.x 128 = .ptr .lhs (lhsBlk j p)
  rc : s.x 144 = .ptr .rhs (rhsBlk j q)
  lp : s.x lp = .ptr .lhs (lhsBlk j p + 32)
  rp : s.x rp = .ptr .rhs (rhsBlk j q + 32)
  data : Data j (lhsBlk j p) (rhsBlk j q) 0 s
  fresh : ∀ i, i < 8 → s.v (6 + i) = fun _ => 0

theorem lhs_bound {j : Job} (hf : j.Fits) {p : Nat} (hp : p ≤ j.rowSteps) :
    lhsBlk j p + 64 * (j.depthSteps + 1) ≤ j.size .lhs := by
  have h1 := hf.lhsSize
  have h2 := hf.lhsDepth
  have hd : j.depth = 16 * (j.depthSteps + 1) := rfl
  have h3 : p * (4 * j.lhsStride) ≤ j.rowSteps * (4 * j.lhsStride) := Nat.mul_le_mul_right _ hp
  rw [Nat.add_mul, Nat.one_mul] at h1
  unfold lhsBlk; omega

theorem rhs_bound {j : Job} (hf : j.Fits) {q : Nat} (hq : q ≤ j.colSteps) :
    rhsBlk j q + 32 * (j.depthSteps + 1) ≤ j.size .rhs := by
  have h1 := hf.rhsSize
  have h2 := hf.rhsDepth
  have hd : j.depth = 16 * (j.depthSteps + 1) := rfl
  have h3 : q * (2 * j.rhsStride) ≤ j.colSteps * (2 * j.rhsStride) := Nat.mul_le_mul_right _ hq
  rw [Nat.add_mul, Nat.one_mul] at h1
  unfold rhsBlk; omega

/-! ### The depth loop -/

/-- The registers that the depth loop leaves alone. -/
def keepLoop : List Nat := [13, 42, 64, 80, 96, 112, 128, 144]

/-- Label 2: `t` groups of levels accumulated, the first half of group `t` in registers. -/
structure Loop (j : Job) (a b t : Nat) (s s' : St) : Prop where
  same : Same keepLoop s s'
  m : s'.m = s.m
  ok : s'.bad = false
  x1 : s'.x 1 = .int (16 * (t + 1))
  x10 : s'.x 10 = .int j.depth
  lp : s'.x Arm8.lp = .ptr .lhs (a + 64 * t + 32)
  rp : s'.x Arm8.rp = .ptr .rhs (b + 32 * t + 32)
  data : Data j a b t s'
  acc : ∀ i, i < 4 → ∀ k, k < 2 → s'.v (6 + 4 * k + i) = accV j a b i k t

theorem k1x (e : Env) (s : St) : Same keepLoop s (exec e k1.body s) ∧ Same [1, 34, 35] s (exec e k1.body s) ∧
    (exec e k1.body s).m = s.m ∧ (exec e k1.body s).v = s.v ∧
    (exec e k1.body s).bad = (s.bad || (s.x 1).isPtr || (e.field .depth).isPtr) ∧
    (exec e k1.body s).x 10 = e.field .depth ∧
    (exec e k1.body s).z = decide (sgn (s.x 1).num = sgn (e.field .depth).num) := by
  cases s
  exact ⟨by keep, by keep, rfl, rfl, rfl, rfl, rfl⟩

/-- The registers that are multiplied: rows 0 and 1 are loaded, rows 2 and 3 are at the pointer. -/
def rowV (s : St) (i : Nat) : Vec := bif Nat.blt i 2 then s.v i else bytes s (addN (s.x 34) (i - 2)) 0

theorem k2v (e : Env) (s : St) :
    (exec e k2.body s).v 0 = bytes s (addN (s.x 34) 2) 0 ∧ (exec e k2.body s).v 1 = bytes s (addN (s.x 34) 3) 0 ∧
    (exec e k2.body s).v 4 = bytes s (addN (s.x 35) 0) 0 ∧ (exec e k2.body s).v 5 = bytes s (addN (s.x 35) 1) 0 ∧
    (∀ i, i < 4 → ∀ k, k < 2 → (exec e k2.body s).v (6 + 4 * k + i) =
      vop .sadalp (s.v (6 + 4 * k + i)) (prodV (rowV s i) (s.v (4 + k))) (prodV (rowV s i) (s.v (4 + k)))) := by
  refine ⟨rfl, rfl, rfl, rfl, ?_⟩
  intro i hi k hk
  interval_cases i <;> interval_cases k <;> rfl

theorem k2x (e : Env) (s : St) : Same keepLoop s (exec e k2.body s) ∧ (exec e k2.body s).m = s.m ∧
    (exec e k2.body s).x 1 = .int (((s.x 1).num + 16) % 2 ^ 32) ∧ (exec e k2.body s).x 10 = s.x 10 ∧
    (exec e k2.body s).x 34 = addN (s.x 34) 4 ∧ (exec e k2.body s).x 35 = addN (s.x 35) 2 ∧
    (exec e k2.body s).bad = (s.bad || out e.base (s.x 34) 0 16 || out e.base (addN (s.x 34) 1) 0 16 ||
      out e.base (addN (s.x 34) 2) 0 16 || out e.base (addN (s.x 34) 3) 0 16 ||
      out e.base (s.x 35) 0 16 || out e.base (addN (s.x 35) 1) 0 16 || (s.x 1).isPtr || false || (s.x 10).isPtr) ∧
    (exec e k2.body s).lt = decide (sgn (((s.x 1).num + 16) % 2 ^ 32) < sgn (s.x 10).num) := by
  cases s
  exact ⟨by keep, rfl, rfl, rfl, rfl, rfl, rfl, rfl⟩

theorem row_eq {j : Job} {a b t : Nat} {s : St} (hm : s.m .lhs = j.m .lhs) (hd : Data j a b t s)
    (hp : s.x 34 = .ptr .lhs (a + 64 * t + 32)) {i : Nat} (hi : i < 4) :
    rowV s i = j.vec .lhs (a + 64 * t + 16 * i) := by
  interval_cases i
  · exact hd.1
  · exact hd.2.1
  · show bytes s (addN (s.x 34) 0) 0 = _
    rw [hp]; exact bytes_eq hm
  · show bytes s (addN (s.x 34) 1) 0 = _
    rw [hp, addN_ptr]; exact bytes_eq hm

theorem col_eq {j : Job} {a b t : Nat} {s : St} (hd : Data j a b t s) {k : Nat} (hk : k < 2) :
    s.v (4 + k) = j.vec .rhs (b + 32 * t + 16 * k) := by
  interval_cases k
  · exact hd.2.2.1
  · exact hd.2.2.2

/-- What a group of levels adds. -/
theorem level_add {j : Job} {a b t : Nat} {s s' : St} (hm : s.m .lhs = j.m .lhs) (hd : Data j a b t s)
    (hp : s.x 34 = .ptr .lhs (a + 64 * t + 32))
    (ha : ∀ i, i < 4 → ∀ k, k < 2 → s.v (6 + 4 * k + i) = accV j a b i k t)
    (hv : ∀ i, i < 4 → ∀ k, k < 2 → s'.v (6 + 4 * k + i) =
      vop .sadalp (s.v (6 + 4 * k + i)) (prodV (rowV s i) (s.v (4 + k))) (prodV (rowV s i) (s.v (4 + k)))) :
    ∀ i, i < 4 → ∀ k, k < 2 → s'.v (6 + 4 * k + i) = accV j a b i k (t + 1) := by
  intro i hi k hk
  rw [hv i hi k hk, ha i hi k hk, row_eq hm hd hp hi, col_eq hd hk]
  rfl

theorem loop_step {j : Job} (hf : j.Fits) {p q t : Nat} (hp : p ≤ j.rowSteps) (hq : q ≤ j.colSteps) {s s' : St}
    (hl : s.m .lhs = j.m .lhs) (hr : s.m .rhs = j.m .rhs) (h : Loop j (lhsBlk j p) (rhsBlk j q) t s s')
    (ht : t < j.depthSteps) :
    Loop j (lhsBlk j p) (rhsBlk j q) (t + 1) s (exec j.env k2.body s') ∧
      (exec j.env k2.body s').lt = decide (t + 1 < j.depthSteps) := by
  have b1 := lhs_bound hf hp
  have b2 := rhs_bound hf hq
  have b3 := hf.deep
  have hdep : j.depth = 16 * (j.depthSteps + 1) := rfl
  have hml : s'.m .lhs = j.m .lhs := by rw [h.m]; exact hl
  have hmr : s'.m .rhs = j.m .rhs := by rw [h.m]; exact hr
  have lp34 : s'.x 34 = _ := h.lp
  have rp35 : s'.x 35 = _ := h.rp
  obtain ⟨v0, v1, v4, v5, v6⟩ := k2v j.env s'
  obtain ⟨c1, c2, c3, c4, c5, c6, c7, c8⟩ := k2x j.env s'
  generalize exec j.env k2.body s' = s1 at *
  have ac := level_add hml h.data lp34 h.acc v6
  rw [lp34, addN_ptr, bytes_eq hml] at v0 v1
  rw [rp35, addN_ptr, bytes_eq hmr] at v4 v5
  rw [h.x1] at c3 c8
  rw [h.x10] at c8
  rw [lp34, addN_ptr] at c5
  rw [rp35, addN_ptr] at c6
  rw [h.ok, h.x1, h.x10, lp34, rp35, addN_ptr, addN_ptr, addN_ptr, addN_ptr, out_ok (by omega), out_ok (by omega),
    out_ok (by omega), out_ok (by omega), out_ok (by omega), out_ok (by omega)] at c7
  have e1 : (16 * (t + 1) + 16) % 2 ^ 32 = 16 * (t + 1 + 1) := Nat.mod_eq_of_lt (by omega)
  refine ⟨⟨h.same.trans c1, c2.trans h.m, c7, ?_, c4.trans h.x10, ?_, ?_, ⟨?_, ?_, ?_, ?_⟩, ac⟩, ?_⟩
  · rw [c3]; exact congrArg Val.int e1
  · exact c5.trans (congrArg _ (by omega))
  · exact c6.trans (congrArg _ (by omega))
  · exact v0.trans (congrArg (j.vec _) (by omega))
  · exact v1.trans (congrArg (j.vec _) (by omega))
  · exact v4.trans (congrArg (j.vec _) (by omega))
  · exact v5.trans (congrArg (j.vec _) (by omega))
  · rw [c8]
    show decide (sgn ((16 * (t + 1) + 16) % 2 ^ 32) < sgn j.depth) = _
    rw [e1, sgn_of (by omega), sgn_of b3, decide_eq_decide]
    omega

theorem loop_all {j : Job} (hf : j.Fits) {p q : Nat} (hp : p ≤ j.rowSteps) (hq : q ≤ j.colSteps) {s : St}
    (hl : s.m .lhs = j.m .lhs) (hr : s.m .rhs = j.m .rhs) (d : Nat) : ∀ {t : Nat} {s' : St},
    Loop j (lhsBlk j p) (rhsBlk j q) t s s' → t + 1 + d = j.depthSteps →
    ∃ s'', Reach j.env kernel (2, s') (3, s'') ∧ Loop j (lhsBlk j p) (rhsBlk j q) j.depthSteps s s'' := by
  induction d with
  | zero =>
    intro t s' h ht
    obtain ⟨h1, l1⟩ := loop_step hf hp hq hl hr h (by omega)
    refine ⟨_, Reach.block (b := k2) rfl ?_, by rwa [show j.depthSteps = t + 1 by omega]⟩
    show (bif (exec j.env k2.body s').lt then 2 else 3) = 3
    rw [l1, decide_eq_false (by omega)]; rfl
  | succ d ih =>
    intro t s' h ht
    obtain ⟨h1, l1⟩ := loop_step hf hp hq hl hr h (by omega)
    obtain ⟨s'', r, h2⟩ := ih h1 (by omega)
    refine ⟨s'', Reach.trans (Reach.block (b := k2) rfl (l := 2) ?_) r, h2⟩
    show (bif (exec j.env k2.body s').lt then 2 else 3) = 2
    rw [l1, decide_eq_true (by omega)]; rfl

/-! ### Label 79 -/

/-- VPADD of two registers into the halves of a third. -/
def paddQ (o a b : Vec) : Vec := setHi (setLo o (paddV (half 0 a) (half 1 a))) (paddV (half 0 b) (half 1 b))

theorem getS_paddV0 (n m : Vec) : getS (paddV n m) 0 = wrap32 (getS n 0 + getS n 1) := by
  unfold paddV; rw [getS_ofS, if_pos rfl]
theorem getS_paddV1 (n m : Vec) : getS (paddV n m) 1 = wrap32 (getS m 0 + getS m 1) := by
  unfold paddV; rw [getS_ofS, if_neg (by decide)]

theorem getS_paddQ (o a b : Vec) : getS (paddQ o a b) 0 = wrap32 (getS a 0 + getS a 1) ∧
    getS (paddQ o a b) 1 = wrap32 (getS a 2 + getS a 3) ∧ getS (paddQ o a b) 2 = wrap32 (getS b 0 + getS b 1) ∧
    getS (paddQ o a b) 3 = wrap32 (getS b 2 + getS b 3) := by
  unfold paddQ
  refine ⟨?_, ?_, ?_, ?_⟩
  · rw [getS_setHi_lo _ _ (by decide), getS_setLo_lo _ _ (by decide), getS_paddV0]; rfl
  · rw [getS_setHi_lo _ _ (by decide), getS_setLo_lo _ _ (by decide), getS_paddV1]; rfl
  · rw [show (2 : Nat) = 2 + 0 from rfl, getS_setHi_hi _ _ (by decide), getS_paddV0]; rfl
  · rw [show (3 : Nat) = 2 + 1 from rfl, getS_setHi_hi _ _ (by decide), getS_paddV1]; rfl

/-- The two rounds of VPADD. -/
def tileV (o o1 o2 : Vec) (v : Nat → Vec) : Vec := paddQ o (paddQ o1 (v 0) (v 1)) (paddQ o2 (v 2) (v 3))

theorem getS_tileV (o o1 o2 : Vec) (v : Nat → Vec) {u : Nat} (hu : u < 4) : getS (tileV o o1 o2 v) u =
    wrap32 (getS (v u) 0 + getS (v u) 1 + getS (v u) 2 + getS (v u) 3) := by
  have h4 : ∀ x y z w : Int, x + y + (z + w) = x + y + z + w := fun x y z w => by ring
  obtain ⟨a0, a1, a2, a3⟩ := getS_paddQ o1 (v 0) (v 1)
  obtain ⟨b0, b1, b2, b3⟩ := getS_paddQ o2 (v 2) (v 3)
  obtain ⟨c0, c1, c2, c3⟩ := getS_paddQ o (paddQ o1 (v 0) (v 1)) (paddQ o2 (v 2) (v 3))
  unfold tileV
  interval_cases u
  · rw [c0, a0, a1, wrap32_two, h4]
  · rw [c1, a2, a3, wrap32_two, h4]
  · rw [c2, b0, b1, wrap32_two, h4]
  · rw [c3, b2, b3, wrap32_two, h4]

theorem tile_value (j : Job) (a b k n : Nat) (o o1 o2 : Vec) {u : Nat} (hu : u < 4) :
    getS (tileV o o1 o2 (fun i => accV j a b i k n)) u = wrap32 (blockDot j a b u k n) := by
  rw [getS_tileV _ _ _ _ hu]
  simp only [getS_accV]
  rw [wrap32_four]
  refine congrArg wrap32 ?_
  unfold blockDot
  rw [← Finset.sum_add_distrib, ← Finset.sum_add_distrib, ← Finset.sum_add_distrib]
  refine Finset.sum_congr rfl (fun t _ => ?_)
  simp only [Finset.sum_range_succ, Finset.sum_range_zero]
  ring

/-- The two parts of the block at label 79. -/
theorem exec_append (e : Env) (a b : List Instr) (s : St) : exec e (a ++ b) s = exec e b (exec e a s) := by
  induction a generalizing s with
  | nil => rfl
  | cons i a ih => exact ih _

def k3a : List Instr := k3.body.take 26
def k3b : List Instr := k3.body.drop 26

theorem k3_split (e : Env) (s : St) : exec e k3.body s = exec e k3b (exec e k3a s) := by
  rw [← exec_append]; rfl

theorem k3av (e : Env) (s : St) : ∀ i, i < 4 → ∀ k, k < 2 → (exec e k3a s).v (6 + 4 * k + i) =
      vop .sadalp (s.v (6 + 4 * k + i)) (prodV (rowV s i) (s.v (4 + k))) (prodV (rowV s i) (s.v (4 + k))) := by
  intro i hi k hk
  interval_cases i <;> interval_cases k <;> rfl

theorem k3ax (e : Env) (s : St) : Same keepLoop s (exec e k3a s) ∧ (exec e k3a s).m = s.m ∧
    (exec e k3a s).bad = (s.bad || out e.base (s.x 34) 0 16 || out e.base (addN (s.x 34) 1) 0 16) := by
  cases s
  exact ⟨by keep, rfl, rfl⟩

theorem k3bx (e : Env) (s : St) : Same keepLoop s (exec e k3b s) ∧ (exec e k3b s).m = s.m ∧
    (exec e k3b s).bad = (s.bad || Nat.blt (s.x 13).num (32 + 4) || (s.x 96).isPtr || (e.field .lastRow).isPtr) ∧
    (exec e k3b s).lt = decide (sgn (s.x 96).num < sgn (e.field .lastRow).num) ∧
    (exec e k3b s).v 14 = tileV (s.v 14) (s.v 0) (s.v 1) (fun i => s.v (6 + i)) ∧
    (exec e k3b s).v 15 = tileV (s.v 15) (s.v 2) (s.v 3) (fun i => s.v (10 + i)) := by
  cases s
  exact ⟨by keep, rfl, rfl, rfl, rfl, rfl⟩

/-- The entries of a block: `f u w` for row `u` and column `w`. -/
def Tile (f : Nat → Nat → Int) (s : St) : Prop := ∀ u, u < 4 → ∀ w, w < 2 → getS (s.v (14 + w)) u = f u w

/-- A tile that has been summed up. -/
structure Summed (j : Job) (t : Neon.Dt) (p q : Nat) (s : St) : Prop where
  mid : Mid j t p q s
  lc : s.x 128 = .ptr .lhs (lhsBlk j p)
  rc : s.x 144 = .ptr .rhs (rhsBlk j q)
  tile : Tile (fun u w => wrap32 (blockDot j (lhsBlk j p) (rhsBlk j q) u w (j.depthSteps + 1))) s

/-- From label 1 to the branch after label 79. -/
theorem summed {j : Job} (hf : j.Fits) {ty : Neon.Dt} {p q : Nat} (hp : p ≤ j.rowSteps) (hq : q ≤ j.colSteps) {s : St}
    (h : Head j ty p q s) : ∃ s', Reach j.env kernel (1, s) (if p < j.rowSteps then 4 else 5, s') ∧ Summed j ty p q s' ∧
      s'.m = s.m := by
  have b1 := lhs_bound hf hp
  have b3 := hf.deep
  have hdep : j.depth = 16 * (j.depthSteps + 1) := rfl
  have hrow := hf.row
  have hlr : j.lastRow = j.startRow + 4 * j.rowSteps := rfl
  have hl : s.m .lhs = j.m .lhs := h.mid.mem _ (by decide) (by decide)
  have hr : s.m .rhs = j.m .rhs := h.mid.mem _ (by decide) (by decide)
  obtain ⟨a1, a1', a2, a3, a4, a5, a6⟩ := k1x j.env s
  have n1 : ∀ l, (bif (exec j.env k1.body s).z then 3 else 2) = l →
      Reach j.env kernel (1, s) (l, exec j.env k1.body s) := fun l hl => Reach.block (b := k1) rfl hl
  generalize exec j.env k1.body s = s1 at *
  rw [h.x1] at a4 a6
  rw [h.mid.ok] at a4
  have z1 : s1.z = decide (16 = j.depth) := a6.trans (sgn_eq (by omega) b3)
  have l1 : Loop j (lhsBlk j p) (rhsBlk j q) 0 s s1 :=
    ⟨a1, a2, a4, (a1'.get (by decide)).trans h.x1, a5, (a1'.get (by decide)).trans h.lp, (a1'.get (by decide)).trans h.rp,
      by unfold Data; rw [a3]; exact h.data, fun i hi k hk => by
        rw [a3, show 6 + 4 * k + i = 6 + (4 * k + i) by omega, h.fresh _ (by omega)]; rfl⟩
  have key : ∃ s2, Reach j.env kernel (1, s) (3, s2) ∧ Loop j (lhsBlk j p) (rhsBlk j q) j.depthSteps s s2 := by
    by_cases hd : j.depthSteps = 0
    · exact ⟨s1, n1 3 (by rw [z1, decide_eq_true (by omega)]; rfl), by rwa [hd]⟩
    · obtain ⟨s2, r2, l2⟩ := loop_all hf hp hq hl hr (j.depthSteps - 1) l1 (by omega)
      exact ⟨s2, (n1 2 (by rw [z1, decide_eq_false (by omega)]; rfl)).trans r2, l2⟩
  obtain ⟨s2, r2, l2⟩ := key
  have n3 : ∀ l, (bif !(exec j.env k3.body s2).lt then 5 else 4) = l →
      Reach j.env kernel (3, s2) (l, exec j.env k3.body s2) := fun l hl => Reach.block (b := k3) rfl hl
  rw [k3_split] at n3
  have hml : s2.m .lhs = j.m .lhs := by rw [l2.m]; exact hl
  have lp34 : s2.x 34 = _ := l2.lp
  have v3 := level_add hml l2.data lp34 l2.acc (k3av j.env s2)
  obtain ⟨c1, c2, c3⟩ := k3ax j.env s2
  generalize exec j.env k3a s2 = s3 at *
  rw [l2.ok, lp34, addN_ptr, out_ok (by omega), out_ok (by omega)] at c3
  have c3' : s3.bad = false := c3
  obtain ⟨d1, d2, d3, d4, d5, d6⟩ := k3bx j.env s3
  generalize exec j.env k3b s3 = s4 at *
  have k := (l2.same.trans c1)
  have x13 : s3.x 13 = .int 96 := (k.get (by decide)).trans h.mid.sp
  have x96 : s3.x 96 = .int (j.startRow + 4 * p) := (k.get (by decide)).trans h.mid.row
  rw [c3', x13, x96] at d3
  have d3' : s4.bad = false := d3
  rw [x96] at d4
  have d4' : s4.lt = decide (j.startRow + 4 * p < j.lastRow) := d4.trans (sgn_lt (by omega) (by omega))
  have k' := k.trans d1
  have mm : s4.m = s.m := d2.trans (c2.trans l2.m)
  refine ⟨s4, r2.trans (n3 _ ?_), ⟨h.mid.next (k'.sub (by decide)) mm d3',
    (k'.get (by decide)).trans h.lc, (k'.get (by decide)).trans h.rc, ?_⟩, mm⟩
  · rw [d4']
    by_cases hp' : p < j.rowSteps
    · rw [if_pos hp', decide_eq_true (by omega)]; rfl
    · rw [if_neg hp', decide_eq_false (by omega)]; rfl
  · intro u hu w hw
    interval_cases w
    · show getS (s4.v 14) u = _
      refine Eq.trans ?_ (tile_value j _ _ 0 _ (s3.v 14) (s3.v 0) (s3.v 1) hu)
      rw [d5, getS_tileV _ _ _ _ hu, getS_tileV _ _ _ _ hu]
      have := v3 u hu 0 (by decide)
      rw [show 6 + 4 * 0 + u = 6 + u by omega] at this
      simp only [this]
    · show getS (s4.v 15) u = _
      refine Eq.trans ?_ (tile_value j _ _ 1 _ (s3.v 15) (s3.v 2) (s3.v 3) hu)
      rw [d6, getS_tileV _ _ _ _ hu, getS_tileV _ _ _ _ hu]
      have := v3 u hu 1 (by decide)
      rw [show 6 + 4 * 1 + u = 10 + u by omega] at this
      simp only [this]

end Ruy.Arm8

import Verif.Arm32.Job
import Verif.NeonF.Store
/-
The ARM32 float kernel: runs, the depth loop, the next block's addresses, and the bias.

The entries of a block: row `4 * h + i` (`h < 2`, `i < 4`) and column `w < 4` are in lane `i` of register
`3 + 2 * w + h`.
-/
namespace Ruy.Arm32
open Ruy.Neon (sgn sgn_of)
open Ruy.NeonF (St Val Region Ops Vec Same addVal addN addN_ptr out out_ptr words sgn_lt sgn_eq)
variable {A : Type}

/-! ### Runs -/

def Reach (e : Env A) (P : List Block) (c c' : Nat × St A) : Prop := ∃ n, run e P n c = c'

theorem run_add (e : Env A) (P : List Block) (a b : Nat) (c : Nat × St A) :
    run e P (a + b) c = run e P b (run e P a c) := by
  induction a generalizing c with
  | zero => simp [run]
  | succ a ih => rw [Nat.succ_add]; exact ih _

theorem Reach.trans {e : Env A} {P : List Block} {a b c : Nat × St A} (h : Reach e P a b)
    (h' : Reach e P b c) : Reach e P a c := by
  obtain ⟨n, hn⟩ := h
  obtain ⟨k, hk⟩ := h'
  exact ⟨n + k, by rw [run_add, hn, hk]⟩

theorem Reach.block {e : Env A} {P : List Block} {i : Nat} {b : Block} {s : St A} {l : Nat}
    (h : P[i]? = some b) (hl : next (exec e b.body s) b.term = l) :
    Reach e P (i, s) (l, exec e b.body s) := by
  refine ⟨1, ?_⟩
  show bstep e P (i, s) = _
  unfold bstep
  simp only [h]
  rw [hl]

theorem stops_of {e : Env A} {P : List Block} {s s' : St A} (h : Reach e P (0, s) (P.length, s')) : Stops e P s s' := by
  obtain ⟨N, hN⟩ := h
  refine ⟨N, fun n hn => ?_⟩
  obtain ⟨k, rfl⟩ := Nat.exists_eq_add_of_le hn
  rw [run_add, hN]
  induction k with
  | zero => rfl
  | succ k ih =>
    show run e P k (bstep e P (P.length, s')) = _
    have : bstep e P (P.length, s') = (P.length, s') := by
      unfold bstep
      simp
    rw [this]
    exact ih (by omega)

theorem stops_unique {e : Env A} {P : List Block} {s a b : St A} (ha : Stops e P s a) (hb : Stops e P s b) : a = b := by
  obtain ⟨n, hn⟩ := ha
  obtain ⟨k, hk⟩ := hb
  have h1 := hn (n + k) (by omega)
  rw [hk (n + k) (by omega)] at h1
  exact (Prod.mk.inj h1).2.symm

/-- Words of the memory at the start of the call. -/
def Job.vec (j : Job A) (r : Region) (o : Nat) : Vec A := fun i => j.m r (o + i)

theorem words_eq {j : Job A} {s : St A} {r : Region} {a : Nat} (h : s.m r = j.m r) :
    words s (.ptr r (4 * a)) 0 = j.vec r a := by
  unfold words Job.vec
  simp only [Val.region, Val.off, h]
  rw [Nat.add_zero, Nat.mul_div_cancel_left _ (by omega)]

theorem out_ok {j : Job A} {r : Region} {a n : Nat} (h : a + n ≤ j.size r) :
    out j.env.base (.ptr r (4 * a)) 0 n = false := out_ptr rfl (by show a + 0 / 4 + n ≤ j.size r; omega)

/-! ### Places -/

def lhsBlk (j : Job A) (p : Nat) : Nat := j.lhsBase + p * (8 * j.lhsStride)
def rhsBlk (j : Job A) (q : Nat) : Nat := j.rhsBase + q * (4 * j.rhsStride)
def dstBlk (j : Job A) (p q : Nat) : Nat := j.dstBase + q * (4 * j.dstStride) + 8 * p

/-- The variables of the block (`p`, `q`) on the stack, without those that are changed ahead of time. -/
structure Mid (j : Job A) (p q : Nat) (s : St A) : Prop where
  sp : s.x 13 = .int 96
  tmp : s.x tmp = .ptr .tmp 0
  dc : s.x 64 = .ptr .dst (4 * (j.dstBase + q * (4 * j.dstStride)))
  dp : s.x 80 = .ptr .dst (4 * dstBlk j p q)
  row : s.x 96 = .int (j.startRow + 8 * p)
  col : s.x 112 = .int (j.startCol + 4 * q)
  mem : ∀ r, r ≠ .dst → r ≠ .tmp → s.m r = j.m r
  ok : s.bad = false

def midRegs : List Nat := [13, 42, 64, 80, 96, 112]

theorem Mid.next {j : Job A} {p q : Nat} {s s' : St A} (h : Mid j p q s) (hs : Same midRegs s s') (hm : s'.m = s.m)
    (ok : s'.bad = false) : Mid j p q s' :=
  ⟨(hs.get (by decide)).trans h.sp, (hs.get (by decide)).trans h.tmp, (hs.get (by decide)).trans h.dc,
    (hs.get (by decide)).trans h.dp, (hs.get (by decide)).trans h.row, (hs.get (by decide)).trans h.col,
    by rw [hm]; exact h.mem, ok⟩

/-- The operands in registers: level `g`. -/
def Data (j : Job A) (a b g : Nat) (s : St A) : Prop :=
  s.v 0 = j.vec .lhs (a + 8 * g) ∧ s.v 1 = j.vec .lhs (a + 8 * g + 4) ∧ s.v 2 = j.vec .rhs (b + 4 * g)

/-- The products of row `u` and column `w` of two packed blocks, levels below `n`. -/
def blockSum (j : Job A) (a b n u w : Nat) : A :=
  (List.range n).foldl (fun d t => j.ops.fma d (j.m .lhs (a + 8 * t + u)) (j.m .rhs (b + 4 * t + w))) j.ops.zero

theorem blockSum_succ (j : Job A) (a b n u w : Nat) : blockSum j a b (n + 1) u w =
    j.ops.fma (blockSum j a b n u w) (j.m .lhs (a + 8 * n + u)) (j.m .rhs (b + 4 * n + w)) := by
  unfold blockSum
  rw [List.range_succ, List.foldl_append]
  rfl

/-- Entries of a tile: `f u w` for row `u` and column `w`. -/
def Tile (f : Nat → Nat → A) (s : St A) : Prop :=
  ∀ w, w < 4 → ∀ h, h < 2 → ∀ i, i < 4 → s.v (3 + 2 * w + h) i = f (4 * h + i) w

/-- Label 1, before block (`p`, `q`). -/
structure Head (j : Job A) (p q : Nat) (s : St A) : Prop where
  mid : Mid j p q s
  x1 : s.x 1 = .int 1
  lc : s.x 128 = .ptr .lhs (4 * lhsBlk j p)
  rc : s.x 144 = .ptr .rhs (4 * rhsBlk j q)
  lp : s.x lp = .ptr .lhs (4 * (lhsBlk j p + 8))
  rp : s.x rp = .ptr .rhs (4 * (rhsBlk j q + 4))
  data : Data j (lhsBlk j p) (rhsBlk j q) 0 s
  fresh : Tile (fun _ _ => j.ops.zero) s

theorem lhs_bound {j : Job A} (hf : j.Fits) {p : Nat} (hp : p ≤ j.rowSteps) :
    lhsBlk j p + 8 * j.depth ≤ j.size .lhs := by
  have h1 := hf.lhsSize
  have h2 := hf.lhsDepth
  have h3 : p * (8 * j.lhsStride) ≤ j.rowSteps * (8 * j.lhsStride) := Nat.mul_le_mul_right _ hp
  rw [Nat.add_mul, Nat.one_mul] at h1
  unfold lhsBlk; omega

theorem rhs_bound {j : Job A} (hf : j.Fits) {q : Nat} (hq : q ≤ j.colSteps) :
    rhsBlk j q + 4 * j.depth ≤ j.size .rhs := by
  have h1 := hf.rhsSize
  have h2 := hf.rhsDepth
  have h3 : q * (4 * j.rhsStride) ≤ j.colSteps * (4 * j.rhsStride) := Nat.mul_le_mul_right _ hq
  rw [Nat.add_mul, Nat.one_mul] at h1
  unfold rhsBlk; omega

theorem depth_small {j : Job A} (hf : j.Fits) : j.depth < 2 ^ 31 := by
  have := hf.lhsDepth
  have := hf.lstride
  omega

/-! ### The depth loop -/

/-- The registers that the depth loop leaves alone. -/
def keepLoop : List Nat := [13, 42, 64, 80, 96, 112, 128, 144]

/-- Label 2: `t` levels accumulated, level `t` in registers. -/
structure Loop (j : Job A) (a b t : Nat) (s s' : St A) : Prop where
  same : Same keepLoop s s'
  m : s'.m = s.m
  ok : s'.bad = false
  x1 : s'.x 1 = .int (t + 1)
  x2 : s'.x 2 = .int j.depth
  lp : s'.x Arm32.lp = .ptr .lhs (4 * (a + 8 * (t + 1)))
  rp : s'.x Arm32.rp = .ptr .rhs (4 * (b + 4 * (t + 1)))
  data : Data j a b t s'
  acc : Tile (blockSum j a b t) s'

theorem k1x (e : Env A) (s : St A) : Same keepLoop s (exec e k1.body s) ∧ Same [1, 34, 35] s (exec e k1.body s) ∧
    (exec e k1.body s).m = s.m ∧ (exec e k1.body s).v = s.v ∧
    (exec e k1.body s).bad = (s.bad || !(s.x 1).isInt || !(e.field .depth).isInt) ∧
    (exec e k1.body s).x 2 = e.field .depth ∧
    (exec e k1.body s).z = decide (sgn (s.x 1).num = sgn (e.field .depth).num) := by
  cases s
  exact ⟨by keep, by keep, rfl, rfl, rfl, rfl, rfl⟩

theorem k2v (e : Env A) (s : St A) :
    (exec e k2.body s).v 0 = words s (addN (s.x 34) 0) 0 ∧ (exec e k2.body s).v 1 = words s (addN (s.x 34) 1) 0 ∧
    (exec e k2.body s).v 2 = words s (addN (s.x 35) 0) 0 ∧
    (∀ w, w < 4 → ∀ h, h < 2 → ∀ i, (exec e k2.body s).v (3 + 2 * w + h) i =
      e.ops.fma (s.v (3 + 2 * w + h) i) (s.v h i) (s.v 2 w)) := by
  refine ⟨rfl, rfl, rfl, ?_⟩
  intro w hw h hh i
  interval_cases h <;> interval_cases w <;> rfl

theorem k2x (e : Env A) (s : St A) : Same keepLoop s (exec e k2.body s) ∧ (exec e k2.body s).m = s.m ∧
    (exec e k2.body s).x 1 = .int (((s.x 1).num + 1) % 2 ^ 32) ∧ (exec e k2.body s).x 2 = s.x 2 ∧
    (exec e k2.body s).x 34 = addN (s.x 34) 2 ∧ (exec e k2.body s).x 35 = addN (s.x 35) 1 ∧
    (exec e k2.body s).bad = (s.bad || out e.base (s.x 34) 0 4 || out e.base (addN (s.x 34) 1) 0 4 ||
      out e.base (s.x 35) 0 4 || !(s.x 1).isInt || false || !(s.x 2).isInt) ∧
    (exec e k2.body s).lt = decide (sgn (((s.x 1).num + 1) % 2 ^ 32) < sgn (s.x 2).num) := by
  cases s
  exact ⟨by keep, rfl, rfl, rfl, rfl, rfl, rfl, rfl⟩

/-- What a level adds. -/
theorem level_add {j : Job A} {a b t : Nat} {s s' : St A} (hd : Data j a b t s) (ha : Tile (blockSum j a b t) s)
    (hv : ∀ w, w < 4 → ∀ h, h < 2 → ∀ i, s'.v (3 + 2 * w + h) i =
      j.ops.fma (s.v (3 + 2 * w + h) i) (s.v h i) (s.v 2 w)) : Tile (blockSum j a b (t + 1)) s' := by
  intro w hw h hh i hi
  have e1 : s.v h i = j.m .lhs (a + 8 * t + (4 * h + i)) := by
    obtain ⟨d1, d2, -⟩ := hd
    interval_cases h
    · rw [d1]; unfold Job.vec; exact congrArg _ (by omega)
    · rw [d2]; unfold Job.vec; exact congrArg _ (by omega)
  have e2 : s.v 2 w = j.m .rhs (b + 4 * t + w) := by rw [hd.2.2]; rfl
  rw [hv w hw h hh i, ha w hw h hh i hi, e1, e2, blockSum_succ]

theorem loop_step {j : Job A} (hf : j.Fits) {p q t : Nat} (hp : p ≤ j.rowSteps) (hq : q ≤ j.colSteps) {s s' : St A}
    (hl : s.m .lhs = j.m .lhs) (hr : s.m .rhs = j.m .rhs) (h : Loop j (lhsBlk j p) (rhsBlk j q) t s s')
    (ht : t + 1 < j.depth) :
    Loop j (lhsBlk j p) (rhsBlk j q) (t + 1) s (exec j.env k2.body s') ∧
      (exec j.env k2.body s').lt = decide (t + 2 < j.depth) := by
  have b1 := lhs_bound hf hp
  have b2 := rhs_bound hf hq
  have b3 := depth_small hf
  have hml : s'.m .lhs = j.m .lhs := by rw [h.m]; exact hl
  have hmr : s'.m .rhs = j.m .rhs := by rw [h.m]; exact hr
  have lp34 : s'.x 34 = _ := h.lp
  have rp35 : s'.x 35 = _ := h.rp
  obtain ⟨v0, v1, v2, v3⟩ := k2v j.env s'
  obtain ⟨c1, c2, c3, c4, c5, c6, c7, c8⟩ := k2x j.env s'
  generalize exec j.env k2.body s' = s1 at *
  rw [lp34, addN_ptr, words_eq hml] at v0 v1
  rw [rp35, addN_ptr, words_eq hmr] at v2
  rw [h.x1] at c3 c8
  rw [h.x2] at c8
  rw [lp34, addN_ptr] at c5
  rw [rp35, addN_ptr] at c6
  rw [h.ok, h.x1, h.x2, lp34, rp35, addN_ptr, out_ok (by omega), out_ok (by omega), out_ok (by omega)] at c7
  have e1 : (t + 1 + 1) % 2 ^ 32 = t + 2 := Nat.mod_eq_of_lt (by omega)
  refine ⟨⟨h.same.trans c1, c2.trans h.m, c7, ?_, c4.trans h.x2, ?_, ?_, ⟨?_, ?_, ?_⟩, level_add h.data h.acc v3⟩, ?_⟩
  · rw [c3]; exact congrArg Val.int e1
  · exact c5.trans (congrArg _ (by omega))
  · exact c6.trans (congrArg _ (by omega))
  · exact v0
  · exact v1.trans (congrArg (j.vec _) (by omega))
  · rw [v2]; exact congrArg (j.vec _) (by omega)
  · rw [c8]
    show decide (sgn ((t + 1 + 1) % 2 ^ 32) < sgn j.depth) = _
    rw [e1, sgn_of (by omega), sgn_of b3, decide_eq_decide]
    omega

theorem loop_all {j : Job A} (hf : j.Fits) {p q : Nat} (hp : p ≤ j.rowSteps) (hq : q ≤ j.colSteps) {s : St A}
    (hl : s.m .lhs = j.m .lhs) (hr : s.m .rhs = j.m .rhs) (d : Nat) : ∀ {t : Nat} {s' : St A},
    Loop j (lhsBlk j p) (rhsBlk j q) t s s' → t + 2 + d = j.depth →
    ∃ s'', Reach j.env kernel (2, s') (3, s'') ∧ Loop j (lhsBlk j p) (rhsBlk j q) (j.depth - 1) s s'' := by
  induction d with
  | zero =>
    intro t s' h ht
    obtain ⟨h1, l1⟩ := loop_step hf hp hq hl hr h (by omega)
    refine ⟨_, Reach.block (b := k2) rfl ?_, by rwa [show j.depth - 1 = t + 1 by omega]⟩
    show (bif (exec j.env k2.body s').lt then 2 else 3) = 3
    rw [l1, decide_eq_false (by omega)]; rfl
  | succ d ih =>
    intro t s' h ht
    obtain ⟨h1, l1⟩ := loop_step hf hp hq hl hr h (by omega)
    obtain ⟨s'', r, h2⟩ := ih h1 (by omega)
    refine ⟨s'', Reach.trans (Reach.block (b := k2) rfl (l := 2) ?_) r, h2⟩
    show (bif (exec j.env k2.body s').lt then 2 else 3) = 2
    rw [l1, decide_eq_true (by omega)]; rfl

theorem k3v (e : Env A) (s : St A) : ∀ w, w < 4 → ∀ h, h < 2 → ∀ i, (exec e k3.body s).v (3 + 2 * w + h) i =
      e.ops.fma (s.v (3 + 2 * w + h) i) (s.v h i) (s.v 2 w) := by
  intro w hw h hh i
  interval_cases h <;> interval_cases w <;> rfl

theorem k3x (e : Env A) (s : St A) : Same keepLoop s (exec e k3.body s) ∧ (exec e k3.body s).m = s.m ∧
    (exec e k3.body s).bad = (s.bad || Nat.blt (s.x 13).num (32 + 4) || !(s.x 96).isInt || !(e.field .lastRow).isInt) ∧
    (exec e k3.body s).lt = decide (sgn (s.x 96).num < sgn (e.field .lastRow).num) := by
  cases s
  exact ⟨by keep, rfl, rfl, rfl⟩

/-- A tile that has been summed up. -/
structure Summed (j : Job A) (p q : Nat) (s : St A) : Prop where
  mid : Mid j p q s
  lc : s.x 128 = .ptr .lhs (4 * lhsBlk j p)
  rc : s.x 144 = .ptr .rhs (4 * rhsBlk j q)
  tile : Tile (blockSum j (lhsBlk j p) (rhsBlk j q) j.depth) s

/-- From label 1 to the branch after label 79. -/
theorem summed {j : Job A} (hf : j.Fits) {p q : Nat} (hp : p ≤ j.rowSteps) (hq : q ≤ j.colSteps) {s : St A}
    (h : Head j p q s) : ∃ s', Reach j.env kernel (1, s) (if p < j.rowSteps then 4 else 5, s') ∧ Summed j p q s' ∧
      s'.m = s.m := by
  have b3 := depth_small hf
  have pos := hf.pos
  have hrow := hf.row
  have hlr : j.lastRow = j.startRow + 8 * j.rowSteps := rfl
  have hl : s.m .lhs = j.m .lhs := h.mid.mem _ (by decide) (by decide)
  have hr : s.m .rhs = j.m .rhs := h.mid.mem _ (by decide) (by decide)
  obtain ⟨a1, a1', a2, a3, a4, a5, a6⟩ := k1x j.env s
  have n1 : ∀ l, (bif (exec j.env k1.body s).z then 3 else 2) = l →
      Reach j.env kernel (1, s) (l, exec j.env k1.body s) := fun l hl => Reach.block (b := k1) rfl hl
  generalize exec j.env k1.body s = s1 at *
  rw [h.x1] at a4 a6
  rw [h.mid.ok] at a4
  have z1 : s1.z = decide (1 = j.depth) := a6.trans (sgn_eq (A := A) (by omega) b3)
  have l1 : Loop j (lhsBlk j p) (rhsBlk j q) 0 s s1 :=
    ⟨a1, a2, a4, (a1'.get (by decide)).trans h.x1, a5, (a1'.get (by decide)).trans h.lp, (a1'.get (by decide)).trans h.rp,
      by unfold Data; rw [a3]; exact h.data, fun w hw u hu i hi => by rw [a3, h.fresh w hw u hu i hi]; rfl⟩
  have key : ∃ s2, Reach j.env kernel (1, s) (3, s2) ∧ Loop j (lhsBlk j p) (rhsBlk j q) (j.depth - 1) s s2 := by
    by_cases hd : j.depth = 1
    · exact ⟨s1, n1 3 (by rw [z1, decide_eq_true hd.symm]; rfl), by rwa [show j.depth - 1 = 0 by omega]⟩
    · obtain ⟨s2, r2, l2⟩ := loop_all hf hp hq hl hr (j.depth - 2) l1 (by omega)
      exact ⟨s2, (n1 2 (by rw [z1, decide_eq_false (by omega)]; rfl)).trans r2, l2⟩
  obtain ⟨s2, r2, l2⟩ := key
  have v3 := k3v j.env s2
  obtain ⟨c1, c2, c3, c4⟩ := k3x j.env s2
  have n3 : ∀ l, (bif !(exec j.env k3.body s2).lt then 5 else 4) = l →
      Reach j.env kernel (3, s2) (l, exec j.env k3.body s2) := fun l hl => Reach.block (b := k3) rfl hl
  generalize exec j.env k3.body s2 = s3 at *
  have x13 : s2.x 13 = .int 96 := (l2.same.get (by decide)).trans h.mid.sp
  have x96 : s2.x 96 = .int (j.startRow + 8 * p) := (l2.same.get (by decide)).trans h.mid.row
  rw [l2.ok, x13, x96] at c3
  have c3' : s3.bad = false := c3
  rw [x96] at c4
  have c4' : s3.lt = decide (j.startRow + 8 * p < j.lastRow) := c4.trans (sgn_lt (A := A) (by omega) (by omega))
  have k := l2.same.trans c1
  refine ⟨s3, r2.trans (n3 _ ?_), ⟨h.mid.next (k.sub (by decide)) (c2.trans l2.m) c3',
    (k.get (by decide)).trans h.lc, (k.get (by decide)).trans h.rc, ?_⟩, c2.trans l2.m⟩
  · rw [c4']
    by_cases hp' : p < j.rowSteps
    · rw [if_pos hp', decide_eq_true (by omega)]; rfl
    · rw [if_neg hp', decide_eq_false (by omega)]; rfl
  · have := level_add l2.data l2.acc v3
    rwa [show j.depth - 1 + 1 = j.depth by omega] at this

/-! ### The addresses of the next block -/

def nextP (j : Job A) (p : Nat) : Nat := if p < j.rowSteps then p + 1 else 0
def nextQ (j : Job A) (p q : Nat) : Nat := if p < j.rowSteps then q else if q < j.colSteps then q + 1 else q

theorem k4x (e : Env A) (s : St A) : Same midRegs s (exec e k4.body s) ∧ (exec e k4.body s).m = s.m ∧
    (exec e k4.body s).v = s.v ∧
    (exec e k4.body s).bad = (s.bad || Nat.blt (s.x 13).num (64 + 4) || !(s.x 128).isPtr || !(e.field .lhsStride).isInt ||
      Nat.blt (s.x 13).num (64 + 4)) ∧
    (exec e k4.body s).x 128 = addVal (s.x 128) ((e.field .lhsStride).num * 2 ^ 3 % 2 ^ 32) ∧
    (exec e k4.body s).x 144 = s.x 144 := by
  cases s; exact ⟨by keep, rfl, rfl, rfl, rfl, rfl⟩

theorem k5x (e : Env A) (s : St A) : Same midRegs s (exec e k5.body s) ∧ (exec e k5.body s).m = s.m ∧
    (exec e k5.body s).v = s.v ∧
    (exec e k5.body s).bad = (s.bad || Nat.blt (s.x 13).num (64 + 4) || Nat.blt (s.x 13).num (48 + 4) ||
      !(s.x 112).isInt || !(e.field .lastCol).isInt) ∧
    (exec e k5.body s).x 128 = e.field .lhsBasePtr ∧ (exec e k5.body s).x 144 = s.x 144 ∧
    (exec e k5.body s).lt = decide (sgn (s.x 112).num < sgn (e.field .lastCol).num) := by
  cases s; exact ⟨by keep, rfl, rfl, rfl, rfl, rfl, rfl⟩

theorem k6x (e : Env A) (s : St A) : Same midRegs s (exec e k6.body s) ∧ (exec e k6.body s).m = s.m ∧
    (exec e k6.body s).v = s.v ∧
    (exec e k6.body s).bad = (s.bad || Nat.blt (s.x 13).num (80 + 4) || !(s.x 144).isPtr || !(e.field .rhsStride).isInt ||
      Nat.blt (s.x 13).num (80 + 4)) ∧
    (exec e k6.body s).x 144 = addVal (s.x 144) ((e.field .rhsStride).num * 2 ^ 2 % 2 ^ 32) ∧
    (exec e k6.body s).x 128 = s.x 128 := by
  cases s; exact ⟨by keep, rfl, rfl, rfl, rfl, rfl⟩

/-- Label 5: the addresses of the next block are known. -/
structure Aimed (j : Job A) (p q : Nat) (f : Nat → Nat → A) (s : St A) : Prop where
  mid : Mid j p q s
  lc : s.x 128 = .ptr .lhs (4 * lhsBlk j (nextP j p))
  rc : s.x 144 = .ptr .rhs (4 * rhsBlk j (nextQ j p q))
  tile : Tile f s

theorem Tile.congr {f : Nat → Nat → A} {s s' : St A} (h : Tile f s) (hv : s'.v = s.v) : Tile f s' := by
  intro w hw u hu i hi; rw [hv]; exact h w hw u hu i hi

theorem aimed {j : Job A} (hf : j.Fits) {p q : Nat} (hq : q ≤ j.colSteps) {s : St A}
    (h : Summed j p q s) : ∃ s', Reach j.env kernel (if p < j.rowSteps then 4 else 5, s) (7, s') ∧
      Aimed j p q (blockSum j (lhsBlk j p) (rhsBlk j q) j.depth) s' ∧ s'.m = s.m := by
  have hcol := hf.col
  have hlc : j.lastCol = j.startCol + 4 * j.colSteps := rfl
  by_cases hp' : p < j.rowSteps
  · rw [if_pos hp']
    have eP : nextP j p = p + 1 := by unfold nextP; rw [if_pos hp']
    have eQ : nextQ j p q = q := by unfold nextQ; rw [if_pos hp']
    obtain ⟨a1, a2, a3, a4, a5, a6⟩ := k4x j.env s
    have n1 : Reach j.env kernel (4, s) (7, exec j.env k4.body s) := Reach.block (b := k4) rfl rfl
    generalize exec j.env k4.body s = s1 at *
    rw [h.mid.ok, h.mid.sp, h.lc] at a4
    rw [h.lc] at a5
    have small : 4 * j.lhsStride * 2 ^ 3 < 2 ^ 32 := by
      have e1 := hf.lhsSize
      have e2 := hf.memory .lhs
      have e3 : 2 * (8 * j.lhsStride) ≤ (j.rowSteps + 1) * (8 * j.lhsStride) := Nat.mul_le_mul_right _ (by omega)
      have := hf.pos
      have := hf.lhsDepth
      omega
    refine ⟨s1, n1, ⟨h.mid.next a1 a2 a4, ?_, by rw [a6, eQ]; exact h.rc, h.tile.congr a3⟩, a2⟩
    rw [a5, eP]
    show Val.ptr .lhs (4 * lhsBlk j p + 4 * j.lhsStride * 2 ^ 3 % 2 ^ 32) = _
    rw [Nat.mod_eq_of_lt small]
    exact congrArg _ (by unfold lhsBlk; ring)
  · rw [if_neg hp']
    have eP : nextP j p = 0 := by unfold nextP; rw [if_neg hp']
    have e0 : lhsBlk j 0 = j.lhsBase := by unfold lhsBlk; omega
    obtain ⟨a1, a2, a3, a4, a5, a6, a7⟩ := k5x j.env s
    have n1 : ∀ l, (bif !(exec j.env k5.body s).lt then 7 else 6) = l →
      Reach j.env kernel (5, s) (l, exec j.env k5.body s) := fun l hl => Reach.block (b := k5) rfl hl
    generalize exec j.env k5.body s = s1 at *
    rw [h.mid.ok, h.mid.sp, h.mid.col] at a4
    rw [h.mid.col] at a7
    have a4' : s1.bad = false := a4
    have a5' : s1.x 128 = .ptr .lhs (4 * lhsBlk j (nextP j p)) := by rw [a5, eP, e0]; rfl
    have a7' : s1.lt = decide (j.startCol + 4 * q < j.lastCol) := a7.trans (sgn_lt (A := A) (by omega) (by omega))
    have mid1 := h.mid.next a1 a2 a4'
    by_cases hq' : q < j.colSteps
    · have eQ : nextQ j p q = q + 1 := by unfold nextQ; rw [if_neg hp', if_pos hq']
      have n1' := n1 6 (by rw [a7', decide_eq_true (by omega)]; rfl)
      obtain ⟨b1, b2, b3, b4, b5, b6⟩ := k6x j.env s1
      have n2 : Reach j.env kernel (6, s1) (7, exec j.env k6.body s1) := Reach.block (b := k6) rfl rfl
      generalize exec j.env k6.body s1 = s2 at *
      have x144 : s1.x 144 = _ := a6.trans h.rc
      rw [a4', mid1.sp, x144] at b4
      rw [x144] at b5
      have small : 4 * j.rhsStride * 2 ^ 2 < 2 ^ 32 := by
        have e1 := hf.rhsSize
        have e2 := hf.memory .rhs
        have e3 : 2 * (4 * j.rhsStride) ≤ (j.colSteps + 1) * (4 * j.rhsStride) := Nat.mul_le_mul_right _ (by omega)
        have := hf.pos
        have := hf.rhsDepth
        omega
      refine ⟨s2, n1'.trans n2, ⟨mid1.next b1 b2 b4, by rw [b6]; exact a5', ?_, h.tile.congr (b3.trans a3)⟩, b2.trans a2⟩
      rw [b5, eQ]
      show Val.ptr .rhs (4 * rhsBlk j q + 4 * j.rhsStride * 2 ^ 2 % 2 ^ 32) = _
      rw [Nat.mod_eq_of_lt small]
      exact congrArg _ (by unfold rhsBlk; ring)
    · have eQ : nextQ j p q = q := by unfold nextQ; rw [if_neg hp', if_neg hq']
      exact ⟨s1, n1 7 (by rw [a7', decide_eq_false (by omega)]; rfl),
        ⟨mid1, a5', by rw [a6, eQ]; exact h.rc, h.tile.congr a3⟩, a2⟩

/-! ### Bias, and the first level of the next block -/

theorem k7x (e : Env A) (s : St A) : Same (128 :: 144 :: midRegs) s (exec e k7.body s) ∧ (exec e k7.body s).m = s.m ∧
    (exec e k7.body s).v = s.v ∧
    (exec e k7.body s).bad = (s.bad || Nat.blt (s.x 13).num (64 + 4) || Nat.blt (s.x 13).num (80 + 4) ||
      !(e.field .flags).isInt || false) ∧
    (exec e k7.body s).x 34 = s.x 128 ∧ (exec e k7.body s).x 35 = s.x 144 ∧
    (exec e k7.body s).x 4 = .int ((e.field .flags).num % 2 ^ 8) ∧ (exec e k7.body s).x 1 = e.field .bias ∧
    (exec e k7.body s).z = Nat.beq ((e.field .flags).num % 2 ^ 8 % 2 ^ 32 &&& 32) 0 := by
  cases s; exact ⟨by keep, rfl, rfl, rfl, rfl, rfl, rfl, rfl, rfl⟩

/-- Registers that matter in this part. -/
def keepBias : List Nat := 4 :: 34 :: 35 :: 128 :: 144 :: midRegs

theorem k8x (e : Env A) (s : St A) : Same (1 :: keepBias) s (exec e k8.body s) ∧ (exec e k8.body s).m = s.m ∧
    (exec e k8.body s).v = s.v ∧ (exec e k8.body s).bad = s.bad ∧ (exec e k8.body s).x 8 = .int 32 := by
  cases s; exact ⟨by keep, rfl, rfl, rfl, rfl⟩

theorem k9x (e : Env A) (s : St A) : Same (1 :: keepBias) s (exec e k9.body s) ∧ (exec e k9.body s).m = s.m ∧
    (exec e k9.body s).v = s.v ∧ (exec e k9.body s).bad = s.bad ∧ (exec e k9.body s).x 8 = .int 48 := by
  cases s; exact ⟨by keep, rfl, rfl, rfl, rfl⟩

theorem k10x (e : Env A) (s : St A) : Same (1 :: keepBias) s (exec e k10.body s) ∧ (exec e k10.body s).m = s.m ∧
    (exec e k10.body s).v = s.v ∧
    (exec e k10.body s).bad = (s.bad || !(s.x 8).isInt || Nat.blt (s.x 13).num ((s.x 8).num + 4) || !(s.x 4).isInt) ∧
    (exec e k10.body s).x 8 = s.x (64 + (s.x 8).num) ∧
    (exec e k10.body s).z = Nat.beq ((s.x 4).num % 2 ^ 32 &&& 1) 0 := by
  cases s; exact ⟨by keep, rfl, rfl, rfl, rfl, rfl⟩

theorem k11x (e : Env A) (s : St A) : Same keepBias s (exec e k11.body s) ∧ (exec e k11.body s).m = s.m ∧
    (exec e k11.body s).v = s.v ∧
    (exec e k11.body s).bad = (s.bad || !(s.x 1).isPtr || !(s.x 8).isInt) ∧
    (exec e k11.body s).x 1 = addVal (s.x 1) ((s.x 8).num * 2 ^ 2 % 2 ^ 32) := by
  cases s; exact ⟨by keep, rfl, rfl, rfl, rfl⟩

theorem k12x (e : Env A) (s : St A) : Same (128 :: 144 :: midRegs) s (exec e k12.body s) ∧ (exec e k12.body s).m = s.m ∧
    (exec e k12.body s).bad = (s.bad || out e.base (s.x 1) 0 4 || out e.base (s.x 34) 0 4 ||
      out e.base (addN (s.x 34) 1) 0 4 || out e.base (s.x 35) 0 4 || !(s.x 4).isInt) ∧
    (exec e k12.body s).x 1 = addN (s.x 1) 1 ∧ (exec e k12.body s).x 34 = addN (s.x 34) 2 ∧
    (exec e k12.body s).x 35 = addN (s.x 35) 1 ∧
    (exec e k12.body s).z = Nat.beq ((s.x 4).num % 2 ^ 32 &&& 32) 0 ∧
    (exec e k12.body s).v 0 = words s (addN (s.x 34) 0) 0 ∧ (exec e k12.body s).v 1 = words s (addN (s.x 34) 1) 0 ∧
    (exec e k12.body s).v 2 = words s (addN (s.x 35) 0) 0 ∧ (exec e k12.body s).v 12 = words s (s.x 1) 0 ∧
    (∀ i, i < 8 → (exec e k12.body s).v (3 + i) = s.v (3 + i)) := by
  cases s
  exact ⟨by keep, rfl, rfl, rfl, rfl, rfl, rfl, rfl, rfl, rfl, rfl, by intro i hi; interval_cases i <;> rfl⟩

theorem k13x (e : Env A) (s : St A) : Same (34 :: 35 :: 128 :: 144 :: midRegs) s (exec e k13.body s) ∧
    (exec e k13.body s).m = s.m ∧ (exec e k13.body s).bad = (s.bad || out e.base (s.x 1) 0 4) ∧
    (∀ i, i < 3 → (exec e k13.body s).v i = s.v i) ∧
    (∀ w, w < 4 → (exec e k13.body s).v (3 + 2 * w + 0) = fun i => e.ops.add (s.v (3 + 2 * w + 0) i) (s.v 12 i)) ∧
    (∀ w, w < 4 → (exec e k13.body s).v (3 + 2 * w + 1) =
      fun i => e.ops.add (s.v (3 + 2 * w + 1) i) (words s (s.x 1) 0 i)) := by
  cases s with | mk x v m z lt bad =>
  refine ⟨?_, rfl, rfl, by intro i hi; interval_cases i <;> rfl, by intro i hi; interval_cases i <;> rfl,
    by intro i hi; interval_cases i <;> rfl⟩
  keep

theorem k14x (e : Env A) (s : St A) : Same (34 :: 35 :: 128 :: 144 :: midRegs) s (exec e k14.body s) ∧
    (exec e k14.body s).m = s.m ∧ (exec e k14.body s).bad = s.bad ∧
    (∀ i, i < 3 → (exec e k14.body s).v i = s.v i) ∧
    (∀ w, w < 4 → ∀ h, h < 2 → (exec e k14.body s).v (3 + 2 * w + h) =
      fun i => e.ops.add (s.v (3 + 2 * w + h) i) (s.v 12 w)) := by
  cases s
  exact ⟨by keep, rfl, rfl, by intro i hi; interval_cases i <;> rfl,
    by intro w hw h hh; interval_cases w <;> interval_cases h <;> rfl⟩

/-- Where the bias of block (`p`, `q`) starts, and the one that an entry uses. -/
def chan (j : Job A) (p q : Nat) : Nat := if j.chanCol then j.startCol + 4 * q else j.startRow + 8 * p
def biasBase (j : Job A) (p q : Nat) : Nat := if j.hasBias then chan j p q else 0
def lane (j : Job A) (u w : Nat) : Nat := if j.chanCol then w else u

/-- An entry with its bias. -/
def biasedAt (j : Job A) (p q u w : Nat) : A :=
  j.ops.add (blockSum j (lhsBlk j p) (rhsBlk j q) j.depth u w) (j.m .bias (biasBase j p q + lane j u w))

/-- The next block is ready. -/
structure Ready (j : Job A) (p q : Nat) (s : St A) : Prop where
  lc : s.x 128 = .ptr .lhs (4 * lhsBlk j (nextP j p))
  rc : s.x 144 = .ptr .rhs (4 * rhsBlk j (nextQ j p q))
  lp : s.x lp = .ptr .lhs (4 * (lhsBlk j (nextP j p) + 8))
  rp : s.x rp = .ptr .rhs (4 * (rhsBlk j (nextQ j p q) + 4))
  data : Data j (lhsBlk j (nextP j p)) (rhsBlk j (nextQ j p q)) 0 s

/-- Label 7. -/
structure Work (j : Job A) (p q : Nat) (f : Nat → Nat → A) (s : St A) : Prop where
  mid : Mid j p q s
  nxt : Ready j p q s
  tile : Tile f s

theorem flag_col (j : Job A) : Nat.beq (j.flags % 2 ^ 8 % 2 ^ 32 &&& 32) 0 = !j.chanCol := by
  unfold Job.flags; cases j.hasBias <;> cases j.chanCol <;> rfl

theorem flag_bias (j : Job A) : Nat.beq (j.flags % 2 ^ 8 % 2 ^ 32 &&& 1) 0 = !j.hasBias := by
  unfold Job.flags; cases j.hasBias <;> cases j.chanCol <;> rfl

theorem nextP_le {j : Job A} {p : Nat} : nextP j p ≤ j.rowSteps := by
  unfold nextP; split_ifs <;> omega
theorem nextQ_le {j : Job A} {p q : Nat} (hq : q ≤ j.colSteps) : nextQ j p q ≤ j.colSteps := by
  unfold nextQ; split_ifs <;> omega

theorem bias_bound {j : Job A} (hf : j.Fits) {p q : Nat} (hp : p ≤ j.rowSteps) (hq : q ≤ j.colSteps) :
    biasBase j p q + 4 ≤ j.size .bias ∧ (j.chanCol = false → biasBase j p q + 8 ≤ j.size .bias) := by
  have h := hf.bias
  unfold Job.channels Job.lastRow Job.lastCol at h
  unfold biasBase chan
  cases hb : j.hasBias <;> cases hc : j.chanCol <;> rw [hb] at h <;> rw [hc] at h <;>
    simp only [Bool.false_eq_true, if_false, if_true] at h ⊢ <;> constructor <;> first | omega | (intro hh; first | omega | cases hh)

/-- From label 5 to label 7. -/
theorem biased {j : Job A} (hf : j.Fits) {p q : Nat} (hp : p ≤ j.rowSteps) (hq : q ≤ j.colSteps) {s : St A}
    (h : Aimed j p q (blockSum j (lhsBlk j p) (rhsBlk j q) j.depth) s) :
    ∃ s', Reach j.env kernel (7, s) (15, s') ∧ Work j p q (biasedAt j p q) s' ∧ s'.m = s.m := by
  obtain ⟨bb, bb8⟩ := bias_bound hf hp hq
  have hmem := hf.memory .bias
  have frow := hf.row
  have fcol := hf.col
  have flr : j.lastRow = j.startRow + 8 * j.rowSteps := rfl
  have flc : j.lastCol = j.startCol + 4 * j.colSteps := rfl
  have bl := lhs_bound hf (nextP_le (j := j) (p := p))
  have br := rhs_bound hf (nextQ_le (p := p) hq)
  have pos := hf.pos
  -- label 5
  obtain ⟨a1, a2, a3, a4, a5, a6, a7, a8, a9⟩ := k7x j.env s
  have n1 : ∀ l, (bif !(exec j.env k7.body s).z then 9 else 8) = l →
      Reach j.env kernel (7, s) (l, exec j.env k7.body s) := fun l hl => Reach.block (b := k7) rfl hl
  generalize exec j.env k7.body s = s1 at *
  rw [h.mid.ok, h.mid.sp] at a4
  have a4' : s1.bad = false := a4
  have z1 : s1.z = !j.chanCol := a9.trans (flag_col j)
  have mid1 := h.mid.next (a1.sub (by decide)) a2 a4'
  -- label 1001, with the offset of the channel variable
  have c1 : ∃ s2, Reach j.env kernel (7, s) (10, s2) ∧ Same (1 :: keepBias) s1 s2 ∧ s2.m = s.m ∧ s2.v = s.v ∧
      s2.bad = false ∧ s2.x 8 = .int (if j.chanCol then 48 else 32) := by
    cases hc : j.chanCol
    · obtain ⟨b1, b2, b3, b4, b5⟩ := k8x j.env s1
      have n2 : Reach j.env kernel (8, s1) (10, exec j.env k8.body s1) := Reach.block (b := k8) rfl rfl
      exact ⟨_, (n1 8 (by rw [z1, hc]; rfl)).trans n2, b1, b2.trans a2, b3.trans a3, b4.trans a4', b5⟩
    · obtain ⟨b1, b2, b3, b4, b5⟩ := k9x j.env s1
      have n2 : Reach j.env kernel (9, s1) (10, exec j.env k9.body s1) := Reach.block (b := k9) rfl rfl
      exact ⟨_, (n1 9 (by rw [z1, hc]; rfl)).trans n2, b1, b2.trans a2, b3.trans a3, b4.trans a4', b5⟩
  obtain ⟨s2, r2, b1, b2, b3, b4, b5⟩ := c1
  have mid2 : Mid j p q s2 := mid1.next (b1.sub (by decide)) (b2.trans a2.symm) b4
  have x8 : s2.x (64 + (s2.x 8).num) = .int (chan j p q) := by
    rw [b5]; unfold chan
    cases j.chanCol
    · exact mid2.row
    · exact mid2.col
  have in8 : Nat.blt (s2.x 13).num ((s2.x 8).num + 4) = false := by
    rw [b5, mid2.sp]; cases j.chanCol <;> rfl
  obtain ⟨d1, d2, d3, d4, d5, d6⟩ := k10x j.env s2
  have n3 : ∀ l, (bif (exec j.env k10.body s2).z then 12 else 11) = l →
      Reach j.env kernel (10, s2) (l, exec j.env k10.body s2) := fun l hl => Reach.block (b := k10) rfl hl
  generalize exec j.env k10.body s2 = s3 at *
  have x4 : s2.x 4 = .int (j.flags % 2 ^ 8) := (b1.get (by decide)).trans a7
  rw [x8] at d5
  rw [in8, b4, x4, b5] at d4
  have d4' : s3.bad = false := d4
  rw [x4] at d6
  have z3 : s3.z = !j.hasBias := d6.trans (flag_bias j)
  have x1 : s3.x 1 = .ptr .bias 0 := (d1.get (by decide)).trans ((b1.get (by decide)).trans a8)
  have same3 : Same (1 :: keepBias) s1 s3 := b1.trans d1
  -- label 1002
  have c2 : ∃ s4, Reach j.env kernel (10, s2) (12, s4) ∧ Same keepBias s1 s4 ∧ s4.m = s.m ∧ s4.v = s.v ∧
      s4.bad = false ∧ s4.x 1 = .ptr .bias (4 * biasBase j p q) := by
    cases hb : j.hasBias
    · refine ⟨s3, n3 12 (by rw [z3, hb]; rfl), same3.sub (by decide), d2.trans b2, d3.trans b3, d4', ?_⟩
      rw [x1]; unfold biasBase; rw [hb]; rfl
    · obtain ⟨f1, f2, f3, f4, f5⟩ := k11x j.env s3
      have n4 : Reach j.env kernel (11, s3) (12, exec j.env k11.body s3) := Reach.block (b := k11) rfl rfl
      generalize exec j.env k11.body s3 = s4 at *
      rw [x1, d5, d4'] at f4
      rw [x1, d5] at f5
      refine ⟨s4, (n3 11 (by rw [z3, hb]; rfl)).trans n4, (same3.sub (by decide)).trans f1,
        f2.trans (d2.trans b2), f3.trans (d3.trans b3), f4, ?_⟩
      rw [f5]
      show Val.ptr .bias (0 + chan j p q * 2 ^ 2 % 2 ^ 32) = _
      have : biasBase j p q = chan j p q := by unfold biasBase; rw [hb]; rfl
      rw [this] at bb ⊢
      rw [Nat.mod_eq_of_lt (by omega)]
      exact congrArg _ (by omega)
  obtain ⟨s4, r4, f1, f2, f3, f4, f5⟩ := c2
  have mid4 : Mid j p q s4 := mid1.next (f1.sub (by decide)) (f2.trans a2.symm) f4
  have x4' : s4.x 4 = .int (j.flags % 2 ^ 8) := (f1.get (by decide)).trans a7
  have x128 : s4.x 128 = _ := ((f1.get (by decide)).trans (a1.get (by decide))).trans h.lc
  have x144 : s4.x 144 = _ := ((f1.get (by decide)).trans (a1.get (by decide))).trans h.rc
  have x34 : s4.x 34 = _ := ((f1.get (by decide)).trans a5).trans h.lc
  have x35 : s4.x 35 = _ := ((f1.get (by decide)).trans a6).trans h.rc
  have ml : s4.m .lhs = j.m .lhs := mid4.mem _ (by decide) (by decide)
  have mr : s4.m .rhs = j.m .rhs := mid4.mem _ (by decide) (by decide)
  have mb : s4.m .bias = j.m .bias := mid4.mem _ (by decide) (by decide)
  obtain ⟨g1, g2, g3, g4, g5, g6, g7, g8, g9, g10, g11, g12⟩ := k12x j.env s4
  have n5 : ∀ l, (bif !(exec j.env k12.body s4).z then 14 else 13) = l →
      Reach j.env kernel (12, s4) (l, exec j.env k12.body s4) := fun l hl => Reach.block (b := k12) rfl hl
  generalize exec j.env k12.body s4 = s5 at *
  rw [f5, x34, x35, x4', f4, addN_ptr, out_ok (by omega), out_ok (by omega), out_ok (by omega), out_ok (by omega)] at g3
  have g3' : s5.bad = false := g3
  rw [f5, addN_ptr] at g4
  rw [x34, addN_ptr] at g5 g8 g9
  rw [x35, addN_ptr] at g6 g10
  rw [words_eq ml] at g8 g9
  rw [words_eq mr] at g10
  rw [f5, words_eq mb] at g11
  rw [x4'] at g7
  have z5 : s5.z = !j.chanCol := g7.trans (flag_col j)
  have mid5 := mid4.next (g1.sub (by decide)) g2 g3'
  have tile5 : Tile (blockSum j (lhsBlk j p) (rhsBlk j q) j.depth) s5 := by
    intro w hw u hu i hi
    rw [show 3 + 2 * w + u = 3 + (2 * w + u) by omega, g12 _ (by omega), f3, ← h.tile w hw u hu i hi]
    exact congrArg (fun n => s.v n i) (by omega)
  have rdy : ∀ s6 : St A, Same (34 :: 35 :: 128 :: 144 :: midRegs) s5 s6 → (∀ i, i < 3 → s6.v i = s5.v i) →
      Ready j p q s6 := fun s6 k1 k2 =>
    ⟨(k1.get (by decide)).trans ((g1.get (by decide)).trans x128),
      (k1.get (by decide)).trans ((g1.get (by decide)).trans x144),
      (k1.get (by decide)).trans (g5.trans (congrArg _ (by omega))),
      (k1.get (by decide)).trans (g6.trans (congrArg _ (by omega))),
      (k2 0 (by omega)).trans (g8.trans (congrArg (j.vec _) (by omega))),
      (k2 1 (by omega)).trans (g9.trans (congrArg (j.vec _) (by omega))),
      (k2 2 (by omega)).trans (g10.trans (congrArg (j.vec _) (by omega)))⟩
  cases hc : j.chanCol
  · have mb5 : s5.m .bias = j.m .bias := mid5.mem _ (by decide) (by decide)
    obtain ⟨e1, e2, e3, e4, e5, e6⟩ := k13x j.env s5
    have n6 : Reach j.env kernel (13, s5) (15, exec j.env k13.body s5) := Reach.block (b := k13) rfl rfl
    generalize exec j.env k13.body s5 = s6 at *
    have b8 := bb8 hc
    rw [g4, g3', out_ok (by omega)] at e3
    rw [g4, words_eq mb5] at e6
    refine ⟨s6, ((r2.trans r4).trans (n5 13 (by rw [z5, hc]; rfl))).trans n6, ⟨mid5.next (e1.sub (by decide)) e2 e3,
      rdy s6 e1 e4, ?_⟩, e2.trans (g2.trans f2)⟩
    intro w hw u hu i hi
    have t := tile5 w hw u hu i hi
    have el : lane j (4 * u + i) w = 4 * u + i := by unfold lane; rw [hc]; rfl
    unfold biasedAt
    rw [← t, el]
    interval_cases u
    · rw [e5 w hw, g11]
      show j.ops.add _ (j.m .bias (biasBase j p q + i)) = _
      rw [show 4 * 0 + i = i by omega]
    · rw [e6 w hw]
      show j.ops.add _ (j.m .bias (biasBase j p q + 4 * 1 + i)) = _
      rw [show biasBase j p q + 4 * 1 + i = biasBase j p q + (4 * 1 + i) by omega]
  · obtain ⟨e1, e2, e3, e4, e5⟩ := k14x j.env s5
    have n6 : Reach j.env kernel (14, s5) (15, exec j.env k14.body s5) := Reach.block (b := k14) rfl rfl
    generalize exec j.env k14.body s5 = s6 at *
    refine ⟨s6, ((r2.trans r4).trans (n5 14 (by rw [z5, hc]; rfl))).trans n6, ⟨mid5.next (e1.sub (by decide)) e2
      (e3.trans g3'), rdy s6 e1 e4, ?_⟩, e2.trans (g2.trans f2)⟩
    intro w hw u hu i hi
    have t := tile5 w hw u hu i hi
    have el : lane j (4 * u + i) w = w := by unfold lane; rw [hc]; rfl
    unfold biasedAt
    rw [← t, el, e5 w hw u hu, g11]
    rfl

end Ruy.Arm32

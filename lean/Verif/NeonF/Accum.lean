import Verif.NeonF.Basic
/-
The depth loops of the AArch64 float kernels for single levels of depth: `KernelFloatNeonX1`
(labels 1, 2, 79), and the same loop at the end of `KernelFloatNeon`.

The entries of a block: row `4 * h + i` (`h < 2`, `i < 4`) and column `w < 8` are in lane `i` of register
`16 + 2 * w + h`.  The first quarter (`h = 0`, `w < 4`) is accumulated ahead of the rest.
-/
namespace Ruy.NeonF
open Ruy.Neon (lhsColPtr rhsColPtr lhsPtr rhsPtr dstColPtr dstPtr rRow rCol rDstRows rDstCols tmpBuf sgn sgn_of)
variable {A : Type}

/-- The products of row `u` and column `w` of two packed blocks, in the order of `L`. -/
def blockSum (j : Job A) (a b : Nat) (L : List Nat) (u w : Nat) : A :=
  L.foldl (fun d t => j.ops.fma d (j.m .lhs (a + 8 * t + u)) (j.m .rhs (b + 8 * t + w))) j.ops.zero

theorem blockSum_snoc (j : Job A) (a b : Nat) (L : List Nat) (t u w : Nat) :
    blockSum j a b (L ++ [t]) u w =
      j.ops.fma (blockSum j a b L u w) (j.m .lhs (a + 8 * t + u)) (j.m .rhs (b + 8 * t + w)) := by
  unfold blockSum
  rw [List.foldl_append]
  rfl

/-- The registers with the operands hold levels `g`, …, `g + n - 1`. -/
def Data (j : Job A) (a b g n : Nat) (s : St A) : Prop :=
  ∀ u, u < n → ∀ h, h < 2 → ∀ i, i < 4 → s.v (4 * u + h) i = j.m .lhs (a + 8 * (g + u) + (4 * h + i)) ∧
    s.v (4 * u + 2 + h) i = j.m .rhs (b + 8 * (g + u) + (4 * h + i))

/-- The first quarter. -/
def Quarter (h w : Nat) : Prop := h = 0 ∧ w < 4

instance (h w : Nat) : Decidable (Quarter h w) := inferInstanceAs (Decidable (_ ∧ _))

/-- Accumulators: levels `R` in the first quarter, `O` elsewhere. -/
def Acc (j : Job A) (a b : Nat) (R O : List Nat) (s : St A) : Prop :=
  ∀ w, w < 8 → ∀ h, h < 2 → ∀ i, i < 4 →
    s.v (16 + 2 * w + h) i = blockSum j a b (if Quarter h w then R else O) (4 * h + i) w

/-- In a depth loop: levels `R` and `O` have been accumulated, `n` levels from level `g` on are in the registers,
the levels from `p` on are to be loaded. -/
structure Loop (j : Job A) (a b : Nat) (R O : List Nat) (g n p : Nat) (s s' : St A) : Prop where
  same : Same keepLoop s s'
  m : s'.m = s.m
  ok : s'.bad = false
  lp : s'.x lhsPtr = .ptr .lhs (4 * (a + 8 * p))
  rp : s'.x rhsPtr = .ptr .rhs (4 * (b + 8 * p))
  data : Data j a b g n s'
  acc : Acc j a b R O s'

/-- The operands are readable. -/
structure Readable (j : Job A) (a b : Nat) (s : St A) : Prop where
  ml : s.m .lhs = j.m .lhs
  mr : s.m .rhs = j.m .rhs
  sl : a + 8 * j.depth ≤ j.size .lhs
  sr : b + 8 * j.depth ≤ j.size .rhs

/-- A step of the loop over single levels. -/
structure Level (j : Job A) (a b p : Nat) (s s1 : St A) : Prop where
  same : Same keepLoop s s1
  m : s1.m = s.m
  ok : s1.bad = false
  lp : s1.x lhsPtr = .ptr .lhs (4 * (a + 8 * (p + 1)))
  rp : s1.x rhsPtr = .ptr .rhs (4 * (b + 8 * (p + 1)))
  data : Data j a b p 1 s1
  first : ∀ w, w < 4 → ∀ i, i < 4 → s1.v (16 + 2 * w + 0) i =
    j.ops.fma (s.v (16 + 2 * w + 0) i) (j.m .lhs (a + 8 * p + i)) (j.m .rhs (b + 8 * p + w))
  others : ∀ w, w < 8 → ∀ h, h < 2 → ¬Quarter h w → ∀ i, i < 4 → s1.v (16 + 2 * w + h) i =
    j.ops.fma (s.v (16 + 2 * w + h) i) (s.v h i) (s.v (2 + w / 4) (w % 4))

theorem Data.one {j : Job A} {a b g n : Nat} {s : St A} (h : Data j a b g n s) (hn : 0 < n) : Data j a b g 1 s :=
  fun u hu => h u (by omega)

/-- What the registers 0, …, 3 contribute. -/
theorem Data.zero {j : Job A} {a b g n : Nat} {s : St A} (hd : Data j a b g n s) (hn : 0 < n) {h w i : Nat} (hh : h < 2) (hw : w < 8)
    (hi : i < 4) : s.v h i = j.m .lhs (a + 8 * g + (4 * h + i)) ∧ s.v (2 + w / 4) (w % 4) = j.m .rhs (b + 8 * g + w) := by
  have h1 := (hd 0 hn h hh i hi).1
  have h2 := (hd 0 hn (w / 4) (by omega) (w % 4) (by omega)).2
  rw [Nat.mul_zero, Nat.zero_add, Nat.add_zero] at h1 h2
  rw [show 4 * (w / 4) + w % 4 = w by omega] at h2
  exact ⟨h1, h2⟩

theorem Loop.step {j : Job A} {a b : Nat} {R O : List Nat} {g p : Nat} {s s' s1 : St A}
    (h : Loop j a b R O g 1 p s s') (l : Level j a b p s' s1) :
    Loop j a b (R ++ [p]) (O ++ [g]) p 1 (p + 1) s s1 := by
  refine ⟨h.same.trans l.same, l.m.trans h.m, l.ok, l.lp, l.rp, l.data, ?_⟩
  intro w hw u hu i hi
  have ha := h.acc w hw u hu i hi
  by_cases hq : Quarter u w
  · obtain ⟨rfl, hw4⟩ := hq
    rw [if_pos ⟨rfl, hw4⟩] at ha ⊢
    rw [blockSum_snoc, l.first w hw4 i hi, ha, Nat.mul_zero, Nat.zero_add]
  · obtain ⟨d1, d2⟩ := h.data.zero (by omega) hu hw hi
    rw [if_neg hq] at ha ⊢
    rw [blockSum_snoc, l.others w hw u hu hq i hi, ha, d1, d2]

/-- A part that only changes other registers. -/
theorem Loop.next {j : Job A} {a b : Nat} {R O : List Nat} {g n p : Nat} {s s' s1 : St A} (h : Loop j a b R O g n p s s')
    (k1 : Same keepLoop s' s1) (k2 : s1.m = s'.m) (k3 : s1.v = s'.v) (k4 : s1.x lhsPtr = s'.x lhsPtr)
    (k5 : s1.x rhsPtr = s'.x rhsPtr) (k6 : s1.bad = false) : Loop j a b R O g n p s s1 :=
  ⟨h.same.trans k1, k2.trans h.m, k6, k4.trans h.lp, k5.trans h.rp,
    by intro u hu q hq; rw [k3]; exact h.data u hu q hq,
    by intro w hw u hu i hi; rw [k3]; exact h.acc w hw u hu i hi⟩

/-! ### The loop -/

theorem fx2v (e : Env A) (s : St A) :
    (∀ h, h < 2 → (exec e fx2.body s).v h = words s (addN (s.x lhsPtr) h) 0 ∧
      (exec e fx2.body s).v (2 + h) = words s (addN (s.x rhsPtr) h) 0) ∧
    (∀ w, w < 4 → ∀ i, (exec e fx2.body s).v (16 + 2 * w + 0) i =
      e.ops.fma (s.v (16 + 2 * w + 0) i) (words s (addN (s.x lhsPtr) 0) 0 i) (words s (addN (s.x rhsPtr) 0) 0 w)) ∧
    (∀ w, w < 8 → ∀ h, h < 2 → ¬Quarter h w → ∀ i, (exec e fx2.body s).v (16 + 2 * w + h) i =
      e.ops.fma (s.v (16 + 2 * w + h) i) (s.v h i) (s.v (2 + w / 4) (w % 4))) := by
  refine ⟨?_, ?_, ?_⟩
  · intro h hh; interval_cases h <;> exact ⟨rfl, rfl⟩
  · intro k hk i; interval_cases k <;> rfl
  · intro w hw h hh hn i
    interval_cases h <;> interval_cases w <;> first | exact absurd ⟨rfl, by decide⟩ hn | rfl

theorem fx2x (e : Env A) (s : St A) : Same keepLoop s (exec e fx2.body s) ∧ (exec e fx2.body s).m = s.m ∧
    (exec e fx2.body s).x 1 = .int (((s.x 1).num + 1) % 2 ^ 32) ∧
    (exec e fx2.body s).x lhsPtr = addN (s.x lhsPtr) 2 ∧ (exec e fx2.body s).x rhsPtr = addN (s.x rhsPtr) 2 ∧
    (exec e fx2.body s).bad = (s.bad || out e (s.x rhsPtr) 0 4 || out e (s.x lhsPtr) 0 4 || !(s.x 1).isInt ||
      out e (addN (s.x rhsPtr) 1) 0 4 || false || !(s.x 12).isInt || out e (addN (s.x lhsPtr) 1) 0 4) ∧
    (exec e fx2.body s).lt = decide (sgn (((s.x 1).num + 1) % 2 ^ 32) < sgn (s.x 12).num) := by
  cases s
  exact ⟨by keep, rfl, rfl, rfl, rfl, rfl, rfl⟩

theorem level_step {j : Job A} {a b p : Nat} {s s' : St A} (hf : j.depth < 2 ^ 31) (hd : Readable j a b s)
    (hp : p < j.depth) (hx : s.x 12 = .int j.depth) {R O : List Nat} {g : Nat} (h : Loop j a b R O g 1 p s s') (h1 : s'.x 1 = .int p) :
    Level j a b p s' (exec j.env fx2.body s') ∧ (exec j.env fx2.body s').x 1 = .int (p + 1) ∧
      (exec j.env fx2.body s').lt = decide (p + 1 < j.depth) := by
  have hml : s'.m .lhs = j.m .lhs := by rw [h.m]; exact hd.ml
  have hmr : s'.m .rhs = j.m .rhs := by rw [h.m]; exact hd.mr
  have hl := hd.sl
  have hr := hd.sr
  have h12 : s'.x 12 = .int j.depth := (h.same.get (by decide)).trans hx
  have bl : ∀ i, words s' (addN (s'.x lhsPtr) i) 0 = j.vec .lhs (a + 8 * p + 4 * i) := fun i => by
    rw [h.lp, addN_ptr]; exact words_eq hml rfl
  have br : ∀ i, words s' (addN (s'.x rhsPtr) i) 0 = j.vec .rhs (b + 8 * p + 4 * i) := fun i => by
    rw [h.rp, addN_ptr]; exact words_eq hmr rfl
  obtain ⟨v1, v2, v3⟩ := fx2v j.env s'
  obtain ⟨k1, k2, k3, k4, k5, k6, k7⟩ := fx2x j.env s'
  generalize exec j.env fx2.body s' = s1 at *
  have e1 : ((s'.x 1).num + 1) % 2 ^ 32 = p + 1 := by
    rw [h1]; show (p + 1) % 2 ^ 32 = _
    rw [Nat.mod_eq_of_lt (by omega)]
  refine ⟨⟨k1, k2, ?_, ?_, ?_, ?_, ?_, v3' v3⟩, by rw [k3, e1], ?_⟩
  · rw [k6, h.ok, h1, h12, h.lp, h.rp, addN_ptr, addN_ptr, out_ptr (by rfl) (by show _ ≤ j.size .rhs; omega),
      out_ptr (by rfl) (by show _ ≤ j.size .lhs; omega), out_ptr (by rfl) (by show _ ≤ j.size .rhs; omega),
      out_ptr (by rfl) (by show _ ≤ j.size .lhs; omega)]
    rfl
  · rw [k4, h.lp, addN_ptr]; exact congrArg _ (by omega)
  · rw [k5, h.rp, addN_ptr]; exact congrArg _ (by omega)
  · intro u hu q hq i hi
    obtain rfl : u = 0 := by omega
    rw [Nat.mul_zero, Nat.zero_add, (v1 q hq).1, (v1 q hq).2, bl, br]
    unfold Job.vec
    exact ⟨congrArg _ (by omega), congrArg _ (by omega)⟩
  · intro w hw i hi
    rw [v2 w hw i, bl, br]
    rfl
  · rw [k7, e1, h12]
    show decide (sgn (p + 1) < sgn j.depth) = _
    rw [sgn_of (by omega), sgn_of hf, decide_eq_decide]
    omega
where v3' {j : Job A} {s s1 : St A} (h : ∀ w, w < 8 → ∀ h, h < 2 → ¬Quarter h w → ∀ i, s1.v (16 + 2 * w + h) i =
      j.env.ops.fma (s.v (16 + 2 * w + h) i) (s.v h i) (s.v (2 + w / 4) (w % 4))) :
    ∀ w, w < 8 → ∀ h, h < 2 → ¬Quarter h w → ∀ i, i < 4 → s1.v (16 + 2 * w + h) i =
      j.ops.fma (s.v (16 + 2 * w + h) i) (s.v h i) (s.v (2 + w / 4) (w % 4)) := fun w hw u hu hn i _ => h w hw u hu hn i

/-- Register 5. -/
theorem level_x5 (e : Env A) (s : St A) : (exec e fx2.body s).x 5 = s.x 5 := by cases s; rfl

/-- The levels `p`, …, `p + n - 1`. -/
def levels (p n : Nat) : List Nat := List.range' p n

theorem levels_cons (p n : Nat) : levels p (n + 1) = p :: levels (p + 1) n := rfl

/-- Label 2: the levels from `p` on; `n + 1` of them. -/
theorem loop_all {P : List Block} {l l' : Nat} {b2 : Block} (h2 : P[l]? = some b2) (hb : b2.body = fx2.body)
    (ht : b2.term = .br .lt l l') {j : Job A} {a b : Nat} {R O : List Nat} {g p n : Nat} {s s' : St A} (hf : j.depth < 2 ^ 31)
    (hd : Readable j a b s) (hp : p + (n + 1) = j.depth) (hx : s.x 12 = .int j.depth) (h : Loop j a b R O g 1 p s s')
    (h1 : s'.x 1 = .int p) :
    ∃ s'' O' g', Reach j.env P (l, s') (l', s'') ∧ O' ++ [g'] = O ++ [g] ++ levels p (n + 1) ∧
      Loop j a b (R ++ levels p (n + 1)) O' g' 1 j.depth s s'' ∧ s''.x 5 = s'.x 5 := by
  induction n generalizing p g s' R O with
  | zero =>
    obtain ⟨v, h1', hl⟩ := level_step hf hd (by omega) hx h h1
    have v' := h.step v
    refine ⟨_, O ++ [g], p, Reach.block h2 ?_, rfl, hb ▸ hp ▸ v', by rw [hb]; exact level_x5 _ _⟩
    rw [hb, ht]
    show (bif (exec j.env fx2.body s').lt then l else l') = l'
    rw [hl, decide_eq_false (by omega)]; rfl
  | succ n ih =>
    obtain ⟨v, h1', hl⟩ := level_step hf hd (by omega) hx h h1
    obtain ⟨s'', O', g', r, e, l'', h5⟩ := ih (by omega) (h.step v) h1'
    refine ⟨s'', O', g', Reach.trans (Reach.block h2 (l := l) ?_) (by rw [hb]; exact r), ?_, ?_, h5.trans (level_x5 _ _)⟩
    · rw [hb, ht]
      show (bif (exec j.env fx2.body s').lt then l else l') = l
      rw [hl, decide_eq_true (by omega)]; rfl
    · rw [e, levels_cons p (n + 1)]; simp
    · rw [levels_cons p (n + 1)]; simpa using l''

/-! ### The first quarter of the first level -/

theorem fx1v (e : Env A) (s : St A) :
    (∀ i, i < 4 → (exec e fx1.body s).v i = s.v i) ∧
    (∀ w, w < 4 → ∀ i, (exec e fx1.body s).v (16 + 2 * w + 0) i =
      e.ops.fma (s.v (16 + 2 * w + 0) i) (s.v 0 i) (s.v 2 w)) ∧
    (∀ w, w < 8 → ∀ h, h < 2 → ¬Quarter h w → (exec e fx1.body s).v (16 + 2 * w + h) = s.v (16 + 2 * w + h)) := by
  refine ⟨?_, ?_, ?_⟩
  · intro h hh; interval_cases h <;> rfl
  · intro k hk i; interval_cases k <;> rfl
  · intro w hw h hh hn
    interval_cases h <;> interval_cases w <;> first | exact absurd ⟨rfl, by decide⟩ hn | rfl

/-- The first quarter of a level in the registers. -/
theorem Loop.quarter {j : Job A} {a b : Nat} {R O : List Nat} {g p : Nat} {s s' s1 : St A} (h : Loop j a b R O g 1 p s s')
    (k1 : Same keepLoop s' s1) (k2 : s1.m = s'.m) (k4 : s1.x lhsPtr = s'.x lhsPtr)
    (k5 : s1.x rhsPtr = s'.x rhsPtr) (k6 : s1.bad = false)
    (v1 : ∀ i, i < 4 → s1.v i = s'.v i)
    (v2 : ∀ w, w < 4 → ∀ i, s1.v (16 + 2 * w + 0) i = j.ops.fma (s'.v (16 + 2 * w + 0) i) (s'.v 0 i) (s'.v 2 w))
    (v3 : ∀ w, w < 8 → ∀ h, h < 2 → ¬Quarter h w → s1.v (16 + 2 * w + h) = s'.v (16 + 2 * w + h)) :
    Loop j a b (R ++ [g]) O g 1 p s s1 := by
  refine ⟨h.same.trans k1, k2.trans h.m, k6, k4.trans h.lp, k5.trans h.rp, ?_, ?_⟩
  · intro u hu q hq i hi
    obtain rfl : u = 0 := by omega
    rw [v1 _ (by omega), v1 _ (by omega)]
    exact h.data 0 (by omega) q hq i hi
  · intro w hw u hu i hi
    have ha := h.acc w hw u hu i hi
    by_cases hq : Quarter u w
    · obtain ⟨rfl, hw4⟩ := hq
      rw [if_pos ⟨rfl, hw4⟩] at ha ⊢
      obtain ⟨d1, d2⟩ := h.data.zero (by omega) hu hw hi
      rw [Nat.div_eq_of_lt hw4, Nat.mod_eq_of_lt hw4, Nat.add_zero] at d2
      rw [blockSum_snoc, v2 w hw4 i, ha, d1, d2]
    · rw [if_neg hq] at ha ⊢
      rw [v3 w hw u hu hq, ha]

theorem fx1x (e : Env A) (s : St A) : Same keepLoop s (exec e fx1.body s) ∧ (exec e fx1.body s).m = s.m ∧
    (exec e fx1.body s).x = s.x ∧
    (exec e fx1.body s).bad = (s.bad || !(s.x 1).isInt || !(s.x 12).isInt) ∧
    (exec e fx1.body s).z = decide (sgn (s.x 1).num = sgn (s.x 12).num) := by
  cases s
  exact ⟨by keep, rfl, rfl, rfl, rfl⟩

/-! ### The last level -/

/-- Entries of a tile: `f u w` for row `u` and column `w`. -/
def Tile (f : Nat → Nat → A) (s : St A) : Prop :=
  ∀ w, w < 8 → ∀ h, h < 2 → ∀ i, i < 4 → s.v (16 + 2 * w + h) i = f (4 * h + i) w

/-- The order in which the products of an entry are added. -/
def orderOf (R O : List Nat) (u w : Nat) : List Nat := if u < 4 ∧ w < 4 then R else O

/-- After label 79. -/
structure Done (j : Job A) (a b : Nat) (R O : List Nat) (s s' : St A) : Prop where
  same : Same keepLoop s s'
  x5 : s'.x 5 = .ptr .lhs (4 * j.lhsBase)
  m : s'.m = s.m
  ok : s'.bad = false
  tile : Tile (fun u w => blockSum j a b (orderOf R O u w) u w) s'

theorem Loop.done {j : Job A} {a b : Nat} {R O : List Nat} {g p : Nat} {s s' s1 : St A} (h : Loop j a b R O g 1 p s s')
    (k1 : Same keepLoop s' s1) (k2 : s1.m = s'.m) (k5 : s1.x 5 = .ptr .lhs (4 * j.lhsBase)) (k6 : s1.bad = false)
    (v1 : ∀ w, w < 4 → s1.v (16 + 2 * w + 0) = s'.v (16 + 2 * w + 0))
    (v2 : ∀ w, w < 8 → ∀ h, h < 2 → ¬Quarter h w → ∀ i, s1.v (16 + 2 * w + h) i =
      j.ops.fma (s'.v (16 + 2 * w + h) i) (s'.v h i) (s'.v (2 + w / 4) (w % 4))) :
    Done j a b R (O ++ [g]) s s1 := by
  refine ⟨h.same.trans k1, k5, k2.trans h.m, k6, ?_⟩
  intro w hw u hu i hi
  have ha := h.acc w hw u hu i hi
  by_cases hq : Quarter u w
  · obtain ⟨rfl, hw4⟩ := hq
    rw [if_pos ⟨rfl, hw4⟩] at ha
    show _ = blockSum j a b (orderOf R (O ++ [g]) (4 * 0 + i) w) (4 * 0 + i) w
    unfold orderOf
    rw [if_pos ⟨by omega, hw4⟩, v1 w hw4, ha]
  · obtain ⟨d1, d2⟩ := h.data.zero (by omega) hu hw hi
    rw [if_neg hq] at ha
    show _ = blockSum j a b (orderOf R (O ++ [g]) (4 * u + i) w) (4 * u + i) w
    unfold orderOf
    have hn : ¬(4 * u + i < 4 ∧ w < 4) := fun hc => hq ⟨by omega, hc.2⟩
    rw [if_neg hn, blockSum_snoc, v2 w hw u hu hq i, ha, d1, d2]

theorem fx3v (e : Env A) (s : St A) :
    (∀ w, w < 4 → (exec e fx3.body s).v (16 + 2 * w + 0) = s.v (16 + 2 * w + 0)) ∧
    (∀ w, w < 8 → ∀ h, h < 2 → ¬Quarter h w → ∀ i, (exec e fx3.body s).v (16 + 2 * w + h) i =
      e.ops.fma (s.v (16 + 2 * w + h) i) (s.v h i) (s.v (2 + w / 4) (w % 4))) := by
  refine ⟨?_, ?_⟩
  · intro k hk; interval_cases k <;> rfl
  · intro w hw h hh hn i
    interval_cases h <;> interval_cases w <;> first | exact absurd ⟨rfl, by decide⟩ hn | rfl

theorem fx3x (e : Env A) (s : St A) : Same keepLoop s (exec e fx3.body s) ∧ (exec e fx3.body s).m = s.m ∧
    (exec e fx3.body s).x = s.x ∧
    (exec e fx3.body s).bad = (s.bad || !(s.x rRow).isInt || !(s.x 7).isInt) ∧
    (exec e fx3.body s).lt = decide (sgn (s.x rRow).num < sgn (s.x 7).num) := by
  cases s
  exact ⟨by keep, rfl, rfl, rfl, rfl⟩

/-- Label 79 where register 5 still holds the base pointer. -/
theorem last_level {P : List Block} {o : Nat} {b3 : Block} (h3 : P[o]? = some b3) (hb : b3.body = fx3.body)
    (ht : b3.term = .br .ge (o + 2) (o + 1)) {j : Job A} {a b : Nat} {R O : List Nat} {g p : Nat} {s s' : St A} (h : Loop j a b R O g 1 p s s')
    (h5 : s'.x 5 = .ptr .lhs (4 * j.lhsBase)) {r c : Nat} (hr : r < 2 ^ 31) (hc : c < 2 ^ 31) (xr : s.x rRow = .int r)
    (xc : s.x 7 = .int c) :
    ∃ s'', Reach j.env P (o, s') (bif decide (r < c) then o + 1 else o + 2, s'') ∧ Done j a b R (O ++ [g]) s s'' := by
  have xr' : s'.x rRow = .int r := (h.same.get (by decide)).trans xr
  have xc' : s'.x 7 = .int c := (h.same.get (by decide)).trans xc
  obtain ⟨v1, v2⟩ := fx3v j.env s'
  obtain ⟨k1, k2, k3, k4, k5⟩ := fx3x j.env s'
  rw [xr', xc', sgn_lt hr hc] at k5
  refine ⟨_, Reach.block h3 ?_, hb ▸ h.done k1 k2 (by rw [k3]; exact h5) (by rw [k4, h.ok, xr', xc']; rfl) v1 v2⟩
  rw [hb, ht]
  show (bif !(exec j.env fx3.body s').lt then o + 2 else o + 1) = _
  rw [k5]
  cases decide (r < c) <;> rfl

end Ruy.NeonF

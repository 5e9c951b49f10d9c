import Verif.Neon.DotJob
/-
The accumulation of one 8x8 block by `Kernel8bitNeonDotprod` (labels 1, 81, 78, 2, 79).

The entries of a block: row `4 * h + i` and column `4 * q + k` (`h, q < 2`, `i, k < 4`) are in
lane `i` of register `16 + 8 * q + 2 * k + h`.
-/
namespace Ruy.Neon.Dot
open Simd (wrap8 wrap16 wrap32)

theorem and_high {n : Nat} (h : n < 2 ^ 31) : n % 2 ^ 32 &&& 4294967280 = 16 * (n / 16) := by
  rw [Nat.mod_eq_of_lt (by omega)]
  apply Nat.eq_of_testBit_eq
  intro i
  rw [Nat.testBit_and, show 4294967280 = 2 ^ 4 * (2 ^ 28 - 1) from rfl, show 16 * (n / 16) = 2 ^ 4 * (n / 2 ^ 4) from rfl,
    Nat.testBit_two_pow_mul, Nat.testBit_two_pow_mul, Nat.testBit_two_pow_sub_one, Nat.testBit_div_two_pow]
  by_cases h4 : 4 ≤ i
  · have e : i - 4 + 4 = i := by omega
    by_cases h32 : i - 4 < 28
    · simp [h4, h32, e]
    · have : n.testBit i = false := Nat.testBit_lt_two_pow (lt_of_lt_of_le h (Nat.pow_le_pow_right (by omega) (by omega)))
      simp [h4, h32, e, this]
  · simp [h4]

/-- Lane `i` of `n` times element `k` of `m`. -/
def quad (n m : Vec) (i k : Nat) : Int :=
  getB n (4 * i) * getB m (4 * k) + getB n (4 * i + 1) * getB m (4 * k + 1) +
    getB n (4 * i + 2) * getB m (4 * k + 2) + getB n (4 * i + 3) * getB m (4 * k + 3)

theorem getS_sdot (k : Nat) (d n m : Vec) (i : Nat) :
    getS (eop .sdot k d n m) i = wrap32 (getS d i + quad n m i k) := by
  simp only [eop]
  rw [getS_ofS]
  rfl

/-- The products of the group `t` of four levels of depth. -/
def grp (j : Job) (a b h q k i t : Nat) : Int :=
  quad (j.vec .lhs (a + 32 * t + 16 * h)) (j.vec .rhs (b + 32 * t + 16 * q)) i k

/-- Those of all levels. -/
def total (j : Job) (a b h q k i : Nat) : Int := ∑ t ∈ Finset.range (j.depthSteps + 1), grp j a b h q k i t

/-- Those of the levels from group `p` on. -/
def rest (j : Job) (a b h q k i p : Nat) : Int := ∑ t ∈ Finset.Ico p (j.depthSteps + 1), grp j a b h q k i t

theorem rest_step {j : Job} {a b h q k i p : Nat} (hp : p < j.depthSteps + 1) :
    rest j a b h q k i p = grp j a b h q k i p + rest j a b h q k i (p + 1) := by
  unfold rest
  rw [Finset.sum_eq_sum_Ico_succ_bot hp]

theorem rest_end {j : Job} {a b h q k i : Nat} : rest j a b h q k i (j.depthSteps + 1) = 0 := by
  unfold rest
  rw [Finset.Ico_self, Finset.sum_empty]

theorem rest_all (j : Job) (a b h q k i : Nat) : rest j a b h q k i 0 = total j a b h q k i := by
  unfold rest total
  rw [Finset.range_eq_Ico]

/-- The first quarter of the block is one step ahead. -/
def ahead (h q : Nat) (x : Int) : Int := if h = 0 ∧ q = 0 then 0 else x

/-- The registers with the operands hold groups `g`, …, `g + n`. -/
def Groups (j : Job) (a b g n : Nat) (s : St) : Prop :=
  ∀ u, u < n → ∀ h, h < 2 → s.v (4 * u + h) = j.vec .lhs (a + 32 * (g + u) + 16 * h) ∧
    s.v (4 * u + 2 + h) = j.vec .rhs (b + 32 * (g + u) + 16 * h)

/-- The depth loop with group `g` in the registers, groups from `p` on to be loaded. -/
structure Loop (j : Job) (a b g p : Nat) (s s' : St) : Prop where
  x1 : s'.x 1 = .int (4 * p)
  same : Same keepLoop s s'
  m : s'.m = s.m
  ok : s'.bad = false
  lp : s'.x lhsPtr = .ptr .lhs (a + 32 * p)
  rp : s'.x rhsPtr = .ptr .rhs (b + 32 * p)
  data : Groups j a b g 1 s'
  acc : ∀ h, h < 2 → ∀ q, q < 2 → ∀ k, k < 4 → ∀ i, i < 4 →
    wrap32 (getS (s'.v (16 + 8 * q + 2 * k + h)) i + ahead h q (grp j a b h q k i g) + rest j a b h q k i p) =
      wrap32 (total j a b h q k i)

/-- The loop over sixteen levels, with groups `g`, …, `g + 3` in the registers. -/
structure Loop16 (j : Job) (a b g : Nat) (s s' : St) : Prop where
  x1 : s'.x 1 = .int (4 * (g + 4))
  x3 : s'.x 3 = .int (16 * (depth j / 16))
  same : Same keepLoop s s'
  m : s'.m = s.m
  ok : s'.bad = false
  lp : s'.x lhsPtr = .ptr .lhs (a + 32 * (g + 4))
  rp : s'.x rhsPtr = .ptr .rhs (b + 32 * (g + 4))
  data : Groups j a b g 4 s'
  acc : ∀ h, h < 2 → ∀ q, q < 2 → ∀ k, k < 4 → ∀ i, i < 4 →
    wrap32 (getS (s'.v (16 + 8 * q + 2 * k + h)) i + ahead h q (grp j a b h q k i g) + rest j a b h q k i (g + 1)) =
      wrap32 (total j a b h q k i)

/-- The operands are readable. -/
structure Readable (j : Job) (a b : Nat) (s : St) : Prop where
  ml : s.m .lhs = j.m .lhs
  mr : s.m .rhs = j.m .rhs
  sl : a + 32 * (j.depthSteps + 1) ≤ j.size .lhs
  sr : b + 32 * (j.depthSteps + 1) ≤ j.size .rhs

theorem bytes_off {j : Job} {s : St} {r : Region} {a o b : Nat} (h : s.m r = j.m r) (hb : a + o = b) :
    bytes s (.ptr r a) o = j.vec r b := by
  subst hb
  unfold bytes Job.vec
  simp only [Val.region, Val.off, h]

theorem bytesN_off {j : Job} {s : St} {r : Region} {a o b : Nat} (h : s.m r = j.m r) (hb : a - o = b) :
    bytesN s (.ptr r a) o = j.vec r b := by
  subst hb
  unfold bytesN Job.vec
  simp only [Val.region, Val.off, h]

theorem outN_ptr {e : Env} {r : Region} {a o n : Nat} (h1 : o ≤ a) (h : a - o + n ≤ e.size r) :
    outN e (.ptr r a) o n = false := by
  unfold outN
  have h2 : Nat.blt (e.size r) (a - o + n) = false := by
    rw [Bool.eq_false_iff]; intro hb; rw [Nat.blt_eq] at hb; omega
  have h3 : Nat.blt a o = false := by
    rw [Bool.eq_false_iff]; intro hb; rw [Nat.blt_eq] at hb; omega
  simp only [Val.isPtr, Val.region, Val.off, h2, h3, Bool.not_true, Bool.or_self]

theorem wrap_add_l (x y z : Int) : wrap32 (wrap32 x + y + z) = wrap32 (x + y + z) := by
  rw [add_assoc, wrap32_add_l, add_assoc]

/-! ### The loop over four levels -/

theorem b6v (e : Env) (s : St) :
    (∀ h, h < 2 → (exec e dot6.body s).v h = bytes s (addN (s.x lhsPtr) h) 0) ∧
    (∀ h, h < 2 → (exec e dot6.body s).v (2 + h) = bytes s (addN (s.x rhsPtr) h) 0) ∧
    (∀ k, k < 4 → (exec e dot6.body s).v (16 + 8 * 0 + 2 * k + 0) =
      eop .sdot k (s.v (16 + 8 * 0 + 2 * k + 0)) (bytes s (s.x lhsPtr) 0) (bytes s (s.x rhsPtr) 0)) ∧
    (∀ h, h < 2 → ∀ q, q < 2 → ¬(h = 0 ∧ q = 0) → ∀ k, k < 4 → (exec e dot6.body s).v (16 + 8 * q + 2 * k + h) =
      eop .sdot k (s.v (16 + 8 * q + 2 * k + h)) (s.v h) (s.v (2 + q))) := by
  refine ⟨?_, ?_, ?_, ?_⟩
  · intro h hh; interval_cases h <;> rfl
  · intro h hh; interval_cases h <;> rfl
  · intro k hk; interval_cases k <;> rfl
  · intro h hh q hq hn k hk
    interval_cases h <;> interval_cases q <;> interval_cases k <;> first | exact absurd ⟨rfl, rfl⟩ hn | rfl

theorem b6x (e : Env) (s : St) : Same keepLoop s (exec e dot6.body s) ∧ (exec e dot6.body s).m = s.m ∧
    (exec e dot6.body s).x 1 = .int (((s.x 1).num + 4) % 2 ^ 32) ∧
    (exec e dot6.body s).x lhsPtr = addN (s.x lhsPtr) 2 ∧ (exec e dot6.body s).x rhsPtr = addN (s.x rhsPtr) 2 ∧
    (exec e dot6.body s).bad = (s.bad || (s.x 1).isPtr || out e (s.x lhsPtr) 0 16 || false || (s.x 12).isPtr ||
      out e (s.x rhsPtr) 0 16 || out e (addN (s.x rhsPtr) 1) 0 16 || out e (addN (s.x lhsPtr) 1) 0 16) ∧
    (exec e dot6.body s).lt = decide (sgn (((s.x 1).num + 4) % 2 ^ 32) < sgn (s.x 12).num) := by
  cases s
  exact ⟨by repeat' (first | exact trivial | refine ⟨rfl, ?_⟩), rfl, rfl, rfl, rfl, rfl, rfl⟩

theorem loop_step {j : Job} {a b g p : Nat} {s s' : St} (hf : depth j < 2 ^ 31)
    (hd : Readable j a b s) (hp : p < j.depthSteps + 1) (hx : s.x 12 = .int (depth j)) (h : Loop j a b g p s s') :
    Loop j a b p (p + 1) s (exec (env j) dot6.body s') ∧
      (exec (env j) dot6.body s').lt = decide (p < j.depthSteps) := by
  have hml : s'.m .lhs = j.m .lhs := by rw [h.m]; exact hd.ml
  have hmr : s'.m .rhs = j.m .rhs := by rw [h.m]; exact hd.mr
  have hdep : depth j = 4 * (j.depthSteps + 1) := rfl
  have h1 := hd.sl
  have h2 := hd.sr
  have h12 : s'.x 12 = .int (depth j) := (h.same.get (by decide)).trans hx
  have bl : ∀ i, bytes s' (addN (s'.x lhsPtr) i) 0 = j.vec .lhs (a + 32 * p + 16 * i) := fun i => by
    rw [h.lp, addN_ptr]; exact bytes_eq hml rfl
  have br : ∀ i, bytes s' (addN (s'.x rhsPtr) i) 0 = j.vec .rhs (b + 32 * p + 16 * i) := fun i => by
    rw [h.rp, addN_ptr]; exact bytes_eq hmr rfl
  obtain ⟨v1, v2, v3, v4⟩ := b6v (env j) s'
  obtain ⟨k1, k2, k3, k4, k5, k6, k7⟩ := b6x (env j) s'
  generalize exec (env j) dot6.body s' = s1 at *
  have e1 : ((s'.x 1).num + 4) % 2 ^ 32 = 4 * (p + 1) := by
    rw [h.x1]; show (4 * p + 4) % 2 ^ 32 = _
    rw [Nat.mod_eq_of_lt (by omega)]; rfl
  refine ⟨⟨by rw [k3, e1], h.same.trans k1, k2.trans h.m, ?_, ?_, ?_, ?_, ?_⟩, ?_⟩
  · rw [k6, h.ok, h.x1, h12, h.lp, h.rp, addN_ptr, addN_ptr, out_ptr (by show _ ≤ j.size .lhs; omega),
      out_ptr (by show _ ≤ j.size .rhs; omega), out_ptr (by show _ ≤ j.size .rhs; omega),
      out_ptr (by show _ ≤ j.size .lhs; omega)]
    rfl
  · rw [k4, h.lp, addN_ptr]; exact congrArg _ (by omega)
  · rw [k5, h.rp, addN_ptr]; exact congrArg _ (by omega)
  · intro u hu h hh
    obtain rfl : u = 0 := by omega
    exact ⟨by rw [Nat.mul_zero, Nat.zero_add, v1 h hh, bl]; rfl, by rw [Nat.mul_zero, Nat.zero_add, v2 h hh, br]; rfl⟩
  · intro u hu q hq k hk i hi
    have ha := h.acc u hu q hq k hk i hi
    rw [rest_step hp] at ha
    by_cases h0 : u = 0 ∧ q = 0
    · obtain ⟨rfl, rfl⟩ := h0
      have b0 := bl 0
      have b1 := br 0
      rw [show addN (s'.x lhsPtr) 0 = s'.x lhsPtr from rfl] at b0
      rw [show addN (s'.x rhsPtr) 0 = s'.x rhsPtr from rfl] at b1
      rw [v3 k hk, getS_sdot, b0, b1, wrap_add_l, ← ha]
      unfold ahead
      rw [if_pos ⟨rfl, rfl⟩, if_pos ⟨rfl, rfl⟩]
      refine congrArg wrap32 ?_
      unfold grp
      ring
    · obtain ⟨d1, _⟩ := h.data 0 (by omega) u hu
      obtain ⟨_, d2⟩ := h.data 0 (by omega) q hq
      rw [Nat.mul_zero, Nat.zero_add, Nat.add_zero] at d1 d2
      rw [v4 u hu q hq h0 k hk, getS_sdot, d1, d2, wrap_add_l, ← ha]
      unfold ahead
      rw [if_neg h0, if_neg h0]
      refine congrArg wrap32 ?_
      unfold grp
      ring
  · rw [k7, e1, h12]
    show decide (sgn (4 * (p + 1)) < sgn (depth j)) = _
    rw [sgn_of (by omega), sgn_of hf, decide_eq_decide]
    omega

/-- Label 2: the other groups. -/
theorem loop_all {P : List Block} (h6 : P[6]? = some dot6) {j : Job} {a b g p : Nat} {s s' : St}
    (hf : depth j < 2 ^ 31)
    (hd : Readable j a b s) (hp : p < j.depthSteps + 1) (hx : s.x 12 = .int (depth j)) (h : Loop j a b g p s s') :
    ∃ s'', Reach (env j) P (6, s') (7, s'') ∧ Loop j a b j.depthSteps (j.depthSteps + 1) s s'' := by
  obtain ⟨d, hd'⟩ : ∃ d, p + d = j.depthSteps := ⟨j.depthSteps - p, by omega⟩
  induction d generalizing p g s' with
  | zero =>
    obtain ⟨l, hl⟩ := loop_step hf hd hp hx h
    obtain rfl : p = j.depthSteps := by omega
    refine ⟨_, Reach.block (b := dot6) h6 ?_, l⟩
    show (bif (exec (env j) dot6.body s').lt then 6 else 7) = 7
    rw [hl, decide_eq_false (by omega)]; rfl
  | succ d ih =>
    obtain ⟨l, hl⟩ := loop_step hf hd hp hx h
    obtain ⟨s'', r, l'⟩ := ih (by omega) l (by omega)
    refine ⟨s'', Reach.trans (Reach.block (b := dot6) h6 ?_) r, l'⟩
    show (bif (exec (env j) dot6.body s').lt then 6 else 7) = 6
    rw [hl, decide_eq_true (by omega)]; rfl

/-! ### The loop over sixteen levels -/

set_option maxRecDepth 8000 in
theorem b2 (e : Env) (s : St) : Same keepLoop s (exec e dot2.body s) ∧ (exec e dot2.body s).m = s.m ∧
    (exec e dot2.body s).x 1 = .int 16 ∧ (exec e dot2.body s).x 3 = .int ((s.x 12).num % 2 ^ 32 &&& 4294967280) ∧
    (exec e dot2.body s).x lhsPtr = addN (s.x lhsPtr) 6 ∧ (exec e dot2.body s).x rhsPtr = addN (s.x rhsPtr) 6 ∧
    (exec e dot2.body s).bad = (s.bad || out e (addN (s.x lhsPtr) 0) 0 16 || out e (addN (s.x lhsPtr) 1) 0 16 ||
      out e (addN (s.x rhsPtr) 0) 0 16 || out e (addN (s.x rhsPtr) 1) 0 16 ||
      out e (addN (s.x lhsPtr) 2) 0 16 || out e (addN (s.x lhsPtr) 3) 0 16 ||
      out e (addN (s.x rhsPtr) 2) 0 16 || out e (addN (s.x rhsPtr) 3) 0 16 ||
      out e (addN (s.x lhsPtr) 4) 0 16 || out e (addN (s.x lhsPtr) 5) 0 16 ||
      out e (addN (s.x rhsPtr) 4) 0 16 || out e (addN (s.x rhsPtr) 5) 0 16 || (s.x 12).isPtr) ∧
    (∀ u, u < 3 → ∀ h, h < 2 → (exec e dot2.body s).v (4 * (u + 1) + h) = bytes s (addN (s.x lhsPtr) (2 * u + h)) 0) ∧
    (∀ u, u < 3 → ∀ h, h < 2 →
      (exec e dot2.body s).v (4 * (u + 1) + 2 + h) = bytes s (addN (s.x rhsPtr) (2 * u + h)) 0) ∧
    (∀ i, i < 4 → (exec e dot2.body s).v i = s.v i) ∧
    (∀ i, i < 16 → (exec e dot2.body s).v (16 + i) = s.v (16 + i)) := by
  cases s
  refine ⟨by repeat' (first | exact trivial | refine ⟨rfl, ?_⟩), rfl, rfl, rfl, rfl, rfl, rfl, ?_, ?_, ?_, ?_⟩
  · intro u hu h hh; interval_cases u <;> interval_cases h <;> rfl
  · intro u hu h hh; interval_cases u <;> interval_cases h <;> rfl
  · intro i hi; interval_cases i <;> rfl
  · intro i hi; interval_cases i <;> rfl

/-- Three groups from the registers 4, …, 15. -/
def chain (s : St) (h q k : Nat) (d : Vec) : Vec :=
  eop .sdot k (eop .sdot k (eop .sdot k d (s.v (4 + h)) (s.v (6 + q))) (s.v (8 + h)) (s.v (10 + q)))
    (s.v (12 + h)) (s.v (14 + q))

/-- The state with the two pointers spelled out. -/
def at2 (s : St) (a b : Val) : St := { s with x := put (put s.x lhsPtr a) rhsPtr b }

theorem at2_eq {s : St} {a b : Val} (ha : s.x lhsPtr = a) (hb : s.x rhsPtr = b) : at2 s a b = s := by
  subst ha hb
  cases s
  unfold at2
  congr
  funext r
  unfold put
  cases h1 : r.beq rhsPtr
  · cases h2 : r.beq lhsPtr
    · rfl
    · rw [Nat.eq_of_beq_eq_true h2]; rfl
  · rw [Nat.eq_of_beq_eq_true h1]; rfl

set_option maxRecDepth 8000 in
theorem b3v (e : Env) (s : St) (a b : Nat) :
    (∀ k, k < 4 → (exec e dot3.body (at2 s (.ptr .lhs a) (.ptr .rhs b))).v (16 + 8 * 0 + 2 * k + 0) =
      eop .sdot k (chain s 0 0 k (s.v (16 + 8 * 0 + 2 * k + 0))) (bytes s (.ptr .lhs a) 0) (bytes s (.ptr .rhs b) 0)) ∧
    (∀ h, h < 2 → ∀ q, q < 2 → ¬(h = 0 ∧ q = 0) → ∀ k, k < 4 →
      (exec e dot3.body (at2 s (.ptr .lhs a) (.ptr .rhs b))).v (16 + 8 * q + 2 * k + h) =
      chain s h q k (eop .sdot k (s.v (16 + 8 * q + 2 * k + h)) (s.v h) (s.v (2 + q)))) := by
  refine ⟨?_, ?_⟩
  · intro k hk; interval_cases k <;> rfl
  · intro h hh q hq hn k hk
    interval_cases h <;> interval_cases q <;> interval_cases k <;> first | exact absurd ⟨rfl, rfl⟩ hn | rfl

set_option maxRecDepth 8000 in
theorem b3x (e : Env) (s : St) (a b : Nat) {s1 : St} (hs : s1 = exec e dot3.body (at2 s (.ptr .lhs a) (.ptr .rhs b))) :
    Same keepLoop s s1 ∧ s1.m = s.m ∧
    s1.x 1 = .int (((s.x 1).num + 16) % 2 ^ 32) ∧ s1.x 3 = s.x 3 ∧
    s1.x lhsPtr = .ptr .lhs (a + 128) ∧ s1.x rhsPtr = .ptr .rhs (b + 128) ∧
    s1.bad = (s.bad || (s.x 1).isPtr ||
      out e (.ptr .lhs a) 0 16 || out e (.ptr .rhs b) 0 16 || out e (.ptr .lhs a) 16 16 || out e (.ptr .rhs b) 16 16 ||
      out e (.ptr .lhs a) 48 16 || out e (.ptr .rhs b) 48 16 || out e (.ptr .lhs a) 32 16 || out e (.ptr .rhs b) 32 16 ||
      out e (.ptr .lhs a) 80 16 || out e (.ptr .rhs b) 80 16 || out e (.ptr .lhs a) 64 16 || out e (.ptr .rhs b) 64 16 ||
      false || (s.x 3).isPtr || outN e (.ptr .lhs (a + 128)) 16 16 || outN e (.ptr .rhs (b + 128)) 16 16 ||
      outN e (.ptr .lhs (a + 128)) 32 16 || outN e (.ptr .rhs (b + 128)) 32 16) ∧
    s1.lt = decide (sgn (((s.x 1).num + 16) % 2 ^ 32) < sgn (s.x 3).num) ∧
    (∀ u, u < 3 → ∀ h, h < 2 → s1.v (4 * u + h) = bytes s (.ptr .lhs a) (32 * u + 16 * h) ∧
      s1.v (4 * u + 2 + h) = bytes s (.ptr .rhs b) (32 * u + 16 * h)) ∧
    (∀ h, h < 2 → s1.v (12 + h) = bytesN s (.ptr .lhs (a + 128)) (32 - 16 * h) ∧
      s1.v (14 + h) = bytesN s (.ptr .rhs (b + 128)) (32 - 16 * h)) := by
  subst hs
  cases s
  refine ⟨by repeat' (first | exact trivial | refine ⟨rfl, ?_⟩), rfl, rfl, rfl, rfl, rfl, rfl, rfl, ?_, ?_⟩
  · intro u hu h hh; interval_cases u <;> interval_cases h <;> exact ⟨rfl, rfl⟩
  · intro h hh; interval_cases h <;> exact ⟨rfl, rfl⟩

theorem b4 (e : Env) (s : St) : Same keepLoop s (exec e dot4.body s) ∧ (exec e dot4.body s).m = s.m ∧
    (exec e dot4.body s).x = s.x ∧ (exec e dot4.body s).bad = s.bad ∧
    (∀ i, i < 4 → (exec e dot4.body s).v i = s.v i) ∧
    (∀ h, h < 2 → ∀ q, q < 2 → ∀ k, k < 4 → (exec e dot4.body s).v (16 + 8 * q + 2 * k + h) =
      chain s h q k (s.v (16 + 8 * q + 2 * k + h))) := by
  cases s
  refine ⟨by repeat' (first | exact trivial | refine ⟨rfl, ?_⟩), rfl, rfl, rfl, ?_, ?_⟩
  · intro i hi; interval_cases i <;> rfl
  · intro h hh q hq k hk
    interval_cases h <;> interval_cases q <;> interval_cases k <;> rfl

theorem getS_chain (s : St) (h q k i : Nat) (d : Vec) : wrap32 (getS (chain s h q k d) i) =
    wrap32 (getS d i + quad (s.v (4 + h)) (s.v (6 + q)) i k + quad (s.v (8 + h)) (s.v (10 + q)) i k +
      quad (s.v (12 + h)) (s.v (14 + q)) i k) := by
  unfold chain
  rw [getS_sdot, getS_sdot, getS_sdot, Simd.wrap32_wrap32, wrap32_add_l, wrap_add_l]

theorem wrap_first {x y z : Int} (h : wrap32 x = wrap32 y) : wrap32 (x + z) = wrap32 (y + z) := by
  rw [← wrap32_add_l x, h, wrap32_add_l]

theorem getS_chain_grp {j : Job} {a b g : Nat} {s : St} (hd : Groups j a b g 4 s) {h q k i : Nat} (hh : h < 2) (hq : q < 2)
    (d : Vec) (z : Int) : wrap32 (getS (chain s h q k d) i + z) =
    wrap32 (getS d i + grp j a b h q k i (g + 1) + grp j a b h q k i (g + 2) + grp j a b h q k i (g + 3) + z) := by
  refine wrap_first ?_
  rw [getS_chain]
  have e1 := (hd 1 (by omega) h hh).1
  have e2 := (hd 2 (by omega) h hh).1
  have e3 := (hd 3 (by omega) h hh).1
  have f1 := (hd 1 (by omega) q hq).2
  have f2 := (hd 2 (by omega) q hq).2
  have f3 := (hd 3 (by omega) q hq).2
  rw [show 4 * 1 + h = 4 + h from rfl] at e1
  rw [show 4 * 2 + h = 8 + h from rfl] at e2
  rw [show 4 * 3 + h = 12 + h from rfl] at e3
  rw [show 4 * 1 + 2 + q = 6 + q from rfl] at f1
  rw [show 4 * 2 + 2 + q = 10 + q from rfl] at f2
  rw [show 4 * 3 + 2 + q = 14 + q from rfl] at f3
  rw [e1, e2, e3, f1, f2, f3]
  rfl

/-- Entering the loop over sixteen levels. -/
theorem enter16 {j : Job} {a b : Nat} {s s' : St} (hf : depth j < 2 ^ 31)
    (hd : Readable j a b s) (h4 : 3 < j.depthSteps + 1) (hx : s.x 12 = .int (depth j)) (h : Loop j a b 0 1 s s') :
    Loop16 j a b 0 s (exec (env j) dot2.body s') := by
  have hml : s'.m .lhs = j.m .lhs := by rw [h.m]; exact hd.ml
  have hmr : s'.m .rhs = j.m .rhs := by rw [h.m]; exact hd.mr
  have h1 := hd.sl
  have h2 := hd.sr
  have h12 : s'.x 12 = .int (depth j) := (h.same.get (by decide)).trans hx
  obtain ⟨k1, k2, k3, k4, k5, k6, k7, k8, k9, k10, k11⟩ := b2 (env j) s'
  generalize exec (env j) dot2.body s' = s1 at *
  refine ⟨k3, ?_, h.same.trans k1, k2.trans h.m, ?_, ?_, ?_, ?_, ?_⟩
  · rw [k4, h12]; exact congrArg _ (and_high hf)
  · rw [k7, h.ok, h12, h.lp, h.rp]
    simp only [addN_ptr]
    rw [out_ptr (by show _ ≤ j.size .lhs; omega), out_ptr (by show _ ≤ j.size .lhs; omega),
      out_ptr (by show _ ≤ j.size .rhs; omega), out_ptr (by show _ ≤ j.size .rhs; omega),
      out_ptr (by show _ ≤ j.size .lhs; omega), out_ptr (by show _ ≤ j.size .lhs; omega),
      out_ptr (by show _ ≤ j.size .rhs; omega), out_ptr (by show _ ≤ j.size .rhs; omega),
      out_ptr (by show _ ≤ j.size .lhs; omega), out_ptr (by show _ ≤ j.size .lhs; omega),
      out_ptr (by show _ ≤ j.size .rhs; omega), out_ptr (by show _ ≤ j.size .rhs; omega)]
    rfl
  · rw [k5, h.lp, addN_ptr]
  · rw [k6, h.rp, addN_ptr]
  · intro u hu h' hh
    match u, hu with
    | 0, _ =>
      obtain ⟨d1, d2⟩ := h.data 0 (by omega) h' hh
      exact ⟨by rw [k10 _ (by omega), d1], by rw [k10 _ (by omega), d2]⟩
    | u + 1, hu =>
      rw [k8 u (by omega) h' hh, k9 u (by omega) h' hh, h.lp, h.rp, addN_ptr, addN_ptr]
      exact ⟨bytes_off hml (by omega), bytes_off hmr (by omega)⟩
  · intro u hu q hq k hk i hi
    have ha := h.acc u hu q hq k hk i hi
    rw [show 16 + 8 * q + 2 * k + u = 16 + (8 * q + 2 * k + u) by omega] at ha ⊢
    rw [k11 _ (by omega)]
    exact ha

theorem step16 {j : Job} {a b g : Nat} {s s' : St} (hf : depth j < 2 ^ 31)
    (hd : Readable j a b s) (hg : g + 7 < j.depthSteps + 1) (h : Loop16 j a b g s s') :
    Loop16 j a b (g + 4) s (exec (env j) dot3.body s') ∧
      (exec (env j) dot3.body s').lt = decide (4 * (g + 8) < 16 * (depth j / 16)) := by
  have hml : s'.m .lhs = j.m .lhs := by rw [h.m]; exact hd.ml
  have hmr : s'.m .rhs = j.m .rhs := by rw [h.m]; exact hd.mr
  have h1 := hd.sl
  have h2 := hd.sr
  have hdep : depth j = 4 * (j.depthSteps + 1) := rfl
  obtain ⟨v1, v2⟩ := b3v (env j) s' (a + 32 * (g + 4)) (b + 32 * (g + 4))
  obtain ⟨k1, k2, k3, k4, k5, k6, k7, k8, k9, k10⟩ := b3x (env j) s' (a + 32 * (g + 4)) (b + 32 * (g + 4)) rfl
  rw [at2_eq h.lp h.rp] at *
  generalize exec (env j) dot3.body s' = s1 at *
  have e1 : ((s'.x 1).num + 16) % 2 ^ 32 = 4 * (g + 8) := by
    rw [h.x1]; show (4 * (g + 4) + 16) % 2 ^ 32 = _
    rw [Nat.mod_eq_of_lt (by omega)]; omega
  refine ⟨⟨by rw [k3, e1], k4.trans h.x3, h.same.trans k1, k2.trans h.m, ?_, ?_, ?_, ?_, ?_⟩, ?_⟩
  · rw [k7, h.ok, h.x1, h.x3]
    rw [out_ptr (by show _ ≤ j.size .lhs; omega), out_ptr (by show _ ≤ j.size .rhs; omega),
      out_ptr (by show _ ≤ j.size .lhs; omega), out_ptr (by show _ ≤ j.size .rhs; omega),
      out_ptr (by show _ ≤ j.size .lhs; omega), out_ptr (by show _ ≤ j.size .rhs; omega),
      out_ptr (by show _ ≤ j.size .lhs; omega), out_ptr (by show _ ≤ j.size .rhs; omega),
      out_ptr (by show _ ≤ j.size .lhs; omega), out_ptr (by show _ ≤ j.size .rhs; omega),
      out_ptr (by show _ ≤ j.size .lhs; omega), out_ptr (by show _ ≤ j.size .rhs; omega),
      outN_ptr (by omega) (by show _ ≤ j.size .lhs; omega), outN_ptr (by omega) (by show _ ≤ j.size .rhs; omega),
      outN_ptr (by omega) (by show _ ≤ j.size .lhs; omega), outN_ptr (by omega) (by show _ ≤ j.size .rhs; omega)]
    rfl
  · rw [k5]; exact congrArg _ (by omega)
  · rw [k6]; exact congrArg _ (by omega)
  · intro u hu h' hh
    by_cases h3 : u = 3
    · subst h3
      obtain ⟨d1, d2⟩ := k10 h' hh
      rw [show 4 * 3 + h' = 12 + h' from rfl, show 4 * 3 + 2 + h' = 14 + h' from rfl, d1, d2]
      exact ⟨bytesN_off hml (by omega), bytesN_off hmr (by omega)⟩
    · obtain ⟨d1, d2⟩ := k9 u (by omega) h' hh
      rw [d1, d2]
      exact ⟨bytes_off hml (by omega), bytes_off hmr (by omega)⟩
  · intro u hu q hq k hk i hi
    have ha := h.acc u hu q hq k hk i hi
    rw [rest_step (p := g + 1) (by omega), rest_step (p := g + 1 + 1) (by omega), rest_step (p := g + 1 + 1 + 1) (by omega),
      rest_step (p := g + 1 + 1 + 1 + 1) (by omega)] at ha
    by_cases h0 : u = 0 ∧ q = 0
    · obtain ⟨rfl, rfl⟩ := h0
      rw [v1 k hk, getS_sdot, bytes_off hml (b := a + 32 * (g + 4) + 16 * 0) (by omega),
        bytes_off hmr (b := b + 32 * (g + 4) + 16 * 0) (by omega), wrap_add_l, add_assoc, add_assoc,
        getS_chain_grp h.data (by omega) (by omega), ← ha]
      unfold ahead
      rw [if_pos ⟨rfl, rfl⟩, if_pos ⟨rfl, rfl⟩]
      refine congrArg wrap32 ?_
      show _ = getS _ i + 0 + (grp j a b 0 0 k i (g + 1) + (grp j a b 0 0 k i (g + 2) + (grp j a b 0 0 k i (g + 3) +
        (quad _ _ i k + _))))
      ring
    · obtain ⟨d1, _⟩ := h.data 0 (by omega) u hu
      obtain ⟨_, d2⟩ := h.data 0 (by omega) q hq
      rw [Nat.mul_zero, Nat.zero_add, Nat.add_zero] at d1 d2
      rw [v2 u hu q hq h0 k hk, add_assoc, getS_chain_grp h.data hu hq, getS_sdot, d1, d2, ← ha]
      unfold ahead
      rw [if_neg h0, if_neg h0]
      rw [show quad (j.vec .lhs (a + 32 * g + 16 * u)) (j.vec .rhs (b + 32 * g + 16 * q)) i k = grp j a b u q k i g from rfl]
      rw [add_assoc, add_assoc, add_assoc, wrap32_add_l]
  · rw [k8, e1, h.x3]
    show decide (sgn (4 * (g + 8)) < sgn (16 * (depth j / 16))) = _
    rw [sgn_of (by omega), sgn_of (by omega), decide_eq_decide]
    exact Nat.cast_lt

theorem leave16 {j : Job} {a b g : Nat} {s s' : St} (hg : g + 3 < j.depthSteps + 1) (h : Loop16 j a b g s s') :
    Loop j a b g (g + 4) s (exec (env j) dot4.body s') := by
  obtain ⟨k1, k2, k3, k4, k5, k6⟩ := b4 (env j) s'
  generalize exec (env j) dot4.body s' = s1 at *
  refine ⟨by rw [k3]; exact h.x1, h.same.trans k1, k2.trans h.m, k4.trans h.ok, by rw [k3]; exact h.lp,
    by rw [k3]; exact h.rp, ?_, ?_⟩
  · intro u hu q hq
    obtain rfl : u = 0 := by omega
    obtain ⟨d1, d2⟩ := h.data 0 (by omega) q hq
    exact ⟨by rw [k5 _ (by omega), d1], by rw [k5 _ (by omega), d2]⟩
  · intro u hu q hq k hk i hi
    have ha := h.acc u hu q hq k hk i hi
    rw [rest_step (p := g + 1) (by omega), rest_step (p := g + 1 + 1) (by omega),
      rest_step (p := g + 1 + 1 + 1) (by omega)] at ha
    rw [k6 u hu q hq k hk, add_assoc, getS_chain_grp h.data hu hq, ← ha]
    refine congrArg wrap32 ?_
    show _ = getS _ i + _ + (grp j a b u q k i (g + 1) + (grp j a b u q k i (g + 2) + (grp j a b u q k i (g + 3) +
        rest j a b u q k i (g + 4))))
    ring

/-- Label 81. -/
theorem loop16_all {j : Job} {a b g : Nat} {s s' : St} (hf : depth j < 2 ^ 31)
    (hd : Readable j a b s) (hg : g + 7 < j.depthSteps + 1) (h4 : g % 4 = 0) (h : Loop16 j a b g s s') :
    ∃ s'' g', Reach (env j) dotCode (3, s') (4, s'') ∧ g' + 3 < j.depthSteps + 1 ∧ Loop16 j a b g' s s'' := by
  have hdep : depth j = 4 * (j.depthSteps + 1) := rfl
  induction hn : j.depthSteps - g using Nat.strong_induction_on generalizing g s' with
  | _ n ih =>
    obtain ⟨l, hl⟩ := step16 hf hd hg h
    by_cases hm : 4 * (g + 8) < 16 * (depth j / 16)
    · obtain ⟨s'', g', r, hg', l'⟩ := ih (j.depthSteps - (g + 4)) (by omega) (by omega) (by omega) l rfl
      refine ⟨s'', g', Reach.trans (Reach.block (b := dot3) rfl ?_) r, hg', l'⟩
      show (bif (exec (env j) dot3.body s').lt then 3 else 4) = 3
      rw [hl, decide_eq_true hm]; rfl
    · refine ⟨_, g + 4, Reach.block (b := dot3) rfl ?_, by omega, l⟩
      show (bif (exec (env j) dot3.body s').lt then 3 else 4) = 4
      rw [hl, decide_eq_false hm]; rfl

theorem b1 (e : Env) (s : St) : Same keepLoop s (exec e dot1.body s) ∧ (exec e dot1.body s).m = s.m ∧
    (exec e dot1.body s).v = s.v ∧ (exec e dot1.body s).x = s.x ∧
    (exec e dot1.body s).bad = (s.bad || (s.x 12).isPtr) ∧
    (exec e dot1.body s).lt = decide (sgn (s.x 12).num < sgn 32) := by
  cases s
  exact ⟨by repeat' (first | exact trivial | refine ⟨rfl, ?_⟩), rfl, rfl, rfl, rfl, rfl⟩

theorem b5 (e : Env) (s : St) : Same keepLoop s (exec e dot5.body s) ∧ (exec e dot5.body s).m = s.m ∧
    (exec e dot5.body s).v = s.v ∧ (exec e dot5.body s).x = s.x ∧
    (exec e dot5.body s).bad = (s.bad || (s.x 1).isPtr || (s.x 12).isPtr) ∧
    (exec e dot5.body s).z = decide (sgn (s.x 1).num = sgn (s.x 12).num) := by
  cases s
  exact ⟨by repeat' (first | exact trivial | refine ⟨rfl, ?_⟩), rfl, rfl, rfl, rfl, rfl⟩

/-- A step that changes no operand. -/
theorem Loop.next {j : Job} {a b g p : Nat} {s s' s1 : St} (h : Loop j a b g p s s') (k1 : Same keepLoop s' s1)
    (k2 : s1.m = s'.m) (k3 : s1.v = s'.v) (k4 : s1.x = s'.x) (k5 : s1.bad = false) : Loop j a b g p s s1 :=
  ⟨by rw [k4]; exact h.x1, h.same.trans k1, k2.trans h.m, k5, by rw [k4]; exact h.lp, by rw [k4]; exact h.rp,
    by intro u hu q hq; rw [k3]; exact h.data u hu q hq,
    by intro u hu q hq k hk i hi; rw [k3]; exact h.acc u hu q hq k hk i hi⟩

/-- Label 78. -/
theorem loop_rest {P : List Block} {n : Nat} (h5 : P[n]? = some dot5) (h6 : P[6]? = some dot6) {j : Job} {a b g p : Nat} {s s' : St} (hf : depth j < 2 ^ 31)
    (hd : Readable j a b s) (hp : p ≤ j.depthSteps + 1) (hx : s.x 12 = .int (depth j)) (h : Loop j a b g p s s') :
    ∃ s'' g', Reach (env j) P (n, s') (7, s'') ∧ Loop j a b g' (j.depthSteps + 1) s s'' := by
  have hdep : depth j = 4 * (j.depthSteps + 1) := rfl
  have h12 : s'.x 12 = .int (depth j) := (h.same.get (by decide)).trans hx
  obtain ⟨k1, k2, k3, k4, k5, k6⟩ := b5 (env j) s'
  have l : Loop j a b g p s (exec (env j) dot5.body s') := h.next k1 k2 k3 k4 (by rw [k5, h.ok, h.x1, h12]; rfl)
  have hz : (exec (env j) dot5.body s').z = decide (p = j.depthSteps + 1) := by
    rw [k6, h.x1, h12]
    show decide (sgn (4 * p) = sgn (depth j)) = _
    rw [sgn_of (by omega), sgn_of hf, decide_eq_decide]
    omega
  by_cases he : p = j.depthSteps + 1
  · subst he
    refine ⟨_, g, Reach.block (b := dot5) h5 ?_, l⟩
    show (bif (exec (env j) dot5.body s').z then 7 else 6) = 7
    rw [hz, decide_eq_true rfl]; rfl
  · obtain ⟨s'', r, l'⟩ := loop_all h6 hf hd (by omega) hx l
    refine ⟨s'', _, Reach.trans (Reach.block (b := dot5) h5 ?_) r, l'⟩
    show (bif (exec (env j) dot5.body s').z then 7 else 6) = 6
    rw [hz, decide_eq_false he]; rfl

/-- From label 1 to label 79. -/
theorem accumulate {j : Job} {a b : Nat} {s : St} (hf : depth j < 2 ^ 31)
    (hd : Readable j a b s) (hx : s.x 12 = .int (depth j)) (h : Loop j a b 0 1 s s) :
    ∃ s'' g', Reach (env j) dotCode (1, s) (7, s'') ∧ Loop j a b g' (j.depthSteps + 1) s s'' := by
  have hdep : depth j = 4 * (j.depthSteps + 1) := rfl
  obtain ⟨k1, k2, k3, k4, k5, k6⟩ := b1 (env j) s
  have l : Loop j a b 0 1 s (exec (env j) dot1.body s) := h.next k1 k2 k3 k4 (by rw [k5, h.ok, hx]; rfl)
  have hl : (exec (env j) dot1.body s).lt = decide (depth j < 32) := by
    rw [k6, hx]
    show decide (sgn (depth j) < sgn 32) = _
    rw [sgn_of hf, sgn_of (by omega), decide_eq_decide]
    exact Nat.cast_lt
  by_cases h32 : depth j < 32
  · obtain ⟨s'', g', r, l'⟩ := loop_rest (P := dotCode) (n := 5) rfl rfl hf hd (by omega) hx l
    refine ⟨s'', g', Reach.trans (Reach.block (b := dot1) rfl ?_) r, l'⟩
    show (bif (exec (env j) dot1.body s).lt then 5 else 2) = 5
    rw [hl, decide_eq_true h32]; rfl
  · have l1 := enter16 hf hd (by omega) hx l
    obtain ⟨s2, g', r2, hg, l2⟩ := loop16_all hf hd (by omega) rfl l1
    have l3 := leave16 hg l2
    obtain ⟨s'', g'', r, l'⟩ := loop_rest (P := dotCode) (n := 5) rfl rfl hf hd (by omega) hx l3
    refine ⟨s'', g'', Reach.trans (Reach.block (b := dot1) rfl ?_) (Reach.trans (Reach.block (i := 2) (l := 3) (b := dot2) rfl rfl)
      (Reach.trans r2 (Reach.trans (Reach.block (i := 4) (l := 5) (b := dot4) rfl rfl) r))), l'⟩
    show (bif (exec (env j) dot1.body s).lt then 5 else 2) = 2
    rw [hl, decide_eq_false h32]; rfl

end Ruy.Neon.Dot

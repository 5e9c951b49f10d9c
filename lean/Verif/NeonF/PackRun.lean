import Verif.NeonF.PackAsm
/-
The whole `asm` statements of the pack functions for floats.
-/
namespace Ruy.NeonF.FPack
open Ruy.Neon (packedPtr rRows sgn sgn_of)
open PJob
variable {A : Type}

/-- What both programs have in common; `q` is the number of label 5. -/
structure Prog (e : Env A) (P : List Block) (q : Nat) : Prop where
  b0 : ∃ b, P[0]? = some ⟨b, .br .eq 4 1⟩ ∧ ∀ s, (exec e b s).x 1 = .int 0 ∧
    (exec e b s).x 2 = .int ((s.x 58).num % 4294967296 &&& 4294967292) ∧
    ((s.x 58).num % 4294967296 &&& 4294967292 < 2 ^ 31 →
      (exec e b s).z = decide ((s.x 58).num % 4294967296 &&& 4294967292 = 0)) ∧
    Same [48, 49, 50, 51, 52, 54, 55, 56, 57, 58] s (exec e b s) ∧ (exec e b s).m = s.m ∧
    (exec e b s).bad = (s.bad || !(s.x 58).isInt)
  b1 : ∃ b, P[1]? = some ⟨b, .br .eq 3 2⟩ ∧ First e b
  b2 : ∃ b, P[2]? = some ⟨b, .br .ne 2 3⟩ ∧ Body e b
  b3 : P[3]? = some ⟨procL, .jmp 4⟩
  b4 : P[4]? = some ⟨[.andsI 2 58 3], .br .eq (q + 5) 5⟩
  b5 : P[5]? = some ⟨[.movi 0, .movi 1, .movi 2, .movi 3] ++ [.cmpI 2 0], .br .eq q 6⟩
  b6 : ∀ k, k < 2 → P[6 + k]? = some ⟨rowLoads k ++ [.cmpI 2 (k + 1)], .br .eq q (7 + k)⟩
  b8 : P[8]? = some ⟨rowLoads 2, .jmp q⟩ ∨ P[8]? = some ⟨rowLoads 2 ++ [.cmpI 2 3], .br .eq q 9⟩
  b9 : P[q]? = some ⟨trans ++ [.cmpI 2 0], .br .eq (q + 5) (q + 1)⟩
  st : ∀ u, u < 3 → P[q + 1 + u]? = some ⟨[.stqR (20 + u) packedPtr 1] ++ [.cmpI 2 (u + 1)], .br .eq (q + 5) (q + 2 + u)⟩
  len : P.length = q + 5

theorem beq_dec (a : Nat) : Nat.beq a 0 = decide (a = 0) := by
  cases a <;> rfl

theorem prog_fpack (e : Env A) : Prog e fpackCode 9 where
  b0 := ⟨fpack0.body, rfl, fun s => by
    cases s
    exact ⟨rfl, rfl, fun _ => beq_dec _, by keep, rfl, rfl⟩⟩
  b1 := ⟨_, rfl, first_fpack e⟩
  b2 := ⟨_, rfl, body_fpack e⟩
  b3 := rfl
  b4 := rfl
  b5 := rfl
  b6 := fun k hk => by interval_cases k <;> rfl
  b8 := .inl rfl
  b9 := rfl
  st := fun k hk => by interval_cases k <;> rfl
  len := rfl

theorem prog_fpackA (e : Env A) : Prog e fpackACode 10 where
  b0 := ⟨fpackA0.body, rfl, fun s => by
    refine ⟨by cases s; rfl, by cases s; rfl, fun h => ?_, by cases s; keep, by cases s; rfl, ?_⟩
    · have : (exec e fpackA0.body s).z = decide (sgn 0 = sgn ((s.x 58).num % 4294967296 &&& 4294967292)) := by cases s; rfl
      rw [this, decide_eq_decide, sgn_of h, show sgn 0 = 0 from rfl]
      omega
    · have : (exec e fpackA0.body s).bad = (s.bad || !(s.x 58).isInt || false || false) := by cases s; rfl
      rw [this, Bool.or_false, Bool.or_false]⟩
  b1 := ⟨_, rfl, first_fpackA e⟩
  b2 := ⟨_, rfl, body_fpackA e⟩
  b3 := rfl
  b4 := rfl
  b5 := rfl
  b6 := fun k hk => by interval_cases k <;> rfl
  b8 := .inr rfl
  b9 := rfl
  st := fun k hk => by interval_cases k <;> rfl
  len := rfl

/-! ### Full blocks -/

theorem in_src {j : PJob A} (hf : Fits j) {c t : Nat} (hc : c < 4) (ht : t < full j) : pos j t c + 4 ≤ j.env.size (j.reg c) := by
  unfold full at ht
  have := hf.src c hc (4 * t + 3) (by omega)
  rw [show (4 * t + 3) / 4 = t by omega, show (4 * t + 3) % 4 = 3 by omega] at this
  exact this

theorem can_src {j : PJob A} (hf : Fits j) {n t : Nat} (ht : t < full j) {s : St A} (h : At j n (pos j t) s)
    {a b : Nat} (h1 : s.x 1 = .int a) (h2 : s.x 2 = .int b) : Can j.env s := by
  refine ⟨h.ok, by rw [h1]; rfl, by rw [h2]; rfl, fun c hc => by rw [h.inc c hc]; rfl, fun c hc => ?_⟩
  have := in_src hf hc ht
  rw [h.src c hc]
  exact ⟨out_ptr (by omega) (by omega), out_ptr (by omega) (by omega), out_ptr (by omega) (by omega)⟩

theorem can_st {j : PJob A} (hf : Fits j) {t : Nat} (ht : t < full j) {p : Nat → Nat} {s : St A} (h : At j (4 * t) p s) :
    CanSt j.env s := by
  refine ⟨fun u hu => ?_, by rw [h.packed]; rfl⟩
  rw [h.packed]
  unfold full at ht
  have := hf.packed (4 * t + u) (by omega)
  exact out_ptr (by omega) (by show _ ≤ j.size .packed; omega)

/-- Block `t` is loaded, the ones before are stored. -/
structure Mid (j : PJob A) (t : Nat) (s : St A) : Prop where
  inv : At j (4 * t) (pos j (t + 1)) s
  blk : Blk j t s
  one : s.x 1 = .int (4 * (t + 1))
  two : s.x 2 = .int (4 * full j)

theorem Lds.data {j : PJob A} (hf : Fits j) {n t : Nat} {s s' : St A} (h : Lds s s') (hat : At j n (pos j t) s) :
    Blk j t s' ∧ ∀ c, c < 4 → s'.x (48 + c) = .ptr (j.reg c) (4 * pos j (t + 1) c) := by
  refine ⟨fun c hc b hb => ?_, fun c hc => ?_⟩
  · rw [h.v c hc (by rw [hat.src c hc]; show 4 * _ % 4 = 0; omega) b hb]
    unfold words
    rw [hat.src c hc, hat.mem]
    show stored j n (j.reg c) _ = _
    rw [stored_other j (hf.reg c hc)]
    show j.m _ ((4 * _ + 0) / 4 + b) = _
    rw [show (4 * pos j t c + 0) / 4 = pos j t c by omega]
  · rw [h.x c hc, hat.src c hc, hat.inc c hc, pos_succ]
    show Val.ptr _ (4 * pos j t c + 4 * j.inc c) = _
    rw [Nat.mul_add]

theorem count_step {j : PJob A} (hf : Fits j) {t : Nat} (ht : t < full j) {s s' : St A} (h : Lds s s')
    (h1 : s.x 1 = .int (4 * t)) (h2 : s.x 2 = .int (4 * full j)) :
    s'.x 1 = .int (4 * (t + 1)) ∧ s'.z = decide (t + 1 = full j) := by
  have := hf.rows
  unfold full at *
  have e1 : (Val.int (4 * t) : Val A).num = 4 * t := rfl
  have e2 : (Val.int (4 * (j.rows / 4)) : Val A).num = 4 * (j.rows / 4) := rfl
  refine ⟨?_, ?_⟩
  · rw [h.n, h1, e1]
    exact congrArg _ (by omega)
  · rw [h.z, h1, h2, e1, e2, decide_eq_decide, show (4 * t + 4) % 2 ^ 32 = 4 * (t + 1) by omega, sgn_of (by omega), sgn_of (by omega)]
    omega

theorem first_step {j : PJob A} (hf : Fits j) (h0 : 0 < full j) {b : List Instr} (hb : First j.env b) {s : St A}
    (h : At j 0 (pos j 0) s) (h1 : s.x 1 = .int 0) (h2 : s.x 2 = .int (4 * full j)) :
    Mid j 0 (exec j.env b s) ∧ (exec j.env b s).z = decide (0 + 1 = full j) := by
  have l := hb.lds s
  have sm := hb.same s
  obtain ⟨d1, d2⟩ := l.data hf h
  obtain ⟨c1, c2⟩ := count_step hf (t := 0) h0 l h1 h2
  exact ⟨⟨h.of (sm.sub (by decide)) (hb.m s) d2 (hb.ok s (can_src hf h0 h h1 h2)), d1, c1,
    by rw [sm.get (by decide)]; exact h2⟩, c2⟩

theorem body_step {j : PJob A} (hf : Fits j) {t : Nat} (ht : t + 1 < full j) {b : List Instr} (hb : Body j.env b) {s : St A}
    (h : Mid j t s) : Mid j (t + 1) (exec j.env b s) ∧ (exec j.env b s).z = decide (t + 2 = full j) := by
  have l := hb.lds s
  have sm := hb.same s
  obtain ⟨d1, d2⟩ := l.data hf h.inv
  obtain ⟨c1, c2⟩ := count_step hf (t := t + 1) ht l h.one h.two
  exact ⟨⟨(hb.proc s).at h.inv h.blk.raw (sm.sub (by decide)) d2
    (hb.ok s (can_src hf ht h.inv h.one h.two) (can_st hf (by omega) h.inv)), d1, c1,
    by rw [sm.get (by decide)]; exact h.two⟩, c2⟩

theorem loop {j : PJob A} (hf : Fits j) {P : List Block} {q : Nat} (R : Prog j.env P q) : ∀ n t s, t + n + 2 = full j → Mid j t s →
    ∃ s', Reach j.env P (2, s) (3, s') ∧ Mid j (full j - 1) s' := by
  obtain ⟨b, hb, B⟩ := R.b2
  intro n
  induction n with
  | zero =>
    intro t s hn h
    obtain ⟨h', hz⟩ := body_step hf (by omega) B h
    refine ⟨_, Reach.block hb ?_, by rw [show full j - 1 = t + 1 by omega]; exact h'⟩
    show (bif !(exec j.env b s).z then 2 else 3) = 3
    rw [hz, decide_eq_true (by omega)]; rfl
  | succ n ih =>
    intro t s hn h
    obtain ⟨h', hz⟩ := body_step hf (by omega) B h
    obtain ⟨s', r, hs'⟩ := ih (t + 1) _ (by omega) h'
    refine ⟨s', Reach.trans (Reach.block hb ?_) r, hs'⟩
    show (bif !(exec j.env b s).z then 2 else 3) = 2
    rw [hz, decide_eq_false (by omega)]; rfl

theorem last_step {j : PJob A} (hf : Fits j) (h0 : 0 < full j) {s : St A} (h : Mid j (full j - 1) s) :
    At j (4 * full j) (pos j (full j)) (exec j.env procL s) := by
  obtain ⟨h1, h2, -⟩ := procL_eq j.env s
  have hb := procL_ok h.inv.ok (can_st hf (by omega) h.inv)
  generalize exec j.env procL s = s' at *
  have := h1.at (p' := pos j (full j - 1 + 1)) h.inv h.blk.raw (h2.sub (by decide)) (fun c hc => by
    rw [h2.get (by interval_cases c <;> decide)]; exact h.inv.src c hc) hb
  rw [show full j - 1 + 1 = full j by omega] at this
  exact this

theorem and_high (n : Nat) (hn : n < 2 ^ 31) : n % 4294967296 &&& 4294967292 = 4 * (n / 4) := by
  rw [Nat.mod_eq_of_lt (by omega)]
  have h : n &&& 4294967292 = n - n % 4 := by
    have e1 : (n &&& 4294967292) = (n / 4 &&& 1073741823) * 4 := by
      apply Nat.eq_of_testBit_eq
      intro i
      rw [Nat.testBit_and, show (n / 4 &&& 1073741823) * 4 = (n / 4 &&& 1073741823) * 2 ^ 2 from rfl, Nat.testBit_mul_two_pow]
      rcases Nat.lt_or_ge i 2 with h | h
      · rw [show (4294967292 : Nat) = 1073741823 * 2 ^ 2 from rfl, Nat.testBit_mul_two_pow]
        simp [Nat.not_le.2 h]
      · rw [Nat.testBit_and, show (n / 4) = n / 2 ^ 2 from rfl, Nat.testBit_div_two_pow,
          show (4294967292 : Nat) = 1073741823 * 2 ^ 2 from rfl, Nat.testBit_mul_two_pow]
        simp [h]
    rw [e1, show (1073741823 : Nat) = 2 ^ 30 - 1 from rfl, Nat.and_two_pow_sub_one_eq_mod]
    omega
  rw [h]; omega

theorem and_low (n : Nat) (hn : n < 2 ^ 31) : n % 4294967296 &&& 3 = n % 4 := by
  rw [Nat.mod_eq_of_lt (by omega), show (3 : Nat) = 2 ^ 2 - 1 from rfl, Nat.and_two_pow_sub_one_eq_mod]

/-- All full blocks: label 3 is reached. -/
theorem blocks {j : PJob A} (hf : Fits j) {P : List Block} {q : Nat} (R : Prog j.env P q) {s : St A} (h : At j 0 (pos j 0) s) :
    ∃ s', Reach j.env P (0, s) (4, s') ∧ At j (4 * full j) (pos j (full j)) s' := by
  obtain ⟨b, hb, B⟩ := R.b0
  obtain ⟨h1, h2, h3, h4, h5, h6⟩ := B s
  have nx : ∀ l, (bif (exec j.env b s).z then 4 else 1) = l → Reach j.env P (0, s) (l, exec j.env b s) := fun l hl => Reach.block hb hl
  generalize exec j.env b s = s1 at *
  have hr := hf.rows
  have hn : (s.x 58).num % 4294967296 &&& 4294967292 = 4 * full j := by
    rw [h.rows]; exact and_high j.rows hr
  rw [hn] at h2 h3
  have hfull : full j = j.rows / 4 := rfl
  have h3 := h3 (by omega)
  have hat : At j 0 (pos j 0) s1 := h.of (h4.sub (by decide)) h5 (fun c hc => by
    rw [h4.get (by interval_cases c <;> decide)]; exact h.src c hc) (by rw [h6, h.ok, h.rows]; rfl)
  rcases Nat.eq_zero_or_pos (full j) with h0 | h0
  · refine ⟨s1, nx 4 (by rw [h3, decide_eq_true (by omega)]; rfl), ?_⟩
    rw [h0]; exact hat
  · have r1 := nx 1 (by rw [h3, decide_eq_false (by omega)]; rfl)
    obtain ⟨b1, hb1, B1⟩ := R.b1
    obtain ⟨m1, z1⟩ := first_step hf h0 B1 hat h1 h2
    have nx1 : ∀ l, (bif (exec j.env b1 s1).z then 3 else 2) = l → Reach j.env P (1, s1) (l, exec j.env b1 s1) :=
      fun l hl => Reach.block hb1 hl
    generalize exec j.env b1 s1 = s2 at *
    have fin : ∀ s3, Mid j (full j - 1) s3 → Reach j.env P (0, s) (3, s3) →
        ∃ s', Reach j.env P (0, s) (4, s') ∧ At j (4 * full j) (pos j (full j)) s' := fun s3 h3 r3 =>
      ⟨_, r3.trans (Reach.block R.b3 rfl), last_step hf h0 h3⟩
    rcases (by omega : full j = 1 ∨ 1 < full j) with hone | hmore
    · exact fin s2 (by rw [hone]; exact m1) (r1.trans (nx1 3 (by rw [z1, decide_eq_true (by omega)]; rfl)))
    · obtain ⟨s3, r3, m3⟩ := loop hf R (full j - 2) 0 s2 (by omega) m1
      exact fin s3 m3 ((r1.trans (nx1 2 (by rw [z1, decide_eq_false (by omega)]; rfl))).trans r3)

/-! ### The last rows -/

/-- `k` of the remaining rows are loaded. -/
structure Tail (j : PJob A) (k : Nat) (s : St A) : Prop where
  inv : At j (4 * full j) (fun c => pos j (full j) c + k) s
  left : s.x 2 = .int (j.rows % 4)
  v : ∀ c, c < 4 → ∀ b, b < k → s.v c b = j.raw c (4 * full j + b)

theorem Tail.step {j : PJob A} (hf : Fits j) {k : Nat} {s : St A} (h : Tail j k s) (hk : k < j.rows % 4) :
    Tail j (k + 1) (exec j.env (rowLoads k) s) := by
  obtain ⟨h1, h2, h3, h4, h5⟩ := row_eq j.env k s
  generalize exec j.env (rowLoads k) s = s' at *
  have hfull : full j = j.rows / 4 := rfl
  have e1 : (4 * full j + k) / 4 = full j := by omega
  have e2 : (4 * full j + k) % 4 = k := by omega
  have hin : ∀ c, c < 4 → out j.env (s.x (48 + c)) 0 1 = false := by
    intro c hc
    have := hf.src c hc (4 * full j + k) (by omega)
    rw [e1, e2] at this
    rw [h.inv.src c hc]
    exact out_ptr (by omega) (by show pos j _ c + k + 0 / 4 + 1 ≤ j.size _; unfold pos; omega)
  refine ⟨h.inv.of (h3.sub (by decide)) h4 (fun c hc => ?_) ?_, ?_, fun c hc b hb => ?_⟩
  · rw [h1 c hc, h.inv.src c hc]
    exact congrArg _ (by ring)
  · rw [h5, h.inv.ok, show out j.env (s.x 48) 0 1 = false from hin 0 (by omega), show out j.env (s.x 49) 0 1 = false from hin 1 (by omega),
      show out j.env (s.x 50) 0 1 = false from hin 2 (by omega), show out j.env (s.x 51) 0 1 = false from hin 3 (by omega)]
    rfl
  · rw [h3.get (by decide)]; exact h.left
  · rw [h2 c hc b]
    by_cases hbk : b = k
    · subst hbk
      rw [show Nat.beq b b = true by simp]
      show words s _ 0 0 = _
      unfold words
      rw [h.inv.src c hc, h.inv.mem]
      show stored j _ (j.reg c) ((4 * (pos j _ c + b) + 0) / 4 + 0) = _
      rw [stored_other j (hf.reg c hc), show (4 * (pos j (full j) c + b) + 0) / 4 + 0 = pos j (full j) c + b by omega]
      unfold PJob.raw pos
      rw [e1, e2]
    · have : Nat.beq b k = false := by
        rw [Bool.eq_false_iff]; intro hh; rw [Nat.beq_eq] at hh; exact hbk hh
      rw [this]
      exact h.v c hc b (by omega)

theorem Tail.cmp {j : PJob A} {k : Nat} {s : St A} (h : Tail j k s) (i : Nat) (hi : i < 2 ^ 31) :
    Tail j k (exec j.env [.cmpI 2 i] s) ∧ (exec j.env [.cmpI 2 i] s).z = decide (j.rows % 4 = i) := by
  obtain ⟨h1, h2, h3, h4, h5⟩ := cmp_eq j.env i s
  generalize exec j.env [.cmpI 2 i] s = s' at *
  refine ⟨⟨h.inv.of (same_of_x h1) h3 (fun c hc => by rw [h1]; exact h.inv.src c hc) ?_, by rw [h1]; exact h.left, ?_⟩, ?_⟩
  · rw [h5, h.inv.ok, h.left]; rfl
  · rw [h2]; exact h.v
  · rw [h4, h.left]
    exact sgn_eq (A := A) (by omega) hi

/-- The loads of the remaining rows: label 5 is reached. -/
theorem rowsLoop {j : PJob A} (hf : Fits j) {P : List Block} {q : Nat} (R : Prog j.env P q) : ∀ n k s, k + n + 1 = j.rows % 4 →
    Tail j k s → ∃ s', Reach j.env P (6 + k, s) (q, s') ∧ Tail j (j.rows % 4) s' := by
  intro n
  induction n with
  | zero =>
    intro k s hn h
    have h' := h.step hf (by omega)
    obtain ⟨c1, c2⟩ := h'.cmp (k + 1) (by omega)
    rw [← exec_append] at c1 c2
    rcases (by omega : k < 2 ∨ k = 2) with hk | rfl
    · refine ⟨_, Reach.block (R.b6 k hk) ?_, by rw [← hn]; exact c1⟩
      show (bif (exec j.env _ s).z then q else 7 + k) = q
      rw [c2, decide_eq_true (by omega)]; rfl
    · rcases R.b8 with hb | hb
      · exact ⟨_, Reach.block hb rfl, by rw [← hn]; exact h'⟩
      · refine ⟨_, Reach.block hb ?_, by rw [← hn]; exact c1⟩
        show (bif (exec j.env (rowLoads 2 ++ [.cmpI 2 3]) s).z then q else 9) = q
        rw [c2, decide_eq_true (by omega)]; rfl
  | succ n ih =>
    intro k s hn h
    have h' := h.step hf (by omega)
    obtain ⟨c1, c2⟩ := h'.cmp (k + 1) (by omega)
    rw [← exec_append] at c1 c2
    obtain ⟨s', r, hs'⟩ := ih (k + 1) _ (by omega) c1
    refine ⟨s', Reach.trans (Reach.block (R.b6 k (by omega)) ?_) r, hs'⟩
    show (bif (exec j.env _ s).z then q else 7 + k) = 6 + (k + 1)
    rw [c2, decide_eq_false (by omega)]
    show 7 + k = _
    omega

/-- `u` of the remaining rows are stored. -/
structure Out (j : PJob A) (u : Nat) (s : St A) : Prop where
  inv : At j (4 * full j + u) (fun c => pos j (full j) c + j.rows % 4) s
  left : s.x 2 = .int (j.rows % 4)
  one : s.x 1 = .int 32
  v : ∀ u, u < j.rows % 4 → ∀ c, c < 4 → s.v (20 + u) c = j.raw c (4 * full j + u)

theorem Out.cmp {j : PJob A} {k : Nat} {s : St A} (h : Out j k s) (i : Nat) (hi : i < 2 ^ 31) :
    Out j k (exec j.env [.cmpI 2 i] s) ∧ (exec j.env [.cmpI 2 i] s).z = decide (j.rows % 4 = i) := by
  obtain ⟨h1, h2, h3, h4, h5⟩ := cmp_eq j.env i s
  generalize exec j.env [.cmpI 2 i] s = s' at *
  refine ⟨⟨h.inv.of (same_of_x h1) h3 (fun c hc => by rw [h1]; exact h.inv.src c hc) ?_, by rw [h1]; exact h.left,
    by rw [h1]; exact h.one, ?_⟩, ?_⟩
  · rw [h5, h.inv.ok, h.left]; rfl
  · rw [h2]; exact h.v
  · rw [h4, h.left]
    exact sgn_eq (A := A) (by omega) hi

theorem Tail.trans {j : PJob A} {s : St A} (h : Tail j (j.rows % 4) s) : Out j 0 (exec j.env trans s) := by
  obtain ⟨h1, h2, h3, h4, h5⟩ := trans_eq j.env s
  generalize exec j.env FPack.trans s = s' at *
  refine ⟨h.inv.of (h2.sub (by decide)) h4 (fun c hc => ?_) (by rw [h5]; exact h.inv.ok), by rw [h2.get (by decide)]; exact h.left, h3, ?_⟩
  · rw [h2.get (by interval_cases c <;> decide)]; exact h.inv.src c hc
  · intro u hu c hc
    rw [h1 u (by omega), tq_eq _ _ (by omega) hc]
    exact h.v c hc u hu

theorem Out.step {j : PJob A} (hf : Fits j) {u : Nat} (hu : u < j.rows % 4) {s : St A} (h : Out j u s) :
    Out j (u + 1) (exec j.env [.stqR (20 + u) packedPtr 1] s) := by
  obtain ⟨h1, h2, h3, h4, h5⟩ := st_eq j.env u s
  generalize exec j.env [.stqR (20 + u) packedPtr 1] s = s' at *
  have hfull : full j = j.rows / 4 := rfl
  have hp := hf.packed (4 * full j + u) (by omega)
  refine ⟨⟨fun c hc => ?_, ?_, fun c hc => ?_, ?_, ?_, ?_⟩, ?_, ?_, ?_⟩
  · rw [h4.get (by interval_cases c <;> decide)]; exact h.inv.src c hc
  · rw [h3, h.inv.packed, h.one]
    show Val.ptr _ (4 * (j.packedBase + 8 * (4 * full j + u)) + 32) = _
    exact congrArg _ (by ring)
  · rw [h4.get (by interval_cases c <;> decide)]; exact h.inv.inc c hc
  · rw [h4.get (by decide)]; exact h.inv.rows
  · rw [h1, h.inv.mem, h.inv.packed]
    exact stored_succ (by show (4 * _ + 0) / 4 = _; omega) (h.v u hu)
  · rw [h5, h.inv.ok, h.one, h.inv.packed, out_ptr (by omega) (by show _ ≤ j.size .packed; omega)]; rfl
  · rw [h4.get (by decide)]; exact h.left
  · rw [h4.get (by decide)]; exact h.one
  · rw [h2]; exact h.v

theorem storesLoop {j : PJob A} (hf : Fits j) {P : List Block} {q : Nat} (R : Prog j.env P q) : ∀ n u s, u + n + 1 = j.rows % 4 →
    Out j u s → ∃ s', Reach j.env P (q + 1 + u, s) (q + 5, s') ∧ Out j (j.rows % 4) s' := by
  intro n
  induction n with
  | zero =>
    intro u s hn h
    obtain ⟨c1, c2⟩ := (h.step hf (by omega)).cmp (u + 1) (by omega)
    rw [← exec_append] at c1 c2
    refine ⟨_, Reach.block (R.st u (by omega)) ?_, by rw [← hn]; exact c1⟩
    show (bif (exec j.env _ s).z then q + 5 else q + 2 + u) = q + 5
    rw [c2, decide_eq_true (by omega)]; rfl
  | succ n ih =>
    intro u s hn h
    obtain ⟨c1, c2⟩ := (h.step hf (by omega)).cmp (u + 1) (by omega)
    rw [← exec_append] at c1 c2
    obtain ⟨s', r, hs'⟩ := ih (u + 1) _ (by omega) c1
    refine ⟨s', Reach.trans (Reach.block (R.st u (by omega)) ?_) r, hs'⟩
    show (bif (exec j.env _ s).z then q + 5 else q + 2 + u) = q + 1 + (u + 1)
    rw [c2, decide_eq_false (by omega)]
    show q + 2 + u = _
    omega

theorem ands_eq (e : Env A) (s : St A) : (exec e [.andsI 2 58 3] s).v = s.v ∧ (exec e [.andsI 2 58 3] s).m = s.m ∧
    (exec e [.andsI 2 58 3] s).x 2 = .int ((s.x 58).num % 4294967296 &&& 3) ∧
    (exec e [.andsI 2 58 3] s).z = Nat.beq ((s.x 58).num % 4294967296 &&& 3) 0 ∧
    Same [48, 49, 50, 51, 52, 54, 55, 56, 57, 58] s (exec e [.andsI 2 58 3] s) ∧
    (exec e [.andsI 2 58 3] s).bad = (s.bad || !(s.x 58).isInt) := by
  cases s; exact ⟨rfl, rfl, rfl, rfl, by keep, rfl⟩

theorem movi_eq (e : Env A) (s : St A) : (exec e [.movi 0, .movi 1, .movi 2, .movi 3] s).x = s.x ∧
    (exec e [.movi 0, .movi 1, .movi 2, .movi 3] s).m = s.m ∧
    (exec e [.movi 0, .movi 1, .movi 2, .movi 3] s).bad = s.bad := by
  cases s; exact ⟨rfl, rfl, rfl⟩

/-- A whole call. -/
theorem whole {j : PJob A} (hf : Fits j) {P : List Block} {q : Nat} (R : Prog j.env P q) {s : St A} (h : Start j s) :
    ∃ s', Stops j.env P s s' ∧ s'.m = stored j j.rows ∧ s'.bad = false := by
  have hat : At j 0 (pos j 0) s := ⟨fun c hc => by rw [h.src c hc]; unfold pos; rw [Nat.mul_zero, Nat.add_zero],
    h.packed, h.inc, h.rows, by rw [h.mem, stored_zero], h.ok⟩
  obtain ⟨s1, r1, a1⟩ := blocks hf R hat
  have hfull : full j = j.rows / 4 := rfl
  suffices hs : ∃ s', Reach j.env P (0, s) (q + 5, s') ∧ s'.m = stored j j.rows ∧ s'.bad = false by
    obtain ⟨s', r, hm, hb⟩ := hs
    exact ⟨s', stops_of (by rw [R.len]; exact r), hm, hb⟩
  obtain ⟨h1, h2, h3, h4, h5, h6⟩ := ands_eq j.env s1
  have nx : ∀ l, (bif (exec j.env [.andsI 2 58 3] s1).z then q + 5 else 5) = l →
      Reach j.env P (4, s1) (l, exec j.env [.andsI 2 58 3] s1) := fun l hl => Reach.block R.b4 hl
  generalize exec j.env [.andsI 2 58 3] s1 = s2 at *
  have hn : (s1.x 58).num % 4294967296 &&& 3 = j.rows % 4 := by
    rw [a1.rows]; exact and_low j.rows hf.rows
  rw [hn] at h3 h4
  have hb2 : s2.bad = false := by rw [h6, a1.ok, a1.rows]; rfl
  rcases Nat.eq_zero_or_pos (j.rows % 4) with h0 | h0
  · refine ⟨s2, r1.trans (nx _ (by rw [h4, h0]; rfl)), ?_, hb2⟩
    rw [h2, a1.mem, show 4 * full j = j.rows by omega]
  · have r2 := nx 5 (by rw [h4, beq_dec, decide_eq_false (by omega)]; rfl)
    obtain ⟨g1, g2, g3⟩ := movi_eq j.env s2
    have g4 : Tail j 0 (exec j.env [.movi 0, .movi 1, .movi 2, .movi 3] s2) := by
      generalize exec j.env [.movi 0, .movi 1, .movi 2, .movi 3] s2 = s3 at *
      exact ⟨a1.of (by
          refine Same.trans (b := s2) (h5.sub (by decide)) (same_of_x g1)) (by rw [g2, h2])
          (fun c hc => by rw [g1, h5.get (by interval_cases c <;> decide)]; exact a1.src c hc) (by rw [g3]; exact hb2),
        by rw [g1]; exact h3, fun c hc b hb => absurd hb (by omega)⟩
    obtain ⟨c1, c2⟩ := g4.cmp 0 (by omega)
    rw [← exec_append] at c1 c2
    have r3 : Reach j.env P (5, s2) (6 + 0, _) := Reach.block R.b5 (by
      show (bif (exec j.env ([.movi 0, .movi 1, .movi 2, .movi 3] ++ [.cmpI 2 0]) s2).z then q else 6) = 6
      rw [c2, decide_eq_false (by omega)]; rfl)
    obtain ⟨s4, r4, t4⟩ := rowsLoop hf R (j.rows % 4 - 1) 0 _ (by omega) c1
    obtain ⟨d1, d2⟩ := t4.trans.cmp 0 (by omega)
    rw [← exec_append] at d1 d2
    have r5 : Reach j.env P (q, s4) (q + 1 + 0, _) := Reach.block R.b9 (by
      show (bif (exec j.env (FPack.trans ++ [.cmpI 2 0]) s4).z then q + 5 else q + 1) = q + 1 + 0
      rw [d2, decide_eq_false (by omega)]; rfl)
    obtain ⟨s6, r6, t6⟩ := storesLoop hf R (j.rows % 4 - 1) 0 _ (by omega) d1
    refine ⟨s6, ((((r1.trans r2).trans r3).trans r4).trans r5).trans r6, ?_, t6.inv.ok⟩
    rw [t6.inv.mem, show 4 * full j + j.rows % 4 = j.rows by omega]

/-- What is in memory then. -/
theorem result {j : PJob A} {s : St A} (hm : s.m = stored j j.rows) (hb : s.bad = false) : Result j s := by
  refine ⟨hb, fun c hc k hk => ?_, fun o ho => ?_, fun r hr => ?_⟩
  · rw [hm]
    unfold stored
    rw [if_pos ⟨rfl, by omega, by omega, by omega⟩]
    congr 1 <;> omega
  · rw [hm]
    unfold stored
    rw [if_neg (fun h => ho ((o - j.packedBase) / 8) (by omega) ((o - j.packedBase) % 8) (by omega) (by omega))]
  · rw [hm]; exact stored_other j hr _

theorem fpack_ok {j : PJob A} (hf : Fits j) {s : St A} (h : Start j s) : ∃ s', Stops j.env fpackCode s s' ∧ Result j s' := by
  obtain ⟨s', r, hm, hb⟩ := whole hf (prog_fpack j.env) h
  exact ⟨s', r, result hm hb⟩

theorem fpackA_ok {j : PJob A} (hf : Fits j) {s : St A} (h : Start j s) : ∃ s', Stops j.env fpackACode s s' ∧ Result j s' := by
  obtain ⟨s', r, hm, hb⟩ := whole hf (prog_fpackA j.env) h
  exact ⟨s', r, result hm hb⟩

end Ruy.NeonF.FPack

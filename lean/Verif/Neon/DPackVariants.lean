import Verif.Neon.DPackRun
/-
The two pack functions for dot products: blocks of 64 and of 16 rows.
-/
namespace Ruy.Neon.DPack
open Simd (wrap8 wrap16 wrap32)
open PJob (pos full and_high and_low beq_zero beq_ne u32_byte nat_byte exec_append keepP raw_eq entry_full
  pos_succ joined numByte_le8 HeldA)

theorem and_64 {n : Nat} (h : n < 2 ^ 31) : n % 2 ^ 32 &&& 4294967232 = 64 * (n / 64) := by
  rw [Nat.mod_eq_of_lt (by omega)]
  apply Nat.eq_of_testBit_eq
  intro i
  rw [Nat.testBit_and, show 4294967232 = 2 ^ 6 * (2 ^ 26 - 1) from rfl, show 64 * (n / 64) = 2 ^ 6 * (n / 2 ^ 6) from rfl,
    Nat.testBit_two_pow_mul, Nat.testBit_two_pow_mul, Nat.testBit_two_pow_sub_one, Nat.testBit_div_two_pow]
  by_cases h4 : 6 ≤ i
  · have e : i - 6 + 6 = i := by omega
    by_cases h32 : i - 6 < 26
    · simp [h4, h32, e]
    · have : n.testBit i = false := Nat.testBit_lt_two_pow (lt_of_lt_of_le h (Nat.pow_le_pow_right (by omega) (by omega)))
      simp [h4, h32, e, this]
  · simp [h4]

/-! ### Steps -/

theorem blk_entry {j : PJob} {t u n : Nat} {p : Nat → Nat} {s : St} (h : At j n p s) (ht : t < j.full) (hh : Blk j t u s) :
    ∀ c, c < 4 → ∀ b, b < 16 → eorV (s.v (4 * u + c)) (s.v 26) b = j.entry c (16 * t + b) := by
  intro c hc b hb
  unfold eorV
  rw [h.x26 b hb, hh c hc b hb, entry_full j c ht hb]

theorem blk_other {j : PJob} {t u v : Nat} {s s' : St} (hv : v < 4) (hn : v ≠ u)
    (ho : ∀ i, i < 16 → i / 4 ≠ u → s'.v i = s.v i) (h : Blk j t v s) : Blk j t v s' := by
  intro c hc b hb
  rw [ho (4 * v + c) (by omega) (by omega)]
  exact h c hc b hb

/-- A block is loaded. -/
theorem load_at {j : PJob} (hf : Fits j) {n t u : Nat} {s s' : St} (h : At j n (j.pos t) s) (h1 : Loads u s s')
    (hb : s'.bad = false) : At j n (j.pos (t + 1)) s' ∧ Blk j t u s' := by
  refine ⟨h.of (h1.same.sub (by decide)) h1.m h1.acc h1.v26 h1.v27 (fun c hc => ?_) hb, fun c hc b hb => ?_⟩
  · rw [h1.src c hc, h.src c hc, h.inc c hc]
    show Val.ptr _ _ = _
    rw [← pos_succ]; rfl
  · rw [h1.v c hc, src_byte hf hc h rfl]; rfl

/-- A block is stored. -/
theorem stored_at {j : PJob} (hf : Fits j) {t u : Nat} (ht : t < j.full) {p : Nat → Nat} {s s' : St} (h : At j (4 * t) p s)
    (hh : Blk j t u s) (h1 : Stored j.env u s s') : At j (4 * (t + 1)) p s' := by
  obtain ⟨o0, o1, o2, o3⟩ := outq hf ht h
  refine h1.proc.at h (blk_entry h ht hh) (h1.same.sub (by decide)) (fun c hc => ?_) ?_
  · rw [h1.same.get (by interval_cases c <;> decide)]; exact h.src c hc
  · rw [h1.bad, h.ok, o0, o1, o2, o3]; rfl

/-- A block is stored and another one is loaded. -/
theorem moved_at {j : PJob} (hf : Fits j) {t k u : Nat} (ht : t < j.full) {s s' : St} (h : At j (4 * t) (j.pos k) s)
    (hh : Blk j t u s) (h1 : Moved j.env u s s') (hb : s'.bad = false) :
    At j (4 * (t + 1)) (j.pos (k + 1)) s' ∧ Blk j k u s' := by
  refine ⟨h1.proc.at h (blk_entry h ht hh) (h1.same.sub (by decide)) (fun c hc => ?_) hb, fun c hc b hb => ?_⟩
  · rw [h1.src c hc, h.src c hc, h.inc c hc]
    show Val.ptr _ _ = _
    rw [← pos_succ]; rfl
  · rw [h1.v c hc, src_byte hf hc h rfl]; rfl

theorem next_of {z : Bool} {a b m n : Nat} (h : z = decide (a = b)) : (bif z then m else n) = if a = b then m else n := by
  rw [h]
  by_cases hab : a = b
  · rw [decide_eq_true hab, if_pos hab]; rfl
  · rw [decide_eq_false hab, if_neg hab]; rfl

theorem next_ne {z : Bool} {a b m n : Nat} (h : z = decide (a = b)) : (bif !z then n else m) = if a = b then m else n := by
  rw [h]
  by_cases hab : a = b
  · rw [decide_eq_true hab, if_pos hab]; rfl
  · rw [decide_eq_false hab, if_neg hab]; rfl

/-! ### Blocks of 16 rows -/

theorem first16 {j : PJob} (hf : Fits j) {t : Nat} {s : St} (h : At j (4 * t) (j.pos t) s) (hx1 : s.x 1 = .int (16 * t))
    (hx2 : s.x 2 = .int (16 * j.full)) (ht : t < j.full) : ∃ s', Reach j.env dpackCode (5, s) (if j.full = t + 1 then 7 else 6, s') ∧
      At j (4 * t) (j.pos (t + 1)) s' ∧ Blk j t 0 s' ∧ s'.x 1 = .int (16 * (t + 1)) ∧ s'.x 2 = .int (16 * j.full) := by
  have hr := hf.rows
  have hn : t + 1 ≤ j.rows / 16 := ht
  obtain ⟨h1, h2, h3, h4, h5⟩ := pAdd j.env 16 s
  have rr : ∀ l, (bif (exec j.env dpack5.body s).z then 7 else 6) = l → Reach j.env dpackCode (5, s) (l, exec j.env dpack5.body s) :=
    fun l hl => Reach.block (b := dpack5) rfl hl
  rw [dpack5_eq, exec_append] at rr
  generalize exec j.env [.addWI 1 1 16] s = s1 at *
  rw [hx1] at h4
  change s1.x 1 = .int ((16 * t + 16) % 2 ^ 32) at h4
  rw [show (16 * t + 16) % 2 ^ 32 = 16 * (t + 1) by omega] at h4
  have a1 : At j (4 * t) (j.pos t) s1 := h.of (h1.sub (by decide)) h2 (fun c hc => by rw [h3]) (by rw [h3]) (by rw [h3])
    (fun c hc => by rw [h1.get (by interval_cases c <;> decide)]; exact h.src c hc) (by rw [h5, h.ok, hx1]; rfl)
  have hx2' : s1.x 2 = .int (16 * j.full) := by rw [h1.get (by decide)]; exact hx2
  obtain ⟨k1, k2, k3⟩ := pldC j.env s1 (u := 0) (by omega)
  change ∀ l, (bif (exec j.env (ldC (4 * 0)) s1).z then 7 else 6) = l → Reach j.env dpackCode (5, s) (l, exec j.env (ldC (4 * 0)) s1) at rr
  generalize exec j.env (ldC (4 * 0)) s1 = s2 at *
  obtain ⟨a2, b2⟩ := load_at hf a1 k1 (by
    rw [k3, a1.ok, h4, hx2', outs (c := 0) hf (by omega) ht a1 rfl (by omega), outs (c := 1) hf (by omega) ht a1 rfl (by omega),
        outs (c := 2) hf (by omega) ht a1 rfl (by omega), outs (c := 3) hf (by omega) ht a1 rfl (by omega),
        incs (c := 0) (by omega) a1, incs (c := 1) (by omega) a1, incs (c := 2) (by omega) a1, incs (c := 3) (by omega) a1]
    rfl)
  rw [h4, hx2'] at k2
  change s2.z = decide (sgn (16 * (t + 1)) = sgn (16 * j.full)) at k2
  rw [count_eq hf hn (le_refl _), show decide (t + 1 = j.full) = decide (j.full = t + 1) by rw [decide_eq_decide]; omega] at k2
  exact ⟨s2, rr _ (next_of k2), a2, b2, by rw [k1.same.get (by decide)]; exact h4, by rw [k1.same.get (by decide)]; exact hx2'⟩

theorem loop16 {j : PJob} (hf : Fits j) {t : Nat} {s : St} (h : At j (4 * t) (j.pos (t + 1)) s) (hh : Blk j t 0 s)
    (hx1 : s.x 1 = .int (16 * (t + 1))) (hx2 : s.x 2 = .int (16 * j.full)) (ht : t + 1 < j.full) :
    ∃ s', Reach j.env dpackCode (6, s) (if j.full = t + 2 then 7 else 6, s') ∧
      At j (4 * (t + 1)) (j.pos (t + 2)) s' ∧ Blk j (t + 1) 0 s' ∧ s'.x 1 = .int (16 * (t + 2)) ∧ s'.x 2 = .int (16 * j.full) := by
  have hr := hf.rows
  have hn : t + 1 < j.rows / 16 := ht
  obtain ⟨k1, k2, k3⟩ := p6 j.env s
  have rr : ∀ l, (bif !(exec j.env dpack6.body s).z then 6 else 7) = l → Reach j.env dpackCode (6, s) (l, exec j.env dpack6.body s) :=
    fun l hl => Reach.block (b := dpack6) rfl hl
  generalize exec j.env dpack6.body s = s2 at *
  obtain ⟨o0, o1, o2, o3⟩ := outq hf (by omega) h
  obtain ⟨a2, b2⟩ := moved_at hf (by omega) h hh k1 (by
    rw [k3, h.ok, hx1, hx2, outs (c := 0) hf (by omega) ht h rfl (by omega), outs (c := 1) hf (by omega) ht h rfl (by omega),
        outs (c := 2) hf (by omega) ht h rfl (by omega), outs (c := 3) hf (by omega) ht h rfl (by omega),
        incs (c := 0) (by omega) h, incs (c := 1) (by omega) h, incs (c := 2) (by omega) h, incs (c := 3) (by omega) h, o0, o1, o2, o3]
    rfl)
  have x1 := k1.x1
  rw [hx1] at x1 k2
  rw [hx2] at k2
  change s2.x 1 = .int ((16 * (t + 1) + 16) % 2 ^ 32) at x1
  change s2.z = decide (sgn ((16 * (t + 1) + 16) % 2 ^ 32) = sgn (16 * j.full)) at k2
  rw [show (16 * (t + 1) + 16) % 2 ^ 32 = 16 * (t + 2) by omega] at x1 k2
  rw [count_eq hf ht (le_refl _), show decide (t + 2 = j.full) = decide (j.full = t + 2) by rw [decide_eq_decide]; omega] at k2
  exact ⟨s2, rr _ (next_ne k2), a2, b2, x1, by rw [k1.same.get (by decide)]; exact hx2⟩

theorem loops16 {j : PJob} (hf : Fits j) : ∀ n t s, t + 1 + n = j.full → At j (4 * t) (j.pos (t + 1)) s → Blk j t 0 s →
    s.x 1 = .int (16 * (t + 1)) → s.x 2 = .int (16 * j.full) →
    ∃ s', Reach j.env dpackCode ((if j.full = t + 1 then 7 else 6), s) (8, s') ∧ At j (4 * j.full) (j.pos j.full) s' := by
  intro n
  induction n with
  | zero =>
    intro t s hn h hh _ _
    have h1 := pL j.env s (u := 0) (by omega)
    rw [if_pos (by omega)]
    refine ⟨exec j.env dpack7.body s, Reach.block (b := dpack7) rfl rfl, ?_⟩
    rw [show j.full = t + 1 by omega, dpack7_eq]
    exact stored_at hf (by omega) h hh h1
  | succ n ih =>
    intro t s hn h hh hx1 hx2
    obtain ⟨s1, r, h1, h2, h3, h4⟩ := loop16 hf h hh hx1 hx2 (by omega)
    obtain ⟨s', r', h'⟩ := ih (t + 1) _ (by omega) h1 h2 h3 h4
    rw [if_neg (by omega)]
    exact ⟨s', r.trans r', h'⟩

/-- From label 9 to label 3. -/
theorem part16 {j : PJob} (hf : Fits j) {t : Nat} {s : St} (h : At j (4 * t) (j.pos t) s) (hx1 : s.x 1 = .int (16 * t))
    (ht : t ≤ j.full) : ∃ s', Reach j.env dpackCode (4, s) (8, s') ∧ At j (4 * j.full) (j.pos j.full) s' := by
  have hr := hf.rows
  obtain ⟨h1, h2, h3, h4, h5, h6⟩ := p4 j.env s
  have nx : ∀ l, (bif (exec j.env dpack4.body s).z then 8 else 5) = l → Reach j.env dpackCode (4, s) (l, exec j.env dpack4.body s) :=
    fun l hl => Reach.block (b := dpack4) rfl hl
  generalize exec j.env dpack4.body s = s1 at *
  rw [h.rows] at h3 h4 h6
  rw [hx1] at h4 h6
  change s1.x 2 = .int (j.rows % 2 ^ 32 &&& 4294967280) at h3
  change s1.z = decide (sgn (16 * t) = sgn (j.rows % 2 ^ 32 &&& 4294967280)) at h4
  rw [and_high hr] at h3 h4
  rw [show j.rows / 16 = j.full from rfl] at h3 h4
  rw [count_eq hf ht (le_refl _)] at h4
  have inv : At j (4 * t) (j.pos t) s1 :=
    h.of (h1.sub (by decide)) h2 (fun c hc => by rw [h5]) (by rw [h5]) (by rw [h5])
      (fun c hc => by rw [h1.get (by interval_cases c <;> decide)]; exact h.src c hc) (by rw [h6, h.ok]; rfl)
  by_cases h0 : t = j.full
  · refine ⟨s1, nx _ (by rw [h4, decide_eq_true h0]; rfl), ?_⟩
    rw [h0] at inv; exact inv
  · have r1 := nx 5 (by rw [h4, decide_eq_false h0]; rfl)
    obtain ⟨s2, r2, a2, b2, x1, x2⟩ := first16 hf inv (by rw [h1.get (by decide)]; exact hx1) h3 (by omega)
    obtain ⟨s3, r3, a3⟩ := loops16 hf (j.full - (t + 1)) t s2 (by omega) a2 b2 x1 x2
    exact ⟨s3, (r1.trans r2).trans r3, a3⟩

/-! ### Blocks of 64 rows -/

/-- Blocks `t`, …, `t + 3` are in registers 0, …, 15. -/
def Blks (j : PJob) (t : Nat) (s : St) : Prop := ∀ u, u < 4 → Blk j (t + u) u s

/-- Four blocks of 16 rows at a time. -/
def full64 (j : PJob) : Nat := j.rows / 64

theorem full64_le (j : PJob) : 4 * full64 j ≤ j.full := by unfold full64 PJob.full; omega

/-- A load without comparison. -/
theorem ld_step {j : PJob} (hf : Fits j) {n t u : Nat} (hu : u < 3) (ht : t < j.full) {s : St} (h : At j n (j.pos t) s) :
    At j n (j.pos (t + 1)) (exec j.env (ldL (4 * u)) s) ∧ Loads u s (exec j.env (ldL (4 * u)) s) ∧
      Blk j t u (exec j.env (ldL (4 * u)) s) := by
  obtain ⟨k1, k3⟩ := pld j.env s hu
  generalize exec j.env (ldL (4 * u)) s = s2 at *
  obtain ⟨a2, b2⟩ := load_at hf h k1 (by
    rw [k3, h.ok, outs (c := 0) hf (by omega) ht h rfl (by omega), outs (c := 1) hf (by omega) ht h rfl (by omega),
        outs (c := 2) hf (by omega) ht h rfl (by omega), outs (c := 3) hf (by omega) ht h rfl (by omega),
        incs (c := 0) (by omega) h, incs (c := 1) (by omega) h, incs (c := 2) (by omega) h, incs (c := 3) (by omega) h]
    rfl)
  exact ⟨a2, k1, b2⟩

theorem first64 {j : PJob} (hf : Fits j) {s : St} (h : At j 0 (j.pos 0) s) (hx1 : s.x 1 = .int 0)
    (hx2 : s.x 2 = .int (64 * full64 j)) (ht : 0 < full64 j) :
    ∃ s', Reach j.env dpackCode (1, s) (if full64 j = 1 then 3 else 2, s') ∧
      At j 0 (j.pos 4) s' ∧ Blks j 0 s' ∧ s'.x 1 = .int 64 ∧ s'.x 2 = .int (64 * full64 j) := by
  have hr := hf.rows
  have hle := full64_le j
  have hfe : full64 j = j.rows / 64 := rfl
  obtain ⟨h1, h2, h3, h4, h5⟩ := pAdd j.env 64 s
  have rr : ∀ l, (bif (exec j.env dpack1.body s).z then 3 else 2) = l → Reach j.env dpackCode (1, s) (l, exec j.env dpack1.body s) :=
    fun l hl => Reach.block (b := dpack1) rfl hl
  rw [dpack1_eq, exec_append, exec_append, exec_append, exec_append] at rr
  generalize exec j.env [.addWI 1 1 64] s = s1 at *
  rw [hx1] at h4
  change s1.x 1 = .int 64 at h4
  have a1 : At j 0 (j.pos 0) s1 := h.of (h1.sub (by decide)) h2 (fun c hc => by rw [h3]) (by rw [h3]) (by rw [h3])
    (fun c hc => by rw [h1.get (by interval_cases c <;> decide)]; exact h.src c hc) (by rw [h5, h.ok, hx1]; rfl)
  have hx2' : s1.x 2 = .int (64 * full64 j) := by rw [h1.get (by decide)]; exact hx2
  obtain ⟨a2, l2, b2⟩ := ld_step (u := 0) hf (by omega) (by omega) a1
  change ∀ l, _ = l → Reach j.env dpackCode (1, s) (l, exec j.env (ldC (4 * 3)) (exec j.env (ldL (4 * 2)) (exec j.env (ldL (4 * 1)) (exec j.env (ldL (4 * 0)) s1)))) at rr
  generalize exec j.env (ldL (4 * 0)) s1 = s2 at *
  obtain ⟨a3, l3, b3⟩ := ld_step (u := 1) hf (by omega) (by omega) a2
  generalize exec j.env (ldL (4 * 1)) s2 = s3 at *
  obtain ⟨a4, l4, b4⟩ := ld_step (u := 2) hf (by omega) (by omega) a3
  generalize exec j.env (ldL (4 * 2)) s3 = s4 at *
  obtain ⟨k1, k2, k3⟩ := pldC j.env s4 (u := 3) (by omega)
  have rr' : ∀ l, (bif (exec j.env (ldC (4 * 3)) s4).z then 3 else 2) = l → Reach j.env dpackCode (1, s) (l, exec j.env (ldC (4 * 3)) s4) := rr
  clear rr
  generalize exec j.env (ldC (4 * 3)) s4 = s5 at *
  have same : Same (1 :: 2 :: []) s1 s4 :=
    ((l2.same.sub (by decide)).trans (l3.same.sub (by decide))).trans (l4.same.sub (by decide))
  have e1 : s4.x 1 = .int 64 := by rw [same.get (by decide)]; exact h4
  have e2 : s4.x 2 = .int (64 * full64 j) := by rw [same.get (by decide)]; exact hx2'
  have ht3 : 3 < j.full := by omega
  obtain ⟨a5, b5⟩ := load_at hf a4 k1 (by
    rw [k3, a4.ok, e1, e2, outs (c := 0) hf (by omega) ht3 a4 rfl (by omega), outs (c := 1) hf (by omega) ht3 a4 rfl (by omega),
        outs (c := 2) hf (by omega) ht3 a4 rfl (by omega), outs (c := 3) hf (by omega) ht3 a4 rfl (by omega),
        incs (c := 0) (by omega) a4, incs (c := 1) (by omega) a4, incs (c := 2) (by omega) a4, incs (c := 3) (by omega) a4]
    rfl)
  rw [e1, e2] at k2
  change s5.z = decide (sgn 64 = sgn (64 * full64 j)) at k2
  have k2' : s5.z = decide (full64 j = 1) := by
    rw [k2, decide_eq_decide, sgn_of (by omega), sgn_of (by omega)]; omega
  refine ⟨s5, rr' _ (next_of k2'), a5, fun u hu => ?_, by rw [k1.same.get (by decide)]; exact e1, by rw [k1.same.get (by decide)]; exact e2⟩
  rcases (show u = 0 ∨ u = 1 ∨ u = 2 ∨ u = 3 by omega) with rfl | rfl | rfl | rfl
  · exact blk_other (by omega) (by omega) k1.other (blk_other (by omega) (by omega) l4.other (blk_other (by omega) (by omega) l3.other b2))
  · exact blk_other (by omega) (by omega) k1.other (blk_other (by omega) (by omega) l4.other b3)
  · exact blk_other (by omega) (by omega) k1.other b4
  · exact b5

/-- A quarter without comparison. -/
theorem quarter {j : PJob} (hf : Fits j) {t u k : Nat} (hu : u < 3) (ht : t + 4 < j.full) {s : St}
    (h : At j (4 * t) (j.pos (t + 4)) s) (hh : Blk j t u s) (hx1 : s.x 1 = .int k) (hk : k + 16 < 2 ^ 32) :
    At j (4 * (t + 1)) (j.pos (t + 1 + 4)) (exec j.env (procLd (4 * u)) s) ∧ Moved j.env u s (exec j.env (procLd (4 * u)) s) ∧
      Blk j (t + 4) u (exec j.env (procLd (4 * u)) s) ∧ (exec j.env (procLd (4 * u)) s).x 1 = .int (k + 16) := by
  obtain ⟨k1, k3⟩ := pLd j.env s hu
  generalize exec j.env (procLd (4 * u)) s = s2 at *
  obtain ⟨o0, o1, o2, o3⟩ := outq hf (by omega) h
  obtain ⟨a2, b2⟩ := moved_at hf (by omega) h hh k1 (by
    rw [k3, h.ok, hx1, outs (c := 0) hf (by omega) ht h rfl (by omega), outs (c := 1) hf (by omega) ht h rfl (by omega),
        outs (c := 2) hf (by omega) ht h rfl (by omega), outs (c := 3) hf (by omega) ht h rfl (by omega),
        incs (c := 0) (by omega) h, incs (c := 1) (by omega) h, incs (c := 2) (by omega) h, incs (c := 3) (by omega) h, o0, o1, o2, o3]
    rfl)
  have x1 := k1.x1
  rw [hx1] at x1
  change s2.x 1 = .int ((k + 16) % 2 ^ 32) at x1
  rw [Nat.mod_eq_of_lt hk] at x1
  exact ⟨a2, k1, b2, x1⟩

theorem loop64 {j : PJob} (hf : Fits j) {n : Nat} {s : St} (h : At j (16 * n) (j.pos (4 * n + 4)) s) (hh : Blks j (4 * n) s)
    (hx1 : s.x 1 = .int (64 * (n + 1))) (hx2 : s.x 2 = .int (64 * full64 j)) (hn : n + 1 < full64 j) :
    ∃ s', Reach j.env dpackCode (2, s) (if full64 j = n + 2 then 3 else 2, s') ∧
      At j (16 * (n + 1)) (j.pos (4 * (n + 1) + 4)) s' ∧ Blks j (4 * (n + 1)) s' ∧ s'.x 1 = .int (64 * (n + 2)) ∧
      s'.x 2 = .int (64 * full64 j) := by
  have hr := hf.rows
  have hle := full64_le j
  have hfe : full64 j = j.rows / 64 := rfl
  have rr : ∀ l, (bif !(exec j.env dpack2.body s).z then 2 else 3) = l → Reach j.env dpackCode (2, s) (l, exec j.env dpack2.body s) :=
    fun l hl => Reach.block (b := dpack2) rfl hl
  rw [dpack2_eq, exec_append, exec_append, exec_append] at rr
  rw [show 16 * n = 4 * (4 * n) by ring] at h
  obtain ⟨a2, l2, b2, x2⟩ := quarter (u := 0) hf (by omega) (by omega) h (hh 0 (by omega)) hx1 (by omega)
  change ∀ l, _ = l → Reach j.env dpackCode (2, s) (l, exec j.env (procLdC 12) (exec j.env (procLd (4 * 2)) (exec j.env (procLd (4 * 1)) (exec j.env (procLd (4 * 0)) s)))) at rr
  generalize exec j.env (procLd (4 * 0)) s = s2 at *
  obtain ⟨a3, l3, b3, x3⟩ := quarter (u := 1) hf (by omega) (by omega) a2
    (blk_other (by omega) (by omega) l2.other (hh 1 (by omega))) x2 (by omega)
  generalize exec j.env (procLd (4 * 1)) s2 = s3 at *
  obtain ⟨a4, l4, b4, x4⟩ := quarter (u := 2) hf (by omega) (by omega) a3
    (blk_other (by omega) (by omega) l3.other (blk_other (by omega) (by omega) l2.other (hh 2 (by omega)))) x3 (by omega)
  generalize exec j.env (procLd (4 * 2)) s3 = s4 at *
  obtain ⟨k1, k2, k3⟩ := pLdC j.env s4
  have rr' : ∀ l, (bif !(exec j.env (procLdC 12) s4).z then 2 else 3) = l → Reach j.env dpackCode (2, s) (l, exec j.env (procLdC 12) s4) := rr
  clear rr
  generalize exec j.env (procLdC 12) s4 = s5 at *
  have same : Same (2 :: []) s s4 :=
    ((l2.same.sub (by decide)).trans (l3.same.sub (by decide))).trans (l4.same.sub (by decide))
  have e2 : s4.x 2 = .int (64 * full64 j) := by rw [same.get (by decide)]; exact hx2
  have ht3 : 4 * n + 1 + 1 + 1 + 4 < j.full := by omega
  obtain ⟨o0, o1, o2, o3⟩ := outq hf (by omega) a4
  obtain ⟨a5, b5⟩ := moved_at hf (by omega) a4
    (blk_other (by omega) (by omega) l4.other (blk_other (by omega) (by omega) l3.other (blk_other (by omega) (by omega) l2.other (hh 3 (by omega)))))
    k1 (by
    rw [k3, a4.ok, x4, e2, outs (c := 0) hf (by omega) ht3 a4 rfl (by omega), outs (c := 1) hf (by omega) ht3 a4 rfl (by omega),
        outs (c := 2) hf (by omega) ht3 a4 rfl (by omega), outs (c := 3) hf (by omega) ht3 a4 rfl (by omega),
        incs (c := 0) (by omega) a4, incs (c := 1) (by omega) a4, incs (c := 2) (by omega) a4, incs (c := 3) (by omega) a4, o0, o1, o2, o3]
    rfl)
  have x5 := k1.x1
  rw [x4] at x5 k2
  rw [e2] at k2
  change s5.x 1 = .int ((64 * (n + 1) + 16 + 16 + 16 + 16) % 2 ^ 32) at x5
  change s5.z = decide (sgn ((64 * (n + 1) + 16 + 16 + 16 + 16) % 2 ^ 32) = sgn (64 * full64 j)) at k2
  rw [show (64 * (n + 1) + 16 + 16 + 16 + 16) % 2 ^ 32 = 64 * (n + 2) by omega] at x5 k2
  have k2' : s5.z = decide (full64 j = n + 2) := by
    rw [k2, decide_eq_decide, sgn_of (by omega), sgn_of (by omega)]; omega
  refine ⟨s5, rr' _ (next_ne k2'), ?_, fun u hu => ?_, x5, by rw [k1.same.get (by decide)]; exact e2⟩
  · rw [show 16 * (n + 1) = 4 * (4 * n + 1 + 1 + 1 + 1) by ring, show 4 * (n + 1) + 4 = 4 * n + 1 + 1 + 1 + 4 + 1 by ring]
    exact a5
  · rcases (show u = 0 ∨ u = 1 ∨ u = 2 ∨ u = 3 by omega) with rfl | rfl | rfl | rfl
    · exact blk_other (by omega) (by omega) k1.other (blk_other (by omega) (by omega) l4.other (blk_other (by omega) (by omega) l3.other b2))
    · rw [show 4 * (n + 1) + 1 = 4 * n + 1 + 4 by ring]
      exact blk_other (by omega) (by omega) k1.other (blk_other (by omega) (by omega) l4.other b3)
    · rw [show 4 * (n + 1) + 2 = 4 * n + 1 + 1 + 4 by ring]
      exact blk_other (by omega) (by omega) k1.other b4
    · rw [show 4 * (n + 1) + 3 = 4 * n + 1 + 1 + 1 + 4 by ring]
      exact b5

theorem last64 {j : PJob} (hf : Fits j) {n k : Nat} {s : St} (h : At j (16 * n) (j.pos k) s) (hh : Blks j (4 * n) s)
    (hn : n < full64 j) : ∃ s', Reach j.env dpackCode (3, s) (4, s') ∧ At j (4 * (4 * n + 4)) (j.pos k) s' ∧ s'.x 1 = s.x 1 := by
  have hle := full64_le j
  have rr : Reach j.env dpackCode (3, s) (4, exec j.env dpack3.body s) := Reach.block (b := dpack3) rfl rfl
  rw [dpack3_eq, exec_append, exec_append, exec_append] at rr
  rw [show 16 * n = 4 * (4 * n) by ring] at h
  change Reach j.env dpackCode (3, s) (4, exec j.env (procL (4 * 3)) (exec j.env (procL (4 * 2)) (exec j.env (procL (4 * 1)) (exec j.env (procL (4 * 0)) s)))) at rr
  have l2 := pL j.env s (u := 0) (by omega)
  generalize exec j.env (procL (4 * 0)) s = s2 at *
  have a2 := stored_at hf (by omega) h (hh 0 (by omega)) l2
  have l3 := pL j.env s2 (u := 1) (by omega)
  generalize exec j.env (procL (4 * 1)) s2 = s3 at *
  have a3 := stored_at hf (by omega) a2 (blk_other (by omega) (by omega) l2.other (hh 1 (by omega))) l3
  have l4 := pL j.env s3 (u := 2) (by omega)
  generalize exec j.env (procL (4 * 2)) s3 = s4 at *
  have a4 := stored_at hf (by omega) a3
    (blk_other (by omega) (by omega) l3.other (blk_other (by omega) (by omega) l2.other (hh 2 (by omega)))) l4
  have l5 := pL j.env s4 (u := 3) (by omega)
  generalize exec j.env (procL (4 * 3)) s4 = s5 at *
  have a5 := stored_at hf (by omega) a4
    (blk_other (by omega) (by omega) l4.other (blk_other (by omega) (by omega) l3.other (blk_other (by omega) (by omega) l2.other (hh 3 (by omega))))) l5
  refine ⟨s5, rr, a5, ?_⟩
  rw [l5.same.get (by decide), l4.same.get (by decide), l3.same.get (by decide), l2.same.get (by decide)]

theorem loops64 {j : PJob} (hf : Fits j) : ∀ k n s, n + 1 + k = full64 j → At j (16 * n) (j.pos (4 * n + 4)) s → Blks j (4 * n) s →
    s.x 1 = .int (64 * (n + 1)) → s.x 2 = .int (64 * full64 j) →
    ∃ s', Reach j.env dpackCode ((if full64 j = n + 1 then 3 else 2), s) (4, s') ∧
      At j (4 * (4 * full64 j)) (j.pos (4 * full64 j)) s' ∧ s'.x 1 = .int (16 * (4 * full64 j)) := by
  intro k
  induction k with
  | zero =>
    intro n s hn h hh hx1 _
    obtain ⟨s', r, a, x⟩ := last64 hf h hh (by omega)
    rw [if_pos (by omega)]
    refine ⟨s', r, ?_, ?_⟩
    · rw [show 4 * full64 j = 4 * n + 4 by omega]; exact a
    · rw [x, hx1, show 16 * (4 * full64 j) = 64 * (n + 1) by omega]
  | succ k ih =>
    intro n s hn h hh hx1 hx2
    obtain ⟨s1, r, h1, h2, h3, h4⟩ := loop64 hf h hh hx1 hx2 (by omega)
    obtain ⟨s', r', h'⟩ := ih (n + 1) _ (by omega) h1 h2 h3 h4
    rw [if_neg (by omega)]
    exact ⟨s', r.trans r', h'⟩

/-- The invariant holds at the start. -/
theorem begin_at {j : PJob} {s s1 : St} (h : j.Start s) (h1 : Same keepP s s1) (h2 : s1.m = s.m)
    (h6 : s1.v 26 = ofB (fun _ => (s.x 60).num)) (h6' : s1.v 27 = ofB (fun _ => 1))
    (h7 : ∀ c, c < 4 → s1.v (28 + c) = fun _ => 0)
    (h8 : s1.bad = (s.bad || (s.x 60).isPtr || false || (s.x 58).isPtr)) : At j 0 (j.pos 0) s1 := by
  refine ⟨fun c hc => ?_, ?_, ?_, fun c hc => ?_, ?_, ?_, ?_, fun c hc => ?_, fun b hb => ?_, fun b hb => ?_, ?_⟩
  · rw [h1.get (by interval_cases c <;> decide)]; exact h.src c hc
  · rw [h1.get (by decide)]; exact h.packed
  · rw [h1.get (by decide)]; exact h.sums
  · rw [h1.get (by interval_cases c <;> decide)]; exact h.inc c hc
  · rw [h1.get (by decide)]; exact h.rows
  · rw [h1.get (by decide)]; exact h.zp
  · rw [h2, h.mem, stored_zero]
  · unfold total
    rw [show s1.v 28 = _ from h7 0 (by omega), show s1.v 29 = _ from h7 1 (by omega), show s1.v 30 = _ from h7 2 (by omega),
      show s1.v 31 = _ from h7 3 (by omega), getS_zero]; rfl
  · rw [h6, h.xor]
    exact nat_byte _
  · rw [h6']
    exact nat_byte 1
  · rw [h8, h.ok, h.xor, h.rows]; rfl

/-- `Pack8bitColMajorForNeonDotprod`. -/
theorem generic {j : PJob} (hf : Fits j) {s : St} (h : j.Start s) : ∃ s', Stops j.env dpackCode s s' ∧ Result j s' := by
  have hr := hf.rows
  obtain ⟨h1, h2, h3, h4, h5, h6, h6', h7, h8⟩ := p0 j.env s 4294967232 (l := dpack0.body) rfl
  have nx : ∀ l, (bif (exec j.env dpack0.body s).z then 4 else 1) = l → Reach j.env dpackCode (0, s) (l, exec j.env dpack0.body s) :=
    fun l hl => Reach.block (b := dpack0) rfl hl
  generalize exec j.env dpack0.body s = s1 at *
  have inv := begin_at h h1 h2 h6 h6' h7 h8
  rw [h.rows] at h4 h5
  change s1.x 2 = .int (j.rows % 2 ^ 32 &&& 4294967232) at h4
  change s1.z = Nat.beq (j.rows % 2 ^ 32 &&& 4294967232) 0 at h5
  rw [and_64 hr] at h4 h5
  have hle := full64_le j
  have key : ∃ s2, Reach j.env dpackCode (0, s) (4, s2) ∧ At j (4 * (4 * full64 j)) (j.pos (4 * full64 j)) s2 ∧
      s2.x 1 = .int (16 * (4 * full64 j)) := by
    by_cases h0 : full64 j = 0
    · refine ⟨s1, nx 4 ?_, ?_, ?_⟩
      · rw [h5, beq_zero, show 64 * (j.rows / 64) = 0 by unfold full64 at h0; omega]; rfl
      · rw [h0]; exact inv
      · rw [h0]; exact h3
    · have r := nx 1 (by rw [h5, beq_zero, decide_eq_false (by unfold full64 at h0; omega)]; rfl)
      obtain ⟨s2, r2, a1, a2, a3, a4⟩ := first64 hf inv h3 h4 (by omega)
      obtain ⟨s', r', h'⟩ := loops64 hf (full64 j - 1) 0 _ (by omega) a1 a2 a3 a4
      exact ⟨s', (r.trans r2).trans r', h'⟩
  obtain ⟨s2, r2, a2, x2⟩ := key
  obtain ⟨s3, r3, a3⟩ := part16 hf a2 x2 hle
  obtain ⟨s4, r4, d⟩ := restD.tail hf a3
  exact restD.finish hf ((r2.trans r3).trans r4) d

/-! ### `Pack8bitColMajorForNeonDotprodA55ish` -/

def keep1 : List Nat := [2, 52, 53, 54, 55, 56, 57, 58, 59, 60]

theorem q1 (e : Env) (s : St) : Same keep1 s (exec e dpackA1.body s) ∧ (exec e dpackA1.body s).m = s.m ∧
    (exec e dpackA1.body s).x 1 = .int (((s.x 1).num + 16) % 2 ^ 32) ∧
    (∀ c, c < 4 → (exec e dpackA1.body s).x (48 + c) = addVal (s.x (48 + c)) (s.x (54 + c)).num) ∧
    (∀ c, c < 4 → (exec e dpackA1.body s).v c = lower (bytes s (s.x (48 + c)) 0)) ∧
    (∀ c, c < 4 → (exec e dpackA1.body s).x (10 + c) = .int (le8 (bytes s (s.x (48 + c)) 8) 0)) ∧
    (∀ c, c < 4 → (exec e dpackA1.body s).v (28 + c) = s.v (28 + c)) ∧
    (exec e dpackA1.body s).v 26 = s.v 26 ∧ (exec e dpackA1.body s).v 27 = s.v 27 ∧
    (exec e dpackA1.body s).z = decide (sgn (((s.x 1).num + 16) % 2 ^ 32) = sgn (s.x 2).num) ∧
    (exec e dpackA1.body s).bad = (s.bad || (s.x 1).isPtr || out e (s.x 48) 8 8 || (s.x 54).isPtr || out e (s.x 48) 0 8 ||
      out e (s.x 49) 8 8 || (s.x 55).isPtr || out e (s.x 49) 0 8 || out e (s.x 50) 8 8 || (s.x 56).isPtr || out e (s.x 50) 0 8 ||
      out e (s.x 51) 8 8 || (s.x 57).isPtr || out e (s.x 51) 0 8 || false || (s.x 2).isPtr) := by
  cases s
  exact ⟨by keep, rfl, rfl, by intro c hc; interval_cases c <;> rfl, by intro c hc; interval_cases c <;> rfl,
    by intro c hc; interval_cases c <;> rfl, by intro c hc; interval_cases c <;> rfl, rfl, rfl, rfl, rfl⟩

theorem q2 (e : Env) (s : St) : Same (2 :: keepA) s (exec e dpackA2.body s) ∧
    Proc (fun c => eorV (joined (s.v c) (s.x (10 + c))) (s.v 26)) s (exec e dpackA2.body s) ∧
    (exec e dpackA2.body s).x 1 = .int (((s.x 1).num + 16) % 2 ^ 32) ∧
    (∀ c, c < 4 → (exec e dpackA2.body s).x (48 + c) = addVal (s.x (48 + c)) (s.x (54 + c)).num) ∧
    (∀ c, c < 4 → (exec e dpackA2.body s).v c = lower (bytes s (s.x (48 + c)) 0)) ∧
    (∀ c, c < 4 → (exec e dpackA2.body s).x (10 + c) = .int (le8 (bytes s (s.x (48 + c)) 8) 0)) ∧
    (exec e dpackA2.body s).z = decide (sgn (((s.x 1).num + 16) % 2 ^ 32) = sgn (s.x 2).num) ∧
    (exec e dpackA2.body s).bad = (s.bad || (s.x 1).isPtr || (s.x 10).isPtr || out e (s.x 48) 8 8 ||
      (s.x 11).isPtr || out e (s.x 49) 8 8 || (s.x 12).isPtr || out e (s.x 50) 8 8 || (s.x 13).isPtr || out e (s.x 51) 8 8 ||
      (s.x 54).isPtr || out e (s.x 48) 0 8 || (s.x 55).isPtr || out e (s.x 49) 0 8 || (s.x 56).isPtr || out e (s.x 50) 0 8 ||
      (s.x 57).isPtr || out e (s.x 51) 0 8 || false || (s.x 2).isPtr || out e (s.x 52) 0 16 || out e (s.x 52) 32 16 ||
      out e (s.x 52) 64 16 || out e (s.x 52) 96 16) := by
  cases s
  exact ⟨by keep, ⟨rfl, rfl, rfl, rfl, rfl, rfl, rfl, rfl⟩, rfl, by intro c hc; interval_cases c <;> rfl,
    by intro c hc; interval_cases c <;> rfl, by intro c hc; interval_cases c <;> rfl, rfl, rfl⟩

theorem q3 (e : Env) (s : St) : Same keepL s (exec e dpackA3.body s) ∧
    Proc (fun c => eorV (joined (s.v c) (s.x (10 + c))) (s.v 26)) s (exec e dpackA3.body s) ∧
    (exec e dpackA3.body s).bad = (s.bad || (s.x 10).isPtr || (s.x 11).isPtr || (s.x 12).isPtr || (s.x 13).isPtr ||
      out e (s.x 52) 0 16 || out e (s.x 52) 32 16 || out e (s.x 52) 64 16 || out e (s.x 52) 96 16) := by
  cases s
  exact ⟨by keep, ⟨rfl, rfl, rfl, rfl, rfl, rfl, rfl, rfl⟩, rfl⟩

theorem joined_entry {j : PJob} {t n : Nat} {p : Nat → Nat} {s : St} (h : At j n p s) (ht : t < j.full) (hh : HeldA j t s) :
    ∀ c, c < 4 → ∀ b, b < 16 → eorV (joined (s.v c) (s.x (10 + c))) (s.v 26) b = j.entry c (16 * t + b) := by
  intro c hc b hb
  unfold eorV joined
  rw [h.x26 b hb, entry_full j c ht hb]
  congr 1
  by_cases h8 : b < 8
  · rw [if_neg (by omega), hh.lo c hc b h8]
  · obtain ⟨f, h1, h2⟩ := hh.hi c hc
    rw [if_pos (by omega), h1]
    show numByte (le8 f 0) _ = _
    rw [numByte_le8 f (by omega), h2 _ (by omega), show j.pos t c + 8 + b % 8 = j.pos t c + b by omega]

theorem firstA {j : PJob} (hf : Fits j) {s : St} (h : At j 0 (j.pos 0) s) (hx1 : s.x 1 = .int 0)
    (hx2 : s.x 2 = .int (16 * j.full)) (hn : 0 < j.full) : ∃ s', Reach j.env dpackACode (1, s) (if j.full = 1 then 3 else 2, s') ∧
      At j (4 * 0) (j.pos 1) s' ∧ HeldA j 0 s' ∧ s'.x 1 = .int (16 * 1) ∧ s'.x 2 = .int (16 * j.full) := by
  obtain ⟨h1, h2, h3, h4, h5, h5', h6, h7, h7', h8, h9⟩ := q1 j.env s
  have rr : ∀ l, (bif (exec j.env dpackA1.body s).z then 3 else 2) = l → Reach j.env dpackACode (1, s) (l, exec j.env dpackA1.body s) :=
    fun l hl => Reach.block (b := dpackA1) rfl hl
  generalize exec j.env dpackA1.body s = s' at *
  rw [hx1] at h3 h8
  rw [hx2] at h8
  change s'.z = decide (sgn (16 * 1) = sgn (16 * j.full)) at h8
  rw [count_eq hf (by omega) (le_refl _), show decide (1 = j.full) = decide (j.full = 1) by rw [decide_eq_decide]; omega] at h8
  have a := h.of (p' := j.pos 1) (h1.sub (by decide)) h2 h6 h7 h7' (fun c hc => by
      rw [h4 c hc, h.src c hc, h.inc c hc]
      show Val.ptr _ _ = _
      rw [← pos_succ]; rfl) (by
    rw [h9, h.ok, hx1, hx2, outs (c := 0) (o := 0) hf (by omega) hn h rfl (by omega),
        outs (c := 1) (o := 0) hf (by omega) hn h rfl (by omega),
        outs (c := 2) (o := 0) hf (by omega) hn h rfl (by omega), outs (c := 3) (o := 0) hf (by omega) hn h rfl (by omega),
        outs (c := 0) (o := 8) hf (by omega) hn h rfl (by omega), outs (c := 1) (o := 8) hf (by omega) hn h rfl (by omega),
        outs (c := 2) (o := 8) hf (by omega) hn h rfl (by omega), outs (c := 3) (o := 8) hf (by omega) hn h rfl (by omega),
        incs (c := 0) (by omega) h, incs (c := 1) (by omega) h, incs (c := 2) (by omega) h, incs (c := 3) (by omega) h]
    rfl)
  refine ⟨s', rr _ (next_of h8), a, ⟨fun c hc b hb => ?_, fun c hc => ⟨_, h5' c hc, fun b hb => ?_⟩⟩, h3,
    by rw [h1.get (by decide)]; exact hx2⟩
  · rw [h5 c hc]
    unfold lower
    rw [if_pos hb, src_byte hf hc h rfl]; rfl
  · rw [src_byte hf hc h rfl]

theorem loopA {j : PJob} (hf : Fits j) {t : Nat} {s : St} (h : At j (4 * t) (j.pos (t + 1)) s) (hh : HeldA j t s)
    (hx1 : s.x 1 = .int (16 * (t + 1))) (hx2 : s.x 2 = .int (16 * j.full)) (hn : t + 1 < j.full) :
    ∃ s', Reach j.env dpackACode (2, s) (if j.full = t + 2 then 3 else 2, s') ∧
      At j (4 * (t + 1)) (j.pos (t + 2)) s' ∧ HeldA j (t + 1) s' ∧ s'.x 1 = .int (16 * (t + 2)) ∧ s'.x 2 = .int (16 * j.full) := by
  obtain ⟨h1, h2, h3, h4, h5, h5', h8, h9⟩ := q2 j.env s
  have rr : ∀ l, (bif !(exec j.env dpackA2.body s).z then 2 else 3) = l → Reach j.env dpackACode (2, s) (l, exec j.env dpackA2.body s) :=
    fun l hl => Reach.block (b := dpackA2) rfl hl
  generalize exec j.env dpackA2.body s = s' at *
  have hr := hf.rows
  rw [hx1] at h3 h8
  rw [hx2] at h8
  change s'.x 1 = .int ((16 * (t + 1) + 16) % 2 ^ 32) at h3
  change s'.z = decide (sgn ((16 * (t + 1) + 16) % 2 ^ 32) = sgn (16 * j.full)) at h8
  rw [show (16 * (t + 1) + 16) % 2 ^ 32 = 16 * (t + 2) by unfold PJob.full at hn; omega] at h3 h8
  rw [count_eq hf hn (le_refl _), show decide (t + 2 = j.full) = decide (j.full = t + 2) by rw [decide_eq_decide]; omega] at h8
  obtain ⟨o0, o1, o2, o3⟩ := outq hf (by omega) h
  have a := h2.at (p' := j.pos (t + 2)) h (joined_entry h (by omega) hh) (h1.sub (by decide)) (fun c hc => by
      rw [h4 c hc, h.src c hc, h.inc c hc]
      show Val.ptr _ _ = _
      rw [← pos_succ j (t + 1)]; rfl) (by
    rw [h9, h.ok, hx1, hx2, outs (c := 0) (o := 0) hf (by omega) hn h rfl (by omega),
        outs (c := 1) (o := 0) hf (by omega) hn h rfl (by omega),
        outs (c := 2) (o := 0) hf (by omega) hn h rfl (by omega), outs (c := 3) (o := 0) hf (by omega) hn h rfl (by omega),
        outs (c := 0) (o := 8) hf (by omega) hn h rfl (by omega), outs (c := 1) (o := 8) hf (by omega) hn h rfl (by omega),
        outs (c := 2) (o := 8) hf (by omega) hn h rfl (by omega), outs (c := 3) (o := 8) hf (by omega) hn h rfl (by omega),
        PJob.held_ptr (c := 0) (by omega) hh, PJob.held_ptr (c := 1) (by omega) hh, PJob.held_ptr (c := 2) (by omega) hh,
        PJob.held_ptr (c := 3) (by omega) hh,
        incs (c := 0) (by omega) h, incs (c := 1) (by omega) h, incs (c := 2) (by omega) h, incs (c := 3) (by omega) h, o0, o1, o2, o3]
    rfl)
  refine ⟨s', rr _ (next_ne h8), a, ⟨fun c hc b hb => ?_, fun c hc => ⟨_, h5' c hc, fun b hb => ?_⟩⟩, h3,
    by rw [h1.get (by decide)]; exact hx2⟩
  · rw [h5 c hc]
    unfold lower
    rw [if_pos hb, src_byte hf hc h rfl]; rfl
  · rw [src_byte hf hc h rfl]

theorem loopsA {j : PJob} (hf : Fits j) : ∀ n t s, t + 1 + n = j.full → At j (4 * t) (j.pos (t + 1)) s → HeldA j t s →
    s.x 1 = .int (16 * (t + 1)) → s.x 2 = .int (16 * j.full) →
    ∃ s', Reach j.env dpackACode ((if j.full = t + 1 then 3 else 2), s) (4, s') ∧ At j (4 * j.full) (j.pos j.full) s' := by
  intro n
  induction n with
  | zero =>
    intro t s hn h hh _ _
    obtain ⟨k1, k2, k3⟩ := q3 j.env s
    rw [if_pos (by omega)]
    refine ⟨exec j.env dpackA3.body s, Reach.block (b := dpackA3) rfl rfl, ?_⟩
    generalize exec j.env dpackA3.body s = s' at *
    obtain ⟨o0, o1, o2, o3⟩ := outq hf (by omega) h
    rw [show j.full = t + 1 by omega]
    refine k2.at h (joined_entry h (by omega) hh) (k1.sub (by decide)) (fun c hc => ?_) ?_
    · rw [k1.get (by interval_cases c <;> decide)]; exact h.src c hc
    · rw [k3, h.ok, o0, o1, o2, o3, PJob.held_ptr (c := 0) (by omega) hh, PJob.held_ptr (c := 1) (by omega) hh,
        PJob.held_ptr (c := 2) (by omega) hh, PJob.held_ptr (c := 3) (by omega) hh]
      rfl
  | succ n ih =>
    intro t s hn h hh hx1 hx2
    obtain ⟨s1, r, h1, h2, h3, h4⟩ := loopA hf h hh hx1 hx2 (by omega)
    obtain ⟨s', r', h'⟩ := ih (t + 1) _ (by omega) h1 h2 h3 h4
    rw [if_neg (by omega)]
    exact ⟨s', r.trans r', h'⟩

/-- `Pack8bitColMajorForNeonDotprodA55ish`. -/
theorem a55ish {j : PJob} (hf : Fits j) {s : St} (h : j.Start s) : ∃ s', Stops j.env dpackACode s s' ∧ Result j s' := by
  have hr := hf.rows
  obtain ⟨h1, h2, h3, h4, h5, h6, h6', h7, h8⟩ := p0 j.env s 4294967280 (l := dpackA0.body) rfl
  have nx : ∀ l, (bif (exec j.env dpackA0.body s).z then 4 else 1) = l → Reach j.env dpackACode (0, s) (l, exec j.env dpackA0.body s) :=
    fun l hl => Reach.block (b := dpackA0) rfl hl
  generalize exec j.env dpackA0.body s = s1 at *
  have inv := begin_at h h1 h2 h6 h6' h7 h8
  rw [h.rows] at h4 h5
  change s1.x 2 = .int (j.rows % 2 ^ 32 &&& 4294967280) at h4
  change s1.z = Nat.beq (j.rows % 2 ^ 32 &&& 4294967280) 0 at h5
  rw [and_high hr] at h4 h5
  have key : ∃ s2, Reach j.env dpackACode (0, s) (4, s2) ∧ At j (4 * j.full) (j.pos j.full) s2 := by
    by_cases h0 : j.full = 0
    · refine ⟨s1, nx 4 ?_, ?_⟩
      · rw [h5, beq_zero, show 16 * (j.rows / 16) = 0 by unfold PJob.full at h0; omega]; rfl
      · rw [h0]; exact inv
    · have r := nx 1 (by rw [h5, beq_zero, decide_eq_false (by unfold PJob.full at h0; omega)]; rfl)
      obtain ⟨s2, r2, a1, a2, a3, a4⟩ := firstA hf inv h3 h4 (by omega)
      obtain ⟨s', r', h'⟩ := loopsA hf (j.full - 1) 0 _ (by omega) a1 a2 a3 a4
      exact ⟨s', (r.trans r2).trans r', h'⟩
  obtain ⟨s2, r2, a2⟩ := key
  obtain ⟨s3, r3, d⟩ := restA.tail hf a2
  exact restA.finish hf (r2.trans r3) d

end Ruy.Neon.DPack

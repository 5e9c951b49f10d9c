import Verif.NeonF.AccumFlt
/-
The depth loops of the AArch64 float kernels for in-order processors, `KernelFloatNeonA55ish` and
`KernelFloatNeonDotprodA55ish`: the operands are loaded in halves and register 1 counts downwards.
-/
namespace Ruy.NeonF
open Ruy.Neon (lhsColPtr rhsColPtr lhsPtr rhsPtr dstColPtr dstPtr rRow rCol rDstRows rDstCols tmpBuf sgn sgn_of)
variable {A : Type}

/-- A register loaded in halves from byte `o` of `p`. -/
def halves (e : Env A) (s : St A) (p : Val A) (o : Nat) : Vec A := fun i =>
  bif Nat.beq (i / 2) 1 then bif Nat.beq (i % 2) 0 then words s p (o + 8) 0 else words s p (o + 8) 1
  else lower e.ops.zero (words s p o) i

theorem halves_eq {j : Job A} {e : Env A} {s : St A} {r : Region} {a o b i : Nat} (h : s.m r = j.m r) (hi : i < 4)
    (ho : 4 * a + o = 4 * b) : halves e s (.ptr r (4 * a)) o i = j.m r (b + i) := by
  have h8 : 4 * a + (o + 8) = 4 * (b + 2) := by omega
  unfold halves
  rw [words_eq h ho, words_eq h h8]
  unfold Job.vec
  interval_cases i <;> rfl

/-- Register 1 of the kernels for in-order processors. -/
structure Half (e : Env A) (s s1 : St A) (a b : Nat) : Prop where
  same : Same keepLoop s s1
  m : s1.m = s.m
  x1 : s1.x 1 = .int (((s.x 1).num + 2 ^ 32 - 1) % 2 ^ 32)
  z : s1.z = decide (sgn (s.x 1).num = sgn 1)
  lp : s1.x lhsPtr = .ptr .lhs (a + 32)
  rp : s1.x rhsPtr = .ptr .rhs (b + 32)
  bad : s.bad = false → (s.x 1).isInt = true → (∀ o, o % 8 = 0 → o ≤ 24 → out e (.ptr .lhs a) o 2 = false) →
    outN e (.ptr .lhs (a + 32)) 16 2 = false → (∀ o, o % 8 = 0 → o ≤ 24 → out e (.ptr .rhs b) o 2 = false) → s1.bad = false
  d0 : ∀ i, i < 4 → s1.v 0 i = halves e s (.ptr .lhs a) 0 i
  d1 : ∀ i, i < 4 → s1.v 1 i = bif Nat.beq (i / 2) 1 then
      (bif Nat.beq (i % 2) 0 then words s (.ptr .lhs a) 24 0 else words s (.ptr .lhs a) 24 1)
    else lower e.ops.zero (wordsN s (.ptr .lhs (a + 32)) 16) i
  d2 : ∀ i, i < 4 → s1.v 2 i = halves e s (.ptr .rhs b) 0 i
  d3 : ∀ i, i < 4 → s1.v 3 i = halves e s (.ptr .rhs b) 16 i
  first : ∀ w, w < 4 → ∀ i, s1.v (16 + 2 * w + 0) i =
    e.ops.fma (s.v (16 + 2 * w + 0) i) (halves e s (.ptr .lhs a) 0 i) (halves e s (.ptr .rhs b) 0 w)
  others : ∀ w, w < 8 → ∀ h, h < 2 → ¬Quarter h w → ∀ i, s1.v (16 + 2 * w + h) i =
    e.ops.fma (s.v (16 + 2 * w + h) i) (s.v h i) (s.v (2 + w / 4) (w % 4))

set_option maxRecDepth 8000 in
theorem fa2h (e : Env A) (s : St A) (a b : Nat) :
    Half e s (exec e fa2.body (at2 s (.ptr .lhs a) (.ptr .rhs b))) a b := by
  obtain ⟨x, v, m, z, lt, bad⟩ := s
  refine ⟨by keep, rfl, rfl, rfl, rfl, rfl, ?_, ?_, ?_, ?_, ?_, ?_, ?_⟩
  · intro h1 h2 h3 h4 h5
    simp only [] at h1 h2
    have e1 := h3 0 rfl (by omega)
    have e2 := h3 8 rfl (by omega)
    have e3 := h3 24 rfl (by omega)
    have f1 := h5 0 rfl (by omega)
    have f2 := h5 8 rfl (by omega)
    have f3 := h5 16 rfl (by omega)
    have f4 := h5 24 rfl (by omega)
    show (bad || out e (.ptr .lhs a) 8 2 || out e (.ptr .lhs a) 24 2 || out e (.ptr .rhs b) 24 2 || out e (.ptr .rhs b) 8 2 ||
      !(x 1).isInt || out e (.ptr .lhs a) 0 2 || !true || out e (.ptr .rhs b) 16 2 || !true || out e (.ptr .rhs b) 0 2 || !true ||
      outN e (.ptr .lhs (a + 32)) 16 2 || !true) = false
    rw [h1, h2, e1, e2, e3, f1, f2, f3, f4, h4]
    rfl
  · intro i hi; interval_cases i <;> rfl
  · intro i hi; interval_cases i <;> rfl
  · intro i hi; interval_cases i <;> rfl
  · intro i hi; interval_cases i <;> rfl
  · intro w hw i; interval_cases w <;> rfl
  · intro w hw h hh hn i
    interval_cases h <;> interval_cases w <;> first | exact absurd ⟨rfl, by decide⟩ hn | rfl

set_option maxRecDepth 8000 in
theorem fd2h (e : Env A) (s : St A) (a b : Nat) :
    Half e s (exec e fd2.body (at2 s (.ptr .lhs a) (.ptr .rhs b))) a b := by
  obtain ⟨x, v, m, z, lt, bad⟩ := s
  refine ⟨by keep, rfl, rfl, rfl, rfl, rfl, ?_, ?_, ?_, ?_, ?_, ?_, ?_⟩
  · intro h1 h2 h3 h4 h5
    simp only [] at h1 h2
    have e1 := h3 0 rfl (by omega)
    have e2 := h3 8 rfl (by omega)
    have e3 := h3 24 rfl (by omega)
    have f1 := h5 0 rfl (by omega)
    have f2 := h5 8 rfl (by omega)
    have f3 := h5 16 rfl (by omega)
    have f4 := h5 24 rfl (by omega)
    show (bad || out e (.ptr .lhs a) 8 2 || out e (.ptr .lhs a) 24 2 || out e (.ptr .rhs b) 24 2 || out e (.ptr .lhs a) 0 2 ||
      out e (.ptr .rhs b) 8 2 || !(x 1).isInt || !true || out e (.ptr .rhs b) 16 2 || !true || out e (.ptr .rhs b) 0 2 || !true ||
      outN e (.ptr .lhs (a + 32)) 16 2 || !true) = false
    rw [h1, h2, e1, e2, e3, f1, f2, f3, f4, h4]
    rfl
  · intro i hi; interval_cases i <;> rfl
  · intro i hi; interval_cases i <;> rfl
  · intro i hi; interval_cases i <;> rfl
  · intro i hi; interval_cases i <;> rfl
  · intro w hw i; interval_cases w <;> rfl
  · intro w hw h hh hn i
    interval_cases h <;> interval_cases w <;> first | exact absurd ⟨rfl, by decide⟩ hn | rfl

theorem dec_eq {d p : Nat} (h1 : d < 2 ^ 31) (h2 : p < d) : (d - p + 2 ^ 32 - 1) % 2 ^ 32 = d - (p + 1) := by omega

/-- A step of the loop. -/
theorem half_step {j : Job A} {a b p : Nat} {s s' s1 : St A} (hf : j.depth < 2 ^ 31) (hd : Readable j a b s)
    (hp : p < j.depth) {R O : List Nat} {g : Nat} (h : Loop j a b R O g 1 p s s') (h1 : s'.x 1 = .int (j.depth - p))
    (k : Half j.env s' s1 (4 * (a + 8 * p)) (4 * (b + 8 * p))) :
    Level j a b p s' s1 ∧ s1.x 1 = .int (j.depth - (p + 1)) ∧ s1.z = decide (p + 1 = j.depth) := by
  have hml : s'.m .lhs = j.m .lhs := by rw [h.m]; exact hd.ml
  have hmr : s'.m .rhs = j.m .rhs := by rw [h.m]; exact hd.mr
  have hl := hd.sl
  have hr := hd.sr
  have el : 4 * (a + 8 * p) + 32 = 4 * (a + 8 * (p + 1)) := by omega
  have er : 4 * (b + 8 * p) + 32 = 4 * (b + 8 * (p + 1)) := by omega
  have hd1 := k.d1
  rw [el] at hd1
  refine ⟨⟨k.same, k.m, ?_, by rw [k.lp, el], by rw [k.rp, er], ?_, ?_, fun w hw u hu hn i _ => k.others w hw u hu hn i⟩, ?_, ?_⟩
  · refine k.bad h.ok (by rw [h1]; rfl) ?_ ?_ ?_
    · intro o h1 h2; exact out_ptr (by omega) (by show _ ≤ j.size .lhs; omega)
    · rw [el]; exact outN_ptr rfl (by omega) (by show _ ≤ j.size .lhs; omega)
    · intro o h1 h2; exact out_ptr (by omega) (by show _ ≤ j.size .rhs; omega)
  · intro u hu q hq i hi
    obtain rfl : u = 0 := by omega
    rw [Nat.mul_zero, Nat.zero_add]
    have e0 : halves j.env s' (.ptr .lhs (4 * (a + 8 * p))) 0 i = j.m .lhs (a + 8 * p + i) := halves_eq hml hi rfl
    have e2 : halves j.env s' (.ptr .rhs (4 * (b + 8 * p))) 0 i = j.m .rhs (b + 8 * p + i) := halves_eq hmr hi rfl
    have e3 : halves j.env s' (.ptr .rhs (4 * (b + 8 * p))) 16 i = j.m .rhs (b + 8 * p + 4 + i) := halves_eq hmr hi (by omega)
    have w1 : words s' (.ptr .lhs (4 * (a + 8 * p))) 24 = j.vec .lhs (a + 8 * p + 6) := words_eq hml (by omega)
    have w2 : wordsN s' (.ptr .lhs (4 * (a + 8 * (p + 1)))) 16 = j.vec .lhs (a + 8 * p + 4) := wordsN_eq hml (by omega)
    have e1 : s1.v 1 i = j.m .lhs (a + 8 * p + 4 + i) := by
      rw [hd1 i hi, w1, w2]
      unfold Job.vec
      interval_cases i <;> rfl
    rw [← k.d0 i hi] at e0
    rw [← k.d2 i hi] at e2
    rw [← k.d3 i hi] at e3
    interval_cases q
    · exact ⟨e0.trans (congrArg _ (by omega)), e2.trans (congrArg _ (by omega))⟩
    · exact ⟨e1.trans (congrArg _ (by omega)), e3.trans (congrArg _ (by omega))⟩
  · intro w hw i hi
    rw [k.first w hw i, halves_eq hml hi (b := a + 8 * p) rfl, halves_eq hmr hw (b := b + 8 * p) rfl]
    rfl
  · rw [k.x1, h1]
    exact congrArg Val.int (dec_eq (by omega) (by omega))
  · rw [k.z, h1]
    show decide (sgn (j.depth - p) = sgn 1) = _
    rw [sgn_of (by omega), sgn_of (by omega), decide_eq_decide]
    omega

/-- Label 2: the levels from `p` on; `n + 1` of them. -/
theorem half_all {P : List Block} {l l' : Nat} {b2 : Block} (h2 : P[l]? = some b2)
    (hb : ∀ (e : Env A) (s : St A) (a b : Nat), Half e s (exec e b2.body (at2 s (.ptr .lhs a) (.ptr .rhs b))) a b)
    (ht : b2.term = .br .ne l l') {j : Job A} {a b : Nat} {R O : List Nat} {g p n : Nat} {s s' : St A} (hf : j.depth < 2 ^ 31)
    (hd : Readable j a b s) (hp : p + (n + 1) = j.depth) (h : Loop j a b R O g 1 p s s')
    (h1 : s'.x 1 = .int (j.depth - p)) :
    ∃ s'' O' g', Reach j.env P (l, s') (l', s'') ∧ O' ++ [g'] = O ++ [g] ++ levels p (n + 1) ∧
      Loop j a b (R ++ levels p (n + 1)) O' g' 1 j.depth s s'' := by
  induction n generalizing p g s' R O with
  | zero =>
    have k := hb j.env s' (4 * (a + 8 * p)) (4 * (b + 8 * p))
    rw [at2_eq h.lp h.rp] at k
    obtain ⟨v, h1', hl⟩ := half_step hf hd (by omega) h h1 k
    refine ⟨_, O ++ [g], p, Reach.block h2 ?_, rfl, hp ▸ h.step v⟩
    rw [ht]
    show (bif !(exec j.env b2.body s').z then l else l') = l'
    rw [hl, decide_eq_true hp]; rfl
  | succ n ih =>
    have k := hb j.env s' (4 * (a + 8 * p)) (4 * (b + 8 * p))
    rw [at2_eq h.lp h.rp] at k
    obtain ⟨v, h1', hl⟩ := half_step hf hd (by omega) h h1 k
    obtain ⟨s'', O', g', r, e, l''⟩ := ih (by omega) (h.step v) h1'
    refine ⟨s'', O', g', Reach.trans (Reach.block h2 (l := l) ?_) r, ?_, ?_⟩
    · rw [ht]
      show (bif !(exec j.env b2.body s').z then l else l') = l
      rw [hl, decide_eq_false (by omega)]; rfl
    · rw [e, levels_cons p (n + 1)]; simp
    · rw [levels_cons p (n + 1)]; simpa using l''

theorem fa3x (e : Env A) (s : St A) : Same keepLoop s (exec e fa3.body s) ∧ (exec e fa3.body s).m = s.m ∧
    (exec e fa3.body s).x 5 = e.field .lhsBasePtr ∧
    (exec e fa3.body s).bad = (s.bad || !(s.x rRow).isInt || !(s.x 7).isInt) ∧
    (exec e fa3.body s).lt = decide (sgn (s.x rRow).num < sgn (s.x 7).num) ∧ (exec e fa3.body s).v = (exec e fx3.body s).v := by
  cases s
  exact ⟨by keep, rfl, rfl, rfl, rfl, rfl⟩

/-- Label 79, where the base pointer is loaded again. -/
theorem last_half {P : List Block} {o : Nat} {b3 : Block} (h3 : P[o]? = some b3) (hb : b3.body = fa3.body)
    (ht : b3.term = .br .ge (o + 2) (o + 1)) {j : Job A} {a b : Nat} {R O : List Nat} {g p : Nat} {s s' : St A} (h : Loop j a b R O g 1 p s s')
    {r c : Nat} (hr : r < 2 ^ 31) (hc : c < 2 ^ 31) (xr : s.x rRow = .int r) (xc : s.x 7 = .int c) :
    ∃ s'', Reach j.env P (o, s') (bif decide (r < c) then o + 1 else o + 2, s'') ∧ Done j a b R (O ++ [g]) s s'' := by
  have xr' : s'.x rRow = .int r := (h.same.get (by decide)).trans xr
  have xc' : s'.x 7 = .int c := (h.same.get (by decide)).trans xc
  obtain ⟨v1, v2⟩ := fx3v j.env s'
  obtain ⟨k1, k2, k3, k4, k5, k6⟩ := fa3x j.env s'
  rw [← k6] at v1 v2
  rw [xr', xc', sgn_lt hr hc] at k5
  refine ⟨_, Reach.block h3 ?_, hb ▸ h.done k1 k2 k3 (by rw [k4, h.ok, xr', xc']; rfl) v1 v2⟩
  rw [hb, ht]
  show (bif !(exec j.env fa3.body s').lt then o + 2 else o + 1) = _
  rw [k5]
  cases decide (r < c) <;> rfl

theorem fa1x (e : Env A) (s : St A) : Same keepLoop s (exec e fa1.body s) ∧ (exec e fa1.body s).m = s.m ∧
    (exec e fa1.body s).x = s.x ∧ (exec e fa1.body s).bad = (s.bad || !(s.x 1).isInt) ∧
    (exec e fa1.body s).z = decide (sgn (s.x 1).num = sgn 0) ∧ (exec e fa1.body s).v = (exec e fx1.body s).v := by
  cases s
  exact ⟨by keep, rfl, rfl, rfl, rfl, rfl⟩

theorem half_acc {P : List Block} (p1 : P[1]? = some fa1) {b2 : Block} (p2 : P[2]? = some b2) (t2 : b2.term = .br .ne 2 3)
    (h2 : ∀ {A : Type} (e : Env A) (s : St A) (a b : Nat), Half e s (exec e b2.body (at2 s (.ptr .lhs a) (.ptr .rhs b))) a b)
    (p3 : P[3]? = some fa3) : Accumulates P 3 (fun d => d - 1) inOrder := by
  intro A j a b s r c hf hpos hd x12 x1 x5 hr hc xr xc h
  have x1 : s.x 1 = .int (j.depth - 1) := x1
  obtain ⟨v1, v2, v3⟩ := fx1v j.env s
  obtain ⟨k1, k2, k3, k4, k5, k6⟩ := fa1x j.env s
  rw [← k6] at v1 v2 v3
  have nx : ∀ l, (bif (exec j.env fa1.body s).z then 3 else 2) = l →
      Reach j.env P (1, s) (l, exec j.env fa1.body s) := fun l hl => Reach.block (b := fa1) p1 hl
  have l1 := h.quarter k1 k2 (by rw [k3]) (by rw [k3]) (by rw [k4, h.ok, x1]; rfl) v1 v2 v3
  have k5 : (exec j.env fa1.body s).z = decide (1 = j.depth) := by
    rw [k5, x1]
    show decide (sgn (j.depth - 1) = sgn 0) = _
    rw [sgn_of (by omega), sgn_of (by omega), decide_eq_decide]
    omega
  generalize exec j.env fa1.body s = s1 at *
  by_cases h1 : 1 = j.depth
  · have r1 := nx 3 (by rw [k5, decide_eq_true h1]; rfl)
    obtain ⟨s2, r2, d2⟩ := last_half (P := P) (b3 := fa3) (o := 3) p3 rfl rfl l1 hr hc xr xc
    refine ⟨s2, r1.trans r2, ?_⟩
    rw [← h1]
    exact d2
  · have r1 := nx 2 (by rw [k5, decide_eq_false h1]; rfl)
    obtain ⟨n, hn⟩ : ∃ n, 1 + (n + 1) = j.depth := ⟨j.depth - 2, by omega⟩
    obtain ⟨s2, O', g', r2, eO, l2⟩ := half_all (P := P) (l := 2) (l' := 3) p2 h2 t2 hf hd hn l1 (by rw [k3]; exact x1)
    obtain ⟨s3, r3, d3⟩ := last_half (P := P) (b3 := fa3) (o := 3) p3 rfl rfl l2 hr hc xr xc
    refine ⟨s3, (r1.trans r2).trans r3, ?_⟩
    rw [eO] at d3
    simp only [List.nil_append] at d3
    rw [range_levels hn] at d3
    exact d3

theorem fa_acc : Accumulates faCode 3 (fun d => d - 1) inOrder := half_acc rfl (b2 := fa2) rfl rfl fa2h rfl
theorem fd_acc : Accumulates fdCode 3 (fun d => d - 1) inOrder := half_acc rfl (b2 := fd2) rfl rfl fd2h rfl

end Ruy.NeonF

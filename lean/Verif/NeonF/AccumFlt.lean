import Verif.NeonF.Accum
/-
The depth loops of the AArch64 float kernels: from label 1 to the end of label 79 of
`KernelFloatNeonX1` and `KernelFloatNeon`.
-/
namespace Ruy.NeonF
open Ruy.Neon (lhsColPtr rhsColPtr lhsPtr rhsPtr dstColPtr dstPtr rRow rCol rDstRows rDstCols tmpBuf sgn sgn_of)
variable {A : Type}

/-- The levels of depth in their natural order. -/
def inOrder (d : Nat) : List Nat := List.range d

/-- The order of `KernelFloatNeon` outside the first quarters of the blocks: if there are 8 levels or
more, the first of the last four levels that the unrolled loop loads is added after the others. -/
def unrolled (d : Nat) : List Nat :=
  if d < 8 then List.range d
  else List.range (4 * (d / 4) - 4) ++ [4 * (d / 4) - 3, 4 * (d / 4) - 2, 4 * (d / 4) - 1, 4 * (d / 4) - 4] ++
    List.range' (4 * (d / 4)) (d - 4 * (d / 4))

/-- What the depth loop of a program does. -/
def Accumulates (P : List Block) (o : Nat) (cnt : Nat → Nat) (ord : Nat → List Nat) : Prop :=
  ∀ {A : Type} (j : Job A) (a b : Nat) (s : St A) (r c : Nat), j.depth < 2 ^ 31 → 1 ≤ j.depth → Readable j a b s →
    s.x 12 = .int j.depth → s.x 1 = .int (cnt j.depth) → s.x 5 = .ptr .lhs (4 * j.lhsBase) → r < 2 ^ 31 → c < 2 ^ 31 →
    s.x rRow = .int r → s.x 7 = .int c → Loop j a b [] [] 0 1 1 s s →
    ∃ s', Reach j.env P (1, s) (bif decide (r < c) then o + 1 else o + 2, s') ∧
      Done j a b (inOrder j.depth) (ord j.depth) s s'

theorem range_levels {d n : Nat} (h : 1 + n = d) : [0] ++ levels 1 n = List.range d := by
  subst h
  rw [List.range_eq_range', Nat.add_comm]
  rfl

theorem append_levels {m n d : Nat} (h : m + n = d) : List.range m ++ levels m n = List.range d := by
  subst h
  rw [List.range_eq_range', List.range_eq_range']
  unfold levels
  have := List.range'_append_1 (s := 0) (m := m) (n := n)
  rw [Nat.zero_add] at this
  exact this

theorem fx_acc : Accumulates fxCode 3 (fun _ => 1) inOrder := by
  intro A j a b s r c hf hpos hd x12 x1 x5 hr hc xr xc h
  have x1 : s.x 1 = .int 1 := x1
  obtain ⟨v1, v2, v3⟩ := fx1v j.env s
  obtain ⟨k1, k2, k3, k4, k5⟩ := fx1x j.env s
  have nx : ∀ l, (bif (exec j.env fx1.body s).z then 3 else 2) = l →
      Reach j.env fxCode (1, s) (l, exec j.env fx1.body s) := fun l hl => Reach.block (b := fx1) rfl hl
  have l1 := h.quarter k1 k2 (by rw [k3]) (by rw [k3]) (by rw [k4, h.ok, x1, x12]; rfl) v1 v2 v3
  rw [x1, x12, sgn_eq (by omega) hf] at k5
  generalize exec j.env fx1.body s = s1 at *
  by_cases h1 : 1 = j.depth
  · have r1 := nx 3 (by rw [k5, decide_eq_true h1]; rfl)
    obtain ⟨s2, r2, d2⟩ := last_level (P := fxCode) (b3 := fx3) (o := 3) rfl rfl rfl l1 (by rw [k3]; exact x5) hr hc xr xc
    refine ⟨s2, r1.trans r2, ?_⟩
    rw [← h1]
    exact d2
  · have r1 := nx 2 (by rw [k5, decide_eq_false h1]; rfl)
    obtain ⟨n, hn⟩ : ∃ n, 1 + (n + 1) = j.depth := ⟨j.depth - 2, by omega⟩
    obtain ⟨s2, O', g', r2, eO, l2, h5⟩ := loop_all (P := fxCode) (b2 := fx2) (l := 2) (l' := 3) rfl rfl rfl hf hd hn x12 l1 (by rw [k3]; exact x1)
    have h5 : s2.x 5 = .ptr .lhs (4 * j.lhsBase) := by rw [h5, k3]; exact x5
    obtain ⟨s3, r3, d3⟩ := last_level (P := fxCode) (b3 := fx3) (o := 3) rfl rfl rfl l2 h5 hr hc xr xc
    refine ⟨s3, (r1.trans r2).trans r3, ?_⟩
    rw [eO] at d3
    simp only [List.nil_append] at d3
    rw [range_levels hn] at d3
    exact d3

/-! ### Four levels at a time -/

theorem and_high {n : Nat} (h : n < 2 ^ 31) : n % 2 ^ 32 &&& 4294967292 = 4 * (n / 4) := by
  rw [Nat.mod_eq_of_lt (by omega)]
  apply Nat.eq_of_testBit_eq
  intro i
  rw [Nat.testBit_and, show 4294967292 = 2 ^ 2 * (2 ^ 30 - 1) from rfl, show 4 * (n / 4) = 2 ^ 2 * (n / 2 ^ 2) from rfl,
    Nat.testBit_two_pow_mul, Nat.testBit_two_pow_mul, Nat.testBit_two_pow_sub_one, Nat.testBit_div_two_pow]
  by_cases h4 : 2 ≤ i
  · have e : i - 2 + 2 = i := by omega
    by_cases h32 : i - 2 < 30
    · simp [h4, h32, e]
    · have : n.testBit i = false := Nat.testBit_lt_two_pow (lt_of_lt_of_le h (Nat.pow_le_pow_right (by omega) (by omega)))
      simp [h4, h32, e, this]
  · simp [h4]

theorem flt2x (e : Env A) (s : St A) : Same keepLoop s (exec e flt2.body s) ∧ (exec e flt2.body s).m = s.m ∧
    (exec e flt2.body s).x 1 = .int 4 ∧ (exec e flt2.body s).x 2 = .int ((s.x 12).num % 2 ^ 32 &&& 4294967292) ∧
    (exec e flt2.body s).x 5 = s.x 5 ∧
    (exec e flt2.body s).x lhsPtr = addN (s.x lhsPtr) 6 ∧ (exec e flt2.body s).x rhsPtr = addN (s.x rhsPtr) 6 ∧
    (exec e flt2.body s).bad = (s.bad || !(s.x 12).isInt || out e (addN (s.x lhsPtr) 0) 0 4 || out e (addN (s.x lhsPtr) 1) 0 4 ||
      out e (addN (s.x rhsPtr) 0) 0 4 || out e (addN (s.x rhsPtr) 1) 0 4 ||
      out e (addN (s.x lhsPtr) 2) 0 4 || out e (addN (s.x lhsPtr) 3) 0 4 ||
      out e (addN (s.x rhsPtr) 2) 0 4 || out e (addN (s.x rhsPtr) 3) 0 4 ||
      out e (addN (s.x lhsPtr) 4) 0 4 || out e (addN (s.x lhsPtr) 5) 0 4 ||
      out e (addN (s.x rhsPtr) 4) 0 4 || out e (addN (s.x rhsPtr) 5) 0 4) := by
  cases s
  exact ⟨by keep, rfl, rfl, rfl, rfl, rfl, rfl, rfl⟩

theorem flt2v (e : Env A) (s : St A) :
    (∀ u, u < 3 → ∀ h, h < 2 → (exec e flt2.body s).v (4 * (u + 1) + h) = words s (addN (s.x lhsPtr) (2 * u + h)) 0) ∧
    (∀ u, u < 3 → ∀ h, h < 2 →
      (exec e flt2.body s).v (4 * (u + 1) + 2 + h) = words s (addN (s.x rhsPtr) (2 * u + h)) 0) ∧
    (∀ i, i < 4 → (exec e flt2.body s).v i = s.v i) ∧
    (∀ i, i < 16 → (exec e flt2.body s).v (16 + i) = s.v (16 + i)) := by
  cases s
  refine ⟨?_, ?_, ?_, ?_⟩
  · intro u hu h hh; interval_cases u <;> interval_cases h <;> rfl
  · intro u hu h hh; interval_cases u <;> interval_cases h <;> rfl
  · intro i hi; interval_cases i <;> rfl
  · intro i hi; interval_cases i <;> rfl

theorem words_vec {j : Job A} {s : St A} {r : Region} {a o b i c : Nat} (h : s.m r = j.m r) (ho : 4 * a + o = 4 * b)
    (hc : b + i = c) : words s (.ptr r (4 * a)) o i = j.m r c := by
  rw [words_eq h ho]; exact congrArg _ hc

theorem wordsN_vec {j : Job A} {s : St A} {r : Region} {a o b i c : Nat} (h : s.m r = j.m r) (ho : 4 * a - o = 4 * b)
    (hc : b + i = c) : wordsN s (.ptr r (4 * a)) o i = j.m r c := by
  rw [wordsN_eq h ho]; exact congrArg _ hc

theorem enter4 {j : Job A} {a b : Nat} {R O : List Nat} {s s' : St A} (hd : Readable j a b s)
    (h8 : 8 ≤ j.depth) (hf : j.depth < 2 ^ 31) (hx : s.x 12 = .int j.depth) (h : Loop j a b R O 0 1 1 s s') :
    Loop j a b R O 0 4 4 s (exec j.env flt2.body s') ∧ (exec j.env flt2.body s').x 1 = .int 4 ∧
      (exec j.env flt2.body s').x 2 = .int (4 * (j.depth / 4)) ∧ (exec j.env flt2.body s').x 5 = s'.x 5 := by
  have hml : s'.m .lhs = j.m .lhs := by rw [h.m]; exact hd.ml
  have hmr : s'.m .rhs = j.m .rhs := by rw [h.m]; exact hd.mr
  have h1 := hd.sl
  have h2 := hd.sr
  have h12 : s'.x 12 = .int j.depth := (h.same.get (by decide)).trans hx
  obtain ⟨k1, k2, k3, k4, k5, k6, k7, k8⟩ := flt2x j.env s'
  obtain ⟨v1, v2, v3, v4⟩ := flt2v j.env s'
  generalize exec j.env flt2.body s' = s1 at *
  refine ⟨⟨h.same.trans k1, k2.trans h.m, ?_, ?_, ?_, ?_, ?_⟩, k3, ?_, k5⟩
  · rw [k8, h.ok, h12, h.lp, h.rp]
    simp only [addN_ptr]
    rw [out_ptr rfl (by show _ ≤ j.size .lhs; omega), out_ptr rfl (by show _ ≤ j.size .lhs; omega),
      out_ptr rfl (by show _ ≤ j.size .rhs; omega), out_ptr rfl (by show _ ≤ j.size .rhs; omega),
      out_ptr rfl (by show _ ≤ j.size .lhs; omega), out_ptr rfl (by show _ ≤ j.size .lhs; omega),
      out_ptr rfl (by show _ ≤ j.size .rhs; omega), out_ptr rfl (by show _ ≤ j.size .rhs; omega),
      out_ptr rfl (by show _ ≤ j.size .lhs; omega), out_ptr rfl (by show _ ≤ j.size .lhs; omega),
      out_ptr rfl (by show _ ≤ j.size .rhs; omega), out_ptr rfl (by show _ ≤ j.size .rhs; omega)]
    rfl
  · rw [k6, h.lp, addN_ptr]
  · rw [k7, h.rp, addN_ptr]
  · intro u hu h' hh i hi
    match u, hu with
    | 0, _ =>
      obtain ⟨d1, d2⟩ := h.data 0 (by omega) h' hh i hi
      exact ⟨by rw [v3 _ (by omega), d1], by rw [v3 _ (by omega), d2]⟩
    | u + 1, hu =>
      rw [v1 u (by omega) h' hh, v2 u (by omega) h' hh, h.lp, h.rp, addN_ptr, addN_ptr]
      exact ⟨words_vec hml rfl (by omega), words_vec hmr rfl (by omega)⟩
  · intro w hw u hu i hi
    have ha := h.acc w hw u hu i hi
    rw [show 16 + 2 * w + u = 16 + (2 * w + u) by omega] at ha ⊢
    rw [v4 _ (by omega)]
    exact ha
  · rw [k4, h12]; exact congrArg _ (and_high hf)

/-- One multiply-add from a pair of registers. -/
def fm (e : Env A) (d n m : Vec A) (k : Nat) : Vec A := fun i => e.ops.fma (d i) (n i) (m k)

/-- Three levels from the registers 4, …, 15. -/
def chain (e : Env A) (s : St A) (h w : Nat) (d : Vec A) : Vec A :=
  fm e (fm e (fm e d (s.v (4 + h)) (s.v (6 + w / 4)) (w % 4)) (s.v (8 + h)) (s.v (10 + w / 4)) (w % 4))
    (s.v (12 + h)) (s.v (14 + w / 4)) (w % 4)

/-- The state with the two pointers spelled out. -/
def at2 (s : St A) (a b : Val A) : St A := { s with x := Neon.put (Neon.put s.x lhsPtr a) rhsPtr b }

theorem at2_eq {s : St A} {a b : Val A} (ha : s.x lhsPtr = a) (hb : s.x rhsPtr = b) : at2 s a b = s := by
  subst ha hb
  cases s
  unfold at2
  congr
  funext r
  unfold Neon.put
  cases h1 : r.beq rhsPtr
  · cases h2 : r.beq lhsPtr
    · rfl
    · rw [Nat.eq_of_beq_eq_true h2]; rfl
  · rw [Nat.eq_of_beq_eq_true h1]; rfl

set_option maxRecDepth 8000 in
theorem flt3v (e : Env A) (s : St A) (a b : Nat) :
    (∀ w, w < 4 → (exec e flt3.body (at2 s (.ptr .lhs a) (.ptr .rhs b))).v (16 + 2 * w + 0) =
      fm e (chain e s 0 w (s.v (16 + 2 * w + 0))) (wordsN s (.ptr .lhs (a + 128)) 128) (wordsN s (.ptr .rhs (b + 128)) 128) w) ∧
    (∀ w, w < 8 → ∀ h, h < 2 → ¬Quarter h w →
      (exec e flt3.body (at2 s (.ptr .lhs a) (.ptr .rhs b))).v (16 + 2 * w + h) =
      chain e s h w (fm e (s.v (16 + 2 * w + h)) (s.v h) (s.v (2 + w / 4)) (w % 4))) := by
  refine ⟨?_, ?_⟩
  · intro k hk; interval_cases k <;> rfl
  · intro w hw h hh hn
    interval_cases h <;> interval_cases w <;> first | exact absurd ⟨rfl, by decide⟩ hn | rfl

set_option maxRecDepth 8000 in
theorem flt3x (e : Env A) (s : St A) (a b : Nat) {s1 : St A} (hs : s1 = exec e flt3.body (at2 s (.ptr .lhs a) (.ptr .rhs b))) :
    Same keepLoop s s1 ∧ s1.m = s.m ∧
    s1.x 1 = .int (((s.x 1).num + 4) % 2 ^ 32) ∧ s1.x 2 = s.x 2 ∧ s1.x 5 = s.x 5 ∧
    s1.x lhsPtr = .ptr .lhs (a + 128) ∧ s1.x rhsPtr = .ptr .rhs (b + 128) ∧
    s1.bad = (s.bad || false || false || outN e (.ptr .lhs (a + 128)) 128 4 || outN e (.ptr .rhs (b + 128)) 112 4 ||
      outN e (.ptr .lhs (a + 128)) 112 4 || outN e (.ptr .rhs (b + 128)) 128 4 ||
      outN e (.ptr .lhs (a + 128)) 96 4 || outN e (.ptr .rhs (b + 128)) 80 4 ||
      outN e (.ptr .lhs (a + 128)) 80 4 || outN e (.ptr .rhs (b + 128)) 96 4 ||
      outN e (.ptr .lhs (a + 128)) 64 4 || outN e (.ptr .rhs (b + 128)) 48 4 ||
      outN e (.ptr .lhs (a + 128)) 48 4 || outN e (.ptr .rhs (b + 128)) 64 4 ||
      outN e (.ptr .lhs (a + 128)) 32 4 || outN e (.ptr .rhs (b + 128)) 16 4 ||
      outN e (.ptr .lhs (a + 128)) 16 4 || outN e (.ptr .rhs (b + 128)) 32 4 ||
      !(s.x 1).isInt || false || !(s.x 2).isInt) ∧
    s1.lt = decide (sgn (((s.x 1).num + 4) % 2 ^ 32) < sgn (s.x 2).num) ∧
    (∀ u, u < 4 → ∀ h, h < 2 → s1.v (4 * u + h) = wordsN s (.ptr .lhs (a + 128)) (128 - (32 * u + 16 * h)) ∧
      s1.v (4 * u + 2 + h) = wordsN s (.ptr .rhs (b + 128)) (128 - (32 * u + 16 * h))) := by
  subst hs
  cases s
  refine ⟨by keep, rfl, rfl, rfl, rfl, rfl, rfl, rfl, rfl, ?_⟩
  intro u hu h hh; interval_cases u <;> interval_cases h <;> exact ⟨rfl, rfl⟩

theorem flt4x (e : Env A) (s : St A) : Same keepLoop s (exec e flt4.body s) ∧ (exec e flt4.body s).m = s.m ∧
    (exec e flt4.body s).x = s.x ∧ (exec e flt4.body s).bad = s.bad ∧
    (∀ i, i < 4 → (exec e flt4.body s).v i = s.v i) ∧
    (∀ w, w < 8 → ∀ h, h < 2 → (exec e flt4.body s).v (16 + 2 * w + h) = chain e s h w (s.v (16 + 2 * w + h))) := by
  cases s
  refine ⟨by keep, rfl, rfl, rfl, ?_, ?_⟩
  · intro i hi; interval_cases i <;> rfl
  · intro w hw h hh
    interval_cases h <;> interval_cases w <;> rfl

theorem chain_sum {j : Job A} {a b g : Nat} {s : St A} (hd : Data j a b g 4 s) {h w i : Nat} (hh : h < 2) (hw : w < 8) (hi : i < 4)
    {d : Vec A} {L : List Nat} (hs : d i = blockSum j a b L (4 * h + i) w) :
    chain j.env s h w d i = blockSum j a b (L ++ [g + 1, g + 2, g + 3]) (4 * h + i) w := by
  have e1 := (hd 1 (by omega) h hh i hi).1
  have e2 := (hd 2 (by omega) h hh i hi).1
  have e3 := (hd 3 (by omega) h hh i hi).1
  have f1 := (hd 1 (by omega) (w / 4) (by omega) (w % 4) (by omega)).2
  have f2 := (hd 2 (by omega) (w / 4) (by omega) (w % 4) (by omega)).2
  have f3 := (hd 3 (by omega) (w / 4) (by omega) (w % 4) (by omega)).2
  rw [show 4 * 1 + h = 4 + h from rfl] at e1
  rw [show 4 * 2 + h = 8 + h from rfl] at e2
  rw [show 4 * 3 + h = 12 + h from rfl] at e3
  rw [show 4 * 1 + 2 + w / 4 = 6 + w / 4 from rfl, show 4 * (w / 4) + w % 4 = w by omega] at f1
  rw [show 4 * 2 + 2 + w / 4 = 10 + w / 4 from rfl, show 4 * (w / 4) + w % 4 = w by omega] at f2
  rw [show 4 * 3 + 2 + w / 4 = 14 + w / 4 from rfl, show 4 * (w / 4) + w % 4 = w by omega] at f3
  rw [show L ++ [g + 1, g + 2, g + 3] = L ++ [g + 1] ++ [g + 2] ++ [g + 3] by simp]
  rw [blockSum_snoc, blockSum_snoc, blockSum_snoc, ← hs, ← e1, ← e2, ← e3, ← f1, ← f2, ← f3]
  rfl

theorem step4 {j : Job A} {a b : Nat} {R O : List Nat} {g : Nat} {s s' : St A} (hd : Readable j a b s)
    (hf : j.depth < 2 ^ 31) (hg : g + 8 ≤ j.depth) (h : Loop j a b R O g 4 (g + 4) s s') (h1 : s'.x 1 = .int (g + 4)) {D : Nat}
    (hD : D < 2 ^ 31) (h2 : s'.x 2 = .int D) :
    Loop j a b (R ++ [g + 1, g + 2, g + 3, g + 4]) (O ++ [g, g + 1, g + 2, g + 3]) (g + 4) 4 (g + 8) s (exec j.env flt3.body s') ∧
      (exec j.env flt3.body s').x 1 = .int (g + 8) ∧ (exec j.env flt3.body s').x 2 = .int D ∧
      (exec j.env flt3.body s').x 5 = s'.x 5 ∧ (exec j.env flt3.body s').lt = decide (g + 8 < D) := by
  have hml : s'.m .lhs = j.m .lhs := by rw [h.m]; exact hd.ml
  have hmr : s'.m .rhs = j.m .rhs := by rw [h.m]; exact hd.mr
  have hl := hd.sl
  have hr := hd.sr
  obtain ⟨v1, v2⟩ := flt3v j.env s' (4 * (a + 8 * (g + 4))) (4 * (b + 8 * (g + 4)))
  obtain ⟨k1, k2, k3, k4, k5, k6, k7, k8, k9, k10⟩ := flt3x j.env s' (4 * (a + 8 * (g + 4))) (4 * (b + 8 * (g + 4))) rfl
  rw [at2_eq h.lp h.rp] at *
  generalize exec j.env flt3.body s' = s1 at *
  have el : 4 * (a + 8 * (g + 4)) + 128 = 4 * (a + 8 * (g + 8)) := by omega
  have er : 4 * (b + 8 * (g + 4)) + 128 = 4 * (b + 8 * (g + 8)) := by omega
  rw [el] at k6 k8
  rw [er] at k7 k8
  simp only [el, er] at v1 k10
  have e1 : ((s'.x 1).num + 4) % 2 ^ 32 = g + 8 := by
    rw [h1]; show (g + 4 + 4) % 2 ^ 32 = _
    rw [Nat.mod_eq_of_lt (by omega)]
  refine ⟨⟨h.same.trans k1, k2.trans h.m, ?_, k6, k7, ?_, ?_⟩, by rw [k3, e1], k4.trans h2, k5, ?_⟩
  · rw [k8, h.ok, h1, h2]
    rw [outN_ptr rfl (by omega) (by show _ ≤ j.size .lhs; omega), outN_ptr rfl (by omega) (by show _ ≤ j.size .rhs; omega),
      outN_ptr rfl (by omega) (by show _ ≤ j.size .lhs; omega), outN_ptr rfl (by omega) (by show _ ≤ j.size .rhs; omega),
      outN_ptr rfl (by omega) (by show _ ≤ j.size .lhs; omega), outN_ptr rfl (by omega) (by show _ ≤ j.size .rhs; omega),
      outN_ptr rfl (by omega) (by show _ ≤ j.size .lhs; omega), outN_ptr rfl (by omega) (by show _ ≤ j.size .rhs; omega),
      outN_ptr rfl (by omega) (by show _ ≤ j.size .lhs; omega), outN_ptr rfl (by omega) (by show _ ≤ j.size .rhs; omega),
      outN_ptr rfl (by omega) (by show _ ≤ j.size .lhs; omega), outN_ptr rfl (by omega) (by show _ ≤ j.size .rhs; omega),
      outN_ptr rfl (by omega) (by show _ ≤ j.size .lhs; omega), outN_ptr rfl (by omega) (by show _ ≤ j.size .rhs; omega),
      outN_ptr rfl (by omega) (by show _ ≤ j.size .lhs; omega), outN_ptr rfl (by omega) (by show _ ≤ j.size .rhs; omega)]
    rfl
  · intro u hu h' hh i hi
    obtain ⟨d1, d2⟩ := k10 u hu h' hh
    rw [d1, d2]
    exact ⟨wordsN_vec hml (b := a + 8 * (g + 4 + u) + 4 * h') (by omega) (by omega),
      wordsN_vec hmr (b := b + 8 * (g + 4 + u) + 4 * h') (by omega) (by omega)⟩
  · intro w hw u hu i hi
    have ha := h.acc w hw u hu i hi
    by_cases hq : Quarter u w
    · obtain ⟨rfl, hw4⟩ := hq
      rw [if_pos ⟨rfl, hw4⟩] at ha ⊢
      rw [show R ++ [g + 1, g + 2, g + 3, g + 4] = R ++ [g + 1, g + 2, g + 3] ++ [g + 4] by simp, blockSum_snoc, v1 w hw4]
      unfold fm
      rw [chain_sum h.data (by omega) hw hi ha, wordsN_vec hml (b := a + 8 * (g + 4)) (by omega) rfl,
        wordsN_vec hmr (b := b + 8 * (g + 4)) (by omega) rfl, Nat.mul_zero, Nat.zero_add]
      rfl
    · obtain ⟨d1, d2⟩ := h.data.zero (by omega) hu hw hi
      rw [if_neg hq] at ha ⊢
      rw [show O ++ [g, g + 1, g + 2, g + 3] = O ++ [g] ++ [g + 1, g + 2, g + 3] by simp, v2 w hw u hu hq]
      refine chain_sum h.data hu hw hi ?_
      rw [blockSum_snoc, ← ha, ← d1, ← d2]
      rfl
  · rw [k9, e1, h2]
    exact sgn_lt (by omega) hD

theorem leave4 {j : Job A} {a b : Nat} {R O : List Nat} {g p : Nat} {s s' : St A} (h : Loop j a b R O g 4 p s s') :
    Loop j a b (R ++ [g + 1, g + 2, g + 3]) (O ++ [g + 1, g + 2, g + 3]) g 1 p s (exec j.env flt4.body s') := by
  obtain ⟨k1, k2, k3, k4, k5, k6⟩ := flt4x j.env s'
  generalize exec j.env flt4.body s' = s1 at *
  refine ⟨h.same.trans k1, k2.trans h.m, k4.trans h.ok, by rw [k3]; exact h.lp, by rw [k3]; exact h.rp, ?_, ?_⟩
  · intro u hu q hq i hi
    obtain rfl : u = 0 := by omega
    obtain ⟨d1, d2⟩ := h.data 0 (by omega) q hq i hi
    exact ⟨by rw [k5 _ (by omega), d1], by rw [k5 _ (by omega), d2]⟩
  · intro w hw u hu i hi
    have ha := h.acc w hw u hu i hi
    rw [k6 w hw u hu]
    by_cases hq : Quarter u w
    · rw [if_pos hq] at ha ⊢
      exact chain_sum h.data hu hw hi ha
    · rw [if_neg hq] at ha ⊢
      exact chain_sum h.data hu hw hi ha

theorem range_four (g : Nat) : List.range g ++ [g, g + 1, g + 2, g + 3] = List.range (g + 4) := by
  rw [← append_levels (m := g) (n := 4) rfl]; rfl

/-- Label 80. -/
theorem loop4_all {j : Job A} {a b g : Nat} {s s' : St A} (hd : Readable j a b s) (hf : j.depth < 2 ^ 31)
    (hg : g + 8 ≤ j.depth) (h4 : g % 4 = 0) (h : Loop j a b (List.range (g + 1)) (List.range g) g 4 (g + 4) s s')
    (h1 : s'.x 1 = .int (g + 4)) (h2 : s'.x 2 = .int (4 * (j.depth / 4))) :
    ∃ s'' g', Reach j.env fltCode (3, s') (4, s'') ∧ g' + 4 = 4 * (j.depth / 4) ∧
      Loop j a b (List.range (g' + 1)) (List.range g') g' 4 (g' + 4) s s'' ∧ s''.x 1 = .int (g' + 4) ∧ s''.x 5 = s'.x 5 := by
  induction hn : j.depth - g using Nat.strong_induction_on generalizing g s' with
  | _ n ih =>
    obtain ⟨l, x1, x2, x5, hl⟩ := step4 hd hf hg h h1 (by omega) h2
    rw [range_four g, show List.range (g + 1) ++ [g + 1, g + 2, g + 3, g + 4] = List.range (g + 4 + 1) from range_four (g + 1)] at l
    by_cases hm : g + 8 < 4 * (j.depth / 4)
    · obtain ⟨s'', g', r, hg', l', x1', x5'⟩ := ih (j.depth - (g + 4)) (by omega) (by omega) (by omega) l x1 x2 rfl
      refine ⟨s'', g', Reach.trans (Reach.block (b := flt3) rfl ?_) r, hg', l', x1', x5'.trans x5⟩
      show (bif (exec j.env flt3.body s').lt then 3 else 4) = 3
      rw [hl, decide_eq_true hm]; rfl
    · refine ⟨_, g + 4, Reach.block (b := flt3) rfl ?_, by omega, l, x1, x5⟩
      show (bif (exec j.env flt3.body s').lt then 3 else 4) = 4
      rw [hl, decide_eq_false hm]; rfl

theorem flt1x (e : Env A) (s : St A) : Same keepLoop s (exec e flt1.body s) ∧ (exec e flt1.body s).m = s.m ∧
    (exec e flt1.body s).x = s.x ∧ (exec e flt1.body s).bad = (s.bad || !(s.x 12).isInt) ∧
    (exec e flt1.body s).lt = decide (sgn (s.x 12).num < sgn 8) ∧ (exec e flt1.body s).v = (exec e fx1.body s).v := by
  cases s
  exact ⟨by keep, rfl, rfl, rfl, rfl, rfl⟩

theorem flt5x (e : Env A) (s : St A) : Same keepLoop s (exec e flt5.body s) ∧ (exec e flt5.body s).m = s.m ∧
    (exec e flt5.body s).v = s.v ∧ (exec e flt5.body s).x = s.x ∧
    (exec e flt5.body s).bad = (s.bad || !(s.x 1).isInt || !(s.x 12).isInt) ∧
    (exec e flt5.body s).z = decide (sgn (s.x 1).num = sgn (s.x 12).num) := by
  cases s
  exact ⟨by keep, rfl, rfl, rfl, rfl, rfl⟩

/-- Labels 78, 2, 79 of `KernelFloatNeon`. -/
theorem flt_rest {j : Job A} {a b : Nat} {R O : List Nat} {g p : Nat} {s s' : St A} (hf : j.depth < 2 ^ 31)
    (hd : Readable j a b s) (hp : p ≤ j.depth) (hx : s.x 12 = .int j.depth) (h : Loop j a b R O g 1 p s s')
    (h1 : s'.x 1 = .int p) (h5 : s'.x 5 = .ptr .lhs (4 * j.lhsBase)) {r c : Nat} (hr : r < 2 ^ 31) (hc : c < 2 ^ 31) (xr : s.x rRow = .int r)
    (xc : s.x 7 = .int c) :
    ∃ s'', Reach j.env fltCode (5, s') (bif decide (r < c) then 8 else 9, s'') ∧
      Done j a b (R ++ levels p (j.depth - p)) (O ++ [g] ++ levels p (j.depth - p)) s s'' := by
  have h12 : s'.x 12 = .int j.depth := (h.same.get (by decide)).trans hx
  obtain ⟨k1, k2, k3, k4, k5, k6⟩ := flt5x j.env s'
  have nx : ∀ l, (bif (exec j.env flt5.body s').z then 7 else 6) = l →
      Reach j.env fltCode (5, s') (l, exec j.env flt5.body s') := fun l hl => Reach.block (b := flt5) rfl hl
  have l := h.next k1 k2 k3 (by rw [k4]) (by rw [k4]) (by rw [k5, h.ok, h1, h12]; rfl)
  rw [h1, h12, sgn_eq (by omega) hf] at k6
  generalize exec j.env flt5.body s' = s1 at *
  by_cases he : p = j.depth
  · obtain ⟨s2, r2, d2⟩ := last_level (P := fltCode) (b3 := flt7) (o := 7) rfl rfl rfl l (by rw [k4]; exact h5) hr hc xr xc
    refine ⟨s2, (nx 7 (by rw [k6, decide_eq_true he]; rfl)).trans r2, ?_⟩
    rw [he, Nat.sub_self]
    simpa [levels] using d2
  · obtain ⟨n, hn⟩ : ∃ n, p + (n + 1) = j.depth := ⟨j.depth - p - 1, by omega⟩
    obtain ⟨s2, O', g', r2, eO, l2, x5⟩ := loop_all (P := fltCode) (b2 := flt6) (l := 6) (l' := 7) rfl rfl rfl hf hd hn hx l
      (by rw [k4]; exact h1)
    obtain ⟨s3, r3, d3⟩ := last_level (P := fltCode) (b3 := flt7) (o := 7) rfl rfl rfl l2 (by rw [x5, k4]; exact h5) hr hc xr xc
    refine ⟨s3, ((nx 6 (by rw [k6, decide_eq_false he]; rfl)).trans r2).trans r3, ?_⟩
    rw [show j.depth - p = n + 1 by omega]
    rw [eO] at d3
    exact d3

theorem flt_acc : Accumulates fltCode 7 (fun _ => 1) unrolled := by
  intro A j a b s r c hf hpos hd x12 x1 x5 hr hc xr xc h
  have x1 : s.x 1 = .int 1 := x1
  obtain ⟨v1, v2, v3⟩ := fx1v j.env s
  obtain ⟨k1, k2, k3, k4, k5, k6⟩ := flt1x j.env s
  rw [← k6] at v1 v2 v3
  have nx : ∀ l, (bif (exec j.env flt1.body s).lt then 5 else 2) = l →
      Reach j.env fltCode (1, s) (l, exec j.env flt1.body s) := fun l hl => Reach.block (b := flt1) rfl hl
  have l1 := h.quarter k1 k2 (by rw [k3]) (by rw [k3]) (by rw [k4, h.ok, x12]; rfl) v1 v2 v3
  have k5 : (exec j.env flt1.body s).lt = decide (j.depth < 8) := by
    rw [k5, x12]; exact sgn_lt hf (b := 8) (by omega)
  generalize exec j.env flt1.body s = s1 at *
  have h1 : s1.x 1 = .int 1 := by rw [k3]; exact x1
  have h5 : s1.x 5 = .ptr .lhs (4 * j.lhsBase) := by rw [k3]; exact x5
  by_cases h8 : j.depth < 8
  · obtain ⟨s2, r2, d2⟩ := flt_rest hf hd hpos x12 l1 h1 h5 hr hc xr xc
    refine ⟨s2, (nx 5 (by rw [k5, decide_eq_true h8]; rfl)).trans r2, ?_⟩
    unfold unrolled inOrder
    rw [if_pos h8]
    simp only [List.nil_append] at d2
    rw [range_levels (d := j.depth) (by omega)] at d2
    exact d2
  · obtain ⟨l2, y1, y2, y5⟩ := enter4 hd (by omega) hf x12 l1
    have r2 : Reach j.env fltCode (2, s1) (3, exec j.env flt2.body s1) := Reach.block (b := flt2) rfl rfl
    generalize exec j.env flt2.body s1 = s2 at *
    obtain ⟨s3, g, r3, hg, l3, z1, z5⟩ := loop4_all (g := 0) hd hf (by omega) rfl l2 y1 y2
    have l4 := leave4 l3
    have r4 : Reach j.env fltCode (4, s3) (5, exec j.env flt4.body s3) := Reach.block (b := flt4) rfl rfl
    have k4 := (flt4x j.env s3).2.2.1
    generalize exec j.env flt4.body s3 = s4 at *
    obtain ⟨s5, r5, d5⟩ := flt_rest hf hd (by omega) x12 l4 (by rw [k4]; exact z1) (by rw [k4, z5, y5]; exact h5) hr hc xr xc
    refine ⟨s5, (nx 2 (by rw [k5, decide_eq_false h8]; rfl)).trans (r2.trans (r3.trans (r4.trans r5))), ?_⟩
    unfold unrolled inOrder
    rw [if_neg h8, show 4 * (j.depth / 4) - 4 = g by omega, show 4 * (j.depth / 4) - 3 = g + 1 by omega,
      show 4 * (j.depth / 4) - 2 = g + 2 by omega, show 4 * (j.depth / 4) - 1 = g + 3 by omega, ← hg]
    have e1 : List.range (g + 1) ++ [g + 1, g + 2, g + 3] ++ levels (g + 4) (j.depth - (g + 4)) = List.range j.depth := by
      rw [show List.range (g + 1) ++ [g + 1, g + 2, g + 3] = List.range (g + 4) by
        rw [← range_four, List.range_succ]; simp]
      exact append_levels (by omega)
    rw [e1] at d5
    simpa [levels] using d5

end Ruy.NeonF

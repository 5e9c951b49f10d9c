import Verif.XFloat.Top
/-
Property C96: ruy::Mul with float matrices on the x86 paths, from its arguments to its destination.

  c96_zero        arguments with other zero points than 0 are rejected
  c96_runs        the front end succeeds, and then no way of running TrMul fails; under a fair schedule all threads return
  c96_entries     every entry is the clamped sequence of multiply-adds in the order of the depth
  c96_order       which does not depend on the order of the destination if factors may be exchanged
  c96_integers    integers small enough to be exact: the exact entry
  c96_rest        nothing else in the destination's memory changes
  c96_one_result  paths with the same multiply-add leave the same destination, however they run
-/
namespace Ruy.XFloat.Top
open Ruy.Mat Ruy.Mul
open Ruy.Front (Scalars MulParams Junk userView)
open Ruy.TrMul (Mem MapFor)
open Ruy.Simd.Flow (control)

variable {A : Type}

section
variable {o : VOps A} {P : Path A} {sc : Scalars A} {lhs rhs dst : Mul.Mat A} {mp : MulParams A}

/-- C96: whatever the other arguments, the front end returns only if all zero points are 0. -/
theorem c96_zero {kc : Nat} {junk : Junk A} {trail : Side → Nat → Nat → A} {r : Job A × Mem A}
    (h : setup sc kc lhs rhs dst mp junk trail = .ok r) : lhs.zp = 0 ∧ rhs.zp = 0 ∧ dst.zp = 0 := by
  unfold setup at h
  obtain ⟨_, e, _⟩ := C.bind_ok h
  unfold Front.validate at e
  obtain ⟨_, h1, e⟩ := C.bind_ok e
  obtain ⟨_, h2, e⟩ := C.bind_ok e
  obtain ⟨_, h3, e⟩ := C.bind_ok e
  exact ⟨C.check_ok h1, C.check_ok h2, C.check_ok h3⟩

/-- C96: with any contents of fresh memory the front end returns; then the simple loop, the block loop and all steps of all
executions of several threads return; under fair schedules all threads come to an end. -/
theorem c96_runs (hP : IsPath o P) (h : UserOk sc P.isa.kc lhs rhs dst mp) (junk : Junk A) (trail : Side → Nat → Nat → A) :
    ∃ jb m, setup sc P.isa.kc lhs rhs dst mp junk trail = .ok (jb, m) ∧
      (∃ m', simpleLoop P jb m = .ok m') ∧
      ∀ bm, MapFor (shape m) bm → ∀ pre : SidePair Bool,
        (∃ m', blockLoop P jb pre bm m = .ok m') ∧
        ∀ threads, 0 < threads →
          (∀ sched, ∃ x, exec P jb pre bm threads sched m = .ok x) ∧
          ∀ σ, TrMul.Fair threads σ → ∃ k x, exec P jb pre bm threads ((List.range k).map σ) m = .ok x ∧
            TrMul.Finished (control pre bm threads) x.ctl := by
  obtain ⟨jb, m, e, hs⟩ := setup_ok h junk trail
  obtain ⟨h0, h1⟩ := hs.pos h
  refine ⟨jb, m, e, ?_, fun bm hm pre => ⟨?_, fun t ht => ⟨fun sched => ?_, fun σ fair => ?_⟩⟩⟩
  · obtain ⟨m', e', _⟩ := c61_simple_loop hP hs.ok h0 h1
    exact ⟨m', e'⟩
  · obtain ⟨m', e', _⟩ := c61_block_loop hP hs.ok hm pre
    exact ⟨m', e'⟩
  · obtain ⟨x, e', _⟩ := c61_threads hP hs.ok hm pre ht sched
    exact ⟨x, e'⟩
  · obtain ⟨k, x, e', hf, _⟩ := c61_threads_finish hP hs.ok hm pre ht fair
    exact ⟨k, x, e', hf⟩

/-- C96: the entries. -/
theorem c96_entries (hP : IsPath o P) (h : UserOk sc P.isa.kc lhs rhs dst mp) {d : Mul.Mat A} (hd : Mul sc P lhs rhs dst mp d)
    {i j : Nat} (hi : i < dst.layout.rows) (hj : j < dst.layout.cols) :
    d.elem i j = .ok (entry o dst.layout.order lhs rhs mp i j) := by
  obtain ⟨junk, trail, jb, m, d', e, he, rfl⟩ := hd
  obtain ⟨jb', m', e', hs⟩ := setup_ok h junk trail
  rw [e] at e'; cases e'
  obtain ⟨h0, h1⟩ := hs.pos h
  obtain ⟨m', rfl, M⟩ := ends_of hP hs.ok h0 h1 he
  obtain ⟨r, c, hrc, ex⟩ := hs.entries o i j hi hj
  obtain ⟨hr, hc⟩ := hs.inside hi hj hrc
  rw [view_elem hrc, M.entries r c hr hc trivial, ex]

/-- C96: the order of the destination does not matter where factors may be exchanged. -/
theorem c96_order (hc : ∀ a b c, o.madd a b c = o.madd b a c) (order : Mat.Order) (i j : Nat) :
    entry o order lhs rhs mp i j = clamped o mp.clampMin mp.clampMax
      (dot o.madd (biasAt o.zero mp (channelOf mp.channelDim i j)) (fun k => lhs.at i k) (fun k => rhs.at k j) lhs.layout.cols) := by
  have key : ∀ (b : A) (f g : Nat → A) (n : Nat), dot o.madd b f g n = dot o.madd b g f n := by
    intro b f g n
    induction n with
    | zero => rfl
    | succ n ih => unfold dot; rw [ih, hc]
  cases order
  · rfl
  · unfold entry
    dsimp only
    rw [key]

theorem dot_val {val : Int → A} {good : Int → Prop} (he : ExactOn o val good) {f g : Nat → A} {L R : Nat → Int} {b : Int}
    {n : Nat} (hl : ∀ k, k < n → f k = val (L k) ∧ good (L k)) (hr : ∀ k, k < n → g k = val (R k) ∧ good (R k))
    (hp : ∀ k, k < n → good (L k * R k)) (hs : ∀ k, k ≤ n → good (isum b L R k)) :
    dot o.madd (val b) f g n = val (isum b L R n) := by
  induction n with
  | zero => rfl
  | succ n ih =>
    have h1 := hs (n + 1) (Nat.le_refl _)
    unfold isum at h1 ⊢
    unfold dot
    rw [ih (fun k hk => hl k (by omega)) (fun k hk => hr k (by omega)) (fun k hk => hp k (by omega)) (fun k hk => hs k (by omega)),
      (hl n (by omega)).1, (hr n (by omega)).1,
      he.madd _ _ _ (hl n (by omega)).2 (hr n (by omega)).2 (hs n (by omega)) (hp n (by omega)) (by rw [Int.add_comm]; exact h1),
      Int.add_comm]

theorem isum_comm (b : Int) (L R : Nat → Int) (n : Nat) : isum b R L n = isum b L R n := by
  induction n with
  | zero => rfl
  | succ n ih => unfold isum; rw [ih, Int.mul_comm]

/-- C96: with sources, bias and clamp bounds that are integers on which the arithmetic is exact, and products and partial
sums that are such integers, the entry is the exact, clamped result. -/
theorem c96_integers (hP : IsPath o P) (h : UserOk sc P.isa.kc lhs rhs dst mp) {d : Mul.Mat A} (hd : Mul sc P lhs rhs dst mp d)
    {i j : Nat} (hi : i < dst.layout.rows) (hj : j < dst.layout.cols) {val : Int → A} {good : Int → Prop}
    (he : ExactOn o val good) {L R : Nat → Int} {b lo hi' : Int}
    (hl : ∀ k, k < lhs.layout.cols → lhs.at i k = val (L k) ∧ good (L k))
    (hr : ∀ k, k < lhs.layout.cols → rhs.at k j = val (R k) ∧ good (R k))
    (hb : biasAt o.zero mp (channelOf mp.channelDim i j) = val b)
    (hmin : mp.clampMin = val lo ∧ good lo) (hmax : mp.clampMax = val hi' ∧ good hi')
    (hp : ∀ k, k < lhs.layout.cols → good (L k * R k))
    (hs : ∀ n, n ≤ lhs.layout.cols → good (isum b L R n)) :
    d.elem i j = .ok (val (max (min (isum b L R lhs.layout.cols) hi') lo)) := by
  rw [c96_entries hP h hd hi hj]
  unfold entry
  rw [hb, hmin.1, hmax.1]
  cases dst.layout.order with
  | colMajor =>
    dsimp only
    rw [dot_val he hl hr hp hs, clamped_val he (hs _ (Nat.le_refl _)) hmin.2 hmax.2]
  | rowMajor =>
    dsimp only
    rw [dot_val he hr hl (fun k hk => by rw [Int.mul_comm]; exact hp k hk) (fun n hn => by rw [isum_comm]; exact hs n hn), isum_comm,
      clamped_val he (hs _ (Nat.le_refl _)) hmin.2 hmax.2]

/-- C96: layout, zero point and all memory outside the entries stay as they were. -/
theorem c96_rest (hP : IsPath o P) (h : UserOk sc P.isa.kc lhs rhs dst mp) {d : Mul.Mat A} (hd : Mul sc P lhs rhs dst mp d) :
    DSame dst d ∧ ∀ x, (∀ i j, i < dst.layout.rows → j < dst.layout.cols → x ≠ off dst.layout i j) →
      d.data.val x = dst.data.val x := by
  obtain ⟨junk, trail, jb, m, d', e, he, rfl⟩ := hd
  obtain ⟨jb', m', e', hs⟩ := setup_ok h junk trail
  rw [e] at e'; cases e'
  obtain ⟨h0, h1⟩ := hs.pos h
  obtain ⟨m', rfl, M⟩ := ends_of hP hs.ok h0 h1 he
  have hsame := M.same
  have hrest := M.rest
  rw [hs.target] at hsame hrest
  unfold userView at hsame hrest ⊢
  by_cases ho : dst.layout.order = .colMajor
  · simp only [if_pos ho] at hsame hrest ⊢
    exact ⟨hsame, fun x h => hrest x (fun i j hij => h i j hij.1 hij.2.1)⟩
  · simp only [if_neg ho] at hsame hrest ⊢
    refine ⟨⟨?_, hsame.zp, hsame.size⟩, fun x h => hrest x (fun i j hij => ?_)⟩
    · show m'.dst.layout.transpose = dst.layout
      rw [hsame.layout]
      exact congrArg (fun d => d.layout) (Front.transpose_transpose dst)
    · show x ≠ off dst.layout.transpose i j
      rw [off_transpose]
      exact h j i hij.2.1 hij.1

/-- C96: the destination is the same on all paths with the same multiply-add, whatever fresh memory holds and however TrMul runs. -/
theorem c96_one_result {P' : Path A} {sc' : Scalars A} (hP : IsPath o P) (hP' : IsPath o P')
    (h : UserOk sc P.isa.kc lhs rhs dst mp) (h' : UserOk sc' P'.isa.kc lhs rhs dst mp)
    {d d' : Mul.Mat A} (hd : Mul sc P lhs rhs dst mp d) (hd' : Mul sc' P' lhs rhs dst mp d') : d = d' := by
  obtain ⟨s, r⟩ := c96_rest hP h hd
  obtain ⟨s', r'⟩ := c96_rest hP' h' hd'
  have key : ∀ x, d.data.val x = d'.data.val x := by
    intro x
    by_cases hx : ∃ i j, i < dst.layout.rows ∧ j < dst.layout.cols ∧ x = off dst.layout i j
    · obtain ⟨i, j, hi, hj, rfl⟩ := hx
      have a := elem_at (c96_entries hP h hd hi hj)
      have b := elem_at (c96_entries hP' h' hd' hi hj)
      unfold Mat.at at a b
      rw [s.layout] at a
      rw [s'.layout] at b
      rw [← a, ← b]
    · have hn : ∀ i j, i < dst.layout.rows → j < dst.layout.cols → x ≠ off dst.layout i j :=
        fun i j hi hj e => hx ⟨i, j, hi, hj, e⟩
      rw [r x hn, r' x hn]
  obtain ⟨l, ⟨n, v⟩, z⟩ := d
  obtain ⟨l', ⟨n', v'⟩, z'⟩ := d'
  have e1 : l = dst.layout := s.layout
  have e2 : l' = dst.layout := s'.layout
  have e3 : z = dst.zp := s.zp
  have e4 : z' = dst.zp := s'.zp
  have e5 : n = dst.data.size := s.size
  have e6 : n' = dst.data.size := s'.size
  have e7 : v = v' := funext key
  rw [e1, e2, e3, e4, e5, e6, e7]

end

/-! ### Examples -/

/-- Integers as floats. -/
def exSc : Scalars Int := ⟨⟨0, fun a b => .ok (a + b), fun a b => .ok (a - b), fun a b => .ok (a * b), fun a b => decide (a < b), id⟩, ⟨.float, .float⟩, .float, ⟨id, id⟩, ⟨id, id⟩, id, fun x _ _ => .ok x, (· == 0)⟩

/-- LHS: 10x3, column-major; RHS: 3x125, row-major. -/
def exLhs : Mul.Mat Int := ⟨⟨10, 3, 11, .colMajor⟩, ⟨33, fun o => (o * 7 % 11 : Nat) - 5⟩, 0⟩
def exRhs : Mul.Mat Int := ⟨⟨3, 125, 126, .rowMajor⟩, ⟨378, fun o => (o * 5 % 13 : Nat) - 6⟩, 0⟩
def exDst (o : Mat.Order) : Mul.Mat Int := ⟨⟨10, 125, 130, o⟩, ⟨130 * 125, fun _ => 77⟩, 0⟩
/-- A buffer of ten biases, which ruy replaces by a longer one. -/
def exMp : MulParams Int := ⟨some ⟨10, fun c => (c : Int) - 3⟩, none, .row, 1, -60, 90⟩

theorem exUser {kc : Nat} (hkc : kc = 8 ∨ kc = 16) (o : Mat.Order) : UserOk exSc kc exLhs exRhs (exDst o) exMp where
  valid := ⟨rfl, rfl, rfl⟩
  depth := rfl
  rows := rfl
  cols := rfl
  lsize := by
    rcases hkc with rfl | rfl
    · exact ⟨⟨⟨⟨0, rfl⟩, ⟨3, rfl⟩⟩, by decide, by decide, by decide, by decide, by decide⟩, by decide⟩
    · exact ⟨⟨⟨⟨0, rfl⟩, ⟨4, rfl⟩⟩, by decide, by decide, by decide, by decide, by decide⟩, by decide⟩
  rsize := by
    rcases hkc with rfl | rfl
    · exact ⟨⟨⟨⟨0, rfl⟩, ⟨3, rfl⟩⟩, by decide, by decide, by decide, by decide, by decide⟩, by decide⟩
    · exact ⟨⟨⟨⟨0, rfl⟩, ⟨4, rfl⟩⟩, by decide, by decide, by decide, by decide, by decide⟩, by decide⟩
  depth4 := by decide
  fits := by
    refine ⟨fun i j hi hj => ?_, fun i j hi hj => ?_, fun i j hi hj => ?_⟩
    · have hi : i < 10 := hi
      have hj : j < 3 := hj
      show i + j * 11 < 2 ^ 31 ∧ i + j * 11 < 33
      omega
    · have hi : i < 3 := hi
      have hj : j < 125 := hj
      show i * 126 + j < 2 ^ 31 ∧ i * 126 + j < 378
      omega
    · have hi : i < 10 := hi
      have hj : j < 125 := hj
      cases o
      · show i + j * 130 < 2 ^ 31 ∧ i + j * 130 < 130 * 125
        omega
      · show i * 130 + j < 2 ^ 31 ∧ i * 130 + j < 130 * 125
        omega
  stride := by cases o <;> (show _ ≤ 130; decide)
  stride4 := by show 4 * 130 < _; decide
  bias := by
    refine ⟨⟨0, rfl⟩, (by show 10 + 1 < 2 ^ 31; decide), rfl, fun cap h b hb => ?_⟩
    have : SizeUtil.nRoundUpPot 10 1 = .ok 10 := by decide
    change SizeUtil.nRoundUpPot 10 1 = .ok cap at h
    rw [this] at h
    cases h
    cases hb
    exact ⟨Nat.le_refl _, fun i h1 h2 => absurd h2 (Nat.not_lt.2 h1)⟩

def exJunk : Junk Int := ⟨⟨fun _ => 9, fun _ => 9⟩, ⟨fun _ => 9, fun _ => 9⟩⟩

theorem kc_of {o : VOps A} {P : Path A} (hP : IsPath o P) : P.isa.kc = 8 ∨ P.isa.kc = 16 := by
  cases hP
  · exact Or.inl rfl
  · exact Or.inl rfl
  · exact Or.inr rfl

/-- Every path ends somewhere, for both orders of the destination. -/
theorem exEnds {P : Path Int} (hP : IsPath intOps P) (o : Mat.Order) : ∃ d, Mul exSc P exLhs exRhs (exDst o) exMp d := by
  obtain ⟨jb, m, e, ⟨m', e'⟩, _⟩ := c96_runs hP (exUser (kc_of hP) o) exJunk (fun _ _ _ => 5)
  exact ⟨_, exJunk, _, jb, m, _, e, .simple e', rfl⟩

/-- The hypotheses of `c96_runs` with several threads: the packed matrices are 16 and 128 columns wide. -/
example : ∃ jb m, setup exSc 8 exLhs exRhs (exDst .colMajor) exMp exJunk (fun _ _ _ => 5) = .ok (jb, m) ∧ MapFor (shape m) exMap8 :=
  ⟨_, _, rfl, ⟨16, 128, 3, 8, 8, 4, 4, 2, ⟨32768, 524288⟩⟩, by decide +kernel, rfl, rfl, rfl, rfl, by decide, by decide⟩

/-- A zero point of 1 is rejected. -/
example (junk : Junk Int) (trail : Side → Nat → Nat → Int) (r : Job Int × Mem Int) :
    setup exSc 8 { exLhs with zp := 1 } exRhs (exDst .colMajor) exMp junk trail ≠ .ok r :=
  fun h => absurd (c96_zero h).1 (by decide)

/-- The hypotheses of `c96_entries`, `c96_order` and `c96_rest`. -/
example (o : Mat.Order) : ∃ d, Mul exSc (pathAvx512 intOps) exLhs exRhs (exDst o) exMp d ∧
    d.elem 9 99 = .ok (entry intOps .colMajor exLhs exRhs exMp 9 99) ∧ entry intOps .colMajor exLhs exRhs exMp 9 99 ≠ 0 ∧
    d.data.val 129 = 77 := by
  have hP : IsPath intOps (pathAvx512 intOps) := .avx512
  obtain ⟨d, hd⟩ := exEnds hP o
  have h := exUser (kc_of hP) o
  have hc : ∀ a b c : Int, intOps.madd a b c = intOps.madd b a c := by
    intro a b c
    show a * b + c = b * a + c
    rw [Int.mul_comm]
  refine ⟨d, hd, ?_, by decide +kernel, ?_⟩
  · rw [c96_entries hP h hd (by show 9 < 10; decide) (by show 99 < 125; decide), c96_order hc, c96_order hc]
  · refine (c96_rest hP h hd).2 129 (fun i j hi hj => ?_)
    have hi : i < 10 := hi
    have hj : j < 125 := hj
    cases o
    · show 129 ≠ i + j * 130
      omega
    · show 129 ≠ i * 130 + j
      omega

/-- The hypotheses of `c96_integers`. -/
example (o : Mat.Order) : ∃ d, Mul exSc (pathAvx2 intOps) exLhs exRhs (exDst o) exMp d ∧
    d.elem 9 99 = .ok (max (min (isum 6 (fun k => exLhs.at 9 k) (fun k => exRhs.at k 99) 3) 90) (-60)) := by
  have hP : IsPath intOps (pathAvx2 intOps) := .avx2
  obtain ⟨d, hd⟩ := exEnds hP o
  refine ⟨d, hd, ?_⟩
  exact c96_integers hP (exUser (kc_of hP) o) hd (by show 9 < 10; decide) (by show 99 < 125; decide) intOps_exact
    (fun _ _ => ⟨rfl, trivial⟩) (fun _ _ => ⟨rfl, trivial⟩) rfl ⟨rfl, trivial⟩ ⟨rfl, trivial⟩ (fun _ _ => trivial) (fun _ _ => trivial)

/-- The hypotheses of `c96_one_result`. -/
example (o : Mat.Order) : ∃ d, Mul exSc (pathAvx intOps) exLhs exRhs (exDst o) exMp d ∧
    Mul exSc (pathAvx512 intOps) exLhs exRhs (exDst o) exMp d := by
  have h1 : IsPath intOps (pathAvx intOps) := .avx
  have h2 : IsPath intOps (pathAvx512 intOps) := .avx512
  obtain ⟨d, hd⟩ := exEnds h1 o
  obtain ⟨d', hd'⟩ := exEnds h2 o
  refine ⟨d, hd, ?_⟩
  rw [c96_one_result h1 h2 (exUser (kc_of h1) o) (exUser (kc_of h2) o) hd hd']
  exact hd'

end Ruy.XFloat.Top

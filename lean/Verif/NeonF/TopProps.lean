import Verif.NeonF.Top
import Verif.FloatErr.TopProps
/-
Property C98: ruy::Mul with float matrices on the AArch64 paths kNeon and kNeonDotprod, from its arguments to its destination.

  c98_zero        arguments with other zero points than 0 are rejected
  c98_runs        the front end succeeds, and then no way of running TrMul fails, whatever tunings the threads find; under a fair
                  schedule all threads return
  c98_entries     every entry is the sum of products in the order of one of the kernels, plus bias, clamped
  c98_rest        nothing else in the destination's memory changes
  c98_one_result  with kernels that add up in the same order, or depths below 8, the destination does not depend on anything else
  c98_binary32    binary32: within (n + 1) * 2^-23 of the sum of magnitudes (plus underflow) of the exact, clamped result
  c98_close       so two executions differ by at most twice that
  c98_integers    small integers: exact
-/
namespace Ruy.NeonF.Top
open Ruy.Mat Ruy.Mul
open Ruy.Front (Scalars MulParams Junk)
open Ruy.TrMul (MapFor)
open Ruy.Tune (Tuning)
open Ruy.Simd.Flow (control)
open Ruy.NeonF.Flow
open Ruy.Float Ruy.FloatErr
open Ruy.XFloat (isum)

variable {A : Type}

section
variable {U V : Tuning → Prop} {sc : Scalars A} {dot dot' : Bool} {ops : Ops A} {lhs rhs dst d d' : Mul.Mat A} {mp : MulParams A} {i j : Nat}

/-- C98: whatever the other arguments, the front end returns only if all zero points are 0. -/
theorem c98_zero {junk : Junk A} {r : Flow.Task A × Mach A} (h : setup sc dot ops lhs rhs dst mp junk = .ok r) :
    lhs.zp = 0 ∧ rhs.zp = 0 ∧ dst.zp = 0 := by
  unfold setup at h
  obtain ⟨_, e, _⟩ := C.bind_ok h
  exact XFloat.Top.c96_zero e

/-- C98: with any contents of fresh memory the front end returns; then simple loop, block loop and executions of several threads,
each call with any tuning, can be carried on and never fail; under fair schedules all threads come to an end. -/
theorem c98_runs (h : ArmOk sc lhs rhs dst mp) (hU : ∃ u, U u) (dot : Bool) (ops : Ops A) (junk : Junk A) :
    ∃ t m, setup sc dot ops lhs rhs dst mp junk = .ok (t, m) ∧
      (∀ u, (∃ r, Runs t (simpleOps t u) m r) ∧ ∀ r, Runs t (simpleOps t u) m r → ∃ m', r = .ok m') ∧
      ∀ bm, MapFor (shape t) bm → ∀ pre : SidePair Bool,
        ((∃ r, BlockLoop U t pre bm m r) ∧ ∀ r, BlockLoop U t pre bm m r → ∃ m', r = .ok m') ∧
        ∀ threads, 0 < threads →
          (∀ sched, (∃ r, Exec U t pre bm threads sched m r) ∧ ∀ r, Exec U t pre bm threads sched m r → ∃ x, r = .ok x) ∧
          ∀ σ, TrMul.Fair threads σ → ∃ k, ∀ r, Exec U t pre bm threads ((List.range k).map σ) m r →
            ∃ x, r = .ok x ∧ TrMul.Finished (control pre bm threads) x.ctl := by
  obtain ⟨t, m, e, hs⟩ := setup_ok h dot ops junk
  refine ⟨t, m, e, fun u => ?_, fun bm hm pre => ⟨?_, fun n hn => ⟨fun sched => ?_, fun σ fair => ?_⟩⟩⟩
  · obtain ⟨h1, h2⟩ := c73_simple_loop (m := m) u hs.ok hs.pos.1 hs.pos.2
    exact ⟨h1, fun r hr => (h2 r hr).imp fun _ h => h.1⟩
  · obtain ⟨h1, h2⟩ := c74_block_loop hs.ok hm hU pre m
    exact ⟨h1, fun r hr => (h2 r hr).imp fun _ h => h.1⟩
  · obtain ⟨h1, h2⟩ := c74_threads hs.ok hs.ints hm hU pre hn sched m
    exact ⟨h1, fun r hr => (h2 r hr).imp fun _ h => h.1⟩
  · obtain ⟨k, hk⟩ := c74_threads_finish hs.ok hs.ints hm pre hn fair
    exact ⟨k, fun r hr => ((hk U m hU).2 r hr).imp fun _ h => ⟨h.1, h.2.1⟩⟩

/-- A destination comes from a complete multiplication. -/
theorem mul_of (h : ArmOk sc lhs rhs dst mp) (hU : ∃ u, U u) (hd : Mul U sc dot ops lhs rhs dst mp d) :
    ∃ t m m', SetUp ops lhs rhs dst mp t m ∧ Multiplied U t m m' ∧ d = { dst with data := ⟨dst.data.size, m'.dst⟩ } := by
  obtain ⟨junk, t, m, m', e, he, hd⟩ := hd
  obtain ⟨t', m1, e', hs⟩ := setup_ok h dot ops junk
  rw [e] at e'; cases e'
  exact ⟨t, m, m', hs, ends_of hs.ok hs.ints hs.pos hU he, hd⟩

theorem elem_mem (h : ArmOk sc lhs rhs dst mp) (v : Nat → A) (hi : i < dst.layout.rows) (hj : j < dst.layout.cols) :
    Mat.elem { dst with data := ⟨dst.data.size, v⟩ } i j = .ok (v (off dst.layout i j)) := by
  obtain ⟨h1, h2⟩ := h.user.fits.2.2 i j hi hj
  unfold Mat.elem
  dsimp only
  rw [offset_eq, C.int_of h1, C.ok_bind]
  exact Buf.read_of (b := ⟨dst.data.size, v⟩) h2

/-- C98: the entries. -/
theorem c98_entries (h : ArmOk sc lhs rhs dst mp) (hU : ∃ u, U u) (hd : Mul U sc dot ops lhs rhs dst mp d)
    (hi : i < dst.layout.rows) (hj : j < dst.layout.cols) :
    ∃ u, U u ∧ d.elem i j = .ok (entry ops u dst.layout.order lhs rhs mp i j) := by
  obtain ⟨t, m, m', hs, M, rfl⟩ := mul_of h hU hd
  obtain ⟨r, c, he⟩ := hs.entries i j hi hj
  obtain ⟨u, hu, e⟩ := M.entry r c he.row he.col
  refine ⟨u, hu, ?_⟩
  rw [elem_mem h _ hi hj, ← he.place, e, hs.stored he]

/-- C98: layout, zero point and all memory outside the entries stay as they were. -/
theorem c98_rest (h : ArmOk sc lhs rhs dst mp) (hU : ∃ u, U u) (hd : Mul U sc dot ops lhs rhs dst mp d) :
    DSame dst d ∧ ∀ x, (∀ i j, i < dst.layout.rows → j < dst.layout.cols → x ≠ off dst.layout i j) →
      d.data.val x = dst.data.val x := by
  obtain ⟨t, m, m', hs, M, rfl⟩ := mul_of h hU hd
  refine ⟨⟨rfl, rfl, rfl⟩, fun x hx => ?_⟩
  show m'.dst x = _
  rw [M.rest x (fun r c hr hc e => ?_), hs.start]
  obtain ⟨i, j, hi, hj, e'⟩ := hs.covers r c hr hc
  exact hx i j hi hj (e.trans e')

theorem entry_same {order : Mat.Order} {u v : Tuning} (huv : ascending u = ascending v ∨ lhs.layout.cols < 8) :
    entry ops u order lhs rhs mp i j = entry ops v order lhs rhs mp i j := by
  have key : ∀ i j, Flow.levels u lhs.layout.cols i j = Flow.levels v lhs.layout.cols i j := by
    intro i j
    rcases huv with h | h
    · cases u <;> cases v <;> first | rfl | cases h
    · have : ∀ u, Flow.levels u lhs.layout.cols i j = List.range lhs.layout.cols := fun u => by
        cases u <;> first | rfl | exact congrFun (congrFun (c70_shallow h) i) j
      rw [this, this]
  unfold entry
  rw [key, key]

/-- C98: with kernels that add up in the same order, or depths below 8, the destination does not depend on the path, fresh memory,
the way TrMul runs or the tunings. -/
theorem c98_one_result {sc' : Scalars A} (h : ArmOk sc lhs rhs dst mp) (h' : ArmOk sc' lhs rhs dst mp) (hU : ∃ u, U u) (hV : ∃ u, V u)
    (huv : (∀ u v, U u → V v → ascending u = ascending v) ∨ lhs.layout.cols < 8)
    (hd : Mul U sc dot ops lhs rhs dst mp d) (hd' : Mul V sc' dot' ops lhs rhs dst mp d') : d = d' := by
  obtain ⟨s, r⟩ := c98_rest h hU hd
  obtain ⟨s', r'⟩ := c98_rest h' hV hd'
  have key : ∀ x, d.data.val x = d'.data.val x := by
    intro x
    by_cases hx : ∃ i j, i < dst.layout.rows ∧ j < dst.layout.cols ∧ x = off dst.layout i j
    · obtain ⟨i, j, hi, hj, rfl⟩ := hx
      obtain ⟨u, hu, eu⟩ := c98_entries h hU hd hi hj
      obtain ⟨v, hv, ev⟩ := c98_entries h' hV hd' hi hj
      have a := elem_at eu
      have b := elem_at ev
      unfold Mat.at at a b
      rw [s.layout] at a
      rw [s'.layout] at b
      rw [← a, ← b]
      exact entry_same (huv.imp (fun k => k u v hu hv) id)
    · have hn : ∀ i j, i < dst.layout.rows → j < dst.layout.cols → x ≠ off dst.layout i j :=
        fun i j hi hj e => hx ⟨i, j, hi, hj, e⟩
      rw [r x hn, r' x hn]
  obtain ⟨l, ⟨n, v⟩, z⟩ := d
  obtain ⟨l', ⟨n', v'⟩, z'⟩ := d'
  have e1 : l = dst.layout := s.layout
  have e2 : l' = dst.layout := s'.layout
  have e3 : z = dst.zp := s.zp
  have e4 : z' = dst.zp := s'.zp
  have e5 : n = dst.data.size := s.size
  have e6 : n' = dst.data.size := s'.size
  have e7 : v = v' := funext key
  rw [e1, e2, e3, e4, e5, e6, e7]

end

section
variable {U V : Tuning → Prop} {sc sc' : Scalars Fl} {dot dot' ftz : Bool} {lhs rhs dst d d' : Mul.Mat Fl} {mp : MulParams Fl} {i j n : Nat}
  {a c : Nat → ℚ} {b : ℚ}

/-- C98: binary32, rounding to nearest, depth below 2^23 - 1, sum of magnitudes at most 2^126. -/
theorem c98_binary32 (h : ArmOk sc lhs rhs dst mp) (hU : ∃ u, U u) (hd : Mul U sc dot (armOps (binary32 ftz)) lhs rhs dst mp d)
    (hi : i < dst.layout.rows) (hj : j < dst.layout.cols) (hin : MulInputs lhs rhs mp i j a c b) (hn : n = lhs.layout.cols)
    (hdepth : n + 1 < 2 ^ 23) (hmag : mag b a c n ≤ 2 ^ (126 : ℤ)) :
    Within d i j (upper mp.clampMax (FloatErr.lower mp.clampMin (FloatErr.sum b a c n)))
      ((n + 1) * 2 ^ (-23 : ℤ) * mag b a c n + 2 * (n + 1) * tiny ftz) := by
  subst hn
  obtain ⟨t, m, m', hs, M, rfl⟩ := mul_of h hU hd
  obtain ⟨r, s, he⟩ := hs.entries i j hi hj
  have hb : IsVal (Flow.biasAt t m (channelOf t.mp.chan r s)) b := by rw [he.bias]; exact hin.bias
  have hlo : IsLower t.mp.clampMin := by rw [hs.lo]; exact hin.lo
  have hhi : IsUpper t.mp.clampMax := by rw [hs.hi]; exact hin.hi
  have dep := hs.depth
  have close : ∀ {x : ℚ} {y : ℚ}, Near (m'.dst (place t r s)) x y → Within { dst with data := ⟨dst.data.size, m'.dst⟩ } i j x y := by
    intro x y ⟨q, h1, h2⟩
    refine ⟨_, q, elem_mem h _ hi hj, ?_, h2⟩
    rw [← he.place]; exact h1
  rcases he.elems with ⟨_, _, k⟩ | ⟨_, _, k⟩
  · have := c73_binary32 hs.arith M he.row he.col (a := a) (b := c) (bias := b)
      ⟨fun x hx => by rw [(k x).1]; exact hin.lhs x (by omega), fun x hx => by rw [(k x).2]; exact hin.rhs x (by omega), hb, hlo, hhi⟩
      (by omega) (by rw [dep]; exact hmag)
    unfold Flow.exact at this
    rw [dep, hs.lo, hs.hi] at this
    exact close this
  · have := c73_binary32 hs.arith M he.row he.col (a := c) (b := a) (bias := b)
      ⟨fun x hx => by rw [(k x).1]; exact hin.rhs x (by omega), fun x hx => by rw [(k x).2]; exact hin.lhs x (by omega), hb, hlo, hhi⟩
      (by omega) (by rw [dep, mag_comm]; exact hmag)
    unfold Flow.exact at this
    rw [dep, hs.lo, hs.hi, mag_comm, sum_comm] at this
    exact close this

/-- C98: two executions, with any tunings, on either path. -/
theorem c98_close (h : ArmOk sc lhs rhs dst mp) (hU : ∃ u, U u) (hd : Mul U sc dot (armOps (binary32 ftz)) lhs rhs dst mp d)
    (h' : ArmOk sc' lhs rhs dst mp) (hV : ∃ u, V u) (hd' : Mul V sc' dot' (armOps (binary32 ftz)) lhs rhs dst mp d')
    (hi : i < dst.layout.rows) (hj : j < dst.layout.cols) (hin : MulInputs lhs rhs mp i j a c b) (hn : n = lhs.layout.cols)
    (hdepth : n + 1 < 2 ^ 23) (hmag : mag b a c n ≤ 2 ^ (126 : ℤ)) :
    ∃ x x' r r', d.elem i j = .ok x ∧ d'.elem i j = .ok x' ∧ IsVal x r ∧ IsVal x' r' ∧
      |r - r'| ≤ (2 * n + 2) * 2 ^ (-23 : ℤ) * mag b a c n + 4 * (n + 1) * tiny ftz := by
  obtain ⟨x, x', r, r', h1, h2, h3, h4, h5⟩ := (c98_binary32 h hU hd hi hj hin hn hdepth hmag).close
    (c98_binary32 h' hV hd' hi hj hin hn hdepth hmag)
  exact ⟨x, x', r, r', h1, h2, h3, h4, h5.trans (by linarith)⟩

/-- C98: integer matrices whose products have magnitudes that add up, with the bias, to at most 2^24, are multiplied exactly. -/
theorem c98_integers (h : ArmOk sc lhs rhs dst mp) (hU : ∃ u, U u) (hd : Mul U sc dot (armOps (binary32 ftz)) lhs rhs dst mp d)
    (hi : i < dst.layout.rows) (hj : j < dst.layout.cols) {L R : Nat → ℤ} {b lo hi' : ℤ}
    (hl : ∀ k, k < lhs.layout.cols → lhs.at i k = ofInt (L k)) (hr : ∀ k, k < lhs.layout.cols → rhs.at k j = ofInt (R k))
    (hb : XFloat.biasAt (.zero false) mp (channelOf mp.channelDim i j) = ofInt b)
    (hmin : mp.clampMin = ofInt lo) (hmax : mp.clampMax = ofInt hi')
    (hs : |b| + ∑ k ∈ Finset.range lhs.layout.cols, |L k * R k| ≤ 2 ^ 24) :
    d.elem i j = .ok (ofInt (min (max (isum b L R lhs.layout.cols) lo) hi')) := by
  obtain ⟨t, m, m', S, M, rfl⟩ := mul_of h hU hd
  obtain ⟨r, s, he⟩ := S.entries i j hi hj
  have hb' : Flow.biasAt t m (channelOf t.mp.chan r s) = ofInt b := by rw [he.bias]; exact hb
  have dep := S.depth
  rw [elem_mem h _ hi hj, ← he.place]
  rcases he.elems with ⟨_, _, k⟩ | ⟨_, _, k⟩
  · rw [c73_integers S.arith M he.row he.col (a := L) (b := R) (bias := b)
      (fun x hx => ⟨by rw [(k x).1]; exact hl x (by omega), by rw [(k x).2]; exact hr x (by omega)⟩) hb'
      (by rw [S.lo]; exact hmin) (by rw [S.hi]; exact hmax) (by rw [dep]; exact hs), dep]
  · rw [c73_integers S.arith M he.row he.col (a := R) (b := L) (bias := b)
      (fun x hx => ⟨by rw [(k x).1]; exact hr x (by omega), by rw [(k x).2]; exact hl x (by omega)⟩) hb'
      (by rw [S.lo]; exact hmin) (by rw [S.hi]; exact hmax) (by rw [dep]; simp only [mul_comm (R _)]; exact hs), dep,
      XFloat.Top.isum_comm]

end

/-! ### Examples -/

theorem exArm (o : Mat.Order) : ArmOk exScalars (exI XFloat.Top.exLhs) (exI XFloat.Top.exRhs) (exI (XFloat.Top.exDst o)) exIMp :=
  ⟨exIUser (.inl rfl) o, (fun h => by cases h), (fun h => by cases h)⟩

def exJunk : Junk Fl := ⟨⟨fun _ => .nan 1, fun _ => .nan 1⟩, ⟨fun _ => .nan 1, fun _ => .nan 1⟩⟩

/-- A destination, for both orders and both paths. -/
theorem exMul (o : Mat.Order) (dot : Bool) (u : Tuning) :
    ∃ d, Mul (fun _ => True) exScalars dot (armOps (binary32 false)) (exI XFloat.Top.exLhs) (exI XFloat.Top.exRhs)
      (exI (XFloat.Top.exDst o)) exIMp d := by
  obtain ⟨t, m, e, h1, _⟩ := c98_runs (U := fun _ => True) (exArm o) ⟨.auto, trivial⟩ dot (armOps (binary32 false)) exJunk
  obtain ⟨⟨r, hr⟩, h2⟩ := h1 u
  obtain ⟨m', rfl⟩ := h2 r hr
  exact ⟨_, exJunk, t, m, m', e, .simple u trivial hr, rfl⟩

/-- The hypotheses of `c98_runs` with several threads. -/
example : ∃ t m, setup exScalars true (armOps (binary32 false)) (exI XFloat.Top.exLhs) (exI XFloat.Top.exRhs)
    (exI (XFloat.Top.exDst .colMajor)) exIMp exJunk = .ok (t, m) ∧ MapFor (shape t) exMap :=
  ⟨_, _, rfl, ⟨16, 128, 3, 8, 8, 1, 1, 2, ⟨32768, 524288⟩⟩, by decide +kernel, rfl, rfl, rfl, rfl, by decide, by decide⟩

/-- A zero point of 1 is rejected. -/
example (ops : Ops Fl) (junk : Junk Fl) (r : Flow.Task Fl × Mach Fl) :
    setup exScalars true ops { exI XFloat.Top.exLhs with zp := 1 } (exI XFloat.Top.exRhs) (exI (XFloat.Top.exDst .colMajor)) exIMp junk ≠ .ok r :=
  fun h => absurd (c98_zero h).1 (by decide)

/-- The hypotheses of `c98_entries`, `c98_rest`, `c98_one_result` (the depth is 3) and `c98_integers`. -/
example (o : Mat.Order) : ∃ d, Mul (fun _ => True) exScalars false (armOps (binary32 false)) (exI XFloat.Top.exLhs) (exI XFloat.Top.exRhs)
      (exI (XFloat.Top.exDst o)) exIMp d ∧
    Mul (fun _ => True) exScalars true (armOps (binary32 false)) (exI XFloat.Top.exLhs) (exI XFloat.Top.exRhs)
      (exI (XFloat.Top.exDst o)) exIMp d ∧
    d.elem 9 99 = .ok (ofInt (min (max (isum 6 (fun k => XFloat.Top.exLhs.at 9 k) (fun k => XFloat.Top.exRhs.at k 99) 3) (-60)) 90)) ∧
    d.data.val 129 = ofInt 77 := by
  obtain ⟨d, hd⟩ := exMul o false .x1
  obtain ⟨d', hd'⟩ := exMul o true .auto
  have hU : ∃ u : Tuning, True := ⟨.auto, trivial⟩
  have e := c98_one_result (exArm o) (exArm o) hU hU (.inr (by decide)) hd hd'
  subst e
  refine ⟨d, hd, hd', ?_, ?_⟩
  · exact c98_integers (exArm o) hU hd (by show 9 < 10; decide) (by show 99 < 125; decide) (fun _ _ => rfl) (fun _ _ => rfl) rfl rfl rfl
      (by decide +kernel)
  · refine ((c98_rest (exArm o) hU hd).2 129 (fun i j hi hj => ?_)).trans rfl
    have hi : i < 10 := hi
    have hj : j < 125 := hj
    cases o
    · show 129 ≠ i + j * 130
      omega
    · show 129 ≠ i * 130 + j
      omega

/-- The hypotheses of `c98_binary32` and `c98_close`. -/
example : ∃ d d' x x' r r', Mul (fun _ => True) exScalars false (armOps (binary32 false)) exLhs exRhs exDst exFMp d ∧
    Mul (fun _ => True) exScalars true (armOps (binary32 false)) exLhs exRhs exDst exFMp d' ∧
    d.elem 0 0 = .ok x ∧ d'.elem 0 0 = .ok x' ∧ IsVal x r ∧ IsVal x' r' ∧
      |r - r'| ≤ (2 * (2 : Nat) + 2) * 2 ^ (-23 : ℤ) * mag 0 exA exC 2 + 4 * ((2 : Nat) + 1) * tiny false := by
  have h : ArmOk exScalars exLhs exRhs exDst exFMp :=
    ⟨FloatErr.exUser 8 (.inl rfl) _, (fun _ => by show 2 * (1 + 8) < _; decide), (fun _ => by show 2 * (1 + 8) < _; decide)⟩
  have hU : ∃ u : Tuning, True := ⟨.auto, trivial⟩
  have mk : ∀ dot, ∃ d, Mul (fun _ => True) exScalars dot (armOps (binary32 false)) exLhs exRhs exDst exFMp d := by
    intro dot
    obtain ⟨t, m, e, h1, _⟩ := c98_runs (U := fun _ => True) h hU dot (armOps (binary32 false)) exJunk
    obtain ⟨⟨r, hr⟩, h2⟩ := h1 .auto
    obtain ⟨m', rfl⟩ := h2 r hr
    exact ⟨_, exJunk, t, m, m', e, .simple .auto trivial hr, rfl⟩
  obtain ⟨d, hd⟩ := mk false
  obtain ⟨d', hd'⟩ := mk true
  obtain ⟨x, x', r, r', k⟩ := c98_close h hU hd h hU hd' (by decide) (by decide) exInputs rfl (by decide) exTopMag
  exact ⟨d, d', x, x', r, r', hd, hd', k⟩

end Ruy.NeonF.Top

import Verif.Arm32.Top
import Verif.NeonF.TopProps
/-
Property C99: ruy::Mul with float matrices on 32-bit ARM (path kNeon), from its arguments to its destination.

  c99_zero        arguments with other zero points than 0 are rejected
  c99_runs        the front end succeeds, and then no way of running TrMul fails; under a fair schedule all threads return
  c99_entries     every entry is the sum of products by increasing depth, plus bias, clamped
  c99_rest        nothing else in the destination's memory changes
  c99_one_result  the destination depends on the arguments only
  c99_binary32    with the arithmetic of 32-bit Advanced SIMD and no denormal operands: within (n + 2) * 2^-23 of the sum of
                  magnitudes (plus underflow) of the exact, clamped result
  c99_aarch64     so the distance to a destination of AArch64 (C98) is bounded
  c99_integers    small integers: exact
  c99_differ      AArch64 can leave another destination
-/
namespace Ruy.Arm32.Top
open Ruy.Mat Ruy.Mul
open Ruy.Front (Scalars MulParams Junk)
open Ruy.TrMul (MapFor)
open Ruy.Tune (Tuning)
open Ruy.Simd.Flow (control)
open Ruy.NeonF (armOps Near)
open Ruy.NeonF.Flow (Mach shape XState place)
open Ruy.Arm32.Flow
open Ruy.Float Ruy.FloatErr
open Ruy.XFloat (isum)

variable {A : Type}

section
variable {sc : Scalars A} {ops : NeonF.Ops A} {lhs rhs dst d d' : Mul.Mat A} {mp : MulParams A} {i j : Nat}

/-- C99: whatever the other arguments, the front end returns only if all zero points are 0. -/
theorem c99_zero {junk : Junk A} {r : Flow.Task A × Mach A} (h : setup sc ops lhs rhs dst mp junk = .ok r) :
    lhs.zp = 0 ∧ rhs.zp = 0 ∧ dst.zp = 0 := by
  unfold setup at h
  obtain ⟨_, e, _⟩ := C.bind_ok h
  unfold Front.validate at e
  obtain ⟨_, h1, e⟩ := C.bind_ok e
  obtain ⟨_, h2, e⟩ := C.bind_ok e
  obtain ⟨_, h3, e⟩ := C.bind_ok e
  exact ⟨C.check_ok h1, C.check_ok h2, C.check_ok h3⟩

/-- C99: with any contents of fresh memory the front end returns; then simple loop, block loop and executions of several threads
can be carried on and never fail; under fair schedules all threads come to an end. -/
theorem c99_runs (h : ArmOk sc lhs rhs dst mp) (ops : NeonF.Ops A) (junk : Junk A) :
    ∃ t m, setup sc ops lhs rhs dst mp junk = .ok (t, m) ∧
      ((∃ r, Runs t (simpleOps t) m r) ∧ ∀ r, Runs t (simpleOps t) m r → ∃ m', r = .ok m') ∧
      ∀ bm, MapFor (shape t) bm → ∀ pre : SidePair Bool,
        ((∃ r, BlockLoop t pre bm m r) ∧ ∀ r, BlockLoop t pre bm m r → ∃ m', r = .ok m') ∧
        ∀ threads, 0 < threads →
          (∀ sched, (∃ r, Exec t pre bm threads sched m r) ∧ ∀ r, Exec t pre bm threads sched m r → ∃ x, r = .ok x) ∧
          ∀ σ, TrMul.Fair threads σ → ∃ k, ∀ r, Exec t pre bm threads ((List.range k).map σ) m r →
            ∃ x, r = .ok x ∧ TrMul.Finished (control pre bm threads) x.ctl := by
  obtain ⟨t, m, e, hs⟩ := setup_ok h ops junk
  refine ⟨t, m, e, ?_, fun bm hm pre => ⟨?_, fun n hn => ⟨fun sched => ?_, fun σ fair => ?_⟩⟩⟩
  · obtain ⟨h1, h2⟩ := c89_simple_loop (m := m) hs.ok hs.pos.1 hs.pos.2
    exact ⟨h1, fun r hr => (h2 r hr).imp fun _ h => h.1⟩
  · obtain ⟨h1, h2⟩ := c90_block_loop hs.ok hm pre m
    exact ⟨h1, fun r hr => (h2 r hr).imp fun _ h => h.1⟩
  · obtain ⟨h1, h2⟩ := c90_threads hs.ok hm pre hn sched m
    exact ⟨h1, fun r hr => (h2 r hr).imp fun _ h => h.1⟩
  · obtain ⟨k, hk⟩ := c90_threads_finish hs.ok hm pre hn fair m
    exact ⟨k, fun r hr => (hk.2 r hr).imp fun _ h => ⟨h.1, h.2.1⟩⟩

/-- A destination comes from a complete multiplication. -/
theorem mul_of (h : ArmOk sc lhs rhs dst mp) (hd : Mul sc ops lhs rhs dst mp d) :
    ∃ t m m', SetUp ops lhs rhs dst mp t m ∧ Multiplied t m m' ∧ d = { dst with data := ⟨dst.data.size, m'.dst⟩ } := by
  obtain ⟨junk, t, m, m', e, he, hd⟩ := hd
  obtain ⟨t', m1, e', hs⟩ := setup_ok h ops junk
  rw [e] at e'; cases e'
  exact ⟨t, m, m', hs, ends_of hs.ok hs.pos he, hd⟩

theorem elem_mem (h : ArmOk sc lhs rhs dst mp) (v : Nat → A) (hi : i < dst.layout.rows) (hj : j < dst.layout.cols) :
    Mat.elem { dst with data := ⟨dst.data.size, v⟩ } i j = .ok (v (off dst.layout i j)) := by
  obtain ⟨h1, h2⟩ := h.user.fits.2.2 i j hi hj
  unfold Mat.elem
  dsimp only
  rw [offset_eq, C.int_of h1, C.ok_bind]
  exact Buf.read_of (b := ⟨dst.data.size, v⟩) h2

/-- C99: the entries. -/
theorem c99_entries (h : ArmOk sc lhs rhs dst mp) (hd : Mul sc ops lhs rhs dst mp d)
    (hi : i < dst.layout.rows) (hj : j < dst.layout.cols) :
    d.elem i j = .ok (entry ops dst.layout.order lhs rhs mp i j) := by
  obtain ⟨t, m, m', hs, M, rfl⟩ := mul_of h hd
  obtain ⟨r, c, he⟩ := hs.entries i j hi hj
  rw [elem_mem h _ hi hj, ← he.place, M.entry r c he.row he.col, hs.stored he]

/-- C99: layout, zero point and all memory outside the entries stay as they were. -/
theorem c99_rest (h : ArmOk sc lhs rhs dst mp) (hd : Mul sc ops lhs rhs dst mp d) :
    DSame dst d ∧ ∀ x, (∀ i j, i < dst.layout.rows → j < dst.layout.cols → x ≠ off dst.layout i j) →
      d.data.val x = dst.data.val x := by
  obtain ⟨t, m, m', hs, M, rfl⟩ := mul_of h hd
  refine ⟨⟨rfl, rfl, rfl⟩, fun x hx => ?_⟩
  show m'.dst x = _
  rw [M.rest x (fun r c hr hc e => ?_), hs.start]
  obtain ⟨i, j, hi, hj, e'⟩ := hs.covers r c hr hc
  exact hx i j hi hj (e.trans e')

/-- C99: the destination does not depend on fresh memory or the way TrMul runs. -/
theorem c99_one_result {sc' : Scalars A} (h : ArmOk sc lhs rhs dst mp) (h' : ArmOk sc' lhs rhs dst mp)
    (hd : Mul sc ops lhs rhs dst mp d) (hd' : Mul sc' ops lhs rhs dst mp d') : d = d' := by
  obtain ⟨s, r⟩ := c99_rest h hd
  obtain ⟨s', r'⟩ := c99_rest h' hd'
  have key : ∀ x, d.data.val x = d'.data.val x := by
    intro x
    by_cases hx : ∃ i j, i < dst.layout.rows ∧ j < dst.layout.cols ∧ x = off dst.layout i j
    · obtain ⟨i, j, hi, hj, rfl⟩ := hx
      have a := elem_at (c99_entries h hd hi hj)
      have b := elem_at (c99_entries h' hd' hi hj)
      unfold Mat.at at a b
      rw [s.layout] at a
      rw [s'.layout] at b
      rw [← a, ← b]
    · have hn : ∀ i j, i < dst.layout.rows → j < dst.layout.cols → x ≠ off dst.layout i j :=
        fun i j hi hj e => hx ⟨i, j, hi, hj, e⟩
      rw [r x hn, r' x hn]
  obtain ⟨l, ⟨n, v⟩, z⟩ := d
  obtain ⟨l', ⟨n', v'⟩, z'⟩ := d'
  have e1 : l = dst.layout := s.layout
  have e2 : l' = dst.layout := s'.layout
  have e3 : z = dst.zp := s.zp
  have e4 : z' = dst.zp := s'.zp
  have e5 : n = dst.data.size := s.size
  have e6 : n' = dst.data.size := s'.size
  have e7 : v = v' := funext key
  rw [e1, e2, e3, e4, e5, e6, e7]

end

section
variable {sc sc' : Scalars Fl} {lhs rhs dst d d' : Mul.Mat Fl} {mp : MulParams Fl} {i j n : Nat} {a c : Nat → ℚ} {b : ℚ}

/-- No denormals among the operands of entry (i, j). -/
structure NormalInputs (lhs rhs : Mul.Mat Fl) (mp : MulParams Fl) (i j : Nat) : Prop where
  left : ∀ k, k < lhs.layout.cols → Normal (lhs.at i k)
  right : ∀ k, k < lhs.layout.cols → Normal (rhs.at k j)
  bias : Normal (XFloat.biasAt (.zero false) mp (channelOf mp.channelDim i j))
  lo : Normal mp.clampMin
  hi : Normal mp.clampMax

/-- C99: 32-bit Advanced SIMD, no denormal operands, depth below 2^23 - 2, sum of magnitudes at most 2^126. -/
theorem c99_binary32 (h : ArmOk sc lhs rhs dst mp) (hd : Mul sc neonOps lhs rhs dst mp d)
    (hi : i < dst.layout.rows) (hj : j < dst.layout.cols) (hin : MulInputs lhs rhs mp i j a c b) (hN : NormalInputs lhs rhs mp i j)
    (hn : n = lhs.layout.cols) (hdepth : n + 2 < 2 ^ 23) (hmag : mag b a c n ≤ 2 ^ (126 : ℤ)) :
    Within d i j (upper mp.clampMax (FloatErr.lower mp.clampMin (FloatErr.sum b a c n)))
      ((n + 2) * 2 ^ (-23 : ℤ) * mag b a c n + 2 * (2 * n + 1) * 2 ^ (-126 : ℤ)) := by
  subst hn
  obtain ⟨t, m, m', hs, M, rfl⟩ := mul_of h hd
  obtain ⟨r, s, he⟩ := hs.entries i j hi hj
  have hb : IsVal (NeonF.Flow.biasAt t m (channelOf t.mp.chan r s)) b := by rw [he.bias]; exact hin.bias
  have hbn : Normal (NeonF.Flow.biasAt t m (channelOf t.mp.chan r s)) := by rw [he.bias]; exact hN.bias
  have hlo : IsLower t.mp.clampMin := by rw [hs.lo]; exact hin.lo
  have hhi : IsUpper t.mp.clampMax := by rw [hs.hi]; exact hin.hi
  have dep := hs.depth
  have close : ∀ {x : ℚ} {y : ℚ}, Near (m'.dst (place t r s)) x y → Within { dst with data := ⟨dst.data.size, m'.dst⟩ } i j x y := by
    intro x y ⟨q, h1, h2⟩
    refine ⟨_, q, elem_mem h _ hi hj, ?_, h2⟩
    rw [← he.place]; exact h1
  rcases he.elems with ⟨_, _, k⟩ | ⟨_, _, k⟩
  · have := c89_neon_normal he.row he.col hs.arith M (a := a) (b := c) (bias := b)
      ⟨fun x hx => by rw [(k x).1]; exact hin.lhs x (by omega), fun x hx => by rw [(k x).2]; exact hin.rhs x (by omega), hb, hlo, hhi⟩
      (fun x hx => ⟨by rw [(k x).1]; exact hN.left x (by omega), by rw [(k x).2]; exact hN.right x (by omega)⟩) hbn
      (by rw [hs.lo]; exact hN.lo) (by rw [hs.hi]; exact hN.hi) (by omega) (by rw [dep]; exact hmag)
    unfold NeonF.Flow.exact at this
    rw [dep, hs.lo, hs.hi] at this
    exact close this
  · have := c89_neon_normal he.row he.col hs.arith M (a := c) (b := a) (bias := b)
      ⟨fun x hx => by rw [(k x).1]; exact hin.rhs x (by omega), fun x hx => by rw [(k x).2]; exact hin.lhs x (by omega), hb, hlo, hhi⟩
      (fun x hx => ⟨by rw [(k x).1]; exact hN.right x (by omega), by rw [(k x).2]; exact hN.left x (by omega)⟩) hbn
      (by rw [hs.lo]; exact hN.lo) (by rw [hs.hi]; exact hN.hi) (by omega) (by rw [dep, mag_comm]; exact hmag)
    unfold NeonF.Flow.exact at this
    rw [dep, hs.lo, hs.hi, mag_comm, sum_comm] at this
    exact close this

/-- C99: the distance to a destination of AArch64, on either path, with any tunings. -/
theorem c99_aarch64 {U : Tuning → Prop} {dot ftz : Bool} (h : ArmOk sc lhs rhs dst mp) (hd : Mul sc neonOps lhs rhs dst mp d)
    (h' : NeonF.Top.ArmOk sc' lhs rhs dst mp) (hU : ∃ u, U u)
    (hd' : NeonF.Top.Mul U sc' dot (armOps (binary32 ftz)) lhs rhs dst mp d')
    (hi : i < dst.layout.rows) (hj : j < dst.layout.cols) (hin : MulInputs lhs rhs mp i j a c b) (hN : NormalInputs lhs rhs mp i j)
    (hn : n = lhs.layout.cols) (hdepth : n + 2 < 2 ^ 23) (hmag : mag b a c n ≤ 2 ^ (126 : ℤ)) :
    ∃ x x' r r', d.elem i j = .ok x ∧ d'.elem i j = .ok x' ∧ IsVal x r ∧ IsVal x' r' ∧
      |r - r'| ≤ (2 * n + 3) * 2 ^ (-23 : ℤ) * mag b a c n + 2 * (2 * n + 1) * 2 ^ (-126 : ℤ) + 2 * (n + 1) * tiny ftz := by
  obtain ⟨x, x', r, r', h1, h2, h3, h4, h5⟩ := (c99_binary32 h hd hi hj hin hN hn hdepth hmag).close
    (NeonF.Top.c98_binary32 h' hU hd' hi hj hin hn (by omega) hmag)
  exact ⟨x, x', r, r', h1, h2, h3, h4, h5.trans (by linarith)⟩

/-- C99: integer matrices whose products have magnitudes that add up, with the bias, to at most 2^24, are multiplied exactly. -/
theorem c99_integers (h : ArmOk sc lhs rhs dst mp) (hd : Mul sc neonOps lhs rhs dst mp d)
    (hi : i < dst.layout.rows) (hj : j < dst.layout.cols) {L R : Nat → ℤ} {b lo hi' : ℤ}
    (hl : ∀ k, k < lhs.layout.cols → lhs.at i k = ofInt (L k)) (hr : ∀ k, k < lhs.layout.cols → rhs.at k j = ofInt (R k))
    (hb : XFloat.biasAt (.zero false) mp (channelOf mp.channelDim i j) = ofInt b)
    (hmin : mp.clampMin = ofInt lo) (hmax : mp.clampMax = ofInt hi')
    (hs : |b| + ∑ k ∈ Finset.range lhs.layout.cols, |L k * R k| ≤ 2 ^ 24) :
    d.elem i j = .ok (ofInt (min (max (isum b L R lhs.layout.cols) lo) hi')) := by
  obtain ⟨t, m, m', S, M, rfl⟩ := mul_of h hd
  obtain ⟨r, s, he⟩ := S.entries i j hi hj
  have hb' : NeonF.Flow.biasAt t m (channelOf t.mp.chan r s) = ofInt b := by rw [he.bias]; exact hb
  have dep := S.depth
  rw [elem_mem h _ hi hj, ← he.place]
  rcases he.elems with ⟨_, _, k⟩ | ⟨_, _, k⟩
  · rw [c89_neon_integers he.row he.col S.arith M (a := L) (b := R) (bias := b)
      (fun x hx => ⟨by rw [(k x).1]; exact hl x (by omega), by rw [(k x).2]; exact hr x (by omega)⟩) hb'
      (by rw [S.lo]; exact hmin) (by rw [S.hi]; exact hmax) (by rw [dep]; exact hs), dep]
  · rw [c89_neon_integers he.row he.col S.arith M (a := R) (b := L) (bias := b)
      (fun x hx => ⟨by rw [(k x).1]; exact hr x (by omega), by rw [(k x).2]; exact hl x (by omega)⟩) hb'
      (by rw [S.lo]; exact hmin) (by rw [S.hi]; exact hmax) (by rw [dep]; simp only [mul_comm (R _)]; exact hs), dep,
      XFloat.Top.isum_comm]

end

/-! ### Examples and witnesses -/

theorem exArm (o : Mat.Order) : ArmOk exScalars (exI XFloat.Top.exLhs) (exI XFloat.Top.exRhs) (exI (XFloat.Top.exDst o)) exIMp :=
  ⟨exIUser (.inl rfl) o, ⟨by decide, by decide⟩, ⟨by decide, by decide⟩, (by show 4 * (130 * 125) ≤ _; decide),
    (fun b hb => by cases hb; show 4 * 10 ≤ _; decide), (fun h => by cases h), (fun h => by cases h)⟩

theorem exFine : ArmOk exScalars exLhs exRhs exDst exFMp :=
  ⟨FloatErr.exUser 8 (.inl rfl) _, ⟨by decide, by decide⟩, ⟨by decide, by decide⟩, (by decide), (fun b hb => by cases hb),
    (fun _ => by show 2 * (1 + 8) < _; decide), (fun _ => by show 2 * (1 + 8) < _; decide)⟩

theorem mul_exists {lhs rhs dst : Mul.Mat Fl} {mp : MulParams Fl} (h : ArmOk exScalars lhs rhs dst mp) :
    ∃ d, Mul exScalars neonOps lhs rhs dst mp d := by
  obtain ⟨t, m, e, ⟨⟨r, hr⟩, h2⟩, _⟩ := c99_runs h neonOps NeonF.Top.exJunk
  obtain ⟨m', rfl⟩ := h2 r hr
  exact ⟨_, NeonF.Top.exJunk, t, m, m', e, .simple hr, rfl⟩

/-- C99: on AArch64 another destination: 2^-46 in place of 0, with any tunings. -/
theorem c99_differ {U : Tuning → Prop} {dot : Bool} {d d' : Mul.Mat Fl} (hU : ∃ u, U u)
    (hd : Mul exScalars neonOps exLhs exRhs exDst exFMp d)
    (hd' : NeonF.Top.Mul U exScalars dot (armOps (binary32 false)) exLhs exRhs exDst exFMp d') :
    d.elem 0 0 = .ok (.zero false) ∧ d'.elem 0 0 = .ok (.fin (1 / 2 ^ 46)) := by
  have h' : NeonF.Top.ArmOk exScalars exLhs exRhs exDst exFMp := ⟨exFine.user, exFine.lcols, exFine.rcols⟩
  constructor
  · rw [c99_entries exFine hd (by decide) (by decide)]
    exact congrArg _ (by decide +kernel)
  · obtain ⟨u, _, e⟩ := NeonF.Top.c98_entries h' hU hd' (i := 0) (j := 0) (by decide) (by decide)
    rw [e]
    exact congrArg _ (by cases u <;> decide +kernel)

theorem exNormal : NormalInputs exLhs exRhs exFMp 0 0 := by
  refine ⟨fun k hk => ?_, fun k hk => ?_, fun q hq => ?_, fun q hq => ?_, fun q hq => ?_⟩
  · have hk : k < 2 := hk
    intro q hq
    interval_cases k <;> (cases hq; decide +kernel)
  · have hk : k < 2 := hk
    intro q hq
    interval_cases k <;> (cases hq; decide +kernel)
  · cases hq
  · cases hq; decide +kernel
  · cases hq

/-- The hypotheses of `c99_differ`, `c99_binary32` and `c99_aarch64`. -/
example : ∃ d d' x x' r r', Mul exScalars neonOps exLhs exRhs exDst exFMp d ∧
    NeonF.Top.Mul (fun _ => True) exScalars true (armOps (binary32 false)) exLhs exRhs exDst exFMp d' ∧
    d.elem 0 0 = .ok x ∧ d'.elem 0 0 = .ok x' ∧ IsVal x r ∧ IsVal x' r' ∧
      |r - r'| ≤ (2 * (2 : Nat) + 3) * 2 ^ (-23 : ℤ) * mag 0 exA exC 2 + 2 * (2 * (2 : Nat) + 1) * 2 ^ (-126 : ℤ) +
        2 * ((2 : Nat) + 1) * tiny false := by
  have h' : NeonF.Top.ArmOk exScalars exLhs exRhs exDst exFMp := ⟨exFine.user, exFine.lcols, exFine.rcols⟩
  have hU : ∃ u : Tuning, True := ⟨.auto, trivial⟩
  obtain ⟨t, m, e, h1, _⟩ := NeonF.Top.c98_runs (U := fun _ => True) h' hU true (armOps (binary32 false)) NeonF.Top.exJunk
  obtain ⟨⟨r, hr⟩, h2⟩ := h1 .auto
  obtain ⟨m', rfl⟩ := h2 r hr
  obtain ⟨d, hd⟩ := mul_exists exFine
  have hd' : NeonF.Top.Mul (fun _ => True) exScalars true (armOps (binary32 false)) exLhs exRhs exDst exFMp _ :=
    ⟨NeonF.Top.exJunk, t, m, m', e, .simple .auto trivial hr, rfl⟩
  obtain ⟨x, x', r, r', k⟩ := c99_aarch64 exFine hd h' hU hd' (by decide) (by decide) exInputs exNormal rfl (by decide) exTopMag
  exact ⟨d, _, x, x', r, r', hd, hd', k⟩

/-- The hypotheses of `c99_runs` with several threads. -/
example : ∃ t m, setup exScalars neonOps (exI XFloat.Top.exLhs) (exI XFloat.Top.exRhs)
    (exI (XFloat.Top.exDst .colMajor)) exIMp NeonF.Top.exJunk = .ok (t, m) ∧ MapFor (shape t) exMap :=
  ⟨_, _, rfl, ⟨16, 128, 3, 8, 4, 1, 1, 2, ⟨32768, 524288⟩⟩, by decide +kernel, rfl, rfl, rfl, rfl, by decide, by decide⟩

/-- A zero point of 1 is rejected. -/
example (ops : NeonF.Ops Fl) (junk : Junk Fl) (r : Flow.Task Fl × Mach Fl) :
    setup exScalars ops { exI XFloat.Top.exLhs with zp := 1 } (exI XFloat.Top.exRhs) (exI (XFloat.Top.exDst .colMajor)) exIMp junk ≠ .ok r :=
  fun h => absurd (c99_zero h).1 (by decide)

/-- The hypotheses of `c99_entries`, `c99_rest`, `c99_one_result` and `c99_integers`. -/
example (o : Mat.Order) : ∃ d, Mul exScalars neonOps (exI XFloat.Top.exLhs) (exI XFloat.Top.exRhs) (exI (XFloat.Top.exDst o)) exIMp d ∧
    d.elem 9 99 = .ok (ofInt (min (max (isum 6 (fun k => XFloat.Top.exLhs.at 9 k) (fun k => XFloat.Top.exRhs.at k 99) 3) (-60)) 90)) ∧
    d.data.val 129 = ofInt 77 := by
  obtain ⟨d, hd⟩ := mul_exists (exArm o)
  refine ⟨d, hd, ?_, ?_⟩
  · exact c99_integers (exArm o) hd (by show 9 < 10; decide) (by show 99 < 125; decide) (fun _ _ => rfl) (fun _ _ => rfl) rfl rfl rfl
      (by decide +kernel)
  · refine ((c99_rest (exArm o) hd).2 129 (fun i j hi hj => ?_)).trans rfl
    have hi : i < 10 := hi
    have hj : j < 125 := hj
    cases o
    · show 129 ≠ i + j * 130
      omega
    · show 129 ≠ i * 130 + j
      omega

end Ruy.Arm32.Top

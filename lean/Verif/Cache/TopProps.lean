import Verif.Cache.MulProps
import Verif.Front.TopProps
/-
Mul with caching and TrMul's own choices; C38 for cached matrices.
-/
namespace Ruy.Cache
open Ruy.Mat Ruy.Mul Ruy.Front Ruy.TrMul Ruy.BlockMap

variable {A : Type}

/-- `MulC` with the algorithm and the number of threads that TrMul chooses (trmul.cc:309-422). -/
def MulTopC (st : Settings) (sz : ScalarSizes) (sys : Nat → Bool) (cl : Call A) (w : World A)
    (d : Mul.Mat A) (w' : World A) : Prop :=
  ∃ junk tp m adv d', frontEndC sys cl junk w = .ok (tp, m, adv, w') ∧ Ends st sz tp m d' ∧
    d = userView cl.dst d'

/-- C38: if the destination has no entries, TrMul leaves its memory as it is, whatever plan it
follows (any arithmetic). -/
theorem c38_no_entries_untouched (tp : TrMul.Params A) (m : Mem A) (d : Mul.Mat A) (hr : Ready tp m)
    (h0 : m.dst.layout.rows = 0 ∨ m.dst.layout.cols = 0) (h : Outcome tp m d) : d = m.dst := by
  refine (h.computes hr).unique ⟨⟨rfl, rfl, rfl⟩, fun i j hi hj => ?_, fun _ _ => rfl⟩
  omega

/-- C38: if one of the packed matrices has no columns, TrMul either takes the simple loop (which
then does nothing, `c38_no_entries_untouched`) or stops with a check of MakeBlockMap: for all
settings, provided the working set of the other matrix does not overflow (C10). -/
theorem c38_no_columns (st : Settings) (sz : ScalarSizes) (tp : TrMul.Params A) (m : Mem A)
    (hp : PackedFor tp m) (h0 : tp.src.lhs.layout.cols = 0 ∨ tp.src.rhs.layout.cols = 0)
    (hws : sz.src.lhs * tp.src.lhs.layout.cols + sz.src.rhs * tp.src.rhs.layout.cols < 2 ^ 31 ∧
      (sz.src.lhs * tp.src.lhs.layout.cols + sz.src.rhs * tp.src.rhs.layout.cols) *
        tp.src.lhs.layout.rows < 2 ^ 31) :
    plan st sz tp m = .ok .simple ∨ plan st sz tp m = .error .abort := by
  obtain ⟨t, ht⟩ : ∃ t, tentativeThreadCount st tp.src.lhs.layout.cols tp.src.rhs.layout.cols
      tp.src.lhs.layout.rows = .ok t := by
    unfold tentativeThreadCount
    have e : (tp.src.lhs.layout.cols : Int) * tp.src.rhs.layout.cols = 0 := by
      rcases h0 with h0 | h0 <;> rw [h0] <;> simp
    cases st.strategy with
    | forceMaxNumThreads => exact ⟨_, rfl⟩
    | default =>
      dsimp only
      rw [e, C.i64_of (by decide) (by decide), C.ok_bind, Int.zero_mul,
        C.i64_of (by decide) (by decide)]
      exact ⟨_, rfl⟩
  obtain ⟨b, hb⟩ : ∃ b, useSimpleLoop t tp.src.lhs.layout.cols tp.src.rhs.layout.cols
      tp.src.lhs.layout.rows sz.src.lhs sz.src.rhs st.cache = .ok b := by
    unfold useSimpleLoop isObviouslyLinearTraversal getTraversalOrder
    split
    · split
      · exact ⟨_, rfl⟩
      · rw [C.int_of (by omega), C.ok_bind, C.int_of (by omega), C.ok_bind, C.int_of (by omega),
          C.ok_bind, C.int_of hws.2, C.ok_bind]
        split_ifs <;> exact ⟨_, rfl⟩
    · exact ⟨_, rfl⟩
  unfold plan
  dsimp only
  rw [ht, C.ok_bind, hb, C.ok_bind]
  cases b with
  | true => exact .inl rfl
  | false =>
    right
    rw [if_neg (by decide)]
    obtain ⟨l1, l2, l3, ⟨kl, l4⟩, l5⟩ := hp.cols .lhs
    obtain ⟨r1, r2, r3, ⟨kr, r4⟩, r5⟩ := hp.cols .rhs
    simp only [SidePair.get_lhs, SidePair.get_rhs] at *
    have zero : ∀ s, (tp.src.get s).layout.cols = 0 →
        ¬ (m.packed.get s).layout.kernel.cols ≤ (m.packed.get s).layout.cols := by
      intro s hz
      obtain ⟨a1, a2, a3, _, _⟩ := hp.cols s
      omega
    unfold makeBlockMap
    dsimp only
    by_cases h1 : m.packed.lhs.layout.kernel.cols ≤ m.packed.lhs.layout.cols
    · rw [C.check_of h1, C.ok_bind]
      have h2 : ¬ m.packed.rhs.layout.kernel.cols ≤ m.packed.rhs.layout.cols :=
        zero .rhs (h0.resolve_left fun h => zero .lhs h h1)
      unfold C.check
      rw [if_neg h2]
      rfl
    · unfold C.check
      rw [if_neg h1]
      rfl

/-- A 1 × 0 by 0 × 1 product with bias 5, both sides cached. -/
def depthZero : Call Int :=
  ⟨sc8, ⟨k11, k11⟩, t8, ⟨1000, ⟨⟨1, 0, 0, .rowMajor⟩, ⟨0, fun _ => 0⟩, 0⟩, .alwaysCache⟩,
    ⟨2000, ⟨⟨0, 1, 0, .colMajor⟩, ⟨0, fun _ => 0⟩, 0⟩, .alwaysCache⟩,
    ⟨⟨1, 1, 1, .colMajor⟩, ⟨1, fun _ => 77⟩, 0⟩, { mp32 with bias := some ⟨1, fun _ => 5⟩ }⟩

/-- One call with the plan, if it is the simple loop. -/
def runTop (st : Settings) (sz : ScalarSizes) (sys : Nat → Bool) (cl : Call A) (junk : Junk A)
    (w : World A) : C (Mul.Mat A × World A) := do
  let r ← frontEndC sys cl junk w
  let p ← plan st sz r.1 r.2.1
  C.check (p = .simple)
  let m ← simpleLoop r.1 r.2.1
  .ok (userView cl.dst m.dst, r.2.2.2)

theorem runTop_ok {st : Settings} {sz : ScalarSizes} {sys : Nat → Bool} {cl : Call A} {junk : Junk A}
    {w w' : World A} {d : Mul.Mat A} (h : runTop st sz sys cl junk w = .ok (d, w')) :
    MulTopC st sz sys cl w d w' := by
  unfold runTop at h
  obtain ⟨⟨tp, m, adv, w1⟩, h1, h⟩ := C.bind_ok h
  obtain ⟨p, h2, h⟩ := C.bind_ok h
  obtain ⟨_, h3, h⟩ := C.bind_ok h
  obtain ⟨m', h4, h⟩ := C.bind_ok h
  cases h
  have h3 := C.check_ok h3
  subst h3
  exact ⟨junk, tp, m, adv, m'.dst, h1, .simple m' h2 h4 rfl, rfl⟩

/-- C38 does not hold as stated for cached matrices: the product of depth 0 completes and overwrites
the destination (with what ReferenceMul stores: the bias). -/
theorem c38_cached_depth_zero :
    (∃ d w', MulTopC st32k sz1 (fun _ => true) depthZero (World.start (2 ^ 28)) d w' ∧
      d.elem 0 0 = .ok 5) ∧ depthZero.dst.elem 0 0 = .ok 77 ∧
    ∃ d, Front.referenceMul depthZero.sc depthZero.lhs.mat depthZero.rhs.mat depthZero.dst
      depthZero.mp = .ok d ∧ d.elem 0 0 = .ok 5 := by
  have h : (do
      let r ← runTop st32k sz1 (fun _ => true) depthZero zeroJunk (World.start (2 ^ 28))
      r.1.elem 0 0) = .ok 5 := by decide +kernel
  have h' : (do
      let d ← Front.referenceMul depthZero.sc depthZero.lhs.mat depthZero.rhs.mat depthZero.dst
        depthZero.mp
      d.elem 0 0) = .ok 5 := by decide +kernel
  obtain ⟨⟨d, w'⟩, h1, h2⟩ := C.bind_ok h
  obtain ⟨d0, h3, h4⟩ := C.bind_ok h'
  exact ⟨⟨d, w', runTop_ok h1, h2⟩, by decide, d0, h3, h4⟩

/-- A 0 × 2 by 2 × 1 product, both sides cached. -/
def noRows : Call Int :=
  ⟨sc8, ⟨k11, k11⟩, t8, ⟨1000, ⟨⟨0, 2, 2, .rowMajor⟩, ⟨0, fun _ => 0⟩, 0⟩, .alwaysCache⟩,
    ⟨2000, ⟨⟨2, 1, 2, .colMajor⟩, ⟨2, fun _ => 3⟩, 0⟩, .alwaysCache⟩,
    ⟨⟨0, 1, 1, .colMajor⟩, ⟨1, fun _ => 77⟩, 0⟩, mp32⟩

-- It completes and leaves the destination's memory as it was.
example : ∃ d w', MulTopC st32k sz1 (fun _ => true) noRows (World.start (2 ^ 28)) d w' ∧
    d.data.val 0 = 77 := by
  have h : (do
      let r ← runTop st32k sz1 (fun _ => true) noRows zeroJunk (World.start (2 ^ 28))
      (.ok (r.1.data.val 0) : C Int)) = .ok 77 := by decide +kernel
  obtain ⟨⟨d, w'⟩, h1, h2⟩ := C.bind_ok h
  exact ⟨d, w', runTop_ok h1, Except.ok.inj h2⟩

end Ruy.Cache

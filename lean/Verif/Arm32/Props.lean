import Verif.Arm32.Whole
import Verif.Arm32.Clobber
import Verif.NeonF.Props
/-
C81: `KernelFloat32Neon` (kernel_arm32.cc:81-533), the float kernel for 32-bit ARM.

The model is the instruction sequence of the `asm` statement (`kernel`), run on a machine with registers, a stack
frame and memory.  Arithmetic on floats is arbitrary (`Ops`).

  c81_kernel        stops, nothing undefined, exact result, `sp` restored
  c81_exact         in exact arithmetic: the matrix product, plus bias, clamped
  c81_depth0        depth 0: reads beyond an empty packed matrix
  c81_registers     registers changed, with q11, q14, q15 beyond the clobber list
  c81_clobber_false every call with channels as columns changes q11, q14, q15
  c81_clobber_partial   no call with channels as rows does
-/
namespace Ruy.Arm32
open Ruy.NeonF (St Val Region Ops Exact foldl_sum sum_range intOps intOps_exact)
variable {A : Type}

/-- C81: the kernel stops, does nothing undefined, gives the stack pointer back, stores in every entry of the call that
is inside the destination the sum of the products by increasing depth, with bias and clamped, and changes nothing else in
memory. -/
theorem c81_kernel {j : Job A} (hf : j.Fits) (hb : j.NoBias) {s : St A} (h : j.Start s) :
    ∃ s', Stops j.env kernel s s' ∧ j.Result j.outOf s' := by
  obtain ⟨s', h1, h2⟩ := finished hf h
  have e : entryAt j = j.outOf := funext fun r => funext fun c => entryAt_eq hb r c
  exact ⟨s', h1, e ▸ h2⟩

/-- The final state is determined by the initial one. -/
theorem c81_deterministic {e : Env A} {P : List Block} {s a b : St A} (ha : Stops e P s a) (hb : Stops e P s b) :
    a = b := stops_unique ha hb

/-- C81: in exact arithmetic an entry is the sum of the products plus the bias, clamped. -/
theorem c81_exact {R : Type} [CommSemiring R] {j : Job R} (ho : Exact j.ops) (r c : Nat) :
    j.outOf r c = j.ops.min (j.ops.max ((∑ k ∈ Finset.range j.depth, j.lhsAt r k * j.rhsAt c k) + j.biasOf r c)
      j.clampMin) j.clampMax := by
  unfold Job.outOf Job.sumOf
  have e : (fun (d : R) k => j.ops.fma d (j.lhsAt r k) (j.rhsAt c k)) = fun d k => d + j.lhsAt r k * j.rhsAt c k := by
    funext d k
    exact ho.fma _ _ _
  rw [e, foldl_sum, sum_range, ho.add, ho.zero, zero_add]

/-- C81: depth 0.  The first instruction reads beyond a packed matrix of depth 0. -/
theorem c81_depth0 {j : Job A} {s : St A} (h : j.Start s) (h0 : j.size .lhs = 0) :
    (run j.env kernel 1 (0, s)).2.bad = true := by
  show (exec j.env k0.body s).bad = true
  have ho : NeonF.out j.env.base (s.x 34) 0 4 = true := by
    rw [show s.x 34 = _ from h.lhsP]
    have : j.env.base.size .lhs = 0 := h0
    simp [NeonF.out, Val.region, this]
  rw [(k0x j.env s).2.1, ho]
  simp

/-! ### Registers -/

/-- Output operands and clobber list: kernel_arm32.cc:524, 529-531. -/
def declaredX : List Nat := [lp, rp, 0, 1, 2, 3, 4, 5, 6, 8, 10]
def declaredQ : List Nat := [0, 1, 2, 3, 4, 5, 6, 7, 8, 9, 10, 12, 13]
/-- `sp`, and the slots of the frame below it. -/
def frame : List Nat := [13, 64, 80, 96, 112, 128, 144]

/-- C81: at no time are registers changed other than those declared, the frame, and `q11`, `q14`, `q15` — whatever the
state at the start, the parameters and the sizes of the buffers are. -/
theorem c81_registers (e : Env A) (s : St A) (n r : Nat) :
    (r ∉ declaredX → r ∉ frame → (run e kernel n (0, s)).2.x r = s.x r) ∧
      (r ∉ declaredQ → r ≠ 11 → r ≠ 14 → r ≠ 15 → (run e kernel n (0, s)).2.v r = s.v r) := by
  have h := run_covers (P := kernel) (X := declaredX ++ frame) (V := [11, 14, 15] ++ declaredQ) (by decide +kernel) e n s r
  refine ⟨fun h1 h2 => h.1 (by simp [h1, h2]), fun h1 h2 h3 h4 => h.2 (by simp [h1, h2, h3, h4])⟩

/-- C81, what holds of the clobber list: if the channels are rows, then nothing else is changed. -/
theorem c81_clobber_partial {j : Job A} (hj : j.chanCol = false) (s : St A) (n r : Nat) (hr : r ∉ declaredQ) :
    (run j.env kernel n (0, s)).2.v r = s.v r := by
  by_cases h : r = 11 ∨ r = 14 ∨ r = 15
  · exact kept_of_rows (hj ▸ chanFlag j) s n h
  · obtain ⟨h1, h2⟩ := not_or.mp h
    obtain ⟨h2, h3⟩ := not_or.mp h2
    exact (c81_registers j.env s n r).2 hr h1 h2 h3

/-- C81: if the channels are columns, then `q11`, `q14`, `q15` end up with four equal words each, whatever was there. -/
theorem c81_overwritten {j : Job A} (hj : j.chanCol = true) {s s' : St A} (h : Stops j.env kernel s s') {r : Nat}
    (hr : r = 11 ∨ r = 14 ∨ r = 15) (i : Nat) : s'.v r i = s'.v r 0 := by
  obtain ⟨N, hN⟩ := h
  have e := hN N (Nat.le_refl _)
  have := uniform_of_cols (hj ▸ chanFlag j) (s := s) (n := N) (by rw [e]; exact (by decide : 15 ≤ kernel.length)) hr i
  rw [e] at this
  exact this

/-- C81: so a value that the compiler keeps in one of them is lost, though the `asm` statement does not declare it. -/
theorem c81_clobber_false {j : Job A} (hj : j.chanCol = true) (hf : j.Fits) (hb : j.NoBias) {s : St A}
    (h : j.Start s) {r : Nat} (hr : r = 11 ∨ r = 14 ∨ r = 15) (hv : s.v r 1 ≠ s.v r 0) :
    r ∉ declaredQ ∧ ∃ s', Stops j.env kernel s s' ∧ s'.v r ≠ s.v r := by
  obtain ⟨s', h1, -⟩ := c81_kernel hf hb h
  refine ⟨by rcases hr with rfl | rfl | rfl <;> decide, s', h1, fun he => hv ?_⟩
  have := c81_overwritten hj h1 hr 1
  rwa [he] at this

/-! ### Examples -/

/-- The state at the start of the `asm` statement. -/
def exStart (j : Job A) (v : Nat → Nat → A) : St A where
  x r := match r with
    | 13 => .int 0
    | 34 => .ptr .lhs (4 * j.lhsBase)
    | 35 => .ptr .rhs (4 * j.rhsBase)
    | 42 => .ptr .tmp 0
    | r => .int (1000 + r)
  v := v
  m := j.m
  z := false
  lt := true
  bad := false

theorem exStart_ok (j : Job A) (v : Nat → Nat → A) : j.Start (exStart j v) := by
  constructor <;> first | rfl | (intros; rfl)

/-- 16x8 entries from (8, 16) of a 20x23 destination, of which 12x7 are inside; depth 10. -/
def exJob (o : Ops A) (cc : Bool) (lo hi : A) (m : Region → Nat → A) : Job A where
  startRow := 8
  startCol := 16
  rowSteps := 1
  colSteps := 1
  depth := 10
  lhsBase := 80
  rhsBase := 160
  dstBase := 100
  lhsStride := 10
  rhsStride := 12
  dstStride := 21
  dstRows := 20
  dstCols := 23
  clampMin := lo
  clampMax := hi
  hasBias := true
  chanCol := cc
  size := fun _ => 360
  m := m
  ops := o

theorem exFits (o : Ops A) (cc : Bool) (lo hi : A) (m : Region → Nat → A) : (exJob o cc lo hi m).Fits := by
  constructor
  case dst =>
    intro r c h1 h2 h3 h4
    simp only [exJob] at *
    omega
  case bias => cases cc <;> simp [exJob, Job.lastRow, Job.lastCol, Job.channels]
  all_goals simp [exJob, Job.lastRow, Job.lastCol]

theorem exNoBias (o : Ops A) (cc : Bool) (lo hi : A) (m : Region → Nat → A) : (exJob o cc lo hi m).NoBias := nofun

/-- The hypotheses are met; entry (5, 2) of the call. -/
example : let j := exJob intOps true (-1000000) 1000000 (fun _ o => o); ∃ s s', j.Start s ∧
    Stops j.env kernel s s' ∧ s'.m .dst (j.addr 5 2) = 220458 := by
  intro j
  obtain ⟨a, a1, a2⟩ := c81_kernel (exFits intOps true (-1000000) 1000000 fun _ o => o) (exNoBias _ _ _ _ _)
    (exStart_ok _ fun _ _ => 0)
  have hi : j.Inside 5 2 := by unfold Job.Inside; decide
  exact ⟨_, a, exStart_ok _ _, a1, (a2.entry 5 2 hi).trans ((c81_exact intOps_exact 5 2).trans (by decide +kernel))⟩

/-- A state whose `q11` is lost. -/
example : ∃ (j : Job ℤ) (s : St ℤ), j.chanCol = true ∧ j.Fits ∧ j.NoBias ∧ j.Start s ∧ s.v 11 1 ≠ s.v 11 0 :=
  ⟨exJob intOps true 0 9 (fun _ o => o), exStart _ fun _ i => i, rfl, exFits _ _ _ _ _, exNoBias _ _ _ _ _,
    exStart_ok _ _, by decide⟩

example : (exJob intOps false 0 9 (fun _ o => o)).chanCol = false ∧ 11 ∉ declaredQ := ⟨rfl, by decide⟩

example : ∃ (j : Job Unit) (s : St Unit), j.Start s ∧ j.size .lhs = 0 ∧ j.depth = 0 :=
  ⟨{ exJob ⟨(), fun _ _ _ => (), fun _ _ => (), fun _ _ => (), fun _ _ => ()⟩ true () () (fun _ _ => ()) with
    depth := 0, size := fun r => if r = .lhs then 0 else 360 }, _, exStart_ok _ fun _ _ => (), rfl, rfl⟩

end Ruy.Arm32

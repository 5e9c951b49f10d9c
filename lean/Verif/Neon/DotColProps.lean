import Verif.Neon.DotColWhole
import Verif.Neon.DotTuning
import Verif.Neon.ColProps
/-
C65: `Kernel8bitNeonDotprod1Col` (kernel_arm64.cc:5669-6360), and the choice between the four dot-product kernels
(kernel_arm.h:112-131).
-/
namespace Ruy.Neon.Dot
open Simd (wrap8)
open Tune (Tuning)

/-- C65: for a destination of one column whose channels are rows the kernel stops, does nothing undefined, stores
in every entry of the call that is inside the destination the accumulator put through the output stage, and
changes nothing else. -/
theorem c65_one_column {j : Job} (hf : Fits j) (h1c : OneCol j) (ha : Args j) {s : St} (h : j.Start s) :
    ∃ s', Stops (env j) dotoCode s s' ∧ Result j (fun r c => outOf j (accOf j (dotOf j r c) r c) r c) s' := by
  obtain ⟨s', h1, h2, h3, h4, h5⟩ := finished1 hf h1c h
  refine ⟨s', stops_of h1, h2, h3, fun r c hi b hb => ?_, fun o ho => h5 o (fun r c hi _ => ho r c hi)⟩
  rw [h4 r c hi trivial b hb, entry_eq ha]

/-- kernel_arm.h:112-131: the kernel that is called, by tuning, number of columns of the destination and channel
dimension. -/
def dotKernelOf (t : Tuning) (dstCols : Nat) (chanCol : Bool) : List Block :=
  if dstCols = 1 ∧ chanCol = false then dotoCode else dotKernelFor t

/-- The kernel is called when its conditions are met. -/
theorem OneCol.of {j : Job} (hf : Fits j) (h1 : j.dstCols = 1) (h2 : j.chanCol = false) : OneCol j := by
  have hl := hf.colIn
  have : lastCol j = j.startCol + 8 * j.colSteps := rfl
  exact ⟨by omega, by omega, h1, h2⟩

/-- C65, whichever kernel is chosen: it stops, and what it leaves is the exact product put through the output
stage. -/
theorem c65_all (t : Tuning) {j : Job} (hf : Fits j) (ha : Args j) {s : St} (h : j.Start s) :
    (∃ s', Stops (env j) (dotKernelOf t j.dstCols j.chanCol) s s') ∧
      ∀ s', Stops (env j) (dotKernelOf t j.dstCols j.chanCol) s s' →
        Result j (fun r c => outOf j (accOf j (dotOf j r c) r c) r c) s' := by
  unfold dotKernelOf
  split
  · rename_i h1
    obtain ⟨s', h2, h3⟩ := c65_one_column hf (OneCol.of hf h1.1 h1.2) ha h
    exact ⟨⟨s', h2⟩, fun u hu => by rw [stops_unique hu h2]; exact h3⟩
  · exact c64_exact t hf ha h

/-- Two finished calls that store the same entries leave the same memory, up to the temporary buffer. -/
theorem Result.same {j : Job} {v : Nat → Nat → Int} {a b : St} (ha : Result j v a) (hb : Result j v b)
    {r : Region} (hr : r ≠ .tmp) : a.m r = b.m r := by
  by_cases hd : r = .dst
  · subst hd
    funext o
    by_cases h : ∃ r c, Inside j r c ∧ ∃ k, k < j.dt.size ∧ o = addr j r c + k
    · obtain ⟨r, c, hi, k, hk, rfl⟩ := h
      rw [ha.entry r c hi k hk, hb.entry r c hi k hk]
    · have hn : ∀ r c, Inside j r c → ∀ k, k < j.dt.size → o ≠ addr j r c + k :=
        fun r c hi k hk e => h ⟨r, c, hi, k, hk, e⟩
      rw [ha.rest o hn, hb.rest o hn]
  · rw [ha.inputs r hd hr, hb.inputs r hd hr]

/-- C65: for a single column the one-column kernel and the others leave the same bytes in every buffer but the
temporary one. -/
theorem c65_same (t : Tuning) {j : Job} (hf : Fits j) (h1c : OneCol j) (ha : Args j) {s a b : St} (h : j.Start s)
    (h1 : Stops (env j) dotoCode s a) (h2 : Stops (env j) (dotKernelFor t) s b) :
    (∀ r, r ≠ .tmp → a.m r = b.m r) ∧ a.bad = false ∧ b.bad = false := by
  obtain ⟨a', h3, ra⟩ := c65_one_column hf h1c ha h
  rw [← stops_unique h1 h3] at ra
  have rb := (c64_exact t hf ha h).2 b h2
  exact ⟨fun r hr => ra.same rb hr, ra.ok, rb.ok⟩

/-- C65, a limit of the kernel: the comparison of the destination type with int32 (kernel_arm64.cc:5900-5901) is
inside the branch for LHS sums.  Without RUY_ASM_FLAG_HAS_LHS_SUMS the accumulators of an int32 destination are
multiplied and go to the uint8 store.  (`MakeKernelParams8bit` sets the flag whenever the packed LHS has sums,
kernel_common.h:152-155, which 8-bit packed matrices have.) -/
theorem c65_flag (e : Env) (s : St) {f : Nat} (hx : s.x 6 = .int f) (hf : f % 2 ^ 32 &&& 2 = 0) (ht : s.x dstTypeId = .int 4) :
    ∃ s', Reach e dotoCode (9, s) (14, s') := by
  have r1 : Reach e dotoCode (9, s) (11, exec e doto9.body s) := by
    refine Reach.block (b := doto9) rfl ?_
    show (bif Nat.beq ((s.x 6).num % 2 ^ 32 &&& 2) 0 then 11 else 10) = 11
    rw [hx, Val.num, hf]; rfl
  have t1 : (exec e doto9.body s).x dstTypeId = .int 4 := ht
  generalize exec e doto9.body s = s1 at *
  have r2 : Reach e dotoCode (11, s1) (12, exec e doto11.body s1) := Reach.block (b := doto11) rfl rfl
  have t2 : (exec e doto11.body s1).x dstTypeId = .int 4 := t1
  generalize exec e doto11.body s1 = s2 at *
  have r3 : Reach e dotoCode (12, s2) (13, exec e doto12.body s2) := by
    refine Reach.block (b := doto12) rfl ?_
    show (bif decide (sgn (s2.x dstTypeId).num = sgn 3) then 30 else 13) = 13
    rw [t2]; rfl
  have t3 : (exec e doto12.body s2).x dstTypeId = .int 4 := t2
  generalize exec e doto12.body s2 = s3 at *
  have r4 : Reach e dotoCode (13, s3) (14, exec e doto13.body s3) := by
    refine Reach.block (b := doto13) rfl ?_
    show (bif decide (sgn (s3.x dstTypeId).num = sgn 2) then 22 else 14) = 14
    rw [t3]; rfl
  exact ⟨_, ((r1.trans r2).trans r3).trans r4⟩

/-! ### Examples -/

/-- One column of 20 rows, of which 8 to 19 are computed. -/
def colJob (dt : Dt) (m : Region → Nat → Byte) : Job :=
  { exJob dt m with startCol := 0, colSteps := 0, rhsBase := 0, dstCols := 1, chanCol := false }

theorem colFits (dt : Dt) (m : Region → Nat → Byte) : Fits (colJob dt m) := by
  constructor
  case dst =>
    intro r c h1 h2 h3 h4
    simp only [colJob, exJob] at *
    cases dt <;> simp only [Dt.size] <;> omega
  case columns => cases dt <;> simp [colJob, exJob, Dt.size]
  all_goals simp [colJob, exJob, lastRow, lastCol, depth, channels]

theorem colArgs (dt : Dt) (m : Region → Nat → Byte) : Args (colJob dt m) :=
  ⟨fun h => absurd h (by simp [colJob, exJob]), fun h => absurd h (by simp [colJob, exJob]),
    fun h => absurd h (by simp [colJob, exJob])⟩

theorem colOne (dt : Dt) (m : Region → Nat → Byte) : OneCol (colJob dt m) := ⟨rfl, rfl, rfl, rfl⟩

/-- The hypotheses of `c65_one_column` and `c65_same` are met for each type of destination and each tuning. -/
example (dt : Dt) (t : Tuning) : ∃ a b, Stops (env (colJob dt exMem)) dotoCode (exStart (colJob dt exMem)) a ∧
    Stops (env (colJob dt exMem)) (dotKernelFor t) (exStart (colJob dt exMem)) b ∧ a.m .dst = b.m .dst := by
  obtain ⟨a, h1, _⟩ := c65_one_column (colFits dt exMem) (colOne dt exMem) (colArgs dt exMem) (exStart_ok _)
  obtain ⟨⟨b, h2⟩, _⟩ := c64_exact t (colFits dt exMem) (colArgs dt exMem) (exStart_ok _)
  exact ⟨a, b, h1, h2,
    (c65_same t (colFits dt exMem) (colOne dt exMem) (colArgs dt exMem) (exStart_ok _) h1 h2).1 _ (by decide)⟩

/-- `c65_all` for the one-column kernel: the entry in the last row, in a block that sticks out. -/
example (dt : Dt) (t : Tuning) :
    dotKernelOf t (colJob dt exMem).dstCols (colJob dt exMem).chanCol = dotoCode ∧
    ∃ s', Stops (env (colJob dt exMem)) dotoCode (exStart (colJob dt exMem)) s' ∧
      ∀ k, k < dt.size → s'.m .dst (addr (colJob dt exMem) 11 0 + k) =
        byteOf (outOf (colJob dt exMem) (accOf (colJob dt exMem) (dotOf (colJob dt exMem) 11 0) 11 0) 11 0) k :=
  have e : dotKernelOf t (colJob dt exMem).dstCols (colJob dt exMem).chanCol = dotoCode := if_pos ⟨rfl, rfl⟩
  have ⟨⟨s', h1⟩, h2⟩ := c65_all t (colFits dt exMem) (colArgs dt exMem) (exStart_ok _)
  ⟨e, s', e ▸ h1, (h2 s' h1).entry 11 0 (by unfold Inside; simp [colJob, exJob])⟩

/-- A full block of one column: every entry of both operands is -128, depth 16. -/
def fullCol : Job := { fullJob with dstCols := 1 }

theorem fullColFits : Fits fullCol := by
  constructor <;> try decide
  intro r c h1 h2 h3 h4
  simp only [fullCol, fullJob, badJob, Dt.size] at *
  omega

theorem fullColArgs : Args fullCol :=
  ⟨fun _ i _ => by simp [Job.word, fullCol, fullJob, badJob, le4, le2, Simd.wrap32], fun _ i _ => rfl, fun _ i _ => rfl⟩

/-- Each row gets 262144. -/
example (t : Tuning) : ∃ s', Stops (env fullCol) (dotKernelOf t 1 false) (exStart fullCol) s' ∧
    ∀ r, r < 8 → ∀ b, b < 4 → s'.m .dst (addr fullCol r 0 + b) = byteOf 262144 b := by
  obtain ⟨⟨s', h1⟩, h2⟩ := c65_all t fullColFits fullColArgs (exStart_ok fullCol)
  refine ⟨s', h1, fun r hr b hb => ?_⟩
  rw [(h2 s' h1).entry r 0 (by interval_cases r <;> (unfold Inside; decide)) b hb]
  exact congrArg (byteOf · b) (by interval_cases r <;> decide +kernel)

/-- The hypotheses of `c65_flag` can be met. -/
example : ∃ s' : St, Reach (env fullCol) dotoCode
    (9, { exStart fullCol with x := fun i => if i = 6 then .int 5 else .int 4 }) (14, s') :=
  c65_flag _ _ (f := 5) rfl (by decide) rfl

end Ruy.Neon.Dot

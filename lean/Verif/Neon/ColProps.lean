import Verif.Neon.ColWhole
import Verif.Neon.A55Props
/-
C58: `Kernel8bitNeon1Col` (kernel_arm64.cc:1160-1816), and the choice between the three AArch64 8-bit
kernels (kernel_arm.h:68-77).
-/
namespace Ruy.Neon

/-- C58, what is stored in all cases: as `c54_pairs`, if the destination is one column that is the whole call
and channels are rows. -/
theorem c58_pairs {j : Job} (hf : j.Fits) (h1c : OneCol j) (ha : Args j) {s : St} (h : j.Start s) :
    ∃ s', Stops j.env colCode s s' ∧
      Result j (fun r c => outOf j (accOf j (dot16Of j r c) r c) r c) s' := by
  obtain ⟨s', h1, h2, h3, h4, h5⟩ := finished1 hf h1c h
  refine ⟨s', stops_of h1, h2, h3, fun r c hi b hb => ?_, fun o ho => h5 o (fun r c hi _ => ho r c hi)⟩
  rw [h4 r c hi trivial b hb, entry_eq ha]

/-- kernel_arm.h:68-77: the kernel that is called, by number of columns of the destination, channel
dimension and tuning (`true`: kA55ish). -/
def kernelOf (a55ish : Bool) (dstCols : Nat) (chanCol : Bool) : List Block :=
  if dstCols = 1 ∧ chanCol = false then colCode else kernelFor a55ish

/-- The kernel is called when its conditions are met. -/
theorem OneCol.of {j : Job} (hf : j.Fits) (h1 : j.dstCols = 1) (h2 : j.chanCol = false) : OneCol j := by
  have hl := hf.colIn
  have : j.lastCol = j.startCol + 4 * j.colSteps := rfl
  exact ⟨by omega, by omega, h1, h2⟩

/-- C58, whichever kernel is chosen: it stops, and what it leaves is the specified output. -/
theorem c58_all (a55ish : Bool) {j : Job} (hf : j.Fits) (ha : Args j)
    {s : St} (h : j.Start s) :
    (∃ s', Stops j.env (kernelOf a55ish j.dstCols j.chanCol) s s') ∧
      ∀ s', Stops j.env (kernelOf a55ish j.dstCols j.chanCol) s s' →
        Result j (fun r c => outOf j (accOf j (dot16Of j r c) r c) r c) s' := by
  unfold kernelOf kernelFor
  split
  · rename_i h1
    obtain ⟨s', h2, h3⟩ := c58_pairs hf (OneCol.of hf h1.1 h1.2) ha h
    exact ⟨⟨s', h2⟩, fun t ht => by rw [stops_unique ht h2]; exact h3⟩
  · split
    · obtain ⟨s', h2, h3⟩ := c57_pairs hf ha h
      exact ⟨⟨s', h2⟩, fun t ht => by rw [stops_unique ht h2]; exact h3⟩
    · obtain ⟨s', h2, h3⟩ := c54_pairs hf ha h
      exact ⟨⟨s', h2⟩, fun t ht => by rw [stops_unique ht h2]; exact h3⟩

/-- C58, the exact product, if no pair of products overflows int16. -/
theorem c58_exact (a55ish : Bool) {j : Job} (hf : j.Fits) (ha : Args j)
    (hn : ∀ r c, Inside j r c → NoPair j r c) {s : St} (h : j.Start s) :
    (∃ s', Stops j.env (kernelOf a55ish j.dstCols j.chanCol) s s') ∧
      ∀ s', Stops j.env (kernelOf a55ish j.dstCols j.chanCol) s s' →
        Result j (fun r c => outOf j (accOf j (dotOf j r c) r c) r c) s' := by
  obtain ⟨h1, h2⟩ := c58_all a55ish hf ha h
  refine ⟨h1, fun s' hs => ?_⟩
  have h3 := h2 s' hs
  exact ⟨h3.ok, h3.inputs, fun r c hi b hb => by rw [h3.entry r c hi b hb, dot16_exact (hn r c hi)], h3.rest⟩

/-- Two finished calls that store the same entries leave the same memory, up to the temporary buffer. -/
theorem Result.same {j : Job} {v : Nat → Nat → Int} {a b : St} (ha : Result j v a) (hb : Result j v b)
    {r : Region} (hr : r ≠ .tmp) : a.m r = b.m r := by
  by_cases hd : r = .dst
  · subst hd
    funext o
    by_cases h : ∃ r c, Inside j r c ∧ ∃ k, k < j.dt.size ∧ o = addr j r c + k
    · obtain ⟨r, c, hi, k, hk, rfl⟩ := h
      rw [ha.entry r c hi k hk, hb.entry r c hi k hk]
    · have hn : ∀ r c, Inside j r c → ∀ k, k < j.dt.size → o ≠ addr j r c + k :=
        fun r c hi k hk e => h ⟨r, c, hi, k, hk, e⟩
      rw [ha.rest o hn, hb.rest o hn]
  · rw [ha.inputs r hd hr, hb.inputs r hd hr]

/-- C58: for a single column the one-column kernel and the general ones leave the same bytes in every buffer
but the temporary one, whatever the operands are. -/
theorem c58_same (a55ish : Bool) {j : Job} (hf : j.Fits) (h1c : OneCol j) (ha : Args j) {s a b : St} (h : j.Start s)
    (h1 : Stops j.env colCode s a) (h2 : Stops j.env (kernelFor a55ish) s b) :
    (∀ r, r ≠ .tmp → a.m r = b.m r) ∧ a.bad = false ∧ b.bad = false := by
  obtain ⟨a', h3, ra⟩ := c58_pairs hf h1c ha h
  rw [← stops_unique h1 h3] at ra
  have rb : Result j (fun r c => outOf j (accOf j (dot16Of j r c) r c) r c) b := by
    cases a55ish with
    | false =>
      obtain ⟨b', h4, rb⟩ := c54_pairs hf ha h
      rw [stops_unique h2 h4]; exact rb
    | true =>
      obtain ⟨b', h4, rb⟩ := c57_pairs hf ha h
      rw [stops_unique h2 h4]; exact rb
  exact ⟨fun r hr => ra.same rb hr, ra.ok, rb.ok⟩

/-! ### Examples -/

/-- One column of 11 rows, of which 4 to 10 are computed. -/
def colJob (dt : Dt) (m : Region → Nat → Byte) : Job :=
  { exJob dt m with startCol := 0, colSteps := 0, rhsBase := 0, dstCols := 1, chanCol := false }

theorem colFits (dt : Dt) (m : Region → Nat → Byte) : (colJob dt m).Fits := by
  constructor
  case dst =>
    intro r c h1 h2 h3 h4
    simp only [colJob, exJob] at *
    cases dt <;> simp only [Dt.size] <;> omega
  case columns => cases dt <;> simp [colJob, exJob, Dt.size]
  all_goals simp [colJob, exJob, Job.lastRow, Job.lastCol, Job.depth, Job.channels]

theorem colArgs (dt : Dt) (m : Region → Nat → Byte) : Args (colJob dt m) :=
  ⟨fun h => absurd h (by simp [colJob, exJob]), fun h => absurd h (by simp [colJob, exJob]),
    fun h => absurd h (by simp [colJob, exJob])⟩

theorem colOne (dt : Dt) (m : Region → Nat → Byte) : OneCol (colJob dt m) := ⟨rfl, rfl, rfl, rfl⟩

/-- The hypotheses of `c58_pairs` and `c58_same` are met for each type of destination. -/
example (dt : Dt) (a55ish : Bool) : ∃ a b, Stops (colJob dt exMem).env colCode (exStart (colJob dt exMem)) a ∧
    Stops (colJob dt exMem).env (kernelFor a55ish) (exStart (colJob dt exMem)) b ∧ a.m .dst = b.m .dst := by
  obtain ⟨a, h1, _⟩ := c58_pairs (colFits dt exMem) (colOne dt exMem) (colArgs dt exMem) (exStart_ok _)
  have ⟨b, h2⟩ : ∃ b, Stops (colJob dt exMem).env (kernelFor a55ish) (exStart (colJob dt exMem)) b := by
    cases a55ish with
    | false => exact (c54_pairs (colFits dt exMem) (colArgs dt exMem) (exStart_ok _)).imp fun _ h => h.1
    | true => exact (c57_pairs (colFits dt exMem) (colArgs dt exMem) (exStart_ok _)).imp fun _ h => h.1
  exact ⟨a, b, h1, h2,
    (c58_same a55ish (colFits dt exMem) (colOne dt exMem) (colArgs dt exMem) (exStart_ok _) h1 h2).1 _ (by decide)⟩

/-- `c58_exact` for the one-column kernel: the entry in the last row, in a block that sticks out. -/
example (dt : Dt) (b : Bool) : kernelOf b (colJob dt exMem').dstCols (colJob dt exMem').chanCol = colCode ∧
    ∃ s', Stops (colJob dt exMem').env colCode (exStart (colJob dt exMem')) s' ∧
      ∀ k, k < dt.size → s'.m .dst (addr (colJob dt exMem') 6 0 + k) =
        byteOf (outOf (colJob dt exMem') (accOf (colJob dt exMem') (dotOf (colJob dt exMem') 6 0) 6 0) 6 0) k :=
  have hn : ∀ r c, Inside (colJob dt exMem') r c → NoPair (colJob dt exMem') r c := fun r _ _ t _ i _ hh =>
    (show ∀ r k, (colJob dt exMem').lhsAt r k ≠ -128 by
      intro r k
      simp only [Job.lhsAt, colJob, exJob, exMem', Simd.wrap8, BitVec.toNat_ofNat]
      omega) r (16 * t + i) hh.1
  have e : kernelOf b (colJob dt exMem').dstCols (colJob dt exMem').chanCol = colCode := if_pos ⟨rfl, rfl⟩
  have ⟨⟨s', h1⟩, h2⟩ := c58_exact b (colFits dt exMem') (colArgs dt exMem') hn (exStart_ok _)
  ⟨e, s', e ▸ h1, (h2 s' h1).entry 6 0 (by unfold Inside; simp [colJob, exJob])⟩

/-- `c58_exact` for the other two. -/
example (dt : Dt) (b : Bool) : kernelOf b (exJob dt exMem').dstCols (exJob dt exMem').chanCol = kernelFor b :=
  if_neg (by simp [exJob])

end Ruy.Neon

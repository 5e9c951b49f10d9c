import Verif.Neon.A55Blocks
import Verif.Neon.Props
/-
C57: `Kernel8bitNeonA55ish` (kernel_arm64.cc:1822-2973) and the choice between the two kernels.
-/
namespace Ruy.Neon

theorem nums (j : Job) : Nums j.env := ⟨rfl, rfl, rfl, rfl, rfl⟩

/-- C57: whenever `Kernel8bitNeon` stops without undefined behaviour, `Kernel8bitNeonA55ish` started in the same
state stops, does nothing undefined, and leaves every byte of memory as `Kernel8bitNeon` does. -/
theorem c57_same (j : Job) {s s' : St} (h : Stops j.env gemmCode s s') (hb : s'.bad = false) :
    ∃ t', Stops j.env a55Code s t' ∧ t'.m = s'.m ∧ t'.bad = false := by
  obtain ⟨N, hN⟩ := h
  obtain ⟨t', h1, h2, h3⟩ := a55_same (nums j) (hN N (Nat.le_refl N)) hb
  exact ⟨t', stops_of ⟨N, h1⟩, h2, h3⟩

/-- C57, what is stored: as `c54_pairs`. -/
theorem c57_pairs {j : Job} (hf : j.Fits) (ha : Args j) {s : St} (h : j.Start s) :
    ∃ t', Stops j.env a55Code s t' ∧ Result j (fun r c => outOf j (accOf j (dot16Of j r c) r c) r c) t' := by
  obtain ⟨s', h1, h2⟩ := c54_pairs hf ha h
  obtain ⟨t', h3, h4, h5⟩ := c57_same j h1 h2.ok
  exact ⟨t', h3, h5, fun r h h' => by rw [h4]; exact h2.inputs r h h',
    fun r c hi b hb => by rw [h4]; exact h2.entry r c hi b hb, fun o ho => by rw [h4]; exact h2.rest o ho⟩

/-- kernel_arm.h:73-77: the kernel for blocks of more than one column, by tuning (`true`: kA55ish). -/
def kernelFor (a55ish : Bool) : List Block := if a55ish then a55Code else gemmCode

/-- C57, for both tunings: the exact product if no pair of products overflows int16, and the final state is
determined by the initial one. -/
theorem c57_exact (a55ish : Bool) {j : Job} (hf : j.Fits) (ha : Args j)
    (hn : ∀ r c, Inside j r c → NoPair j r c) {s : St} (h : j.Start s) :
    (∃ s', Stops j.env (kernelFor a55ish) s s') ∧
      ∀ s', Stops j.env (kernelFor a55ish) s s' →
        Result j (fun r c => outOf j (accOf j (dotOf j r c) r c) r c) s' := by
  obtain ⟨s', h1, h2⟩ := c54_partial hf ha hn h
  cases a55ish with
  | false => exact ⟨⟨s', h1⟩, fun t ht => by rw [stops_unique ht h1]; exact h2⟩
  | true =>
    obtain ⟨t', h3, h4, h5⟩ := c57_same j h1 h2.ok
    refine ⟨⟨t', h3⟩, fun t ht => ?_⟩
    rw [stops_unique ht h3]
    exact ⟨h5, fun r h h' => by rw [h4]; exact h2.inputs r h h',
      fun r c hi b hb => by rw [h4]; exact h2.entry r c hi b hb, fun o ho => by rw [h4]; exact h2.rest o ho⟩

/-- C57: the bytes stored do not depend on the tuning, whatever the operands are. -/
theorem c57_tuning {j : Job} (hf : j.Fits) (ha : Args j) {s : St} (h : j.Start s) {a b : St}
    (h1 : Stops j.env (kernelFor true) s a) (h2 : Stops j.env (kernelFor false) s b) :
    a.m = b.m ∧ a.bad = false ∧ b.bad = false := by
  obtain ⟨s', h3, h4⟩ := c54_pairs hf ha h
  obtain ⟨t', h5, h6, h7⟩ := c57_same j h3 h4.ok
  rw [stops_unique h1 h5, stops_unique h2 h3]
  exact ⟨h6, h7, h4.ok⟩

/-! ### Examples -/

/-- The hypotheses are met for each type of destination (blocks that stick out, two steps of depth). -/
example (dt : Dt) : ∃ s', Stops (exJob dt exMem).env a55Code (exStart (exJob dt exMem)) s' ∧ s'.bad = false :=
  have ⟨s', h1, h2⟩ := c57_pairs (exFits dt exMem) (exArgs dt exMem) (exStart_ok _)
  ⟨s', h1, h2.ok⟩

example (dt : Dt) (b : Bool) : ∃ s', Stops (exJob dt exMem').env (kernelFor b) (exStart (exJob dt exMem')) s' ∧
    ∀ k, k < dt.size → s'.m .dst (addr (exJob dt exMem') 2 3 + k) =
      byteOf (outOf (exJob dt exMem') (accOf (exJob dt exMem') (dotOf (exJob dt exMem') 2 3) 2 3) 2 3) k :=
  have hn : ∀ r c, Inside (exJob dt exMem') r c → NoPair (exJob dt exMem') r c := fun r _ _ t _ i _ hh =>
    (show ∀ r k, (exJob dt exMem').lhsAt r k ≠ -128 by
      intro r k
      simp only [Job.lhsAt, exJob, exMem', Simd.wrap8, BitVec.toNat_ofNat]
      omega) r (16 * t + i) hh.1
  have ⟨⟨s', h1⟩, h2⟩ := c57_exact b (exFits dt exMem') (exArgs dt exMem') hn (exStart_ok _)
  ⟨s', h1, (h2 s' h1).entry 2 3 (by unfold Inside; simp [exJob])⟩

end Ruy.Neon

import Verif.Tune.Model
import Verif.Neon.DotX1
import Verif.Neon.DotA55Rest
/-
C64: `Kernel8bitNeonDotprodX1` (kernel_arm64.cc:4414-5665), `Kernel8bitNeonDotprodA55ish`
(kernel_arm64.cc:6364-7690) and the choice between the three dot-product kernels.
-/
namespace Ruy.Neon.Dot
open Simd (wrap32 clampTo)
open Multiplier (scaled isI32)
open Tune (Tuning)

/-- C64: `Kernel8bitNeonDotprodX1` stops, does nothing undefined, stores in every entry of the call that is inside
the destination the accumulator put through the output stage, and changes nothing else. -/
theorem c64_x1 {j : Job} (hf : Fits j) (ha : Args j) {s : St} (h : j.Start s) :
    ∃ s', Stops (env j) dotxCode s s' ∧ Result j (fun r c => outOf j (accOf j (dotOf j r c) r c) r c) s' :=
  have ⟨s', h1, h2⟩ := run_of wideProg rfl hf ha h
  ⟨s', x1_of_wide h1, h2⟩

theorem nums {j : Job} (hf : Fits j) : Nums (env j) j.depthSteps := ⟨rfl, hf.deep, rfl⟩

/-- C64: whenever `Kernel8bitNeonDotprodX1` stops without undefined behaviour, `Kernel8bitNeonDotprodA55ish` started
in the same state stops, does nothing undefined, and leaves every byte of memory as the other does. -/
theorem c64_same {j : Job} (hf : Fits j) {s s' : St} (h : Stops (env j) dotxCode s s') (hb : s'.bad = false) :
    ∃ t', Stops (env j) dotaCode s t' ∧ t'.m = s'.m ∧ t'.bad = false := by
  obtain ⟨N, hN⟩ := h
  obtain ⟨t', h1, h2, h3⟩ := dota_same (nums hf) (hN N (Nat.le_refl N)) hb
  exact ⟨t', stops_of ⟨N, h1⟩, h2, h3⟩

/-- C64: the same of `Kernel8bitNeonDotprodA55ish`. -/
theorem c64_a55 {j : Job} (hf : Fits j) (ha : Args j) {s : St} (h : j.Start s) :
    ∃ s', Stops (env j) dotaCode s s' ∧ Result j (fun r c => outOf j (accOf j (dotOf j r c) r c) r c) s' := by
  obtain ⟨s', h1, h2⟩ := c64_x1 hf ha h
  obtain ⟨t', h3, h4, h5⟩ := c64_same hf h1 h2.ok
  exact ⟨t', h3, h5, fun r h h' => by rw [h4]; exact h2.inputs r h h',
    fun r c hi b hb => by rw [h4]; exact h2.entry r c hi b hb, fun o ho => by rw [h4]; exact h2.rest o ho⟩

/-- kernel_arm.h:125-131: the kernel for destinations of more than one column. -/
def dotKernelFor : Tuning → List Block
  | .a55ish => dotaCode
  | .x1 => dotxCode
  | _ => dotCode

/-- C64, for every tuning: the kernel stops, and every way it can stop is with the exact product put through the
output stage. -/
theorem c64_exact (t : Tuning) {j : Job} (hf : Fits j) (ha : Args j) {s : St} (h : j.Start s) :
    (∃ s', Stops (env j) (dotKernelFor t) s s') ∧
      ∀ s', Stops (env j) (dotKernelFor t) s s' →
        Result j (fun r c => outOf j (accOf j (dotOf j r c) r c) r c) s' := by
  have : ∃ s', Stops (env j) (dotKernelFor t) s s' ∧
      Result j (fun r c => outOf j (accOf j (dotOf j r c) r c) r c) s' := by
    cases t
    · exact c63_dotprod hf ha h
    · exact c63_dotprod hf ha h
    · exact c64_a55 hf ha h
    · exact c64_x1 hf ha h
  obtain ⟨s', h1, h2⟩ := this
  exact ⟨⟨s', h1⟩, fun s'' h3 => by rw [stops_unique h3 h1]; exact h2⟩

/-- C64: no byte of the destination depends on the tuning. -/
theorem c64_tuning (t u : Tuning) {j : Job} (hf : Fits j) (ha : Args j) {s : St} (h : j.Start s) {a b : St}
    (h1 : Stops (env j) (dotKernelFor t) s a) (h2 : Stops (env j) (dotKernelFor u) s b) :
    a.m .dst = b.m .dst ∧ a.bad = false ∧ b.bad = false := by
  have hA := (c64_exact t hf ha h).2 a h1
  have hB := (c64_exact u hf ha h).2 b h2
  refine ⟨funext fun o => ?_, hA.ok, hB.ok⟩
  by_cases ho : ∃ r c, Inside j r c ∧ ∃ b, b < j.dt.size ∧ o = addr j r c + b
  · obtain ⟨r, c, hi, i, hb, rfl⟩ := ho
    rw [hA.entry r c hi i hb, hB.entry r c hi i hb]
  · have : ∀ r c, Inside j r c → ∀ b, b < j.dt.size → o ≠ addr j r c + b :=
      fun r c hi b hb e => ho ⟨r, c, hi, b, hb, e⟩
    rw [hA.rest o this, hB.rest o this]

/-! ### Examples -/

/-- The hypotheses are met for each type of destination and each tuning (blocks that stick out, depth 40). -/
example (dt : Dt) (t : Tuning) : ∃ s', Stops (env (exJob dt exMem)) (dotKernelFor t) (exStart (exJob dt exMem)) s' ∧
    s'.bad = false :=
  have ⟨⟨s', h1⟩, h2⟩ := c64_exact t (exFits dt exMem) (exArgs dt exMem) (exStart_ok _)
  ⟨s', h1, (h2 s' h1).ok⟩

/-- A stored number, for each tuning. -/
example (t : Tuning) : ∃ s', Stops (env fullJob) (dotKernelFor t) (exStart fullJob) s' ∧
    ∀ b, b < 4 → s'.m .dst (addr fullJob 0 0 + b) = byteOf 262144 b := by
  obtain ⟨⟨s', h1⟩, h2⟩ := c64_exact t fullFits fullArgs (exStart_ok fullJob)
  refine ⟨s', h1, fun b hb => ?_⟩
  rw [(h2 s' h1).entry 0 0 (by unfold Inside; decide) b hb]
  exact congrArg (byteOf · b) (by decide +kernel)

example : ∃ a b, Stops (env fullJob) dotxCode (exStart fullJob) a ∧ Stops (env fullJob) dotaCode (exStart fullJob) b ∧
    b.m = a.m := by
  obtain ⟨a, h1, h2⟩ := c64_x1 fullFits fullArgs (exStart_ok fullJob)
  obtain ⟨b, h3, h4, _⟩ := c64_same fullFits h1 h2.ok
  exact ⟨a, b, h1, h3, h4⟩

end Ruy.Neon.Dot

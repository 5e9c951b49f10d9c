import Verif.Arm32.FlowSteps
/-
Running pack and kernel calls on float matrices in any order, 32-bit ARM: lemmas for property C89.
-/
namespace Ruy.Arm32.Flow
open Ruy.Mat Ruy.Mul
open Ruy.Simd.Flow (Op Covered Written covered_snoc written_snoc written_mono)
open Ruy.NeonF.Flow (Source Target Mach elem depth place Kept)

variable {A : Type} {t : Task A} {m0 m : Mach A}

/-- Entries do not overlap. -/
theorem place_inj (h : TaskOk t) {i j i' j' : Nat} (hi : i < t.dst.layout.rows) (hi' : i' < t.dst.layout.rows)
    (e : place t i j = place t i' j') : i = i' ∧ j = j' := by
  have hs := h.dstride
  unfold place at e
  have hst : 0 < t.dst.layout.stride := by omega
  have e2 : j = j' := by
    have h1 := congrArg (· / t.dst.layout.stride) e
    simp only [Nat.mul_comm _ t.dst.layout.stride, Nat.mul_add_div hst,
      Nat.div_eq_of_lt (show i < t.dst.layout.stride by omega), Nat.div_eq_of_lt (show i' < t.dst.layout.stride by omega),
      Nat.add_zero] at h1
    exact h1
  subst e2
  omega

/-- What holds after the calls `pre`. -/
structure Inv (t : Task A) (m0 : Mach A) (pre : List Op) (m : Mach A) : Prop where
  kept : Kept m0 m
  cols : ∀ (s : Side) (c : Nat), Covered pre s c → c < (t.src.get s).layout.cols → ColOk t m0 m s c
  entry : ∀ i j, i < t.dst.layout.rows → j < t.dst.layout.cols → Written pre i j →
    m.dst (place t i j) = stored t m0 i j
  rest : ∀ o, (∀ i j, i < t.dst.layout.rows → j < t.dst.layout.cols → Written pre i j → o ≠ place t i j) →
    m.dst o = m0.dst o

theorem Inv.start (t : Task A) (m : Mach A) : Inv t m [] m where
  kept := ⟨rfl, rfl⟩
  cols s c h := by obtain ⟨_, _, h, _⟩ := h; cases h
  entry i j _ _ h := by obtain ⟨_, _, h, _⟩ := h; cases h
  rest _ _ := rfl

theorem pack_step (h : TaskOk t) {pre : List Op} {s : Side} {lo hi : Nat} (hI : Inv t m0 pre m)
    (hb : Simd.Flow.Block (cols s) (t.packed.get s).layout.cols lo hi) :
    (∃ r, Step t (.pack s lo hi) m r) ∧ ∀ r, Step t (.pack s lo hi) m r → ∃ m', r = .ok m' ∧
      Inv t m0 (pre ++ [.pack s lo hi]) m' := by
  obtain ⟨h1, h2⟩ := pack_ok h hb (m0 := m0) (m := m) hI.kept.src
  refine ⟨h1, fun r hr => ?_⟩
  obtain ⟨m', rfl, hf, hc⟩ := h2 r hr
  refine ⟨m', rfl, ⟨hf.src.trans hI.kept.src, hf.bias.trans hI.kept.bias⟩, fun s' c hcv hlt => ?_,
    fun i j i1 j1 hw => ?_, fun o ho => ?_⟩
  · by_cases hin : s' = s ∧ lo ≤ c ∧ c < hi
    · obtain ⟨rfl, c1, c2⟩ := hin
      exact hc c c1 c2 hlt
    · rcases covered_snoc hcv with hcv | ⟨_, _, he, c1, c2⟩
      · exact (hI.cols s' c hcv hlt).frame h hb hf (fun e hh => hin ⟨e, hh⟩)
      · cases he
        exact absurd ⟨rfl, c1, c2⟩ hin
  · rw [hf.dst]
    rcases written_snoc hw with hw | ⟨_, _, he, _⟩
    · exact hI.entry i j i1 j1 hw
    · cases he
  · rw [hf.dst]
    exact hI.rest o (fun i j i1 j1 hw => ho i j i1 j1 (written_mono hw))

theorem kernel_step (h : TaskOk t) {pre : List Op} {start stop : SidePair Nat} (hI : Inv t m0 pre m)
    (hb : ∀ s : Side, Simd.Flow.Block (cols s) (t.packed.get s).layout.cols (start.get s) (stop.get s))
    (hc : ∀ (s : Side) (c : Nat), start.get s ≤ c → c < stop.get s → c < (t.src.get s).layout.cols →
      Covered pre s c) :
    (∃ r, Step t (.kernel start stop) m r) ∧ ∀ r, Step t (.kernel start stop) m r → ∃ m', r = .ok m' ∧
      Inv t m0 (pre ++ [.kernel start stop]) m' := by
  obtain ⟨h1, h2⟩ := kernel_ok h ⟨hb .lhs, hb .rhs⟩ hI.kept
    (fun s c c1 c2 c3 => hI.cols s c (hc s c c1 c2 c3) c3)
  refine ⟨h1, fun r hr => ?_⟩
  obtain ⟨m', rfl, hd⟩ := h2 r hr
  obtain ⟨k1, k2, k3⟩ := hd.kept
  refine ⟨m', rfl, ⟨k1.trans hI.kept.src, k3.trans hI.kept.bias⟩,
    fun s c hcv hlt => ?_, fun i j i1 j1 hw => ?_, fun o ho => ?_⟩
  · rcases covered_snoc hcv with hcv | ⟨_, _, he, _⟩
    · have := hI.cols s c hcv hlt
      exact fun k hk => by rw [k2]; exact this k hk
    · cases he
  · by_cases hin : start.lhs ≤ i ∧ i < stop.lhs ∧ start.rhs ≤ j ∧ j < stop.rhs
    · obtain ⟨a1, a2, a3, a4⟩ := hin
      exact hd.entry i j a1 a2 a3 a4 i1 j1
    · have hw : Written pre i j := by
        rcases written_snoc hw with hw | ⟨_, _, he, hh⟩
        · exact hw
        · cases he
          exact absurd hh hin
      rw [hd.rest, hI.entry i j i1 j1 hw]
      intro i' j' a1 a2 a3 a4 i2 j2 e
      obtain ⟨rfl, rfl⟩ := place_inj h i1 i2 e
      exact hin ⟨a1, a2, a3, a4⟩
  · rw [hd.rest o (fun i j a1 a2 a3 a4 i1 j1 => ho i j i1 j1 ⟨start, stop, by simp, a1, a2, a3, a4⟩)]
    exact hI.rest o (fun i j i1 j1 hw => ho i j i1 j1 (written_mono hw))

theorem runs_inv (h : TaskOk t) {ops : List Op} (ho : Ordered t ops) :
    (∃ r, Runs t ops m0 r) ∧ ∀ r, Runs t ops m0 r → ∃ m', r = .ok m' ∧ Inv t m0 ops m' := by
  suffices H : ∀ (post pre : List Op) (m : Mach A), ops = pre ++ post →
      Inv t m0 pre m → (∃ r, Runs t post m r) ∧ ∀ r, Runs t post m r → ∃ m', r = .ok m' ∧ Inv t m0 ops m' from
    H ops [] m0 rfl (Inv.start _ _)
  intro post
  induction post with
  | nil =>
    intro pre m he hI
    rw [List.append_nil] at he
    refine ⟨⟨_, .nil⟩, fun r hr => ?_⟩
    cases hr
    exact ⟨m, rfl, he ▸ hI⟩
  | cons op post ih =>
    intro pre m he hI
    have hstep : (∃ r, Step t op m r) ∧ ∀ r, Step t op m r → ∃ m', r = .ok m' ∧ Inv t m0 (pre ++ [op]) m' := by
      cases op with
      | pack s lo hi => exact pack_step h hI (ho.packs s lo hi (by rw [he]; simp))
      | kernel start stop =>
        exact kernel_step h hI (ho.kernels start stop (by rw [he]; simp)) (ho.first _ start stop _ he)
    obtain ⟨⟨r, hr⟩, hs⟩ := hstep
    have next := fun m1 hI1 => ih (pre ++ [op]) m1 (by rw [he]; simp) hI1
    refine ⟨?_, fun r' hr' => ?_⟩
    · obtain ⟨m1, rfl, hI1⟩ := hs r hr
      obtain ⟨⟨r', hr'⟩, _⟩ := next m1 hI1
      exact ⟨r', .next hr hr'⟩
    · cases hr' with
      | fault hf => obtain ⟨_, e, _⟩ := hs _ hf; cases e
      | next hn hr' =>
        obtain ⟨m1, e, hI1⟩ := hs _ hn
        cases e
        exact (next _ hI1).2 r' hr'

end Ruy.Arm32.Flow

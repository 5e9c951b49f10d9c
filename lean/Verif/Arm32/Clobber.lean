import Verif.Arm32.Job
import Verif.Neon.Clobber
/-
Registers that the ARM32 float kernel changes.
-/
namespace Ruy.Arm32
open Ruy.Neon (Declared put_apart put Cond Term)
open Ruy.NeonF (St Val words)

variable {A : Type}

/-- General-purpose registers and stack slots that an instruction may change. -/
def Instr.xs : Instr → List Nat
  | .ldp d _ | .ldpB d _ | .lds d _ | .ldsR d _ | .movI d _ | .mov d _ | .movGt d _ | .addI d _ _ | .addPI d _ _
  | .addP d _ _ _ | .sub d _ _ | .ldrS d _ _ | .andI d _ _ | .andsI d _ _ => [d]
  | .ldq _ p _ | .ldS _ _ p => [p]
  | .subSp _ | .addSp _ => [13]
  | .sts _ k => [64 + k]
  | .cmp .. | .cmpI .. | .cmpEq .. | .tst .. | .zero .. | .v3 .. | .mla .. | .dupR .. | .dupL .. | .stq ..
  | .strS .. | .zip .. | .trn .. | .movV .. | .dupZ .. => []

/-- Vector registers that an instruction may change. -/
def Instr.vs : Instr → List Nat
  | .zero d | .v3 _ d _ _ | .mla d _ _ _ | .dupR d _ | .dupL d _ _ | .ldq d _ _ | .movV d _
  | .dupZ d _ | .ldS d _ _ => [d]
  | .zip d n | .trn d n => [d, n]
  | _ => []

theorem stepX_same (e : Env A) (i : Instr) (s : St A) {r : Nat} (h : r ∉ i.xs) : (step e i s).x r = s.x r := by
  cases i <;> simp only [Instr.xs, List.mem_cons, List.not_mem_nil, or_false] at h <;>
    simp only [step] <;> first
      | rfl
      | exact put_apart _ _ h

theorem stepV_same (e : Env A) (i : Instr) (s : St A) {r : Nat} (h : r ∉ i.vs) : (step e i s).v r = s.v r := by
  cases i <;> simp only [Instr.vs, List.mem_cons, List.not_mem_nil, or_false, not_or] at h <;>
    simp only [step] <;> first
      | rfl
      | exact put_apart _ _ h
      | exact (put_apart _ _ h.1).trans (put_apart _ _ h.2)

theorem execX_same (e : Env A) {r : Nat} : ∀ (L : List Instr) (s : St A), (∀ i ∈ L, r ∉ i.xs) →
    (exec e L s).x r = s.x r
  | [], _, _ => rfl
  | i :: L, s, h => (execX_same e L (step e i s) fun k hk => h k (List.mem_cons_of_mem _ hk)).trans
      (stepX_same e i s (h i List.mem_cons_self))

theorem execV_same (e : Env A) {r : Nat} : ∀ (L : List Instr) (s : St A), (∀ i ∈ L, r ∉ i.vs) →
    (exec e L s).v r = s.v r
  | [], _, _ => rfl
  | i :: L, s, h => (execV_same e L (step e i s) fun k hk => h k (List.mem_cons_of_mem _ hk)).trans
      (stepV_same e i s (h i List.mem_cons_self))

/-- An invariant of all steps holds at the end. -/
theorem run_inv {e : Env A} {P : List Block} {I : Nat × St A → Prop} (hs : ∀ c, I c → I (bstep e P c)) :
    ∀ (n : Nat) (c : Nat × St A), I c → I (run e P n c)
  | 0, _, h => h
  | n + 1, c, h => run_inv hs n _ (hs c h)

theorem bstep_eq {e : Env A} {P : List Block} {l : Nat} {s : St A} {b : Block} (hb : P[l]? = some b) :
    bstep e P (l, s) = (next (exec e b.body s) b.term, exec e b.body s) := by
  unfold bstep
  rw [hb]

theorem bstep_end {e : Env A} {P : List Block} {l : Nat} {s : St A} (hb : P[l]? = none) :
    bstep e P (l, s) = (l, s) := by
  unfold bstep
  rw [hb]

def succs : Term → List Nat
  | .jmp l => [l]
  | .br _ t f => [t, f]

theorem next_mem (s : St A) (t : Term) : next s t ∈ succs t := by
  cases t with
  | jmp l => simp [next, succs]
  | br c t f => cases h : holds s c <;> simp [next, succs, h]

/-- Registers other than those in `X` and `V` keep their values if no instruction names them. -/
theorem run_covers {P : List Block} {X V : List Nat}
    (h : (P.all fun b => b.body.all fun i => i.xs.all X.contains && i.vs.all V.contains) = true)
    (e : Env A) (n : Nat) (s : St A) (r : Nat) :
    (r ∉ X → (run e P n (0, s)).2.x r = s.x r) ∧ (r ∉ V → (run e P n (0, s)).2.v r = s.v r) := by
  refine run_inv (I := fun c => (r ∉ X → c.2.x r = s.x r) ∧ (r ∉ V → c.2.v r = s.v r)) ?_ n (0, s)
    ⟨fun _ => rfl, fun _ => rfl⟩
  rintro ⟨l, t⟩ ⟨h1, h2⟩
  cases hb : P[l]? with
  | none => rw [bstep_end hb]; exact ⟨h1, h2⟩
  | some b =>
    rw [bstep_eq hb]
    have hB := List.all_eq_true.mp (List.all_eq_true.mp h b (List.mem_of_getElem? hb))
    refine ⟨fun hX => (execX_same e _ _ fun i hi hm => ?_).trans (h1 hX),
      fun hV => (execV_same e _ _ fun i hi hm => ?_).trans (h2 hV)⟩
    · have := hB i hi
      simp only [Bool.and_eq_true, List.all_eq_true, List.contains_iff_mem] at this
      exact hX (this.1 _ hm)
    · have := hB i hi
      simp only [Bool.and_eq_true, List.all_eq_true, List.contains_iff_mem] at this
      exact hV (this.2 _ hm)

/-! ### Where the flag leads -/

/-- The flags are a number, with the bit of `RUY_ASM_FLAG_CHANNEL_DIMENSION_IS_COL` as given. -/
def ChanFlag (e : Env A) (b : Bool) : Prop := Nat.beq ((e.field .flags).num % 2 ^ 8 % 2 ^ 32 &&& 32) 0 = !b

theorem k12z (e : Env A) (s : St A) : (exec e k12.body s).z = Nat.beq ((s.x 4).num % 2 ^ 32 &&& 32) 0 := by
  cases s; rfl

theorem k7r4 (e : Env A) (s : St A) : (exec e k7.body s).x 4 = .int ((e.field .flags).num % 2 ^ 8) := by
  cases s; rfl

/-- Between labels 5 and 1002 `r4` holds the flags. -/
def FlagsIn (e : Env A) (c : Nat × St A) : Prop :=
  8 ≤ c.1 → c.1 ≤ 12 → c.2.x 4 = .int ((e.field .flags).num % 2 ^ 8)

theorem flagsIn_step {e : Env A} (c : Nat × St A) (h : FlagsIn e c) : FlagsIn e (bstep e kernel c) := by
  obtain ⟨l, s⟩ := c
  cases hb : kernel[l]? with
  | none => rw [bstep_end hb]; exact h
  | some b =>
    rw [bstep_eq hb]
    have hl : l < 28 := (List.getElem?_eq_some_iff.mp hb).1
    by_cases h7 : l = 7
    · subst h7
      cases hb
      exact fun _ _ => k7r4 e s
    · have edge : ((List.range 28).all fun l => l == 7 || (match kernel[l]? with
          | none => true
          | some b => (succs b.term).all fun t => !(Nat.ble 8 t && Nat.ble t 12) ||
            (Nat.ble 8 l && Nat.ble l 12 && b.body.all fun i => !i.xs.contains 4))) = true := by decide +kernel
      have hE := List.all_eq_true.mp edge l (List.mem_range.mpr hl)
      simp only [hb, Bool.or_eq_true, beq_iff_eq, h7, false_or] at hE
      have hE := List.all_eq_true.mp hE _ (next_mem (exec e b.body s) b.term)
      intro h1 h2
      simp only [Bool.or_eq_true, Bool.not_eq_true', Bool.and_eq_false_iff, Bool.and_eq_true, Nat.ble_eq,
        List.all_eq_true, List.contains_eq_mem, decide_eq_false_iff_not] at hE
      rcases hE with hE | hE
      · exfalso
        rcases hE with hE | hE
        · have := Nat.ble_eq.mpr h1; rw [hE] at this; exact absurd this (by decide)
        · have := Nat.ble_eq.mpr h2; rw [hE] at this; exact absurd this (by decide)
      · exact (execX_same e _ _ hE.2).trans (h hE.1.1 hE.1.2)

/-- Block 14 is reached exactly if the channels are columns, block 13 otherwise. -/
theorem branch_step {e : Env A} {b : Bool} (hb : ChanFlag e b) {c : Nat × St A} (h : FlagsIn e c) :
    (bstep e kernel c).1 ≠ if b then 13 else 14 := by
  obtain ⟨l, s⟩ := c
  cases hB : kernel[l]? with
  | none =>
    rw [bstep_end hB]
    have : 28 ≤ l := List.getElem?_eq_none_iff.mp hB
    show l ≠ _
    split_ifs <;> omega
  | some B =>
    rw [bstep_eq hB]
    have hl : l < 28 := (List.getElem?_eq_some_iff.mp hB).1
    by_cases h12 : l = 12
    · subst h12
      cases hB
      have e4 := h (show 8 ≤ 12 by decide) (show 12 ≤ 12 by decide)
      have hz := k12z e s
      rw [show s.x 4 = _ from e4] at hz
      have hz' : (exec e k12.body s).z = !b := hz.trans hb
      show (bif !(exec e k12.body s).z then 14 else 13) ≠ _
      rw [hz']
      cases b <;> decide
    · have edge : ((List.range 28).all fun l => l == 12 || (match kernel[l]? with
          | none => true
          | some b => (succs b.term).all fun t => !(t == 13 || t == 14))) = true := by decide +kernel
      have hE := List.all_eq_true.mp edge l (List.mem_range.mpr hl)
      simp only [hB, Bool.or_eq_true, beq_iff_eq, h12, false_or] at hE
      have hE := List.all_eq_true.mp hE _ (next_mem (exec e B.body s) B.term)
      simp only [Bool.not_eq_true', Bool.or_eq_false_iff, beq_eq_false_iff_ne] at hE
      cases b
      · exact hE.2
      · exact hE.1

/-- All four words are the same. -/
def Uniform (a : NeonF.Vec A) : Prop := ∀ i, a i = a 0

theorem k14v (e : Env A) (s : St A) : Uniform ((exec e k14.body s).v 11) ∧ Uniform ((exec e k14.body s).v 14) ∧
    Uniform ((exec e k14.body s).v 15) := by
  cases s
  exact ⟨fun _ => rfl, fun _ => rfl, fun _ => rfl⟩

/-- If the channels are columns, then `q11`, `q14` and `q15` are full of biases from label 7 on. -/
theorem uniform_of_cols {e : Env A} (hc : ChanFlag e true) {s : St A} {n : Nat} (hl : 15 ≤ (run e kernel n (0, s)).1)
    {r : Nat} (hr : r = 11 ∨ r = 14 ∨ r = 15) : Uniform ((run e kernel n (0, s)).2.v r) := by
  let I : Nat × St A → Prop := fun c => FlagsIn e c ∧ c.1 ≠ 13 ∧ (15 ≤ c.1 → Uniform (c.2.v r))
  have hI : ∀ c, I c → I (bstep e kernel c) := by
    rintro ⟨l, t⟩ ⟨h1, h2, h3⟩
    refine ⟨flagsIn_step _ h1, branch_step (b := true) hc h1, ?_⟩
    cases hB : kernel[l]? with
    | none => rw [bstep_end hB]; exact h3
    | some B =>
      rw [bstep_eq hB]
      have hl : l < 28 := (List.getElem?_eq_some_iff.mp hB).1
      by_cases h14 : l = 14
      · subst h14
        cases hB
        intro _
        obtain ⟨a, b, c⟩ := k14v e t
        rcases hr with rfl | rfl | rfl <;> assumption
      · have h13 : l ≠ 13 := h2
        have edge : ((List.range 28).all fun l => l == 14 || l == 13 || (match kernel[l]? with
            | none => true
            | some b => (succs b.term).all fun t => !Nat.ble 15 t ||
              (Nat.ble 15 l && b.body.all fun i =>
                !i.vs.contains 11 && !i.vs.contains 14 && !i.vs.contains 15))) = true := by decide +kernel
        have hE := List.all_eq_true.mp edge l (List.mem_range.mpr hl)
        simp only [hB, Bool.or_eq_true, beq_iff_eq, h14, h13, false_or] at hE
        have hE := List.all_eq_true.mp hE _ (next_mem (exec e B.body t) B.term)
        simp only [Bool.or_eq_true, Bool.not_eq_true', Bool.and_eq_true, Nat.ble_eq,
          List.all_eq_true, List.contains_eq_mem, decide_eq_false_iff_not] at hE
        intro h15
        rcases hE with hE | hE
        · have := Nat.ble_eq.mpr h15; rw [hE] at this; exact absurd this (by decide)
        · show Uniform ((exec e B.body t).v r)
          rw [execV_same e _ _ fun i hi => ?_]
          · exact h3 hE.1
          · have := hE.2 i hi
            rcases hr with rfl | rfl | rfl
            · exact this.1.1
            · exact this.1.2
            · exact this.2
  exact (run_inv hI n (0, s) ⟨fun h => absurd (show 8 ≤ 0 from h) (by decide), show (0 : Nat) ≠ 13 by decide,
    fun h => absurd (show 15 ≤ 0 from h) (by decide)⟩).2.2 hl

/-- If the channels are rows, then `q11`, `q14` and `q15` are left alone. -/
theorem kept_of_rows {e : Env A} (hc : ChanFlag e false) (s : St A) (n : Nat)
    {r : Nat} (hr : r = 11 ∨ r = 14 ∨ r = 15) : (run e kernel n (0, s)).2.v r = s.v r := by
  let I : Nat × St A → Prop := fun c => FlagsIn e c ∧ c.1 ≠ 14 ∧ c.2.v r = s.v r
  have hI : ∀ c, I c → I (bstep e kernel c) := by
    rintro ⟨l, t⟩ ⟨h1, h2, h3⟩
    refine ⟨flagsIn_step _ h1, branch_step (b := false) hc h1, ?_⟩
    cases hB : kernel[l]? with
    | none => rw [bstep_end hB]; exact h3
    | some B =>
      rw [bstep_eq hB]
      have hl : l < 28 := (List.getElem?_eq_some_iff.mp hB).1
      have edge : ((List.range 28).all fun l => l == 14 || (match kernel[l]? with
          | none => true
          | some b => b.body.all fun i =>
              !i.vs.contains 11 && !i.vs.contains 14 && !i.vs.contains 15)) = true := by decide +kernel
      have hE := List.all_eq_true.mp edge l (List.mem_range.mpr hl)
      have h14 : l ≠ 14 := h2
      simp only [hB, Bool.or_eq_true, beq_iff_eq, h14, false_or, Bool.not_eq_true', Bool.and_eq_true,
        List.all_eq_true, List.contains_eq_mem, decide_eq_false_iff_not] at hE
      refine (execV_same e _ _ fun i hi => ?_).trans h3
      have := hE i hi
      rcases hr with rfl | rfl | rfl
      · exact this.1.1
      · exact this.1.2
      · exact this.2
  exact (run_inv hI n (0, s) ⟨fun h => absurd (show 8 ≤ 0 from h) (by decide), show (0 : Nat) ≠ 14 by decide,
    rfl⟩).2.2

theorem chanFlag (j : Job A) : ChanFlag j.env j.chanCol := by
  show Nat.beq (j.flags % 2 ^ 8 % 2 ^ 32 &&& 32) 0 = !j.chanCol
  unfold Job.flags
  cases j.hasBias <;> cases j.chanCol <;> rfl

end Ruy.Arm32

import Verif.Neon.Code
import Verif.Neon.A55Code
import Verif.Neon.ColCode
import Verif.Neon.DotCode
import Verif.Neon.DotX1Code
import Verif.Neon.DotA55Code
import Verif.Neon.Dot1ColCode
import Verif.Neon.PackCode
import Verif.Neon.DPackCode
import Verif.NeonF.Code
import Verif.NeonF.CodeA55
import Verif.NeonF.PackCode
/-
The operand and clobber lists of the AArch64 `asm` statements.

The compiler is told which registers an `asm` statement changes: the output operands
(constraint `"+r"`) and the clobber list.  It may keep anything in the other registers, and it
relies on input operands (constraint `"r"`) being the same afterwards.  An instruction that
changes another register makes the behaviour undefined.

The operands of the programs have numbers from 32 on (`Neon/Code.lean`, `Neon/PackCode.lean`);
which hardware register the compiler takes for them does not matter, because it does not take a
clobbered one.
-/
namespace Ruy.Neon

/-- What an `asm` statement declares as changed: output operands, clobbered general-purpose
registers and clobbered vector registers.  `"cc"` and `"memory"` are in all the lists. -/
structure Declared where
  outs : List Nat
  gprs : List Nat
  vecs : List Nat

/-- The program changes no register but those declared, whatever the state at the start, the
parameters and the sizes of the buffers are, and at no time during its execution. -/
def Keeps (P : List Block) (a : Declared) : Prop :=
  ∀ (e : Env) (s : St) (n r : Nat),
    (r ∉ a.outs → r ∉ a.gprs → (run e P n (0, s)).2.x r = s.x r) ∧
      (r ∉ a.vecs → (run e P n (0, s)).2.v r = s.v r)

/-- General-purpose registers that an instruction may change. -/
def Instr.xs : Instr → List Nat
  | .ldpX d _ | .ldpW d _ | .ldpB d _ | .ldpH d _ | .movI d _ | .movW d _ | .movX d _
  | .addXI d _ _ | .addX d _ _ _ | .addWI d _ _ | .subW d _ _ | .andsI d _ _ | .cselW d _ _ _
  | .cselX d _ _ _ | .ldx d _ _ | .ldxN d _ _ | .ldrB d _ _ | .ldrH d _ _ | .ldrS d _ _
  | .ldpSH d _ | .ldrSH d _ _ | .andI d _ _ | .subP d _ _ | .subsI d _ _ | .addsI d _ _
  | .addXS d _ _ => [d]
  | .ldq _ p _ _ | .ldd _ p _ _ | .ldqR _ p _ | .lddR _ p _ | .ldB _ _ p | .stB _ _ p
  | .stH _ _ p | .stS _ _ p | .stdR _ p _ | .stqP _ p | .stqR _ p _ | .st2R _ _ p _ => [p]
  | .ldxP d p => [d, p]
  | .cmpW .. | .cmpI .. | .tst .. | .ccmpEq .. | .cmpP .. | .movi .. | .mvni .. | .v3 .. | .ve ..
  | .dupS .. | .dupH .. | .dupB .. | .dupES .. | .dupEH .. | .dupEH4 .. | .insH .. | .insS ..
  | .insD .. | .lddN .. | .stq .. | .strB .. | .strH .. | .strS .. | .cmpPP .. | .ldqN ..
  | .dupD .. | .std .. | .moviB .. | .dupB8 .. => []

/-- Vector registers that an instruction may change. -/
def Instr.vs : Instr → List Nat
  | .movi d | .mvni d | .v3 _ d _ _ | .ve _ d _ _ _ | .dupS d _ | .dupH d _ | .dupB d _
  | .dupES d _ _ | .dupEH d _ _ | .dupEH4 d _ _ | .insH d _ _ | .insS d _ _ | .insD d _ _
  | .ldq d _ _ _ | .ldd d _ _ _ | .ldqR d _ _ | .lddR d _ _ | .ldB d _ _ | .lddN d _ _
  | .ldqN d _ _ | .dupD d _ _ | .moviB d _ | .dupB8 d _ => [d]
  | _ => []

theorem put_apart {α : Type} (f : Nat → α) {d r : Nat} (a : α) (h : r ≠ d) : put f d a r = f r := by
  have hb : Nat.beq r d = false := by
    cases hb : Nat.beq r d
    · rfl
    · exact absurd (Nat.eq_of_beq_eq_true hb) h
  simp [put, hb]

theorem stepX_same (e : Env) (i : Instr) (s : St) {r : Nat} (h : r ∉ i.xs) : (step e i s).x r = s.x r := by
  cases i <;> simp only [Instr.xs, List.mem_cons, List.not_mem_nil, or_false, not_or] at h <;>
    simp only [step] <;> first
      | rfl
      | exact put_apart _ _ h
      | exact (put_apart _ _ h.1).trans (put_apart _ _ h.2)

theorem stepV_same (e : Env) (i : Instr) (s : St) {r : Nat} (h : r ∉ i.vs) : (step e i s).v r = s.v r := by
  cases i <;> simp only [Instr.vs, List.mem_cons, List.not_mem_nil, or_false] at h <;>
    simp only [step] <;> first
      | rfl
      | exact put_apart _ _ h

/-- All the registers that instructions of the program may change are declared. -/
def Declared.covers (a : Declared) (P : List Block) : Bool :=
  P.all fun b => b.body.all fun i =>
    i.xs.all (fun r => a.outs.contains r || a.gprs.contains r) && i.vs.all a.vecs.contains

theorem exec_declared {a : Declared} (e : Env) : ∀ (L : List Instr) (s : St),
    (L.all fun i => i.xs.all (fun r => a.outs.contains r || a.gprs.contains r) && i.vs.all a.vecs.contains) = true →
    ∀ r, (r ∉ a.outs → r ∉ a.gprs → (exec e L s).x r = s.x r) ∧ (r ∉ a.vecs → (exec e L s).v r = s.v r)
  | [], _, _, _ => ⟨fun _ _ => rfl, fun _ => rfl⟩
  | i :: L, s, h, r => by
      simp only [List.all_cons, Bool.and_eq_true] at h
      obtain ⟨⟨hx, hv⟩, hL⟩ := h
      have ih := exec_declared e L (step e i s) hL r
      refine ⟨fun h1 h2 => ?_, fun h1 => ?_⟩
      · refine (ih.1 h1 h2).trans (stepX_same e i s fun hm => ?_)
        have := List.all_eq_true.mp hx r hm
        simp [h1, h2] at this
      · refine (ih.2 h1).trans (stepV_same e i s fun hm => ?_)
        have := List.all_eq_true.mp hv r hm
        simp [h1] at this

theorem bstep_declared {a : Declared} {P : List Block} (h : a.covers P = true) (e : Env) (c : Nat × St) (r : Nat) :
    (r ∉ a.outs → r ∉ a.gprs → (bstep e P c).2.x r = c.2.x r) ∧ (r ∉ a.vecs → (bstep e P c).2.v r = c.2.v r) := by
  unfold bstep
  split
  · next b hb => exact exec_declared e _ _ (List.all_eq_true.mp h b (List.mem_of_getElem? hb)) r
  · exact ⟨fun _ _ => rfl, fun _ => rfl⟩

theorem run_declared {a : Declared} {P : List Block} (h : a.covers P = true) (e : Env) :
    ∀ (n : Nat) (c : Nat × St) (r : Nat),
      (r ∉ a.outs → r ∉ a.gprs → (run e P n c).2.x r = c.2.x r) ∧ (r ∉ a.vecs → (run e P n c).2.v r = c.2.v r)
  | 0, _, _ => ⟨fun _ _ => rfl, fun _ => rfl⟩
  | n + 1, c, r => by
      have ih := run_declared h e n (bstep e P c) r
      have hb := bstep_declared h e c r
      exact ⟨fun h1 h2 => (ih.1 h1 h2).trans (hb.1 h1 h2), fun h1 => (ih.2 h1).trans (hb.2 h1)⟩

theorem keeps_of_covers {a : Declared} {P : List Block} (h : a.covers P = true) : Keeps P a :=
  fun e s n r => run_declared h e n (0, s) r

end Ruy.Neon

namespace Ruy.NeonF
open Ruy.Neon (Declared put_apart)

variable {A : Type}

/-- The same for the programs of the float kernels. -/
def Keeps (P : List Block) (a : Declared) : Prop :=
  ∀ (A : Type) (e : Env A) (s : St A) (n r : Nat),
    (r ∉ a.outs → r ∉ a.gprs → (run e P n (0, s)).2.x r = s.x r) ∧
      (r ∉ a.vecs → (run e P n (0, s)).2.v r = s.v r)

def Instr.xs : Instr → List Nat
  | .ldpX d _ | .ldpW d _ | .ldpB d _ | .movI d _ | .movW d _ | .movX d _ | .addXI d _ _
  | .addX d _ _ _ | .addWI d _ _ | .subW d _ _ | .subWI d _ _ | .subsI d _ _ | .andI d _ _
  | .andsI d _ _ | .cselW d _ _ _ | .cselX d _ _ _ | .ldx d _ _ | .ldrS d _ _ => [d]
  | .ldq _ p _ _ | .ldqR _ p _ | .ldd _ p _ _ | .lddR _ p _ | .ldS _ _ p | .stqR _ p _ => [p]
  | .cmpW .. | .cmpI .. | .tst .. | .ccmpEq .. | .movi .. | .movV .. | .v3 .. | .fmla .. | .dupS ..
  | .dupES .. | .insD .. | .ldqN .. | .lddN .. | .stq .. | .strS .. => []

def Instr.vs : Instr → List Nat
  | .movi d | .movV d _ | .v3 _ d _ _ | .fmla d _ _ _ | .dupS d _ | .dupES d _ _ | .insD d _ _
  | .ldq d _ _ _ | .ldqN d _ _ | .ldqR d _ _ | .ldd d _ _ _ | .lddN d _ _ | .lddR d _ _
  | .ldS d _ _ => [d]
  | _ => []

theorem stepX_same (e : Env A) (i : Instr) (s : St A) {r : Nat} (h : r ∉ i.xs) : (step e i s).x r = s.x r := by
  cases i <;> simp only [Instr.xs, List.mem_cons, List.not_mem_nil, or_false] at h <;>
    simp only [step] <;> first
      | rfl
      | exact put_apart _ _ h

theorem stepV_same (e : Env A) (i : Instr) (s : St A) {r : Nat} (h : r ∉ i.vs) : (step e i s).v r = s.v r := by
  cases i <;> simp only [Instr.vs, List.mem_cons, List.not_mem_nil, or_false] at h <;>
    simp only [step] <;> first
      | rfl
      | exact put_apart _ _ h

def covers (a : Declared) (P : List Block) : Bool :=
  P.all fun b => b.body.all fun i =>
    i.xs.all (fun r => a.outs.contains r || a.gprs.contains r) && i.vs.all a.vecs.contains

theorem exec_declared {a : Declared} (e : Env A) : ∀ (L : List Instr) (s : St A),
    (L.all fun i => i.xs.all (fun r => a.outs.contains r || a.gprs.contains r) && i.vs.all a.vecs.contains) = true →
    ∀ r, (r ∉ a.outs → r ∉ a.gprs → (exec e L s).x r = s.x r) ∧ (r ∉ a.vecs → (exec e L s).v r = s.v r)
  | [], _, _, _ => ⟨fun _ _ => rfl, fun _ => rfl⟩
  | i :: L, s, h, r => by
      simp only [List.all_cons, Bool.and_eq_true] at h
      obtain ⟨⟨hx, hv⟩, hL⟩ := h
      have ih := exec_declared e L (step e i s) hL r
      refine ⟨fun h1 h2 => ?_, fun h1 => ?_⟩
      · refine (ih.1 h1 h2).trans (stepX_same e i s fun hm => ?_)
        have := List.all_eq_true.mp hx r hm
        simp [h1, h2] at this
      · refine (ih.2 h1).trans (stepV_same e i s fun hm => ?_)
        have := List.all_eq_true.mp hv r hm
        simp [h1] at this

theorem bstep_declared {a : Declared} {P : List Block} (h : covers a P = true) (e : Env A) (c : Nat × St A) (r : Nat) :
    (r ∉ a.outs → r ∉ a.gprs → (bstep e P c).2.x r = c.2.x r) ∧ (r ∉ a.vecs → (bstep e P c).2.v r = c.2.v r) := by
  unfold bstep
  split
  · next b hb => exact exec_declared e _ _ (List.all_eq_true.mp h b (List.mem_of_getElem? hb)) r
  · exact ⟨fun _ _ => rfl, fun _ => rfl⟩

theorem run_declared {a : Declared} {P : List Block} (h : covers a P = true) (e : Env A) :
    ∀ (n : Nat) (c : Nat × St A) (r : Nat),
      (r ∉ a.outs → r ∉ a.gprs → (run e P n c).2.x r = c.2.x r) ∧ (r ∉ a.vecs → (run e P n c).2.v r = c.2.v r)
  | 0, _, _ => ⟨fun _ _ => rfl, fun _ => rfl⟩
  | n + 1, c, r => by
      have ih := run_declared h e n (bstep e P c) r
      have hb := bstep_declared h e c r
      exact ⟨fun h1 h2 => (ih.1 h1 h2).trans (hb.1 h1 h2), fun h1 => (ih.2 h1).trans (hb.2 h1)⟩

theorem keeps_of_covers {a : Declared} {P : List Block} (h : covers a P = true) : Keeps P a :=
  fun _ e s n r => run_declared h e n (0, s) r

end Ruy.NeonF

import Verif.Arm8.Job
import Verif.Neon.Clobber
/-
Registers that the ARM32 8-bit kernels change.
-/
namespace Ruy.Arm8
open Ruy.Neon (put_apart put Cond Term St Val)

/-- General-purpose registers and stack slots that an instruction may change. -/
def Instr.xs : Instr → List Nat
  | .ldp d _ | .ldpB d _ | .ldpH d _ | .ldpSH d _ | .lds d _ | .ldsR d _ | .movI d _ | .mov d _ | .movGt d _
  | .addI d _ _ | .addPI d _ _ | .addP d _ _ _ | .sub d _ _ | .lsl1 d _ | .lsr1 d _ | .ldrB d _ _ | .ldrH d _ _
  | .ldrS d _ _ | .andI d _ _ | .andsI d _ _ => [d]
  | .ldq _ p _ | .ldd _ p _ | .stH _ _ p _ | .stB _ _ p _ | .ldB _ _ p | .stqP _ p | .stdP _ p => [p]
  | .subSp _ | .addSp _ => [13]
  | .sts _ k => [64 + k]
  | .cmp .. | .cmpI .. | .cmpEq .. | .tst .. | .zero .. | .ones .. | .mull .. | .mlal .. | .padal .. | .padd .. | .v3 ..
  | .vd .. | .ve .. | .vn .. | .dupS .. | .dupH .. | .dupBd .. | .dupHd .. | .dupSd .. | .dupL .. | .stq .. | .std .. | .stS ..
  | .strB .. | .strH .. | .strS .. | .cmpP .. | .dupB .. => []

/-- Vector registers (`q`) that an instruction may change. -/
def Instr.vs : Instr → List Nat
  | .zero d | .ones d | .mull d _ _ | .mlal d _ _ | .padal d _ | .v3 _ d _ _ | .ve _ d _ _ _ | .dupS d _ | .dupH d _
  | .dupL d _ _ | .ldq d _ _ | .dupB d _ => [d]
  | .padd d _ _ | .vd _ d _ _ | .vn _ d _ | .dupBd d _ | .dupHd d _ | .dupSd d _ | .ldd d _ _ | .ldB d _ _ => [d / 2]
  | _ => []

theorem stepX_same (e : Env) (i : Instr) (s : St) {r : Nat} (h : r ∉ i.xs) : (step e i s).x r = s.x r := by
  cases i <;> simp only [Instr.xs, List.mem_cons, List.not_mem_nil, or_false] at h <;>
    simp only [step] <;> first
      | rfl
      | exact put_apart _ _ h

theorem stepV_same (e : Env) (i : Instr) (s : St) {r : Nat} (h : r ∉ i.vs) : (step e i s).v r = s.v r := by
  cases i <;> simp only [Instr.vs, List.mem_cons, List.not_mem_nil, or_false, not_or] at h <;>
    simp only [step] <;> first
      | rfl
      | exact put_apart _ _ h
      | exact (put_apart _ _ h.1).trans (put_apart _ _ h.2)

theorem execX_same (e : Env) {r : Nat} : ∀ (L : List Instr) (s : St), (∀ i ∈ L, r ∉ i.xs) →
    (exec e L s).x r = s.x r
  | [], _, _ => rfl
  | i :: L, s, h => (execX_same e L (step e i s) fun k hk => h k (List.mem_cons_of_mem _ hk)).trans
      (stepX_same e i s (h i List.mem_cons_self))

theorem execV_same (e : Env) {r : Nat} : ∀ (L : List Instr) (s : St), (∀ i ∈ L, r ∉ i.vs) →
    (exec e L s).v r = s.v r
  | [], _, _ => rfl
  | i :: L, s, h => (execV_same e L (step e i s) fun k hk => h k (List.mem_cons_of_mem _ hk)).trans
      (stepV_same e i s (h i List.mem_cons_self))

/-- An invariant of all steps holds at the end. -/
theorem run_inv {e : Env} {P : List Block} {I : Nat × St → Prop} (hs : ∀ c, I c → I (bstep e P c)) :
    ∀ (n : Nat) (c : Nat × St), I c → I (run e P n c)
  | 0, _, h => h
  | n + 1, c, h => run_inv hs n _ (hs c h)

theorem bstep_eq {e : Env} {P : List Block} {l : Nat} {s : St} {b : Block} (hb : P[l]? = some b) :
    bstep e P (l, s) = (next (exec e b.body s) b.term, exec e b.body s) := by
  unfold bstep
  rw [hb]

theorem bstep_end {e : Env} {P : List Block} {l : Nat} {s : St} (hb : P[l]? = none) :
    bstep e P (l, s) = (l, s) := by
  unfold bstep
  rw [hb]

def succs : Term → List Nat
  | .jmp l => [l]
  | .br _ t f => [t, f]

theorem next_mem (s : St) (t : Term) : next s t ∈ succs t := by
  cases t with
  | jmp l => simp [next, succs]
  | br c t f => cases h : holds s c <;> simp [next, succs, h]

/-- Registers other than those in `X` and `V` keep their values if no instruction names them. -/
theorem run_covers {P : List Block} {X V : List Nat}
    (h : (P.all fun b => b.body.all fun i => i.xs.all X.contains && i.vs.all V.contains) = true)
    (e : Env) (n : Nat) (s : St) (r : Nat) :
    (r ∉ X → (run e P n (0, s)).2.x r = s.x r) ∧ (r ∉ V → (run e P n (0, s)).2.v r = s.v r) := by
  refine run_inv (I := fun c => (r ∉ X → c.2.x r = s.x r) ∧ (r ∉ V → c.2.v r = s.v r)) ?_ n (0, s)
    ⟨fun _ => rfl, fun _ => rfl⟩
  rintro ⟨l, t⟩ ⟨h1, h2⟩
  cases hb : P[l]? with
  | none => rw [bstep_end hb]; exact ⟨h1, h2⟩
  | some b =>
    rw [bstep_eq hb]
    have hB := List.all_eq_true.mp (List.all_eq_true.mp h b (List.mem_of_getElem? hb))
    refine ⟨fun hX => (execX_same e _ _ fun i hi hm => ?_).trans (h1 hX),
      fun hV => (execV_same e _ _ fun i hi hm => ?_).trans (h2 hV)⟩
    · have := hB i hi
      simp only [Bool.and_eq_true, List.all_eq_true, List.contains_iff_mem] at this
      exact hX (this.1 _ hm)
    · have := hB i hi
      simp only [Bool.and_eq_true, List.all_eq_true, List.contains_iff_mem] at this
      exact hV (this.2 _ hm)

end Ruy.Arm8

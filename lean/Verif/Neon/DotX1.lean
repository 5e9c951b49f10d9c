import Verif.Neon.DotX1Code
import Verif.Neon.DotProps
/-
`Kernel8bitNeonDotprodX1` is `Kernel8bitNeonDotprod` without the loop over sixteen levels of depth: its
program is a renumbering of one that differs from `dotCode` in the first seven blocks only.
-/
namespace Ruy.Neon.Dot

/-- The program with other block numbers. -/
def relabel (f : Nat → Nat) (b : Block) : Block :=
  ⟨b.body, match b.term with
    | .jmp l => .jmp (f l)
    | .br c t g => .br c (f t) (f g)⟩

theorem next_relabel (f : Nat → Nat) (b : Block) (s : St) : next s (relabel f b).term = f (next s b.term) := by
  obtain ⟨_, t⟩ := b
  cases t with
  | jmp l => rfl
  | br c t g => show (bif _ then _ else _) = f (bif _ then _ else _); cases holds s c <;> rfl

theorem run_relabel {e : Env} {P Q : List Block} {f : Nat → Nat} (h : ∀ i, P[f i]? = (Q[i]?).map (relabel f)) (n : Nat) :
    ∀ (i : Nat) (s : St), run e P n (f i, s) = (f (run e Q n (i, s)).1, (run e Q n (i, s)).2) := by
  induction n with
  | zero => intro i s; rfl
  | succ n ih =>
    intro i s
    show run e P n (bstep e P (f i, s)) = (f (run e Q n (bstep e Q (i, s))).1, (run e Q n (bstep e Q (i, s))).2)
    have hb : bstep e P (f i, s) = (f (bstep e Q (i, s)).1, (bstep e Q (i, s)).2) := by
      unfold bstep
      simp only [h i]
      cases Q[i]? with
      | none => rfl
      | some b => exact Prod.ext (next_relabel f b _) rfl
    rw [hb, ih]

theorem stops_relabel {e : Env} {P Q : List Block} {f : Nat → Nat} (h : ∀ i, P[f i]? = (Q[i]?).map (relabel f))
    (h0 : f 0 = 0) (hl : f Q.length = P.length) (hi : ∀ i k, f i = f k → i = k) {s s' : St} (hs : Stops e P s s') :
    Stops e Q s s' := by
  obtain ⟨N, hN⟩ := hs
  refine ⟨N, fun n hn => ?_⟩
  have e1 := run_relabel (e := e) h n 0 s
  rw [h0, hN n hn] at e1
  have e2 := Prod.mk.inj e1
  exact Prod.ext (hi _ _ (e2.1.symm.trans hl.symm)) e2.2.symm

/-- `dotCode` with label 78 moved to label 1; blocks 2 to 5 are not reached. -/
def wideCode : List Block := [dot0, dot5, dot5, dot5, dot5, dot5, dot6] ++ dotCode.drop 7

def widen (i : Nat) : Nat := if i ≤ 1 then i else i + 4

theorem wideProg : Prog wideCode := by
  refine ⟨rfl, fun i hi => ?_, fun j a b s hf hd hx h => loop_rest (P := wideCode) (n := 1) rfl rfl hf hd (by omega) hx h⟩
  show ([dot0, dot5, dot5, dot5, dot5, dot5, dot6] ++ dotCode.drop 7)[i]? = _
  rw [List.getElem?_append_right hi, List.getElem?_drop]
  exact congrArg (dotCode[·]?) (show 7 + (i - 7) = i by omega)

theorem wide_map : dotxCode.map (relabel widen) = wideCode.take 2 ++ wideCode.drop 6 := by decide +kernel

theorem wide_get (i : Nat) : wideCode[widen i]? = (dotxCode[i]?).map (relabel widen) := by
  rw [← List.getElem?_map, wide_map]
  unfold widen
  split
  · next h => rw [List.getElem?_append_left (by have : (wideCode.take 2).length = 2 := rfl; omega), List.getElem?_take]
              rw [if_pos (by omega)]
  · next h =>
    have h2 : (wideCode.take 2).length = 2 := rfl
    rw [List.getElem?_append_right (by omega), List.getElem?_drop, h2]
    exact congrArg (wideCode[·]?) (show i + 4 = 6 + (i - 2) by omega)

theorem x1_of_wide {e : Env} {s s' : St} (h : Stops e wideCode s s') : Stops e dotxCode s s' :=
  stops_relabel wide_get rfl rfl (fun i k h => by unfold widen at h; split at h <;> split at h <;> omega) h

end Ruy.Neon.Dot

import Verif.Neon.Sim
/-
Independent instructions may change places.
-/
namespace Ruy.Neon

namespace Instr

/-- Is memory read?  A store is counted as a change of the whole memory. -/
def rm : Instr → Bool
  | ldq _ _ _ _ | ldd _ _ _ _ | ldqR _ _ _ | lddR _ _ _ | ldB _ _ _ | ldx _ _ _ | lddN _ _ _ | ldxN _ _ _
  | ldrB _ _ _ | ldrH _ _ _ | ldrS _ _ _ | ldrSH _ _ _ | ldqN _ _ _ | ldxP _ _ => true
  | i => i.wm

/-- Are the flags read, written? -/
def rf : Instr → Bool
  | cselW _ _ _ _ | cselX _ _ _ _ | ccmpEq _ _ => true
  | _ => false
def wf : Instr → Bool
  | cmpW _ _ | cmpI _ _ | tst _ _ | andsI _ _ _ | cmpP _ | cmpPP _ _ | ccmpEq _ _ | subsI _ _ _ | addsI _ _ _ => true
  | _ => false

/-- Neither instruction writes what the other one reads or writes. -/
def indep (i j : Instr) : Bool :=
  i.wx.all (fun r => !j.rx.contains r && !j.wx.contains r) && j.wx.all (fun r => !i.rx.contains r) &&
  i.wv.all (fun r => !j.rv.contains r && !j.wv.contains r) && j.wv.all (fun r => !i.rv.contains r) &&
  !(i.wm && (j.rm || j.wm)) && !(j.wm && i.rm) &&
  !(i.wf && (j.rf || j.wf)) && !(j.wf && i.rf)

end Instr

theorem step_flags {e : Env} {i : Instr} {s : St} (h : i.wf = false) :
    (step e i s).z = s.z ∧ (step e i s).lt = s.lt := by
  cases i <;> simp only [Instr.wf] at h <;> first | exact ⟨rfl, rfl⟩ | cases h

/-- What a step adds to `bad`. -/
def fault (e : Env) (i : Instr) (s : St) : Bool := (step e i { s with bad := false }).bad

theorem step_fault (e : Env) (i : Instr) (s : St) : (step e i s).bad = (s.bad || fault e i s) := by
  unfold fault
  cases i <;> simp only [step, Bool.false_or, Bool.or_false, Bool.or_assoc]

/-- The states agree on everything that `i` reads. -/
structure Reads (i : Instr) (s t : St) : Prop where
  x : ∀ r ∈ i.rx, t.x r = s.x r
  v : ∀ r ∈ i.rv, t.v r = s.v r
  m : i.rm = true → t.m = s.m
  z : i.rf = true → t.z = s.z
  lt : i.rf = true → t.lt = s.lt

theorem Reads.result {e : Env} {i : Instr} {s t : St} (h : Reads i s t) :
    (∀ r ∈ i.wx, (step e i t).x r = (step e i s).x r) ∧ (∀ r ∈ i.wv, (step e i t).v r = (step e i s).v r) ∧
    (i.wm = true → (step e i t).m = (step e i s).m) ∧
    (i.wf = true → (step e i t).z = (step e i s).z ∧ (step e i t).lt = (step e i s).lt) ∧
    fault e i t = fault e i s := by
  obtain ⟨hx, hv, hm, hz, hlt⟩ := h
  have hb1 : i.rm = true → ∀ p o, bytes t p o = bytes s p o := fun h p o => by unfold bytes; rw [hm h]
  have hb2 : i.rm = true → ∀ p o, bytesN t p o = bytesN s p o := fun h p o => by unfold bytesN; rw [hm h]
  have hst : i.rm = true → ∀ p o n f, store t p o n f = store s p o n f :=
    fun h p o n f => by unfold store; rw [hm h]
  have hc : i.rf = true → ∀ c, holds t c = holds s c := by
    intro h c; cases c <;> simp only [holds, hz h, hlt h]
  unfold fault
  cases i <;>
    simp only [Instr.rx, Instr.rv, Instr.rm, Instr.wm, Instr.rf, List.mem_cons, List.not_mem_nil, or_false,
      forall_eq_or_imp, forall_eq, false_implies, implies_true, true_implies, Bool.false_eq_true] at hx hv hm hb1 hb2 hst hc hz hlt <;>
    simp only [Neon.step, Instr.wx, Instr.wv, Instr.wm, Instr.wf, List.mem_cons, List.not_mem_nil, or_false,
      forall_eq, put_self, false_implies, implies_true, Bool.false_eq_true,
      hx, hv, hm, hb1, hb2, hst, hc, hz, hlt, Bool.false_or, and_self]
  -- LDR of a general-purpose register with write-back
  refine ⟨fun r hr => ?_, trivial⟩
  rename_i d p
  by_cases h : r = d
  · subst h; rw [put_self, put_self]
  · obtain rfl : r = p := hr.resolve_right h
    rw [put_ne _ _ h, put_ne _ _ h, put_self, put_self]

theorem Reads.after {e : Env} {i j : Instr} {s : St} (hx : ∀ r ∈ i.rx, r ∉ j.wx) (hv : ∀ r ∈ i.rv, r ∉ j.wv)
    (hm : i.rm = true → j.wm = false) (hf : i.rf = true → j.wf = false) : Reads i s (step e j s) :=
  ⟨fun r hr => step_x (hx r hr), fun r hr => step_v (hv r hr), fun h => step_m (hm h),
    fun h => (step_flags (hf h)).1, fun h => (step_flags (hf h)).2⟩

theorem st_ext {s t : St} (hx : ∀ r, s.x r = t.x r) (hv : ∀ r, s.v r = t.v r) (hm : s.m = t.m) (hz : s.z = t.z)
    (hl : s.lt = t.lt) (hb : s.bad = t.bad) : s = t := by
  cases s; cases t
  simp only at hm hz hl hb
  subst hm hz hl hb
  obtain rfl := funext hx
  obtain rfl := funext hv
  rfl

theorem fault_bad {e : Env} {i : Instr} {s t : St} (h : Reads i s t) : fault e i t = fault e i s := h.result.2.2.2.2

theorem commute {e : Env} {i j : Instr} {s : St} (h : i.indep j = true) :
    step e i (step e j s) = step e j (step e i s) := by
  unfold Instr.indep at h
  simp only [Bool.and_eq_true, List.all_eq_true, Bool.not_eq_true', List.contains_eq_mem,
    decide_eq_false_iff_not, Bool.and_eq_false_iff, Bool.or_eq_false_iff] at h
  obtain ⟨⟨⟨⟨⟨⟨⟨h1, h2⟩, h3⟩, h4⟩, h5⟩, h6⟩, h7⟩, h8⟩ := h
  have ri : Reads i s (step e j s) := Reads.after (fun r hr hw => h2 r hw hr) (fun r hr hw => h4 r hw hr)
    (fun h => by rcases h6 with h6 | h6; exact h6; rw [h] at h6; cases h6)
    (fun h => by rcases h8 with h8 | h8; exact h8; rw [h] at h8; cases h8)
  have rj : Reads j s (step e i s) := Reads.after (fun r hr hw => (h1 r hw).1 hr) (fun r hr hw => (h3 r hw).1 hr)
    (fun h => by rcases h5 with h5 | h5; exact h5; rw [h5.1] at h; cases h)
    (fun h => by rcases h7 with h7 | h7; exact h7; rw [h7.1] at h; cases h)
  obtain ⟨ix, iv, im, iF, ib⟩ := ri.result (e := e)
  obtain ⟨jx, jv, jm, jf, jb⟩ := rj.result (e := e)
  refine st_ext (fun r => ?_) (fun r => ?_) ?_ ?_ ?_ ?_
  · by_cases hr : r ∈ i.wx
    · rw [ix r hr, step_x (h1 r hr).2]
    · rw [step_x hr]
      by_cases hj : r ∈ j.wx
      · rw [jx r hj]
      · rw [step_x hj, step_x hj, step_x hr]
  · by_cases hr : r ∈ i.wv
    · rw [iv r hr, step_v (h3 r hr).2]
    · rw [step_v hr]
      by_cases hj : r ∈ j.wv
      · rw [jv r hj]
      · rw [step_v hj, step_v hj, step_v hr]
  · cases hi : i.wm with
    | true =>
      rw [im hi]
      rcases h5 with h5 | h5
      · rw [hi] at h5; cases h5
      · rw [step_m h5.2]
    | false =>
      rw [step_m hi]
      cases hj : j.wm with
      | true => rw [jm hj]
      | false => rw [step_m hj, step_m hj, step_m hi]
  · cases hi : i.wf with
    | true =>
      rw [(iF hi).1]
      rcases h7 with h7 | h7
      · rw [hi] at h7; cases h7
      · rw [(step_flags h7.2).1]
    | false =>
      rw [(step_flags hi).1]
      cases hj : j.wf with
      | true => rw [(jf hj).1]
      | false => rw [(step_flags hj).1, (step_flags hj).1, (step_flags hi).1]
  · cases hi : i.wf with
    | true =>
      rw [(iF hi).2]
      rcases h7 with h7 | h7
      · rw [hi] at h7; cases h7
      · rw [(step_flags h7.2).2]
    | false =>
      rw [(step_flags hi).2]
      cases hj : j.wf with
      | true => rw [(jf hj).2]
      | false => rw [(step_flags hj).2, (step_flags hj).2, (step_flags hi).2]
  · rw [step_fault, step_fault, step_fault e j, step_fault e i, ib, jb, Bool.or_right_comm]

/-- The rest of the program after moving `i` to its front. -/
def pull (i : Instr) : List Instr → Option (List Instr)
  | [] => none
  | j :: l => if i = j then some l else if j.indep i then (pull i l).map (j :: ·) else none

theorem pull_exec {e : Env} {i : Instr} : ∀ {l l' : List Instr} {s : St}, pull i l = some l' →
    exec e l s = exec e l' (step e i s) := by
  intro l
  induction l with
  | nil => intro l' s h; cases h
  | cons j l ih =>
    intro l' s h
    rw [pull] at h
    split at h
    · rename_i hij
      cases h; subst hij; rfl
    · split at h
      · rename_i hd
        obtain ⟨l'', hl, rfl⟩ := Option.map_eq_some_iff.1 h
        show exec e l (step e j s) = exec e l'' (step e j (step e i s))
        rw [ih hl, commute hd]
      · cases h

/-- Is the second program a permutation of the first one that keeps dependent instructions in order? -/
def reorder : List Instr → List Instr → Bool
  | [], l => l.isEmpty
  | i :: is, l => match pull i l with
    | some l' => reorder is l'
    | none => false

theorem reorder_exec {e : Env} : ∀ {b c : List Instr} {s : St}, reorder b c = true → exec e c s = exec e b s := by
  intro b
  induction b with
  | nil =>
    intro c s h
    rw [reorder, List.isEmpty_iff] at h
    rw [h]
  | cons i is ih =>
    intro c s h
    rw [reorder] at h
    split at h
    · rename_i l' hl
      rw [pull_exec hl, ih h]; rfl
    · cases h

theorem exec_append (e : Env) (a b : List Instr) (s : St) : exec e (a ++ b) s = exec e b (exec e a s) := by
  induction a generalizing s with
  | nil => rfl
  | cons i a ih => exact ih _

end Ruy.Neon

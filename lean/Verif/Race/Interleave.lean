import Verif.Race.Cpp
import Mathlib.Data.List.Basic
import Mathlib.Data.Fintype.Basic
/-
Interleavings are executions: if the actions of all threads are put in one sequence and every load reads the last store before it,
the axioms hold.  Used for examples only.
-/
namespace Ruy.Race
namespace Exec

variable {T L V C : Type} {x : Exec T L V C}

/-- `pos` numbers the actions in the order of a sequence in which every load reads the last store. -/
structure Interleaved (x : Exec T L V C) (pos : Ev T → Nat) : Prop where
  inj : ∀ a b, x.act a ≠ none → x.act b ≠ none → pos a = pos b → a = b
  po : ∀ t i j, i < j → j < (x.tr t).length → pos (t, i) < pos (t, j)
  spawn : ∀ e t i, x.act e = some (.spawn t) → i < (x.tr t).length → pos e < pos (t, i)
  join : ∀ e t i, x.act e = some (.join t) → i < (x.tr t).length → pos (t, i) < pos e
  ext : ∀ a b, x.ext a b → pos a < pos b
  mo : ∀ a b, x.mo a b ↔ (∃ l v w, x.Writes a l v ∧ x.Writes b l w) ∧ pos a < pos b
  rf : ∀ w r, x.rf w r ↔ ∃ l v, x.Writes w l v ∧ x.Reads r l v ∧ pos w < pos r ∧
    ∀ w' v', x.Writes w' l v' → pos w < pos w' → pos r ≤ pos w'
  rf_some : ∀ r l v, x.Reads r l v → ∃ w, x.rf w r

variable {pos : Ev T → Nat}

theorem Writes.some {e : Ev T} {l : L} {v : V} (h : x.Writes e l v) : x.act e ≠ none := by
  rcases h with ⟨_, h⟩ | ⟨_, _, h⟩ <;> rw [h] <;> simp

theorem Interleaved.edge (h : x.Interleaved pos) {a b : Ev T} (e : x.Edge a b) : pos a < pos b := by
  have rl : ∀ {a b}, x.rf a b → pos a < pos b := fun hr => by
    obtain ⟨_, _, _, _, h3, _⟩ := (h.rf _ _).1 hr
    exact h3
  cases e with
  | po h1 h2 => exact h.po _ _ _ h1 h2
  | sync hs =>
    obtain ⟨_, _, c, hc, hr⟩ := hs
    have hac : pos a ≤ pos c := by
      clear hr
      induction hc with
      | head => exact Nat.le_refl _
      | next _ hr _ ih => exact ih.trans (rl hr).le
    exact Nat.lt_of_le_of_lt hac (rl hr)
  | spawn h1 h2 => exact h.spawn _ _ _ h1 h2
  | join h1 h2 => exact h.join _ _ _ h1 h2
  | ext h1 => exact h.ext _ _ h1

theorem Interleaved.hb (h : x.Interleaved pos) {a b : Ev T} (e : x.Hb a b) : pos a < pos b := by
  induction e with
  | single e => exact h.edge e
  | tail _ e ih => exact ih.trans (h.edge e)

/-- What a load reads. -/
theorem Interleaved.last (h : x.Interleaved pos) {w r w' : Ev T} {l : L} {u v : V} (hr : x.rf w r) (hl : x.Reads r l v)
    (hw : x.Writes w' l u) : pos w < pos r ∧ (pos w < pos w' → pos r ≤ pos w') ∧ x.Writes w l v := by
  obtain ⟨l', v', h1, h2, h3, h4⟩ := (h.rf _ _).1 hr
  obtain ⟨rfl, rfl⟩ := hl.one h2
  exact ⟨h3, h4 w' u hw, h1⟩

theorem Interleaved.consistent (h : x.Interleaved pos) : x.Consistent where
  rf_ok hr := by
    obtain ⟨l, v, h1, h2, _⟩ := (h.rf _ _).1 hr
    exact ⟨l, v, h1, h2⟩
  rf_some hr := h.rf_some _ _ _ hr
  rf_one {w w' r} h1 h2 := by
    obtain ⟨l, v, a1, a2, a3, a4⟩ := (h.rf _ _).1 h1
    obtain ⟨b3, b4, b1⟩ := h.last h2 a2 a1
    refine h.inj _ _ a1.some b1.some ?_
    have := a4 w' _ b1
    omega
  hb_irrefl e he := Nat.lt_irrefl _ (h.hb he)
  mo_ok hm := ((h.mo _ _).1 hm).1
  mo_irrefl e he := Nat.lt_irrefl _ ((h.mo _ _).1 he).2
  mo_trans {a b c} h1 h2 := by
    obtain ⟨⟨l, v, w, a1, a2⟩, a3⟩ := (h.mo _ _).1 h1
    obtain ⟨⟨l', v', w', b1, b2⟩, b3⟩ := (h.mo _ _).1 h2
    obtain ⟨rfl, rfl⟩ := a2.one b1
    exact (h.mo _ _).2 ⟨⟨l, v, w', a1, b2⟩, a3.trans b3⟩
  mo_total {a b l v w} ha hb := by
    rcases Nat.lt_trichotomy (pos a) (pos b) with c | c | c
    · exact Or.inr (Or.inl ((h.mo _ _).2 ⟨⟨l, v, w, ha, hb⟩, c⟩))
    · exact Or.inl (h.inj _ _ ha.some hb.some c)
    · exact Or.inr (Or.inr ((h.mo _ _).2 ⟨⟨l, w, v, hb, ha⟩, c⟩))
  write_write hh ha hb := (h.mo _ _).2 ⟨⟨_, _, _, ha, hb⟩, h.hb hh⟩
  write_read {a b w l v u} hh ha hb hr := by
    obtain ⟨h1, h2, h3⟩ := h.last hr hb ha
    have := h.hb hh
    rcases Nat.lt_trichotomy (pos a) (pos w) with c | c | c
    · exact Or.inr ((h.mo _ _).2 ⟨⟨_, _, _, ha, h3⟩, c⟩)
    · exact Or.inl (h.inj _ _ h3.some ha.some c.symm)
    · have := h2 c; omega
  read_write {a b w l v u} hh ha hb hr := by
    obtain ⟨h1, h2, h3⟩ := h.last hr ha hb
    exact (h.mo _ _).2 ⟨⟨_, _, _, h3, hb⟩, h1.trans (h.hb hh)⟩
  read_read {a b w w' l v u} hh ha hb hr hr' := by
    have := h.hb hh
    obtain ⟨_, _, _, b2, _⟩ := (h.rf _ _).1 hr'
    obtain ⟨l', v', c1, c2, c3, c4⟩ := (h.rf _ _).1 hr'
    obtain ⟨rfl, rfl⟩ := hb.one c2
    obtain ⟨h1, h2, h3⟩ := h.last hr ha c1
    have h5 := c4 w _ h3
    rcases Nat.lt_trichotomy (pos w) (pos w') with c | c | c
    · exact Or.inr ((h.mo _ _).2 ⟨⟨_, _, _, h3, c1⟩, c⟩)
    · exact Or.inl (h.inj _ _ h3.some c1.some c)
    · have := h5 c; omega
  rmw {w u} hu hr := by
    obtain ⟨o, l, v, v', ha⟩ := hu
    have hrd : x.Reads u l v := Or.inr ⟨_, _, ha⟩
    have hwr : x.Writes u l v' := Or.inr ⟨_, _, ha⟩
    obtain ⟨l', v'', c1, c2, c3, c4⟩ := (h.rf _ _).1 hr
    obtain ⟨rfl, rfl⟩ := hrd.one c2
    refine ⟨(h.mo _ _).2 ⟨⟨_, _, _, c1, hwr⟩, c3⟩, fun {a} hm => ?_⟩
    obtain ⟨⟨l', p, q, d1, d2⟩, d3⟩ := (h.mo _ _).1 hm
    obtain ⟨rfl, rfl⟩ := c1.one d1
    have := c4 a _ d2 d3
    rcases Nat.lt_or_eq_of_le this with c | c
    · exact Or.inr ((h.mo _ _).2 ⟨⟨_, _, _, hwr, d2⟩, c⟩)
    · exact Or.inl (h.inj _ _ d2.some hwr.some c.symm)

/-! ### Executable form -/

/-- What an action writes, and what it reads. -/
def wr : Act T L V C → Option (L × V)
  | .store _ l v => some (l, v)
  | .rmw _ l _ w => some (l, w)
  | _ => none
def rd : Act T L V C → Option (L × V)
  | .load _ l v => some (l, v)
  | .rmw _ l v _ => some (l, v)
  | _ => none

theorem writes_iff {e : Ev T} {l : L} {v : V} : x.Writes e l v ↔ (x.act e).bind wr = some (l, v) := by
  constructor
  · rintro (⟨_, h⟩ | ⟨_, _, h⟩) <;> rw [h] <;> rfl
  · intro h
    cases ha : x.act e with
    | none => rw [ha] at h; cases h
    | some a =>
      rw [ha] at h
      cases a <;> cases h
      · exact Or.inl ⟨_, ha⟩
      · exact Or.inr ⟨_, _, ha⟩

theorem reads_iff {e : Ev T} {l : L} {v : V} : x.Reads e l v ↔ (x.act e).bind rd = some (l, v) := by
  constructor
  · rintro (⟨_, h⟩ | ⟨_, _, h⟩) <;> rw [h] <;> rfl
  · intro h
    cases ha : x.act e with
    | none => rw [ha] at h; cases h
    | some a =>
      rw [ha] at h
      cases a <;> cases h
      · exact Or.inl ⟨_, ha⟩
      · exact Or.inr ⟨_, _, ha⟩

variable [DecidableEq T] [DecidableEq L] [DecidableEq V]

/-- The execution in which the actions happen in the order of the list `g` of events. -/
def interleave (tr : T → List (Act T L V C)) (g : List (Ev T)) : Exec T L V C where
  tr := tr
  mo a b := ∃ l v w, ((tr a.1)[a.2]?).bind wr = some (l, v) ∧ ((tr b.1)[b.2]?).bind wr = some (l, w) ∧ g.idxOf a < g.idxOf b
  rf w r := ∃ l v, ((tr w.1)[w.2]?).bind wr = some (l, v) ∧ ((tr r.1)[r.2]?).bind rd = some (l, v) ∧ g.idxOf w < g.idxOf r ∧
    ∀ w' v', ((tr w'.1)[w'.2]?).bind wr = some (l, v') → g.idxOf w < g.idxOf w' → g.idxOf r ≤ g.idxOf w'

/-- The location an action writes to. -/
def writesTo (tr : T → List (Act T L V C)) (e : Ev T) : Option L := (((tr e.1)[e.2]?).bind wr).map (·.1)

/-- Is the list an interleaving in which every load reads the last store? -/
structure Plays (tr : T → List (Act T L V C)) (g : List (Ev T)) : Prop where
  all : ∀ t, ∀ i < (tr t).length, (t, i) ∈ g
  po : ∀ t, ∀ j < (tr t).length, ∀ i < j, g.idxOf (t, i) < g.idxOf (t, j)
  spawn : ∀ e ∈ g, ∀ t, (tr e.1)[e.2]? = some (.spawn t) → ∀ i < (tr t).length, g.idxOf e < g.idxOf (t, i)
  join : ∀ e ∈ g, ∀ t, (tr e.1)[e.2]? = some (.join t) → ∀ i < (tr t).length, g.idxOf (t, i) < g.idxOf e
  last : ∀ r ∈ g, (((tr r.1)[r.2]?).bind rd).isSome → ∃ w ∈ g, ((tr w.1)[w.2]?).bind wr = ((tr r.1)[r.2]?).bind rd ∧
    g.idxOf w < g.idxOf r ∧ ∀ w' ∈ g, writesTo tr w' = writesTo tr w → g.idxOf w < g.idxOf w' → g.idxOf r ≤ g.idxOf w'

omit [DecidableEq L] [DecidableEq V] in
theorem Plays.interleaved {tr : T → List (Act T L V C)} {g : List (Ev T)} (h : Plays tr g) :
    (interleave tr g).Interleaved (g.idxOf ·) := by
  have mem : ∀ e, (interleave tr g).act e ≠ none → e ∈ g := fun e he => by
    obtain ⟨t, i⟩ := e
    obtain ⟨a, ha⟩ := Option.ne_none_iff_exists'.1 he
    exact h.all t i (act_lt ha)
  refine ⟨fun a b ha hb he => ?_, fun t i j hij hj => h.po t j hj i hij, fun e t i he hi => h.spawn e (mem e (by rw [he]; simp)) t he i hi,
    fun e t i he hi => h.join e (mem e (by rw [he]; simp)) t he i hi, fun _ _ he => he.elim,
    fun a b => ?_, fun w r => ?_, fun r l v hr => ?_⟩
  · exact (List.idxOf_inj (mem a ha)).1 he
  · constructor
    · rintro ⟨l, v, w, h1, h2, h3⟩
      exact ⟨⟨l, v, w, writes_iff.2 h1, writes_iff.2 h2⟩, h3⟩
    · rintro ⟨⟨l, v, w, h1, h2⟩, h3⟩
      exact ⟨l, v, w, writes_iff.1 h1, writes_iff.1 h2, h3⟩
  · constructor
    · rintro ⟨l, v, h1, h2, h3, h4⟩
      exact ⟨l, v, writes_iff.2 h1, reads_iff.2 h2, h3, fun w' v' hw => h4 w' v' (writes_iff.1 hw)⟩
    · rintro ⟨l, v, h1, h2, h3, h4⟩
      exact ⟨l, v, writes_iff.1 h1, reads_iff.1 h2, h3, fun w' v' hw => h4 w' v' (writes_iff.2 hw)⟩
  · have hr' := reads_iff.1 hr
    have hm : r ∈ g := mem r (by rcases hr with ⟨_, h⟩ | ⟨_, _, h⟩ <;> rw [h] <;> simp)
    have hr'' : ((tr r.1)[r.2]?).bind rd = some (l, v) := hr'
    obtain ⟨w, hw, h1, h2, h3⟩ := h.last r hm (by rw [hr'']; rfl)
    rw [hr''] at h1
    refine ⟨w, l, v, h1, hr'', h2, fun w' v' hw' => ?_⟩
    refine h3 w' (mem w' (writes_iff (x := interleave tr g) (e := w') |>.2 hw').some) ?_
    unfold writesTo
    rw [hw', h1]
    rfl

omit [DecidableEq L] [DecidableEq V] in
/-- Such a list is a consistent execution. -/
theorem Plays.consistent {tr : T → List (Act T L V C)} {g : List (Ev T)} (h : Plays tr g) : (interleave tr g).Consistent :=
  h.interleaved.consistent

variable [Fintype T] [DecidableEq C]

instance (tr : T → List (Act T L V C)) (g : List (Ev T)) : Decidable (Plays tr g) :=
  decidable_of_iff ((∀ t, ∀ i < (tr t).length, (t, i) ∈ g) ∧ (∀ t, ∀ j < (tr t).length, ∀ i < j, g.idxOf (t, i) < g.idxOf (t, j)) ∧
    (∀ e ∈ g, ∀ t, (tr e.1)[e.2]? = some (.spawn t) → ∀ i < (tr t).length, g.idxOf e < g.idxOf (t, i)) ∧
    (∀ e ∈ g, ∀ t, (tr e.1)[e.2]? = some (.join t) → ∀ i < (tr t).length, g.idxOf (t, i) < g.idxOf e) ∧
    ∀ r ∈ g, (((tr r.1)[r.2]?).bind rd).isSome → ∃ w ∈ g, ((tr w.1)[w.2]?).bind wr = ((tr r.1)[r.2]?).bind rd ∧
      g.idxOf w < g.idxOf r ∧ ∀ w' ∈ g, writesTo tr w' = writesTo tr w → g.idxOf w < g.idxOf w' → g.idxOf r ≤ g.idxOf w')
    ⟨fun ⟨a, b, c, d, e⟩ => ⟨a, b, c, d, e⟩, fun h => ⟨h.all, h.po, h.spawn, h.join, h.last⟩⟩

end Exec
end Ruy.Race

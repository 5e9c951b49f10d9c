import Verif.Race.Cpp
/-
Part of an execution: only some atomics and some pieces of code are looked at, all other actions are "something else".
Happens-before stays that of the whole execution.  Used to apply what has been proved about the atomics of one component to
an execution of a larger program.
-/
namespace Ruy.Race

/-- What to look at, and under which name. -/
structure View (L C L' C' : Type) where
  loc : L → Option L'
  code : C → Option C'
  inj : ∀ {a b l}, loc a = some l → loc b = some l → a = b

namespace View
variable {T L V C L' C' : Type} (W : View L C L' C')

def act : Act T L V C → Act T L' V C'
  | .load o l v => match W.loc l with
    | some l' => .load o l' v
    | none => .skip
  | .store o l v => match W.loc l with
    | some l' => .store o l' v
    | none => .skip
  | .rmw o l v w => match W.loc l with
    | some l' => .rmw o l' v w
    | none => .skip
  | .call c => match W.code c with
    | some c' => .call c'
    | none => .skip
  | .spawn t => .spawn t
  | .join t => .join t
  | .skip => .skip

/-- The part of the execution. -/
def exec (x : Exec T L V C) : Exec T L' V C' where
  tr t := (x.tr t).map W.act
  rf w r := x.rf w r ∧ ∃ l l' v, x.Reads r l v ∧ W.loc l = some l'
  mo a b := x.mo a b ∧ ∃ l l' v, x.Writes a l v ∧ W.loc l = some l'
  ext := x.Hb

variable {W} {x : Exec T L V C}
open Exec

theorem exec_act (e : Ev T) : (W.exec x).act e = (x.act e).map W.act := by
  show ((x.tr e.1).map W.act)[e.2]? = ((x.tr e.1)[e.2]?).map W.act
  rw [List.getElem?_map]

theorem act_load {a : Act T L V C} {o : Ord} {l' : L'} {v : V} : W.act a = .load o l' v ↔ ∃ l, a = .load o l v ∧ W.loc l = some l' := by
  constructor
  · intro h
    cases a <;> simp only [act] at h <;> (try split at h) <;> cases h
    exact ⟨_, rfl, by assumption⟩
  · rintro ⟨l, rfl, h⟩
    simp [act, h]

theorem act_store {a : Act T L V C} {o : Ord} {l' : L'} {v : V} : W.act a = .store o l' v ↔ ∃ l, a = .store o l v ∧ W.loc l = some l' := by
  constructor
  · intro h
    cases a <;> simp only [act] at h <;> (try split at h) <;> cases h
    exact ⟨_, rfl, by assumption⟩
  · rintro ⟨l, rfl, h⟩
    simp [act, h]

theorem act_rmw {a : Act T L V C} {o : Ord} {l' : L'} {v w : V} :
    W.act a = .rmw o l' v w ↔ ∃ l, a = .rmw o l v w ∧ W.loc l = some l' := by
  constructor
  · intro h
    cases a <;> simp only [act] at h <;> (try split at h) <;> cases h
    exact ⟨_, rfl, by assumption⟩
  · rintro ⟨l, rfl, h⟩
    simp [act, h]

theorem act_call {a : Act T L V C} {c' : C'} : W.act a = .call c' ↔ ∃ c, a = .call c ∧ W.code c = some c' := by
  constructor
  · intro h
    cases a <;> simp only [act] at h <;> (try split at h) <;> cases h
    exact ⟨_, rfl, by assumption⟩
  · rintro ⟨l, rfl, h⟩
    simp [act, h]

theorem exec_some {e : Ev T} {b : Act T L' V C'} : (W.exec x).act e = some b ↔ ∃ a, x.act e = some a ∧ W.act a = b := by
  rw [exec_act, Option.map_eq_some_iff]

theorem writes {e : Ev T} {l' : L'} {v : V} : (W.exec x).Writes e l' v ↔ ∃ l, x.Writes e l v ∧ W.loc l = some l' := by
  constructor
  · rintro (⟨o, h⟩ | ⟨o, u, h⟩) <;> obtain ⟨a, h1, h2⟩ := exec_some.1 h
    · obtain ⟨l, rfl, hl⟩ := act_store.1 h2
      exact ⟨l, .inl ⟨o, h1⟩, hl⟩
    · obtain ⟨l, rfl, hl⟩ := act_rmw.1 h2
      exact ⟨l, .inr ⟨o, u, h1⟩, hl⟩
  · rintro ⟨l, ⟨o, h⟩ | ⟨o, u, h⟩, hl⟩
    · exact .inl ⟨o, exec_some.2 ⟨_, h, act_store.2 ⟨l, rfl, hl⟩⟩⟩
    · exact .inr ⟨o, u, exec_some.2 ⟨_, h, act_rmw.2 ⟨l, rfl, hl⟩⟩⟩

theorem reads {e : Ev T} {l' : L'} {v : V} : (W.exec x).Reads e l' v ↔ ∃ l, x.Reads e l v ∧ W.loc l = some l' := by
  constructor
  · rintro (⟨o, h⟩ | ⟨o, u, h⟩) <;> obtain ⟨a, h1, h2⟩ := exec_some.1 h
    · obtain ⟨l, rfl, hl⟩ := act_load.1 h2
      exact ⟨l, .inl ⟨o, h1⟩, hl⟩
    · obtain ⟨l, rfl, hl⟩ := act_rmw.1 h2
      exact ⟨l, .inr ⟨o, u, h1⟩, hl⟩
  · rintro ⟨l, ⟨o, h⟩ | ⟨o, u, h⟩, hl⟩
    · exact .inl ⟨o, exec_some.2 ⟨_, h, act_load.2 ⟨l, rfl, hl⟩⟩⟩
    · exact .inr ⟨o, u, exec_some.2 ⟨_, h, act_rmw.2 ⟨l, rfl, hl⟩⟩⟩

theorem isRmw {e : Ev T} (h : (W.exec x).IsRmw e) : x.IsRmw e := by
  obtain ⟨o, l, v, w, h⟩ := h
  obtain ⟨a, h1, h2⟩ := exec_some.1 h
  obtain ⟨l, rfl, _⟩ := act_rmw.1 h2
  exact ⟨_, _, _, _, h1⟩

theorem edge {a b : Ev T} (h : (W.exec x).Edge a b) : x.Hb a b := by
  cases h with
  | po h1 h2 => exact hb_po h1 (by simpa [exec] using h2)
  | sync h =>
    obtain ⟨h1, h2, c, h3, h4⟩ := h
    refine hb_sync ⟨?_, ?_, c, ?_, h4.1⟩
    · obtain ⟨o, l, ho, ⟨v, h⟩ | ⟨v, w, h⟩⟩ := h1 <;> obtain ⟨a, e1, e2⟩ := exec_some.1 h
      · obtain ⟨l, rfl, _⟩ := act_store.1 e2
        exact ⟨o, l, ho, .inl ⟨v, e1⟩⟩
      · obtain ⟨l, rfl, _⟩ := act_rmw.1 e2
        exact ⟨o, l, ho, .inr ⟨v, w, e1⟩⟩
    · obtain ⟨o, l, ho, ⟨v, h⟩ | ⟨v, w, h⟩⟩ := h2 <;> obtain ⟨a, e1, e2⟩ := exec_some.1 h
      · obtain ⟨l, rfl, _⟩ := act_load.1 e2
        exact ⟨o, l, ho, .inl ⟨v, e1⟩⟩
      · obtain ⟨l, rfl, _⟩ := act_rmw.1 e2
        exact ⟨o, l, ho, .inr ⟨v, w, e1⟩⟩
    · clear h4
      induction h3 with
      | head => exact .head
      | next _ hr hu ih => exact .next ih hr.1 (isRmw hu)
  | @spawn _ t _ h1 h2 =>
    obtain ⟨c, e1, e2⟩ := exec_some.1 h1
    have : c = .spawn t := by
      cases c <;> simp only [act] at e2 <;> (try split at e2) <;> cases e2
      rfl
    exact .single (.spawn (this ▸ e1) (by simpa [exec] using h2))
  | @join _ t _ h1 h2 =>
    obtain ⟨c, e1, e2⟩ := exec_some.1 h1
    have : c = .join t := by
      cases c <;> simp only [act] at e2 <;> (try split at e2) <;> cases e2
      rfl
    exact .single (.join (this ▸ e1) (by simpa [exec] using h2))
  | ext h => exact h

/-- Happens-before is that of the whole. -/
theorem hb {a b : Ev T} : (W.exec x).Hb a b ↔ x.Hb a b := by
  constructor
  · intro h
    induction h with
    | single h => exact edge h
    | tail _ h ih => exact ih.trans (edge h)
  · exact fun h => .single (.ext h)

/-- Part of an execution that the memory model allows is one. -/
theorem consistent (h : x.Consistent) : (W.exec x).Consistent where
  rf_ok := by
    rintro w r ⟨hr, l, l', v, h1, hl⟩
    obtain ⟨k, u, h2, h3⟩ := h.rf_ok hr
    obtain ⟨rfl, rfl⟩ := h1.one h3
    exact ⟨l', v, writes.2 ⟨l, h2, hl⟩, reads.2 ⟨l, h3, hl⟩⟩
  rf_some := fun hr => by
    obtain ⟨l, h1, hl⟩ := reads.1 hr
    obtain ⟨w, hw⟩ := h.rf_some h1
    exact ⟨w, hw, l, _, _, h1, hl⟩
  rf_one := fun h1 h2 => h.rf_one h1.1 h2.1
  hb_irrefl := fun e he => h.hb_irrefl e (hb.1 he)
  mo_ok := by
    rintro a b ⟨hm, l, l', v, h1, hl⟩
    obtain ⟨k, u, w, h2, h3⟩ := h.mo_ok hm
    obtain ⟨rfl, rfl⟩ := h1.one h2
    exact ⟨l', v, w, writes.2 ⟨l, h2, hl⟩, writes.2 ⟨l, h3, hl⟩⟩
  mo_irrefl := fun e he => h.mo_irrefl e he.1
  mo_trans := fun h1 h2 => ⟨h.mo_trans h1.1 h2.1, h1.2⟩
  mo_total := fun ha hb => by
    obtain ⟨l, h1, hl⟩ := writes.1 ha
    obtain ⟨k, h2, hk⟩ := writes.1 hb
    cases W.inj hl hk
    rcases h.mo_total h1 h2 with c | c | c
    · exact .inl c
    · exact .inr (.inl ⟨c, l, _, _, h1, hl⟩)
    · exact .inr (.inr ⟨c, l, _, _, h2, hl⟩)
  write_write := fun hh ha hb => by
    obtain ⟨l, h1, hl⟩ := writes.1 ha
    obtain ⟨k, h2, hk⟩ := writes.1 hb
    cases W.inj hl hk
    exact ⟨h.write_write (View.hb.1 hh) h1 h2, l, _, _, h1, hl⟩
  write_read := fun hh ha hb hr => by
    obtain ⟨l, h1, hl⟩ := writes.1 ha
    obtain ⟨k, h2, hk⟩ := reads.1 hb
    cases W.inj hl hk
    rcases h.write_read (View.hb.1 hh) h1 h2 hr.1 with c | c
    · exact .inl c
    · exact .inr ⟨c, l, _, _, h1, hl⟩
  read_write := fun hh ha hb hr => by
    obtain ⟨l, h1, hl⟩ := reads.1 ha
    obtain ⟨k, h2, hk⟩ := writes.1 hb
    cases W.inj hl hk
    obtain ⟨k', u, h3, h4⟩ := h.rf_ok hr.1
    obtain ⟨rfl, rfl⟩ := h1.one h4
    exact ⟨h.read_write (View.hb.1 hh) h1 h2 hr.1, l, _, _, h3, hl⟩
  read_read := fun hh ha hb hr hr' => by
    obtain ⟨l, h1, hl⟩ := reads.1 ha
    obtain ⟨k, h2, hk⟩ := reads.1 hb
    cases W.inj hl hk
    obtain ⟨k', u, h3, h4⟩ := h.rf_ok hr.1
    obtain ⟨rfl, rfl⟩ := h1.one h4
    rcases h.read_read (View.hb.1 hh) h1 h2 hr.1 hr'.1 with c | c
    · exact .inl c
    · exact .inr ⟨c, l, _, _, h3, hl⟩
  rmw := fun {w u} hu hr => by
    obtain ⟨hr, l, l', v, h1, hl⟩ := hr
    obtain ⟨k, z, h2, h3⟩ := h.rf_ok hr
    obtain ⟨rfl, rfl⟩ := h1.one h3
    have hu := isRmw hu
    obtain ⟨m1, m2⟩ := h.rmw hu hr
    obtain ⟨q, hw⟩ : ∃ q, x.Writes u l q := by
      obtain ⟨o, l2, v2, w2, ha⟩ := hu
      obtain ⟨rfl, rfl⟩ := h1.one (.inr ⟨o, w2, ha⟩)
      exact ⟨_, .inr ⟨o, _, ha⟩⟩
    refine ⟨⟨m1, l, l', _, h2, hl⟩, fun {a} hm => ?_⟩
    rcases m2 hm.1 with c | c
    · exact .inl c
    · exact .inr ⟨c, l, l', _, hw, hl⟩

end View
end Ruy.Race

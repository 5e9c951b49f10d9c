import Verif.Race.Local
/-
What the memory model says about the atomics of a TrMul: every block number is handed out once, every block is packed once,
and packing happens before every use.
-/
namespace Ruy.Race
open Ruy.Mat Ruy.Mul Ruy.BlockMap
open Ruy.TrMul (Grid)

variable {T : Type} {x : Exec T Loc Nat Work} {p : Prog} {n : Nat} {K : Tasks x p n}

/-! ### Actions of tasks -/

/-- Action `i` of task `k` with the actions before it. -/
structure Tasks.Here (K : Tasks x p n) (e : Ev T) (k : Nat) (l1 : List (TAct T)) (a : TAct T) (l2 : List (TAct T)) : Prop where
  task : k < n
  acts : K.acts k = l1 ++ a :: l2
  ev : e = (K.th k, K.lo k + l1.length)
  act : x.act e = some a
  past : Past p k l1 a

theorem Tasks.Ok.here (h : K.Ok) {dims kd m : SidePair Nat} (g : Grid p.bm dims kd m) {e : Ev T} (he : K.In e) :
    ∃ k l1 a l2, K.Here e k l1 a l2 := by
  obtain ⟨k, i, hk, hi, rfl⟩ := he
  have hs := h.slice k i hk hi
  have e1 : K.acts k = (K.acts k).take i ++ (K.acts k)[i] :: (K.acts k).drop (i + 1) := by
    rw [List.getElem_cons_drop, List.take_append_drop]
  refine ⟨k, _, _, _, hk, e1, ?_, ?_, (inv_steps g (h.run k hk)).past _ _ _ e1⟩
  · rw [List.length_take, Nat.min_eq_left hi.le]
  · rw [hs, List.getElem?_eq_getElem hi]

/-- The action at a place in a task's list. -/
theorem Tasks.Ok.at (h : K.Ok) {dims kd m : SidePair Nat} (g : Grid p.bm dims kd m) {k : Nat} (hk : k < n) {l1 l2 : List (TAct T)}
    {a : TAct T} (e : K.acts k = l1 ++ a :: l2) : K.Here (K.th k, K.lo k + l1.length) k l1 a l2 := by
  have hi : l1.length < (K.acts k).length := by rw [e]; simp
  refine ⟨hk, e, rfl, ?_, (inv_steps g (h.run k hk)).past _ _ _ e⟩
  rw [h.slice k _ hk hi, e]
  simp

theorem Tasks.Here.in_ {e : Ev T} {k : Nat} {l1 l2 : List (TAct T)} {a : TAct T} (h : K.Here e k l1 a l2) : K.In e :=
  ⟨k, l1.length, h.task, by rw [h.acts]; simp, h.ev⟩

/-- An action in the list before it happens before it. -/
theorem Tasks.Here.earlier (h : K.Ok) {dims kd m : SidePair Nat} (g : Grid p.bm dims kd m) {e : Ev T} {k : Nat} {l1 l2 : List (TAct T)}
    {a b : TAct T} (he : K.Here e k l1 a l2) (hb : b ∈ l1) : ∃ e' l1' l2', K.Here e' k l1' b l2' ∧ x.Hb e' e := by
  obtain ⟨l1', l2', e1⟩ := List.append_of_mem hb
  have e2 : K.acts k = l1' ++ b :: (l2' ++ a :: l2) := by rw [he.acts, e1]; simp
  refine ⟨_, _, _, h.at g he.task e2, ?_⟩
  have e3 := he.ev
  subst e3
  refine Exec.hb_po ?_ (Exec.act_lt he.act)
  rw [e1, List.length_append, List.length_cons]
  omega

/-! ### Sources of reads -/

/-- A read in a task sees the initialization or a write in a task. -/
theorem Tasks.Ok.source (h : K.Ok) (hx : x.Consistent) {r w : Ev T} {l : Loc} {v : Nat} (hl : Used p l) (hr : K.In r)
    (hv : x.Reads r l v) (hw : x.rf w r) : x.Writes w l v ∧ (w = K.init l ∨ K.In w) := by
  obtain ⟨w', hw', hv'⟩ := hx.source hv
  cases hx.rf_one hw hw'
  refine ⟨hv', ?_⟩
  obtain ⟨o, hi⟩ := h.init l hl
  have hi : x.Writes (K.init l) l _ := Or.inl ⟨o, hi⟩
  rcases h.only w l v hl hv' with h1 | h1 | h1 | h1
  · exact Or.inl h1
  · exact Or.inr h1
  · exfalso
    have m1 := hx.write_write h1 hv' hi
    rcases hx.write_read (h.before l r hl hr) hi hv hw with e | m2
    · subst e; exact hx.mo_irrefl _ m1
    · exact hx.mo_irrefl _ (hx.mo_trans m1 m2)
  · exact (hx.mo_irrefl _ (hx.read_write (h1 r hr) hv hv' hw)).elim

/-- Writes of tasks come after the initialization. -/
theorem Tasks.Ok.init_mo (h : K.Ok) (hx : x.Consistent) {w : Ev T} {l : Loc} {v : Nat} (hl : Used p l) (hw : K.In w)
    (hv : x.Writes w l v) : x.mo (K.init l) w := by
  obtain ⟨o, hi⟩ := h.init l hl
  exact hx.write_write (h.before l w hl hw) (Or.inl ⟨o, hi⟩) hv

section
variable {dims kd m : SidePair Nat} (g : Grid p.bm dims kd m) (h : K.Ok) (hx : x.Consistent)
include g h

/-! ### The counter -/

/-- Task writes to the counter are its increments. -/
theorem next_write {w : Ev T} {v : Nat} (hw : K.In w) (hv : x.Writes w .next v) :
    ∃ o u, x.act w = some (.rmw o .next u v) ∧ v = u + 1 := by
  obtain ⟨k, l1, a, l2, hh⟩ := h.here g hw
  rcases hv with ⟨o, ha⟩ | ⟨o, u, ha⟩
  · rw [hh.act] at ha; cases ha
    exact hh.past.elim
  · have ha' := ha
    rw [hh.act] at ha; cases ha
    exact ⟨o, u, ha', hh.past.1⟩

include hx in
/-- Later writes to the counter write larger values. -/
theorem next_mono : ∀ {v : Nat} {w : Ev T}, ∀ {u : Nat} {a : Ev T}, K.In w → x.Writes w .next v → (a = K.init .next ∨ K.In a) →
    x.Writes a .next u → x.mo a w → u < v := by
  intro v
  induction v using Nat.strong_induction_on with
  | _ v ih =>
    intro w u a hw hv ha hu hm
    obtain ⟨o, c, act, rfl⟩ := next_write g h hw hv
    have hr : x.Reads w .next c := Or.inr ⟨o, _, act⟩
    obtain ⟨s, hs⟩ := hx.rf_some hr
    obtain ⟨hs1, hs2⟩ := h.source hx (l := .next) trivial hw hr hs
    obtain ⟨m1, m2⟩ := hx.rmw ⟨o, _, _, _, act⟩ hs
    rcases hx.mo_total hu hs1 with e | e | e
    · subst e
      have := (hu.one hs1).2
      omega
    · rcases hs2 with e2 | e2
      · subst e2
        exfalso
        rcases ha with e3 | e3
        · subst e3; exact hx.mo_irrefl _ e
        · exact hx.mo_irrefl _ (hx.mo_trans e (h.init_mo hx (l := .next) trivial e3 hu))
      · have := ih c (Nat.lt_succ_self c) e2 hs1 ha hu e
        omega
    · rcases m2 e with e2 | e2
      · subst e2; exact (hx.mo_irrefl _ hm).elim
      · exact (hx.mo_irrefl _ (hx.mo_trans hm e2)).elim

include hx in
/-- The values that the tasks fetch are different. -/
theorem next_inj {a b : Ev T} {o o' : Ord} {v w w' : Nat} (ha : K.In a) (hb : K.In b) (h1 : x.act a = some (.rmw o .next v w))
    (h2 : x.act b = some (.rmw o' .next v w')) : a = b := by
  have wa : x.Writes a .next w := Or.inr ⟨_, _, h1⟩
  have wb : x.Writes b .next w' := Or.inr ⟨_, _, h2⟩
  obtain ⟨_, _, e1, rfl⟩ := next_write g h ha wa
  obtain ⟨_, _, e2, rfl⟩ := next_write g h hb wb
  rw [h1] at e1; cases e1
  rw [h2] at e2; cases e2
  rcases hx.mo_total wa wb with e | e | e
  · exact e
  · exact absurd (next_mono g h hx hb wb (Or.inr ha) wa e) (Nat.lt_irrefl _)
  · exact absurd (next_mono g h hx ha wa (Or.inr hb) wb e) (Nat.lt_irrefl _)

include hx in
/-- They begin with the number of tasks, without gaps. -/
theorem next_range : ∀ v, ∀ {a : Ev T} {o : Ord} {w : Nat}, K.In a → x.act a = some (.rmw o .next v w) →
    n ≤ v ∧ ∀ u, n ≤ u → u ≤ v → ∃ b o' w', K.In b ∧ x.act b = some (.rmw o' .next u w') := by
  intro v
  induction v using Nat.strongRecOn with
  | ind v ih =>
    intro a o w ha h1
    have hr : x.Reads a .next v := Or.inr ⟨_, _, h1⟩
    obtain ⟨s, hs⟩ := hx.rf_some hr
    obtain ⟨hs1, hs2⟩ := h.source hx (l := .next) trivial ha hr hs
    rcases hs2 with e | e
    · subst e
      obtain ⟨o', hi⟩ := h.init .next trivial
      have hv : v = n := (hs1.one (Or.inl ⟨o', hi⟩)).2
      exact ⟨hv.ge, fun u h2 h3 => ⟨a, o, w, ha, by
        have : u = v := by omega
        subst this; exact h1⟩⟩
    · obtain ⟨o', c, act, rfl⟩ := next_write g h e hs1
      obtain ⟨i1, i2⟩ := ih c (Nat.lt_succ_self c) e act
      refine ⟨by omega, fun u h2 h3 => ?_⟩
      rcases Nat.lt_or_ge c u with h4 | h4
      · have : u = c + 1 := by omega
        subst this
        exact ⟨a, o, w, ha, h1⟩
      · exact i2 u h2 h4

/-! ### The statuses -/

/-- Task writes to a status. -/
theorem status_write {w : Ev T} {s : Side} {b v : Nat} (hw : K.In w) (hv : x.Writes w (.status s b) v) :
    (v = inProgress ∧ x.act w = some (.rmw .acqRel (.status s b) notStarted inProgress)) ∨
      (v = finished ∧ x.act w = some (.store .release (.status s b) finished)) := by
  obtain ⟨k, l1, a, l2, hh⟩ := h.here g hw
  rcases hv with ⟨o, ha⟩ | ⟨o, u, ha⟩
  · have ha' := ha
    rw [hh.act] at ha; cases ha
    obtain ⟨rfl, rfl, _⟩ := hh.past
    exact Or.inr ⟨rfl, ha'⟩
  · have ha' := ha
    rw [hh.act] at ha; cases ha
    obtain ⟨rfl, rfl, rfl, _⟩ := hh.past
    exact Or.inl ⟨rfl, ha'⟩

include hx in
/-- The exchange succeeds once. -/
theorem won_once {a b : Ev T} {s : Side} {c : Nat} (hu : Used p (.status s c)) (ha : K.In a) (hb : K.In b)
    (h1 : x.act a = some (.rmw .acqRel (.status s c) notStarted inProgress))
    (h2 : x.act b = some (.rmw .acqRel (.status s c) notStarted inProgress)) : a = b := by
  have src : ∀ {e}, K.In e → x.act e = some (.rmw .acqRel (.status s c) notStarted inProgress) →
      x.rf (K.init (.status s c)) e := by
    intro e he hact
    have hr : x.Reads e (.status s c) notStarted := Or.inr ⟨_, _, hact⟩
    obtain ⟨w, hw⟩ := hx.rf_some hr
    obtain ⟨w1, w2⟩ := h.source hx hu he hr hw
    rcases w2 with rfl | w2
    · exact hw
    · rcases status_write g h w2 w1 with ⟨e, _⟩ | ⟨e, _⟩ <;> cases e
  obtain ⟨ma, ia⟩ := hx.rmw ⟨_, _, _, _, h1⟩ (src ha h1)
  obtain ⟨mb, ib⟩ := hx.rmw ⟨_, _, _, _, h2⟩ (src hb h2)
  rcases ia mb with e | e
  · exact e.symm
  · rcases ib ma with e' | e'
    · exact e'
    · exact (hx.mo_irrefl _ (hx.mo_trans e e')).elim

/-- A block is packed once; the exchange happens before. -/
theorem pack_won {a : Ev T} {s : Side} {b lo hi : Nat} (ha : K.In a) (h1 : x.act a = some (.call (.pack s b lo hi))) :
    ∃ k l0 l2 u, K.Here a k (l0 ++ [.rmw .acqRel (.status s b) notStarted inProgress]) (.call (.pack s b lo hi)) l2 ∧
      K.Here u k l0 (.rmw .acqRel (.status s b) notStarted inProgress) (.call (.pack s b lo hi) :: l2) ∧
      Used p (.status s b) ∧ getBlockMatrixCoords s p.bm b = .ok (lo, hi) := by
  obtain ⟨k, l1, a', l2, hh⟩ := h.here g ha
  have := hh.act
  rw [h1] at this; cases this
  obtain ⟨hu, hc, l0, rfl⟩ := hh.past
  refine ⟨k, l0, l2, _, hh, h.at g hh.task ?_, hu, hc⟩
  rw [hh.acts]; simp

include hx in
theorem pack_once {a b : Ev T} {s : Side} {c lo hi lo' hi' : Nat} (ha : K.In a) (hb : K.In b)
    (h1 : x.act a = some (.call (.pack s c lo hi))) (h2 : x.act b = some (.call (.pack s c lo' hi'))) : a = b := by
  obtain ⟨k, l0, l2, u, a1, a2, hu, _⟩ := pack_won g h ha h1
  obtain ⟨k', l0', l2', u', b1, b2, _, _⟩ := pack_won g h hb h2
  have e := won_once g h hx hu a2.in_ b2.in_ a2.act b2.act
  rw [a2.ev, b2.ev] at e
  obtain ⟨e1, e2⟩ := Prod.mk.inj e
  have hk := h.threads k k' a2.task b2.task e1
  subst hk
  rw [a1.ev, b1.ev, List.length_append, List.length_append]
  refine Prod.ext rfl ?_
  simp only [List.length_cons, List.length_nil]
  omega

/-- The status kFinished is stored after packing. -/
theorem store_pack {w : Ev T} {s : Side} {b : Nat} (hw : K.In w) (h1 : x.act w = some (.store .release (.status s b) finished)) :
    Used p (.status s b) ∧ ∃ u a lo hi, K.In u ∧ K.In a ∧ x.act u = some (.rmw .acqRel (.status s b) notStarted inProgress) ∧
      x.act a = some (.call (.pack s b lo hi)) ∧ x.Hb u a ∧ x.Hb a w ∧ u.1 = w.1 ∧ u.2 + 2 = w.2 := by
  obtain ⟨k, l1, a', l2, hh⟩ := h.here g hw
  have := hh.act
  rw [h1] at this; cases this
  obtain ⟨_, _, hu, l0, lo, hi, rfl⟩ := hh.past
  have hU := h.at g (l1 := l0) (a := .rmw .acqRel (.status s b) notStarted inProgress) (l2 := .call (.pack s b lo hi) :: .store .release (.status s b) finished :: l2) hh.task
    (by rw [hh.acts]; simp)
  have hA := h.at g (l1 := l0 ++ [.rmw .acqRel (.status s b) notStarted inProgress]) (a := .call (.pack s b lo hi))
    (l2 := .store .release (.status s b) finished :: l2) hh.task (by rw [hh.acts]; simp)
  have e3 := hh.ev
  rw [List.length_append] at e3 hA
  simp only [List.length_cons, List.length_nil] at e3 hA
  subst e3
  exact ⟨hu, _, _, lo, hi, hU.in_, hA.in_, hU.act, hA.act, Exec.hb_po (by omega) (Exec.act_lt hA.act),
    Exec.hb_po (by omega) (Exec.act_lt hh.act), rfl, by simp only; omega⟩

include hx in
/-- kFinished is stored once. -/
theorem store_once {a b : Ev T} {s : Side} {c : Nat} (ha : K.In a) (hb : K.In b)
    (h1 : x.act a = some (.store .release (.status s c) finished)) (h2 : x.act b = some (.store .release (.status s c) finished)) :
    a = b := by
  obtain ⟨hu, u, _, _, _, u1, _, u2, _, _, _, e1, e2⟩ := store_pack g h ha h1
  obtain ⟨_, u', _, _, _, u1', _, u2', _, _, _, e1', e2'⟩ := store_pack g h hb h2
  cases won_once g h hx hu u1 u1' u2 u2'
  exact Prod.ext (e1.symm.trans e1') (by omega)

include hx in
/-- Whoever reads a status other than the first two, reads kFinished, and packing happens before. -/
theorem load_pack {r : Ev T} {s : Side} {b v : Nat} (hu : Used p (.status s b)) (hr : K.In r)
    (h1 : x.act r = some (.load .acquire (.status s b) v)) (hv1 : v ≠ notStarted) (hv2 : v ≠ inProgress) :
    ∃ w, K.In w ∧ x.rf w r ∧ x.act w = some (.store .release (.status s b) finished) ∧ v = finished ∧
      ∃ a lo hi, K.In a ∧ x.act a = some (.call (.pack s b lo hi)) ∧ x.Hb a r := by
  have hrd : x.Reads r (.status s b) v := Or.inl ⟨_, h1⟩
  obtain ⟨w, hw⟩ := hx.rf_some hrd
  obtain ⟨w1, w2⟩ := h.source hx hu hr hrd hw
  rcases w2 with rfl | w2
  · obtain ⟨o, hi⟩ := h.init _ hu
    exact absurd (w1.one (Or.inl ⟨o, hi⟩)).2 hv1
  · rcases status_write g h w2 w1 with ⟨e, _⟩ | ⟨e, hact⟩
    · exact absurd e hv2
    · obtain ⟨_, _, a, lo, hi, _, ha, _, hp, _, hb, _, _⟩ := store_pack g h w2 hact
      refine ⟨w, w2, hw, hact, e, a, lo, hi, ha, hp, hb.trans (Exec.hb_sync ?_)⟩
      exact ⟨⟨.release, _, rfl, Or.inl ⟨_, hact⟩⟩, ⟨.acquire, _, rfl, Or.inl ⟨_, h1⟩⟩, w, .head, hw⟩

include hx in
/-- What a task has seen was packed before. -/
theorem seen_pack {e : Ev T} {k : Nat} {l1 l2 : List (TAct T)} {a : TAct T} (he : K.Here e k l1 a l2) {s : Side} {b : Nat}
    (hs : Seen l1 s b) : ∃ w q lo hi, K.In w ∧ x.act w = some (.store .release (.status s b) finished) ∧
      K.In q ∧ x.act q = some (.call (.pack s b lo hi)) ∧ x.Hb q e := by
  rcases hs with hs | ⟨v, v1, v2, hs⟩
  · obtain ⟨w, _, _, hw, hb⟩ := he.earlier h g hs
    obtain ⟨_, _, q, lo, hi, _, hq, _, hp, _, hb', _, _⟩ := store_pack g h hw.in_ hw.act
    exact ⟨w, q, lo, hi, hw.in_, hw.act, hq, hp, hb'.trans hb⟩
  · obtain ⟨r, _, _, hr, hb⟩ := he.earlier h g hs
    have hu : Used p (.status s b) := hr.past.2
    obtain ⟨w, hw, _, hact, _, q, lo, hi, hq, hp, hb'⟩ := load_pack g h hx hu hr.in_ hr.act v1 v2
    exact ⟨w, q, lo, hi, hw, hact, hq, hp, hb'.trans hb⟩

include hx in
/-- The check that the status is kFinished passes. -/
theorem check_passes {e : Ev T} {k : Nat} {l1 l2 : List (TAct T)} {s : Side} {b v : Nat}
    (he : K.Here e k l1 (.load .acquire (.status s b) v) l2) (hs : Seen l1 s b) : v = finished := by
  have hu : Used p (.status s b) := he.past.2
  have hrd : x.Reads e (.status s b) v := Or.inl ⟨_, he.act⟩
  obtain ⟨r, hr⟩ := hx.rf_some hrd
  obtain ⟨r1, r2⟩ := h.source hx hu he.in_ hrd hr
  -- the store of kFinished, and the write that is read comes not before it
  have key : ∃ w, K.In w ∧ x.act w = some (.store .release (.status s b) finished) ∧ (w = r ∨ x.mo w r) := by
    rcases hs with hs | ⟨v', v1, v2, hs⟩
    · obtain ⟨w, _, _, hw, hb⟩ := he.earlier h g hs
      refine ⟨w, hw.in_, hw.act, ?_⟩
      rcases hx.write_read hb (Or.inl ⟨_, hw.act⟩) hrd hr with e | e
      · exact Or.inl e.symm
      · exact Or.inr e
    · obtain ⟨q, _, _, hq, hb⟩ := he.earlier h g hs
      obtain ⟨w, hw, hrf, hact, _, _⟩ := load_pack g h hx hu hq.in_ hq.act v1 v2
      exact ⟨w, hw, hact, hx.read_read hb (Or.inl ⟨_, hq.act⟩) hrd hrf hr⟩
  obtain ⟨w, hw, hact, hm⟩ := key
  have hww : x.Writes w (.status s b) finished := Or.inl ⟨_, hact⟩
  rcases hm with rfl | hm
  · exact (r1.one hww).2
  rcases r2 with rfl | r2
  · exact (hx.mo_irrefl _ (hx.mo_trans hm (h.init_mo hx hu hw hww))).elim
  rcases status_write g h r2 r1 with ⟨_, e2⟩ | ⟨e1, _⟩
  · obtain ⟨_, u, a, _, _, hu1, _, hu2, _, hb1, hb2, _, _⟩ := store_pack g h hw hact
    cases won_once g h hx hu hu1 r2 hu2 e2
    exact (hx.mo_irrefl _ (hx.mo_trans hm (hx.write_write (hb1.trans hb2) r1 hww))).elim
  · exact e1

end
end Ruy.Race

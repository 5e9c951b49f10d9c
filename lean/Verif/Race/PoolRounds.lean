import Verif.Race.PoolGlobal
/-
Rounds of the workers and uses of the counter: each round of a worker belongs to one use of the counter, and when the
thread that owns the pool has waited for the counter, the rounds have happened before.
-/
namespace Ruy.Race.Pool
open Exec
variable {T L C : Type} {x : Exec T (PLoc L) Nat (PCode C)} {K : Run x}

/-- Round `r` of worker `w` belongs to use `p` of the counter: the worker was created then, or found the state that was
stored then. -/
def Run.Of (K : Run x) (w r p : Nat) : Prop :=
  (r = 0 ∧ ∃ i t, K.M i t (.spawn (K.wk w)) ∧ t.pc = .cSpawn w ∧ t.ph.id = p) ∨
  (r ≠ 0 ∧ ∃ i t j, K.M i t (.store .release (.state w) hasWork) ∧ t.pc = .xGive (w + 1) ∧ t.ph.id = p ∧
    K.W w j ⟨.wait, r⟩ (.load .acquire (.state w) hasWork) ∧ x.rf (K.main, i) (K.wk w, j))

/-- The last load of a use of the counter. -/
def Run.Z (K : Run x) (i : Nat) (t : MS) : Prop := K.M i t (.load .acquire .count 0) ∧ (t.pc = .cWait ∨ t.pc = .wait)

/-- All workers have decremented the counter before. -/
def Run.Col (K : Run x) (p : Nat) : Prop := ∀ i t, K.Z i t → t.ph.id = p → ∀ w, t.ph.lo ≤ w → w < t.ph.lo + t.ph.m →
  ∃ r k u, K.W w k ⟨.dec, r⟩ (.rmw .acqRel .count u (u - 1)) ∧ K.Of w r p ∧ x.Hb (K.wk w, k) (K.main, i)

section
variable (h : K.Ok)
include h

theorem spawn_pc {i w : Nat} {t : MS} (hi : K.M i t (.spawn (K.wk w))) : t.pc = .cSpawn w := by
  obtain ⟨t', hr⟩ := h.main.step hi
  generalize ha : (Act.spawn (K.wk w) : PAct T L C) = a at hr
  cases hr with
  | user _ hu =>
    cases hu with
    | spawn _ hn => injection ha with e; exact absurd e.symm (hn w)
    | _ => cases ha
  | cSpawn hp => injection ha with e; rw [h.inj e]; exact hp
  | _ => cases ha

theorem of_exists (hx : x.Consistent) {w k : Nat} {u : WS} {a : PAct T L C} (hk : K.W w k u a) (hu : u.pc.inRound = true) :
    ∃ p, K.Of w u.r p := by
  by_cases c : u.r = 0
  · obtain ⟨i, hi⟩ := h.spawned w (fun e => by unfold Run.W at hk; rw [e] at hk; simp at hk)
    obtain ⟨t, ht⟩ := h.act_m hi
    exact ⟨t.ph.id, .inl ⟨c, i, t, ht, spawn_pc h ht, rfl⟩⟩
  · obtain ⟨j, _, hj⟩ := w_work (h.work w) hk hu c
    obtain ⟨s, hs, ws⟩ := hx.source (.inl ⟨_, h.w_act hj⟩)
    rcases h.write_state ws with ⟨_, _, _, _, _, e⟩ | ⟨i, t, rfl, hi, hp, _⟩ | ⟨_, _, _, _, _, e⟩ | ⟨_, _, _, _, e⟩
    · cases e
    · exact ⟨t.ph.id, .inr ⟨c, i, t, j, hi, hp, rfl, hj, hs⟩⟩
    · cases e
    · cases e

/-- What happens before a round. -/
theorem of_start {w r p : Nat} (ho : K.Of w r p) : ∃ i t a, K.M i t a ∧ t.ph.id = p ∧
    ((r = 0 ∧ t.pc = .cSpawn w) ∨ (r ≠ 0 ∧ t.pc = .xGive (w + 1))) ∧
    ∀ k u b, K.W w k u b → 16 * r < u.key → x.Hb (K.main, i) (K.wk w, k) := by
  rcases ho with ⟨rfl, i, t, hi, hp, e⟩ | ⟨hr, i, t, j, hi, hp, e, hj, hrf⟩
  · refine ⟨i, t, _, hi, e, .inl ⟨rfl, hp⟩, fun k u b hk _ => .single (.spawn (h.m_act hi) ?_)⟩
    exact Exec.act_lt (h.w_act hk)
  · refine ⟨i, t, _, hi, e, .inr ⟨hr, hp⟩, fun k u b hk hlt => ?_⟩
    refine (Exec.hb_sync ⟨⟨.release, _, rfl, .inl ⟨_, h.m_act hi⟩⟩, ⟨.acquire, _, rfl, .inl ⟨_, h.w_act hj⟩⟩, _, .head, hrf⟩).trans
      (h.hb_w (w_order (h.work w) hj hk ?_) hk)
    simpa [WS.key, WPc.rank] using hlt

theorem of_range {w r p i : Nat} {t : MS} {a : PAct T L C} (ho : K.Of w r p) (hi : K.M i t a) (ht : t.ph.id = p) :
    1 ≤ p ∧ t.ph.lo ≤ w ∧ w < t.ph.lo + t.ph.m ∧ (t.ph.create = true ↔ r = 0) := by
  obtain ⟨j, u, b, hj, hu, c, _⟩ := of_start h ho
  have wf := (m_wf h.main).1 _ _ _ hj
  have e := m_ph_eq h.main hi hj (ht.trans hu.symm)
  rw [e, ← hu]
  rcases c with ⟨c1, c⟩ | ⟨c1, c⟩ <;> simp only [MS.Wf, c] at wf
  · refine ⟨wf.1, by omega, by omega, by simp [wf.2.2.2.2.1, c1]⟩
  · refine ⟨wf.1, by omega, by omega, by simp [wf.2.2.2.2.2.1, c1]⟩

/-- A worker has one round for each use of the counter. -/
theorem of_inj (hx : x.Consistent) {w r r' p : Nat} (h1 : K.Of w r p) (h2 : K.Of w r' p) : r = r' := by
  have main : ∀ {r r'}, K.Of w r p → K.Of w r' p → ¬r < r' := by
    intro r r' h1 h2 hlt
    obtain ⟨j, u, b, hj, hu, _⟩ := of_start h h1
    have c1 := (of_range h h1 hj hu).2.2.2
    have c2 := (of_range h h2 hj hu).2.2.2
    rcases h1 with ⟨rfl, _⟩ | ⟨hr, i, t, j, hi, hp, e, hj, hrf⟩
    · rw [c1] at c2; have := c2.1 rfl; omega
    rcases h2 with ⟨rfl, _⟩ | ⟨hr', i', t', j', hi', hp', e', hj', hrf'⟩
    · omega
    have := m_give_one h.main hi hi' hp hp' (e.trans e'.symm)
    subst this
    obtain ⟨k, v, hk, hdec⟩ := w_past (h.work w) hj' (r := r) hlt
    obtain ⟨k', hk', hready⟩ := w_ready (h.work w) hdec
    have hjk : j < k' := w_order (h.work w) hj hready (by simp [WS.key, WPc.rank])
    have wr : x.Writes (K.wk w, k') (.state w) ready := .inl ⟨_, h.w_act hready⟩
    have m1 := hx.read_write (h.hb_w hjk hready) (.inl ⟨_, h.w_act hj⟩) wr hrf
    rcases hx.write_read (h.hb_w (show k' < j' by omega) hj') wr (.inl ⟨_, h.w_act hj'⟩) hrf' with c | c
    · rw [c] at m1; exact hx.mo_irrefl _ m1
    · exact hx.mo_irrefl _ (hx.mo_trans m1 c)
  rcases Nat.lt_trichotomy r r' with c | c | c
  · exact absurd c (main h1 h2)
  · exact c
  · exact absurd c (main h2 h1)

/-- The rounds of the workers have happened before the counter is seen at 0. -/
theorem Run.Col.hb_z (hx : x.Consistent) {p : Nat} (hc : K.Col p) {w r k z : Nat} {a : PAct T L C} {s : MS} (ho : K.Of w r p)
    (hk : K.W w k ⟨.dec, r⟩ a) (hz : K.Z z s) (hs : s.ph.id = p) : x.Hb (K.wk w, k) (K.main, z) := by
  obtain ⟨_, r1, r2, _⟩ := of_range h ho hz.1 hs
  obtain ⟨r', k', v, hk', ho', hb⟩ := hc z s hz hs w r1 r2
  have := of_inj h hx ho ho'
  subst this
  have := w_one (h.work w) hk hk' (by simp) (by simp)
  subst this
  exact hb

/-- After the counter has been waited for, the rounds of its workers have happened before. -/
theorem Run.Col.hb (hx : x.Consistent) {p : Nat} (hc : K.Col p) {w r k i : Nat} {a b : PAct T L C} {t : MS} (ho : K.Of w r p)
    (hk : K.W w k ⟨.dec, r⟩ a) (hi : K.M i t b) (ht : p < t.ph.id ∨ (p = t.ph.id ∧ t.isOpen = false)) :
    x.Hb (K.wk w, k) (K.main, i) := by
  obtain ⟨j, u, b', hj, hu, _⟩ := of_start h ho
  obtain ⟨z, s, hz, ez, es, ep⟩ := m_waited h.main hi (of_range h ho hj hu).1 ht
  exact (hc.hb_z h hx ho hk ⟨ez, ep⟩ es).trans (h.hb_m hz hi)

/-- A reset. -/
def Run.R (K : Run x) (i : Nat) (t : MS) : Prop := K.M i t (.store .release .count t.ph.m) ∧ (t.pc = .cStore ∨ t.pc = .xStore)

/-- A decrement that belongs to use `p` of the counter. -/
def Run.D (K : Run x) (p : Nat) (e : Ev T) : Prop :=
  ∃ w k r u, e = (K.wk w, k) ∧ K.W w k ⟨.dec, r⟩ (.rmw .acqRel .count u (u - 1)) ∧ K.Of w r p

/-- The counter from a reset to `z`, if what later uses write comes after `z`. -/
theorem segment (hx : x.Consistent) {p : Nat} (hc : ∀ q < p, K.Col q) {i : Nat} {t : MS} (hR : K.R i t) (ht : t.ph.id = p) {z : Ev T}
    (hz : x.mo (K.main, i) z)
    (hl : ∀ e v j u b, x.Writes e .count v → K.M j u b → p < u.ph.id → (e = (K.main, j) ∨ x.Hb (K.main, j) e) → x.mo z e) :
    ∃ es : List (Ev T), es.Nodup ∧ (∀ e ∈ es, K.D p e ∧ x.RelSeq e z) ∧ 1 ≤ es.length ∧ es.length ≤ t.ph.m ∧
      (∃ o, x.act z = some (.rmw o .count (t.ph.m - (es.length - 1)) (t.ph.m - (es.length - 1) - 1))) ∧
      (es.length = t.ph.m → ∀ w, t.ph.lo ≤ w → w < t.ph.lo + t.ph.m → ∃ k, (K.wk w, k) ∈ es) := by
  classical
  have wR : x.Writes (K.main, i) .count t.ph.m := .inl ⟨_, h.m_act hR.1⟩
  let f : Ev T → Nat := fun e => if hw : ∃ w, e.1 = K.wk w then hw.choose - t.ph.lo else 0
  have ff : ∀ w k, f (K.wk w, k) = w - t.ph.lo := fun w k => by
    have hw : ∃ w', (K.wk w, k).1 = K.wk w' := ⟨w, rfl⟩
    show (if hw : ∃ w', (K.wk w, k).1 = K.wk w' then hw.choose - t.ph.lo else 0) = _
    rw [dif_pos hw, ← h.inj hw.choose_spec]
  have hG : ∀ e v, x.Writes e .count v → x.mo (K.main, i) e → (e = z ∨ x.mo e z) → K.D p e := by
    intro e v hw hm hb
    have late : ∀ j u b, K.M j u b → p < u.ph.id → (e = (K.main, j) ∨ x.Hb (K.main, j) e) → False := by
      intro j u b hj hu he
      have := hl e v j u b hw hj hu he
      rcases hb with rfl | hb
      · exact hx.mo_irrefl _ this
      · exact hx.mo_irrefl _ (hx.mo_trans this hb)
    have early : ¬x.Hb e (K.main, i) := fun hh =>
      hx.mo_irrefl _ (hx.mo_trans (hx.write_write hh hw wR) hm)
    rcases h.write_count hw with ⟨j, u, rfl, hj, hu, _⟩ | ⟨j, u, rfl, hj, hu, _⟩ | ⟨w, k, r, u, rfl, hk, _⟩
    · exfalso
      obtain ⟨j', u', hj', e', eu'⟩ := m_init h.main hR.1 (by rcases hR.2 with e | e <;> rw [e] <;> simp)
      have : j ≤ j' := by
        by_contra hc
        exact m_init_one h.main e' hj (by omega) eu' hu
      exact early (h.hb_m (by omega) hR.1)
    · exfalso
      rcases Nat.lt_trichotomy u.ph.id t.ph.id with c | c | c
      · exact early (h.hb_m (m_order h.main hj hR.1 c) hR.1)
      · have := m_reset_one h.main hj hR.1 hu hR.2 c
        subst this
        exact hx.mo_irrefl _ hm
      · exact late j u _ hj (by omega) (.inl rfl)
    · obtain ⟨q, hq⟩ := of_exists h hx hk rfl
      have hq : K.Of w r q := hq
      rcases Nat.lt_trichotomy q p with c | c | c
      · exact absurd ((hc q c).hb h hx hq hk hR.1 (.inl (by omega))) early
      · subst c; exact ⟨w, k, r, u, rfl, hk, hq⟩
      · obtain ⟨j, s, b, hj, hs, _, hh⟩ := of_start h hq
        exact (late j s b hj (by omega) (.inr (hh k _ _ hk (by simp [WS.key, WPc.rank])))).elim
  have hf : ∀ e, K.D p e → f e < t.ph.m := by
    rintro e ⟨w, k, r, u, rfl, hk, ho⟩
    rw [ff]
    have := of_range h ho hR.1 ht
    omega
  have inj : ∀ e e', K.D p e → K.D p e' → f e = f e' → e = e' := by
    rintro e e' ⟨w, k, r, u, rfl, hk, ho⟩ ⟨w', k', r', u', rfl, hk', ho'⟩ he
    rw [ff, ff] at he
    have r1 := of_range h ho hR.1 ht
    have r2 := of_range h ho' hR.1 ht
    have : w = w' := by omega
    subst this
    have := of_inj h hx ho ho'
    subst this
    have := w_one (h.work w) hk hk' (by simp) (by simp)
    subst this
    rfl
  obtain ⟨es, e1, e2, e3, e4, e5⟩ := countdown hx wR hz hG (by
    rintro e ⟨w, k, r, u, rfl, hk, ho⟩
    exact ⟨_, u, h.w_act hk⟩) hf inj
  refine ⟨es, e1, e2, e3, e4, e5, fun hlen w hw1 hw2 => ?_⟩
  have n1 : (es.map f).Nodup := (List.nodup_map_iff_inj_on e1).2 fun a ha b hb => inj a b (e2 a ha).1 (e2 b hb).1
  have sub : es.map f ⊆ List.range t.ph.m := fun k hk => by
    obtain ⟨e, he, rfl⟩ := List.mem_map.1 hk
    exact List.mem_range.2 (hf e (e2 e he).1)
  have pm := (n1.subperm sub).perm_of_length_le (by simp [hlen])
  have : w - t.ph.lo ∈ es.map f := pm.mem_iff.2 (List.mem_range.2 (by omega))
  obtain ⟨e, he, hfe⟩ := List.mem_map.1 this
  obtain ⟨w', k, r, u, rfl, hk, ho⟩ := (e2 e he).1
  rw [ff] at hfe
  have := of_range h ho hR.1 ht
  have : w' = w := by omega
  subst this
  exact ⟨k, he⟩

theorem z_reset {i : Nat} {t : MS} (hz : K.Z i t) : ∃ j u, j < i ∧ K.R j u ∧ u.ph = t.ph ∧ 1 ≤ t.ph.id ∧ 1 ≤ t.ph.m := by
  have wf := (m_wf h.main).1 _ _ _ hz.1
  have h1 : 1 ≤ t.ph.id ∧ 1 ≤ t.ph.m := by
    rcases hz.2 with e | e <;> simp only [MS.Wf, e] at wf <;> omega
  obtain ⟨j, u, hj, e1, e2, e3⟩ := m_reset h.main hz.1 h1.1 (by rcases hz.2 with e | e <;> rw [e] <;> rfl)
    (by rcases hz.2 with e | e <;> rw [e] <;> simp)
  exact ⟨j, u, hj, ⟨e1, e3⟩, e2, h1⟩

/-- When the counter is 0, all workers have decremented it. -/
theorem collected (hx : x.Consistent) (p : Nat) : K.Col p := by
  induction p using Nat.strong_induction_on with
  | _ p ih =>
    intro i t hz ht w hw1 hw2
    obtain ⟨j, u, hji, hR, hu, _, hm⟩ := z_reset h hz
    rw [← hu] at hw1 hw2 hm ht
    have rz : x.Reads (K.main, i) .count 0 := .inl ⟨_, h.m_act hz.1⟩
    obtain ⟨z, hrf, wz⟩ := hx.source rz
    have wR : x.Writes (K.main, j) .count u.ph.m := .inl ⟨_, h.m_act hR.1⟩
    have mz : x.mo (K.main, j) z := by
      rcases hx.write_read (h.hb_m hji hz.1) wR rz hrf with c | c
      · subst c
        have := (wz.one wR).2
        omega
      · exact c
    obtain ⟨es, _, e2, _, e4, ⟨o, e5⟩, e6⟩ := segment h hx ih hR ht mz (by
      intro e v k s b hw hk hs he
      have o1 : x.Hb (K.main, i) (K.main, k) := h.hb_m (m_order h.main hz.1 hk (by rw [← hu]; omega)) hk
      refine hx.read_write (a := (K.main, i)) (b := e) ?_ rz hw hrf
      rcases he with rfl | he
      · exact o1
      · exact o1.trans he)
    have := (wz.one (.inr ⟨o, _, e5⟩)).2
    obtain ⟨k, hk⟩ := e6 (by omega) w hw1 hw2
    obtain ⟨⟨w', k', r, v, hek, hk', ho⟩, rs⟩ := e2 _ hk
    obtain ⟨e, rfl⟩ := Prod.mk.inj hek
    have := h.inj e
    subst this
    exact ⟨r, k, v, hk', ho, Exec.hb_sync ⟨⟨.acqRel, _, rfl, .inr ⟨_, _, h.w_act hk'⟩⟩, ⟨.acquire, _, rfl, .inl ⟨_, h.m_act hz.1⟩⟩, z, rs, hrf⟩⟩

/-- The counter is positive when it is decremented. -/
theorem positive (hx : x.Consistent) {w k r u : Nat} (hk : K.W w k ⟨.dec, r⟩ (.rmw .acqRel .count u (u - 1))) : 0 < u := by
  obtain ⟨p, ho⟩ := of_exists h hx hk rfl
  have ho : K.Of w r p := ho
  obtain ⟨i, t, a, hi, ht, hp, hh⟩ := of_start h ho
  have p1 := (of_range h ho hi ht).1
  obtain ⟨j, s, hj, e1, e2, e3⟩ := m_reset h.main hi (by omega) (by rcases hp with ⟨_, e⟩ | ⟨_, e⟩ <;> rw [e] <;> rfl)
    (by rcases hp with ⟨_, e⟩ | ⟨_, e⟩ <;> rw [e] <;> simp)
  have wR : x.Writes (K.main, j) .count s.ph.m := .inl ⟨_, h.m_act e1⟩
  have wk : x.Writes (K.wk w, k) .count (u - 1) := .inr ⟨_, _, h.w_act hk⟩
  have hb : x.Hb (K.main, j) (K.wk w, k) := (h.hb_m hj hi).trans (hh k _ _ hk (by simp [WS.key, WPc.rank]))
  obtain ⟨es, _, _, g3, g4, ⟨o, g5⟩, _⟩ := segment h hx (p := p) (fun q _ => collected h hx q) ⟨e1, e3⟩ (by rw [e2]; exact ht)
    (hx.write_write hb wR wk) (by
      intro e v j' s' b hw hj' hs' he
      have o1 := (collected h hx p).hb h hx ho hk hj' (.inl hs')
      refine hx.write_write ?_ wk hw
      rcases he with rfl | he
      · exact o1
      · exact o1.trans he)
  rw [h.w_act hk] at g5
  cases g5
  omega

/-- A reset finds the counter at 0. -/
theorem zero (hx : x.Consistent) {i : Nat} {t : MS} {v : Nat} (hi : K.M i t (.load .relaxed .count v)) : v = 0 := by
  obtain ⟨_, hr⟩ := h.main.step hi
  have hp : t.pc = .cLoad ∨ t.pc = .xLoad := by
    cases hr with
    | user _ hu => cases hu
    | cLoad hp _ => exact .inl hp
    | cLoad_fail hp _ _ => exact .inl hp
    | xLoad hp _ => exact .inr hp
    | xLoad_fail hp _ _ => exact .inr hp
  have wf := (m_wf h.main).1 _ _ _ hi
  have p1 : 1 ≤ t.ph.id := by rcases hp with e | e <;> simp only [MS.Wf, e] at wf <;> exact wf.1
  have rv : x.Reads (K.main, i) .count v := .inl ⟨_, h.m_act hi⟩
  obtain ⟨z, hrf, wz⟩ := hx.source rv
  have late : ∀ j u b, K.M j u b → i < j → ¬(z = (K.main, j) ∨ x.Hb (K.main, j) z) := by
    intro j u b hj hlt hc
    refine hx.mo_irrefl _ (hx.read_write (a := (K.main, i)) (b := z) ?_ rv wz hrf)
    rcases hc with rfl | hc
    · exact h.hb_m hlt hj
    · exact (h.hb_m hlt hj).trans hc
  have reset_late : ∀ j u b, K.M j u b → (u.pc = .cStore ∨ u.pc = .xStore) → t.ph.id ≤ u.ph.id → i < j := by
    intro j u b hj hu hle
    by_contra hc
    rcases Nat.lt_or_eq_of_le (Nat.le_of_not_lt hc) with c | c
    · have := (h.main.since (Q := fun s => u.ph.id < s.ph.id ∨ (u.ph.id = s.ph.id ∧ s.pc.pre = false)) hj
        (fun s hr => hr.pre_past (.inr ⟨rfl, .inr hu⟩))
        (fun s a s' hs hr => hr.pre_past (hs.imp id fun h => ⟨h.1, .inl h.2⟩))).1 i t _ hi c
      rcases this with c | ⟨_, c⟩
      · omega
      · rcases hp with e | e <;> rw [e] at c <;> cases c
    · subst c
      have : some (u, b) = some (t, _) := hj.symm.trans hi
      cases this
      rcases hp with e | e <;> rcases hu with e' | e' <;> rw [e] at e' <;> cases e'
  by_cases c1 : t.ph.id = 1
  · rcases h.write_count wz with ⟨_, _, _, _, _, e⟩ | ⟨j, u, rfl, hj, hu, _⟩ | ⟨w, k, r, u, rfl, hk, _⟩
    · exact e
    · have wf' := (m_wf h.main).1 _ _ _ hj
      have : 1 ≤ u.ph.id := by rcases hu with e | e <;> simp only [MS.Wf, e] at wf' <;> exact wf'.1
      exact absurd (.inl rfl) (late j u _ hj (reset_late j u _ hj hu (by omega)))
    · obtain ⟨q, ho⟩ := of_exists h hx hk rfl
      have ho : K.Of w r q := ho
      obtain ⟨j, s, b, hj, hs, hc, hh⟩ := of_start h ho
      have := (of_range h ho hj hs).1
      obtain ⟨j', s', hj', g1, g2, g3⟩ := m_reset h.main hj (by omega) (by rcases hc with ⟨_, e⟩ | ⟨_, e⟩ <;> rw [e] <;> rfl)
        (by rcases hc with ⟨_, e⟩ | ⟨_, e⟩ <;> rw [e] <;> simp)
      have := reset_late j' s' _ g1 g3 (by rw [g2]; omega)
      exact absurd (.inr (hh k _ _ hk (by simp [WS.key, WPc.rank]))) (late j s b hj (by omega))
  · obtain ⟨iz, s, hiz, ez, es, ep⟩ := m_waited h.main hi (q := t.ph.id - 1) (by omega) (.inl (by omega))
    have rz : x.Reads (K.main, iz) .count 0 := .inl ⟨_, h.m_act ez⟩
    obtain ⟨y, hy, wy⟩ := hx.source rz
    rcases hx.read_read (h.hb_m hiz hi) rz rv hy hrf with c | c
    · subst c
      exact (wz.one wy).2
    · exfalso
      have past : ¬x.Hb z (K.main, iz) := fun hh => by
        rcases hx.write_read hh wz rz hy with c' | c'
        · rw [c'] at c; exact hx.mo_irrefl _ c
        · exact hx.mo_irrefl _ (hx.mo_trans c c')
      rcases h.write_count wz with ⟨j, u, rfl, hj, hu, _⟩ | ⟨j, u, rfl, hj, hu, _⟩ | ⟨w, k, r, u, rfl, hk, _⟩
      · obtain ⟨j', u', hj', e', eu'⟩ := m_init h.main ez (by rcases ep with e | e <;> rw [e] <;> simp)
        have : j ≤ j' := by
          by_contra hc
          exact m_init_one h.main e' hj (by omega) eu' hu
        exact past (h.hb_m (by omega) ez)
      · by_cases c2 : t.ph.id ≤ u.ph.id
        · exact late j u _ hj (reset_late j u _ hj hu c2) (.inl rfl)
        · refine past ?_
          obtain ⟨j', s', hj', hR', hs', _⟩ := z_reset h ⟨ez, ep⟩
          rcases Nat.lt_or_eq_of_le (show u.ph.id ≤ s.ph.id by omega) with c | c
          · exact h.hb_m (m_order h.main hj ez c) ez
          · have := m_reset_one h.main hj hR'.1 hu hR'.2 (by rw [hs']; exact c)
            subst this
            exact h.hb_m hj' ez
      · obtain ⟨q, ho⟩ := of_exists h hx hk rfl
        have ho : K.Of w r q := ho
        obtain ⟨j, s1, b, hj, hs, hc, hh⟩ := of_start h ho
        have := (of_range h ho hj hs).1
        by_cases c2 : t.ph.id ≤ q
        · obtain ⟨j', s', hj', g1, g2, g3⟩ := m_reset h.main hj (by omega) (by rcases hc with ⟨_, e⟩ | ⟨_, e⟩ <;> rw [e] <;> rfl)
            (by rcases hc with ⟨_, e⟩ | ⟨_, e⟩ <;> rw [e] <;> simp)
          have := reset_late j' s' _ g1 g3 (by rw [g2]; omega)
          exact late j s1 b hj (by omega) (.inr (hh k _ _ hk (by simp [WS.key, WPc.rank])))
        · refine past ?_
          rcases Nat.lt_or_eq_of_le (show q ≤ s.ph.id by omega) with c | c
          · exact (collected h hx q).hb h hx ho hk ez (.inl c)
          · exact (collected h hx q).hb_z h hx ho hk ⟨ez, ep⟩ c.symm

end

end Ruy.Race.Pool

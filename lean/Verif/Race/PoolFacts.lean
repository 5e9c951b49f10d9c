import Verif.Race.PoolRounds
/-
What the threads of a pool read from `task_` and `state_`.
-/
namespace Ruy.Race.Pool
open Exec
variable {T L C : Type} {x : Exec T (PLoc L) Nat (PCode C)} {K : Run x}

section
variable (h : K.Ok)
include h

/-- Rounds come before what the main thread does after it has waited for them. -/
theorem before_main (hx : x.Consistent) {w k q i : Nat} {u : WS} {a b : PAct T L C} {t : MS} (hk : K.W w k u a) (hu : u.pc.inRound = true)
    (ho : K.Of w u.r q) (hi : K.M i t b) (ht : q < t.ph.id ∨ (q = t.ph.id ∧ t.isOpen = false)) : x.Hb (K.wk w, k) (K.main, i) := by
  obtain ⟨j, s, b', hj, hs, _⟩ := of_start h ho
  obtain ⟨z, s', hz, ez, es, ep⟩ := m_waited h.main hi (of_range h ho hj hs).1 ht
  obtain ⟨_, r1, r2, _⟩ := of_range h ho ez es
  obtain ⟨r', k', v, hk', ho', hb⟩ := collected h hx q z s' ⟨ez, ep⟩ es w r1 r2
  have := of_inj h hx ho ho'
  subst this
  have hb := hb.trans (h.hb_m hz hi)
  rcases Nat.lt_or_ge u.key (WS.key ⟨.dec, u.r⟩) with c | c
  · exact (h.hb_w (w_order (h.work w) hk hk' c) hk').trans hb
  · have e : u = ⟨.dec, u.r⟩ := by
      obtain ⟨p, r⟩ := u
      cases p <;> simp_all [WS.key, WPc.rank, WPc.inRound]
    rw [e] at hk
    have := w_one (h.work w) hk hk' (by simp) (by simp)
    exact this ▸ hb

/-- Rounds come after what the main thread does before it starts them. -/
theorem after_main {w k q i : Nat} {u : WS} {a b : PAct T L C} {t : MS} (hk : K.W w k u a) (hu : u.pc.inRound = true)
    (ho : K.Of w u.r q) (hi : K.M i t b) (ht : t.ph.id < q ∨ (t.ph.id = q ∧ (t.pc = .cState w ∨ t.pc = .cTask w ∨
      t.pc = .xChk (w + 1) ∨ t.pc = .xNull (w + 1) ∨ t.pc = .xTask (w + 1) ∨ t.pc = .xGive (w + 1)))) : x.Hb (K.main, i) (K.wk w, k) := by
  obtain ⟨j, s, b', hj, hs, hp, hh⟩ := of_start h ho
  have hb := hh k u a hk (by obtain ⟨p, r⟩ := u; cases p <;> simp_all [WS.key, WPc.rank, WPc.inRound])
  suffices i ≤ j by
    rcases Nat.lt_or_eq_of_le this with c | c
    · exact (h.hb_m c hj).trans hb
    · exact c ▸ hb
  rcases ht with ht | ⟨ht, hpt⟩
  · exact Nat.le_of_lt (m_order h.main hi hj (by omega))
  · by_contra hc
    have hc : j < i := by omega
    have wt := (m_wf h.main).1 _ _ _ hi
    have ws := (m_wf h.main).1 _ _ _ hj
    have e := m_ph_eq h.main hi hj (by omega)
    have lt := m_later h.main hj hi (k := if u.r = 0 then w else w + 1)
      (by rcases hp with ⟨e, p⟩ | ⟨e, p⟩ <;> simp [e, p]) hc
    have lt : t.pc.later (if u.r = 0 then w else w + 1) := by
      rcases lt with c | c
      · omega
      · exact c.2
    rcases hp with ⟨er, p⟩ | ⟨er, p⟩ <;> simp only [MS.Wf, p] at ws <;>
      rcases hpt with pt | pt | pt | pt | pt | pt <;> simp only [MS.Wf, pt, e] at wt <;> simp_all [MPc.later]

/-- The rounds of a worker belong to later and later uses of the counter. -/
theorem of_mono (hx : x.Consistent) {w r r' p q k k' : Nat} {pc pc' : WPc} {a a' : PAct T L C} (hk : K.W w k ⟨pc, r⟩ a) (hk' : K.W w k' ⟨pc', r'⟩ a')
    (hu : pc.inRound = true) (hu' : pc'.inRound = true) (ho : K.Of w r p) (ho' : K.Of w r' q) (hlt : r < r') : p < q := by
  rcases Nat.lt_trichotomy p q with c | c | c
  · exact c
  · subst c
    have := of_inj h hx ho ho'
    omega
  · exfalso
    obtain ⟨i, t, b, hi, ht, _, hh⟩ := of_start h ho
    have h1 := hh _ _ _ hk (by cases pc <;> simp_all [WS.key, WPc.rank, WPc.inRound])
    have h2 := before_main h hx hk' hu' ho' hi (.inl (by omega))
    have h3 : k < k' := w_order (h.work w) hk hk' (by have := pc.rank_lt; simp [WS.key]; omega)
    exact hx.hb_irrefl _ ((h1.trans (h.hb_w h3 hk')).trans h2)

/-- **The task that a worker reads**: the one stored for this round, or none in the first round. -/
theorem task_read (hx : x.Consistent) {w k v q i : Nat} {u : WS} {s : MS} {b : PAct T L C}
    (hk : K.W w k u (.load .relaxed (.task w) v)) (hu : u.pc = .fetch ∨ u.pc = .again) (ho : K.Of w u.r q)
    (hi : K.M i s b) (hs : s.ph.id = q) (hb : u.r ≠ 0 → s.busy = true) : v = if u.r = 0 then 0 else obj s.b (w + 1) := by
  have hr : u.pc.inRound = true := by rcases hu with e | e <;> rw [e] <;> rfl
  obtain ⟨i0, s0, b0, h0, e0, hp0, hh⟩ := of_start h ho
  have rk : x.Reads (K.wk w, k) (.task w) v := .inl ⟨_, h.w_act hk⟩
  -- the store before the round
  obtain ⟨j, t, hj, et, vt⟩ : ∃ (j : Nat) (t : MS), K.M j t (.store .relaxed (.task w) (if u.r = 0 then 0 else obj s.b (w + 1))) ∧ t.ph.id = q ∧
      ((u.r = 0 ∧ t.pc = .cTask w) ∨ (u.r ≠ 0 ∧ t.pc = .xTask (w + 1))) := by
    rcases hp0 with ⟨er, p⟩ | ⟨er, p⟩
    · obtain ⟨j, _, hj⟩ := m_spawn_task h.main h0 p
      rw [if_pos er]
      exact ⟨j, _, hj, e0, .inl ⟨er, rfl⟩⟩
    · obtain ⟨j, _, hj⟩ := m_give h.main h0 p
      have : s0.b = s.b := m_same_batch h.main h0 hi (by omega) (by simp [MS.busy, p]) (hb er)
      rw [if_neg er, ← this]
      exact ⟨j, _, hj, e0, .inr ⟨er, rfl⟩⟩
  have wj : x.Writes (K.main, j) (.task w) _ := .inl ⟨_, h.m_act hj⟩
  have hjk : x.Hb (K.main, j) (K.wk w, k) := after_main h hk hr ho hj (.inr ⟨et, by rcases vt with ⟨_, e⟩ | ⟨_, e⟩ <;> simp [e]⟩)
  obtain ⟨e, he, we⟩ := hx.source rk
  rcases hx.write_read hjk wj rk he with c | c
  · rw [c] at we
    exact (we.one wj).2
  · have no : ¬x.mo e (K.main, j) := fun c' => hx.mo_irrefl _ (hx.mo_trans c c')
    have no' : ∀ e', e' = e → ¬x.Hb (K.wk w, k) e' := fun e' he' hb' => by
      subst he'; exact hx.mo_irrefl _ (hx.read_write hb' rk we he)
    have stored : ∀ (j' : Nat) (t' : MS) (a : PAct T L C), e = (K.main, j') → K.M j' t' a →
        t'.ph.id = q := by
      intro j' t' a ee hj'
      rcases Nat.lt_trichotomy t'.ph.id q with g | g | g
      · exfalso
        refine no (hx.write_write ?_ we wj)
        rw [ee]
        exact h.hb_m (m_order h.main hj' hj (by omega)) hj
      · exact g
      · exact absurd (before_main h hx hk hr ho hj' (.inl g)) (no' _ ee.symm)
    rcases h.write_task we with ⟨j', t', ee, hj', p, rfl⟩ | ⟨j', t', ee, hj', p, rfl⟩ | ⟨k', r', ee, hk', rfl⟩
    · have g := stored j' t' _ ee hj'
      have c1 := (of_range h ho hj' g).2.2.2
      have wf := (m_wf h.main).1 _ _ _ hj'
      simp only [MS.Wf, p] at wf
      rw [if_pos (c1.1 wf.2.2.2.2.1)]
    · have g := stored j' t' _ ee hj'
      have c1 := (of_range h ho hj' g).2.2.2
      have wf := (m_wf h.main).1 _ _ _ hj'
      simp only [MS.Wf, p] at wf
      have hr0 : u.r ≠ 0 := fun hc => by have := c1.2 hc; rw [this] at wf; simp at wf
      rw [if_neg hr0, m_same_batch h.main hj' hi (by omega) (by simp [MS.busy, p]) (hb hr0)]
    · exfalso
      have hlt : k' < k := by
        rcases Nat.lt_trichotomy k' k with g | g | g
        · exact g
        · subst g
          have : some (u, _) = some (_, _) := hk.symm.trans hk'
          injection this with this; injection this with _ this; cases this
        · exact absurd (h.hb_w g hk') (no' _ ee.symm)
      have hrr : r' < u.r := by
        by_contra hc
        have := w_le (h.work w) hk' hk (Nat.le_of_lt hlt)
        rcases hu with g | g <;> simp only [WS.key, g, WPc.rank] at this <;> omega
      obtain ⟨p, hp⟩ := of_exists h hx hk' rfl
      have hp : K.Of w r' p := hp
      obtain ⟨upc, ur⟩ := u
      have pq := of_mono h hx hk' hk rfl hr hp ho hrr
      refine no (ee ▸ hx.write_write (before_main h hx hk' rfl hp hj (.inl (by omega))) (ee ▸ we) wj)

/-- Main reads no task when it gives a new one. -/
theorem task_null (hx : x.Consistent) {i w v : Nat} {t : MS} (hi : K.M i t (.load .relaxed (.task w) v)) (ht : t.pc = .xNull (w + 1)) :
    v = 0 := by
  have ri : x.Reads (K.main, i) (.task w) v := .inl ⟨_, h.m_act hi⟩
  obtain ⟨e, he, we⟩ := hx.source ri
  rcases h.write_task we with ⟨_, _, _, _, _, rfl⟩ | ⟨j, u, rfl, hj, p, rfl⟩ | ⟨_, _, _, _, rfl⟩
  · rfl
  · exfalso
    rcases Nat.lt_trichotomy i j with c | c | c
    · exact hx.mo_irrefl _ (hx.read_write (h.hb_m c hj) ri we he)
    · subst c
      have : some (t, _) = some (_, _) := hi.symm.trans hj
      injection this with this; injection this with _ this; cases this
    · have lt : u.ph.id < t.ph.id := by
        rcases m_later_task h.main hj hi (.inl p) c with g | ⟨_, g | g⟩
        · exact g
        · rw [ht] at g; exact absurd g (Nat.lt_irrefl _)
        · rw [ht] at g; cases g
      have wf := (m_wf h.main).1 _ _ _ hj
      simp only [MS.Wf, p] at wf
      obtain ⟨z, s, hz, ez, es, ep⟩ := m_waited h.main hi (q := u.ph.id) (by omega) (.inl lt)
      have eph := m_ph_eq h.main hj ez es.symm
      obtain ⟨r, k, y, hk, ho, hb⟩ := collected h hx u.ph.id z s ⟨ez, ep⟩ es w (by rw [← eph]; omega) (by rw [← eph]; omega)
      have r0 : r ≠ 0 := fun c => by
        have := (of_range h ho hj rfl).2.2.2.2 c
        rw [this] at wf; simp at wf
      rcases w_ran (h.work w) hk with ⟨k', hk', e'⟩ | ⟨_, k', _, _, hk', _, e'⟩
      · have := task_read h hx e' (.inl rfl) ho hj rfl (fun _ => by simp [MS.busy, p])
        simp [r0, obj] at this
      · have m1 := hx.write_write (after_main h e' rfl ho hj (.inr ⟨rfl, by simp [p]⟩)) we (.inl ⟨_, h.w_act e'⟩)
        rcases hx.write_read ((h.hb_w hk' hk).trans (hb.trans (h.hb_m hz hi))) (.inl ⟨_, h.w_act e'⟩) ri he with g | g
        · rw [g] at m1; exact hx.mo_irrefl _ m1
        · exact hx.mo_irrefl _ (hx.mo_trans m1 g)
  · rfl

/-- A state that main stored in a use of the counter that is over has been replaced by Ready. -/
theorem state_over (hx : x.Consistent) {i j w v v' : Nat} {t u : MS} {a b : PAct T L C} (hi : K.M i t a) (hj : K.M j u b)
    (ri : x.Reads (K.main, i) (.state w) v') (wj : x.Writes (K.main, j) (.state w) v) (hu : u.pc = .cState w ∨ u.pc = .xGive (w + 1))
    (hlt : u.ph.id < t.ph.id ∨ (u.ph.id = t.ph.id ∧ t.isOpen = false)) : ¬x.rf (K.main, j) (K.main, i) := by
  intro he
  have wf := (m_wf h.main).1 _ _ _ hj
  have wf : 1 ≤ u.ph.id ∧ u.ph.lo ≤ w ∧ w < u.ph.lo + u.ph.m := by
    rcases hu with p | p <;> simp only [MS.Wf, p] at wf <;> omega
  obtain ⟨z, s, hz, ez, es, ep⟩ := m_waited h.main hi (q := u.ph.id) wf.1 hlt
  have eph := m_ph_eq h.main hj ez es.symm
  obtain ⟨r, k, y, hk, ho, hb⟩ := collected h hx u.ph.id z s ⟨ez, ep⟩ es w (by rw [← eph]; omega) (by rw [← eph]; omega)
  obtain ⟨k', hk', e'⟩ := w_ready (h.work w) hk
  have m1 := hx.write_write (after_main h e' rfl ho hj (.inr ⟨rfl, by rcases hu with p | p <;> simp [p]⟩)) wj (.inl ⟨_, h.w_act e'⟩)
  rcases hx.write_read ((h.hb_w hk' hk).trans (hb.trans (h.hb_m hz hi))) (.inl ⟨_, h.w_act e'⟩) ri he with g | g
  · rw [g] at m1; exact hx.mo_irrefl _ m1
  · exact hx.mo_irrefl _ (hx.mo_trans m1 g)

/-- **A worker that is given work is Ready.** -/
theorem state_give (hx : x.Consistent) {i w v : Nat} {o : Ord} {t : MS} (hi : K.M i t (.load o (.state w) v)) (ht : t.pc = .xChk (w + 1)) :
    v = ready := by
  have ri : x.Reads (K.main, i) (.state w) v := .inl ⟨_, h.m_act hi⟩
  obtain ⟨e, he, we⟩ := hx.source ri
  have wft := (m_wf h.main).1 _ _ _ hi
  have pos : ∀ {j : Nat} {u : MS} {o : Ord} {v' : Nat}, e = (K.main, j) → K.M j u (.store o (.state w) v') → j < i := by
    intro j u o v' ee hj
    subst ee
    rcases Nat.lt_trichotomy i j with c | c | c
    · exact absurd (hx.read_write (h.hb_m c hj) ri we he) (hx.mo_irrefl _)
    · subst c
      have : some (t, _) = some (_, _) := hi.symm.trans hj
      injection this with this; injection this with _ this; cases this
    · exact c
  rcases h.write_state we with ⟨j, u, rfl, hj, p, rfl⟩ | ⟨j, u, rfl, hj, p, rfl⟩ | ⟨j, u, rfl, hj, p, rfl⟩ | ⟨_, _, _, _, rfl⟩
  · have c := pos rfl hj
    refine absurd he (state_over h hx hi hj ri we (.inl p) (.inl ?_))
    rcases m_ph h.main hj hi (Nat.le_of_lt c) with e | e
    · have wfu := (m_wf h.main).1 _ _ _ hj
      simp only [MS.Wf, p] at wfu
      simp only [MS.Wf, ht] at wft
      rw [e] at wfu
      simp_all
    · exact e
  · have c := pos rfl hj
    refine absurd he (state_over h hx hi hj ri we (.inr p) (.inl ?_))
    rcases m_later_task h.main hj hi (.inr p) c with g | ⟨_, g | g⟩
    · exact g
    · rw [ht] at g; exact absurd g (Nat.lt_irrefl _)
    · rw [ht] at g; cases g
  · have := m_asked h.main hj hi p (pos rfl hj)
    rw [ht] at this; cases this
  · rfl

/-- A worker that is asked to exit is Ready. -/
theorem state_request (hx : x.Consistent) {i w v : Nat} {o : Ord} {t : MS} (hi : K.M i t (.load o (.state w) v)) (ht : t.pc = .dChk w) :
    v = ready := by
  have ri : x.Reads (K.main, i) (.state w) v := .inl ⟨_, h.m_act hi⟩
  obtain ⟨e, he, we⟩ := hx.source ri
  have pos : ∀ {j : Nat} {u : MS} {o : Ord} {v' : Nat}, e = (K.main, j) → K.M j u (.store o (.state w) v') → j < i := by
    intro j u o v' ee hj
    subst ee
    rcases Nat.lt_trichotomy i j with c | c | c
    · exact absurd (hx.read_write (h.hb_m c hj) ri we he) (hx.mo_irrefl _)
    · subst c
      have : some (t, _) = some (_, _) := hi.symm.trans hj
      injection this with this; injection this with _ this; cases this
    · exact c
  have cl : ∀ {j : Nat} {u : MS} {b : PAct T L C}, K.M j u b → j < i → u.ph.id < t.ph.id ∨ (u.ph.id = t.ph.id ∧ t.isOpen = false) :=
    fun hj c => by
      rcases m_ph h.main hj hi (Nat.le_of_lt c) with e | e
      · exact .inr ⟨by rw [e], by simp [MS.isOpen, ht]⟩
      · exact .inl e
  rcases h.write_state we with ⟨j, u, rfl, hj, p, rfl⟩ | ⟨j, u, rfl, hj, p, rfl⟩ | ⟨j, u, rfl, hj, p, rfl⟩ | ⟨_, _, _, _, rfl⟩
  · exact absurd he (state_over h hx hi hj ri we (.inl p) (cl hj (pos rfl hj)))
  · exact absurd he (state_over h hx hi hj ri we (.inr p) (cl hj (pos rfl hj)))
  · have := m_asked h.main hj hi p (pos rfl hj)
    rw [ht] at this; exact absurd this (Nat.lt_irrefl _)
  · rfl

/-- What is written to the state of a worker other than Exit comes before Exit in modification order. -/
theorem exit_last (hx : x.Consistent) {j w v : Nat} {u : MS} (hj : K.M j u (.store .release (.state w) exit)) (hu : u.pc = .dExit w)
    {e : Ev T} (we : x.Writes e (.state w) v) : v = exit ∨ x.mo e (K.main, j) := by
  have wj : x.Writes (K.main, j) (.state w) exit := .inl ⟨_, h.m_act hj⟩
  have main : ∀ {i : Nat} {t : MS} {a : PAct T L C}, K.M i t a → (¬t.pc.asked w) → t.pc ≠ .dExit w → i < j := by
    intro i t a hi na ne
    by_contra hc
    rcases Nat.lt_or_eq_of_le (Nat.le_of_not_lt hc) with c | c
    · exact na (m_asked h.main hj hi hu c)
    · subst c
      have : some (t, _) = some (_, _) := hi.symm.trans hj
      injection this with this; injection this with this _; rw [this] at ne; exact ne hu
  rcases h.write_state we with ⟨i, t, rfl, hi, p, rfl⟩ | ⟨i, t, rfl, hi, p, rfl⟩ | ⟨i, t, rfl, hi, p, rfl⟩ | ⟨k, r, rfl, hk, rfl⟩
  · exact .inr (hx.write_write (h.hb_m (main hi (by simp [p, MPc.asked]) (by simp [p])) hj) we wj)
  · exact .inr (hx.write_write (h.hb_m (main hi (by simp [p, MPc.asked]) (by simp [p])) hj) we wj)
  · exact .inl rfl
  · obtain ⟨q, ho⟩ := of_exists h hx hk rfl
    obtain ⟨i, t, b, hi, ht, hp, _⟩ := of_start h ho
    refine .inr (hx.write_write (before_main h hx hk rfl ho hj ?_) we wj)
    have c := main hi (by rcases hp with ⟨_, p⟩ | ⟨_, p⟩ <;> simp [p, MPc.asked]) (by rcases hp with ⟨_, p⟩ | ⟨_, p⟩ <;> simp [p])
    rcases m_ph h.main hi hj (Nat.le_of_lt c) with e | e
    · exact .inr ⟨by rw [← ht, e], by simp [MS.isOpen, hu]⟩
    · exact .inl (by omega)

/-- Main finds Exit when it joins. -/
theorem state_last (hx : x.Consistent) {i w v : Nat} {o : Ord} {t : MS} (hi : K.M i t (.load o (.state w) v)) (ht : t.pc = .dLast w) :
    v = exit := by
  have ri : x.Reads (K.main, i) (.state w) v := .inl ⟨_, h.m_act hi⟩
  obtain ⟨e, he, we⟩ := hx.source ri
  have wf := (m_wf h.main).1 _ _ _ hi
  simp only [MS.Wf, ht] at wf
  obtain ⟨j, u, hji, hj, hu⟩ := m_exits h.main hi (w := w) (by omega) (.inr (.inl ⟨w, .inl ht⟩))
  rcases hx.write_read (h.hb_m hji hi) (.inl ⟨_, h.m_act hj⟩) ri he with c | c
  · rw [c] at we
    exact (we.one (.inl ⟨_, h.m_act hj⟩)).2
  · rcases exit_last h hx hj hu we with g | g
    · exact g
    · exact absurd (hx.mo_trans c g) (hx.mo_irrefl _)

/-- A worker that waits does not see Startup. -/
theorem state_wait (hx : x.Consistent) {w k v : Nat} {u : WS} (hk : K.W w k u (.load .acquire (.state w) v)) (hu : u.pc = .wait) :
    v = ready ∨ v = hasWork ∨ ∃ j t, K.M j t (.store .release (.state w) exit) ∧ t.pc = .dExit w ∧ x.rf (K.main, j) (K.wk w, k) ∧ v = exit := by
  have rk : x.Reads (K.wk w, k) (.state w) v := .inl ⟨_, h.w_act hk⟩
  obtain ⟨e, he, we⟩ := hx.source rk
  rcases h.write_state we with ⟨j, t, rfl, hj, p, rfl⟩ | ⟨j, t, rfl, hj, p, rfl⟩ | ⟨j, t, rfl, hj, p, rfl⟩ | ⟨_, _, _, _, rfl⟩
  · exfalso
    obtain ⟨k', y, hk', e'⟩ := w_past (h.work w) hk (w_wait (h.work w) hk hu)
    obtain ⟨k'', hk'', e''⟩ := w_ready (h.work w) e'
    obtain ⟨i, hi⟩ := h.spawned w (fun e => by unfold Run.W at hk; rw [e] at hk; simp at hk)
    obtain ⟨s, hs⟩ := h.act_m hi
    have ps := spawn_pc h hs
    have c : j ≤ i := m_spawned h.main hs hj ps (.inl p)
    have hb : x.Hb (K.main, j) (K.wk w, k'') := by
      have g : x.Hb (K.main, i) (K.wk w, k'') := .single (.spawn hi (Exec.act_lt (h.w_act e'')))
      rcases Nat.lt_or_eq_of_le c with c | c
      · exact (h.hb_m c hs).trans g
      · exact c ▸ g
    have m1 := hx.write_write hb we (.inl ⟨_, h.w_act e''⟩)
    rcases hx.write_read (h.hb_w (show k'' < k by omega) hk) (.inl ⟨_, h.w_act e''⟩) rk he with g | g
    · rw [g] at m1; exact hx.mo_irrefl _ m1
    · exact hx.mo_irrefl _ (hx.mo_trans m1 g)
  · exact .inr (.inl rfl)
  · exact .inr (.inr ⟨j, t, hj, p, he, rfl⟩)
  · exact .inl rfl

/-- A worker that leaves has been asked to. -/
theorem state_done (hx : x.Consistent) {w k v : Nat} {o : Ord} {u : WS} (hk : K.W w k u (.load o (.state w) v)) (hu : u.pc = .last) :
    v = exit := by
  have rk : x.Reads (K.wk w, k) (.state w) v := .inl ⟨_, h.w_act hk⟩
  obtain ⟨e, he, we⟩ := hx.source rk
  obtain ⟨k', v', hk', n1, n2, e'⟩ := w_last (h.work w) hk hu
  rcases state_wait h hx e' rfl with c | c | ⟨j, t, hj, p, hr, rfl⟩
  · exact absurd c n1
  · exact absurd c n2
  · rcases hx.read_read (h.hb_w hk' hk) (.inl ⟨_, h.w_act e'⟩) rk hr he with c | c
    · rw [← c] at we
      exact (we.one (.inl ⟨_, h.m_act hj⟩)).2
    · rcases exit_last h hx hj p we with g | g
      · exact g
      · exact absurd (hx.mo_trans c g) (hx.mo_irrefl _)

end
end Ruy.Race.Pool

import Verif.Race.PoolMain
import Mathlib.Data.Finset.Card
/-
A pool in an execution: the counter is 0 again only when all workers have decremented it.
-/
namespace Ruy.Race
namespace Exec
variable {T L C : Type} {V : Type} {x : Exec T L V C}

theorem RelSeq.trans {a b c : Ev T} (h1 : x.RelSeq a b) (h2 : x.RelSeq b c) : x.RelSeq a c := by
  induction h2 with
  | head => exact h1
  | next _ hr hm ih => exact ih.next hr hm

/-- Decrements from `m` on: `R` writes `m`, and all later writes up to `z` are decrements with distinct numbers below
`m` (`f`, `G`).  They are then all in the release sequence that leads to `z`, and their number tells what `z` reads. -/
theorem countdown {x : Exec T L Nat C} (hx : x.Consistent) {l : L} {R z : Ev T} {m : Nat} {G : Ev T → Prop} {f : Ev T → Nat}
    (hR : x.Writes R l m) (hz : x.mo R z)
    (hG : ∀ e v, x.Writes e l v → x.mo R e → (e = z ∨ x.mo e z) → G e)
    (hd : ∀ e, G e → ∃ o v, x.act e = some (.rmw o l v (v - 1)))
    (hf : ∀ e, G e → f e < m) (inj : ∀ e e', G e → G e' → f e = f e' → e = e') :
    ∃ es : List (Ev T), es.Nodup ∧ (∀ e ∈ es, G e ∧ x.RelSeq e z) ∧ 1 ≤ es.length ∧ es.length ≤ m ∧
      ∃ o, x.act z = some (.rmw o l (m - (es.length - 1)) (m - (es.length - 1) - 1)) := by
  -- chains that go back from z
  have card : ∀ es : List (Ev T), es.Nodup → (∀ e ∈ es, G e) → es.length ≤ m := fun es h1 h2 => by
    have n1 : (es.map f).Nodup := (List.nodup_map_iff_inj_on h1).2 fun a ha b hb => inj a b (h2 a ha) (h2 b hb)
    have sub : es.map f ⊆ List.range m := fun k hk => by
      obtain ⟨e, he, rfl⟩ := List.mem_map.1 hk
      exact List.mem_range.2 (hf e (h2 e he))
    have := (n1.subperm sub).length_le
    simpa using this
  have back : ∀ k, 1 ≤ k →
      (∃ es : List (Ev T), es.Nodup ∧ (∀ e ∈ es, G e ∧ x.RelSeq e z) ∧ 1 ≤ es.length ∧ es.length ≤ m ∧
        ∃ o, x.act z = some (.rmw o l (m - (es.length - 1)) (m - (es.length - 1) - 1))) ∨
      (∃ (es : List (Ev T)) (e0 : Ev T), es.length = k ∧ es.Nodup ∧ e0 ∈ es ∧ (∀ e ∈ es, G e ∧ x.RelSeq e z ∧ (e = e0 ∨ x.mo e0 e)) ∧
        x.mo R e0 ∧ (e0 = z ∨ x.mo e0 z) ∧
        ∃ o v o', x.act e0 = some (.rmw o' l v (v - 1)) ∧ x.act z = some (.rmw o l (v - (k - 1)) (v - (k - 1) - 1))) := by
    intro k hk
    induction k, hk using Nat.le_induction with
    | base =>
      obtain ⟨_, _, _, wR, wz⟩ := hx.mo_ok hz
      obtain ⟨rfl, _⟩ := hR.one wR
      have g := hG z _ wz hz (.inl rfl)
      obtain ⟨o, v, hv⟩ := hd z g
      refine .inr ⟨[z], z, rfl, by simp, by simp, fun e he => ?_, hz, .inl rfl, o, v, o, hv, hv⟩
      simp at he; subst he
      exact ⟨g, .head, .inl rfl⟩
    | succ k hk ih =>
      rcases ih with ih | ⟨es, e0, h1, h2, h3, h4, h5, h6, o, v, o', h7, h8⟩
      · exact .inl ih
      · obtain ⟨u, hu, wu⟩ := hx.source (r := e0) (l := l) (v := v) (.inr ⟨o', _, h7⟩)
        have rm : x.IsRmw e0 := ⟨_, _, _, _, h7⟩
        obtain ⟨mu, im⟩ := hx.rmw rm hu
        rcases hx.mo_total hR wu with c | c | c
        · subst c
          obtain ⟨_, rfl⟩ := hR.one wu
          refine .inl ⟨es, h2, fun e he => ⟨(h4 e he).1, (h4 e he).2.1⟩, by omega, card es h2 fun e he => (h4 e he).1, o, ?_⟩
          rw [h1]; exact h8
        · have uz : u = z ∨ x.mo u z := by
            rcases h6 with e | e
            · exact .inr (e ▸ mu)
            · exact .inr (hx.mo_trans mu e)
          have g := hG u v wu c uz
          obtain ⟨o2, v2, hu2⟩ := hd u g
          have hv : v = v2 - 1 := (wu.one (.inr ⟨o2, v2, hu2⟩)).2
          have rs : x.RelSeq u e0 := .next .head hu rm
          refine .inr ⟨u :: es, u, by simp [h1], List.nodup_cons.2 ⟨fun hm => ?_, h2⟩, List.mem_cons_self .., fun e he => ?_, c, uz,
            o, v2, o2, hu2, ?_⟩
          · rcases (h4 u hm).2.2 with e | e
            · subst e; exact hx.mo_irrefl _ mu
            · exact hx.mo_irrefl _ (hx.mo_trans mu e)
          · rcases List.mem_cons.1 he with rfl | he
            · exact ⟨g, rs.trans (h4 e0 h3).2.1, .inl rfl⟩
            · obtain ⟨g1, g2, g3⟩ := h4 e he
              refine ⟨g1, g2, .inr ?_⟩
              rcases g3 with rfl | g3
              · exact mu
              · exact hx.mo_trans mu g3
          · rw [h8, hv]
            have : v2 - 1 - (k - 1) = v2 - (k + 1 - 1) := by omega
            rw [this]
        · exfalso
          rcases im c with e | e
          · subst e; exact hx.mo_irrefl _ h5
          · exact hx.mo_irrefl _ (hx.mo_trans e h5)
  rcases back (m + 1) (by omega) with h | ⟨es, _, h1, h2, _, h4, _⟩
  · exact h
  · have := card es h2 fun e he => (h4 e he).1
    omega

end Exec

namespace Pool
variable {T L C : Type} {x : Exec T (PLoc L) Nat (PCode C)} {K : Run x}

def Run.M (K : Run x) (i : Nat) (t : MS) (a : PAct T L C) : Prop := K.ml[i]? = some (t, a)
def Run.W (K : Run x) (w i : Nat) (t : WS) (a : PAct T L C) : Prop := (K.wl w)[i]? = some (t, a)

namespace Run.Ok
variable (h : K.Ok)
include h

theorem m_act {i : Nat} {t : MS} {a : PAct T L C} (hi : K.M i t a) : x.act (K.main, i) = some a := by
  show (x.tr K.main)[i]? = _
  rw [h.main_tr, List.getElem?_map, hi]
  rfl

theorem act_m {i : Nat} {a : PAct T L C} (hi : x.act (K.main, i) = some a) : ∃ t, K.M i t a := by
  have hi : (x.tr K.main)[i]? = _ := hi
  rw [h.main_tr, List.getElem?_map] at hi
  obtain ⟨⟨t, b⟩, e, rfl⟩ := Option.map_eq_some_iff.1 hi
  exact ⟨t, e⟩

theorem w_act {w i : Nat} {t : WS} {a : PAct T L C} (hi : K.W w i t a) : x.act (K.wk w, i) = some a := by
  show (x.tr (K.wk w))[i]? = _
  rw [h.work_tr, List.getElem?_map, hi]
  rfl

theorem act_w {w i : Nat} {a : PAct T L C} (hi : x.act (K.wk w, i) = some a) : ∃ t, K.W w i t a := by
  have hi : (x.tr (K.wk w))[i]? = _ := hi
  rw [h.work_tr, List.getElem?_map] at hi
  obtain ⟨⟨t, b⟩, e, rfl⟩ := Option.map_eq_some_iff.1 hi
  exact ⟨t, e⟩

theorem hb_m {i j : Nat} {t : MS} {a : PAct T L C} (hij : i < j) (hj : K.M j t a) : x.Hb (K.main, i) (K.main, j) :=
  Exec.hb_po hij (Exec.act_lt (h.m_act hj))

theorem hb_w {w i j : Nat} {t : WS} {a : PAct T L C} (hij : i < j) (hj : K.W w j t a) : x.Hb (K.wk w, i) (K.wk w, j) :=
  Exec.hb_po hij (Exec.act_lt (h.w_act hj))

/-- Who writes to the counter. -/
theorem write_count {e : Ev T} {v : Nat} (hw : x.Writes e .count v) :
    (∃ i t, e = (K.main, i) ∧ K.M i t (.store .relaxed .count 0) ∧ t.pc = .fresh ∧ v = 0) ∨
    (∃ i t, e = (K.main, i) ∧ K.M i t (.store .release .count t.ph.m) ∧ (t.pc = .cStore ∨ t.pc = .xStore) ∧ v = t.ph.m) ∨
    ∃ w i r u, e = (K.wk w, i) ∧ K.W w i ⟨.dec, r⟩ (.rmw .acqRel .count u (u - 1)) ∧ v = u - 1 := by
  obtain ⟨t, i⟩ := e
  rcases h.only hw (by simp) with rfl | ⟨w, rfl⟩
  · rcases hw with ⟨o, ha⟩ | ⟨o, u, ha⟩ <;> obtain ⟨t, ht⟩ := h.act_m ha <;> obtain ⟨t', hr⟩ := h.main.step ht <;>
      have wf := (m_wf h.main).1 _ _ _ ht
    · cases hr with
      | user _ hu => cases hu
      | construct hp => exact .inl ⟨i, t, rfl, ht, hp, rfl⟩
      | cStore hp =>
        simp only [MS.Wf, hp] at wf
        rw [← wf.2.2.2.1] at ht ⊢
        exact .inr (.inl ⟨i, t, rfl, ht, .inl hp, rfl⟩)
      | xStore hp =>
        simp only [MS.Wf, hp] at wf
        rw [← wf.2.2.2.2.1] at ht ⊢
        exact .inr (.inl ⟨i, t, rfl, ht, .inr hp, rfl⟩)
    · cases hr with
      | user _ hu => cases hu
  · rcases hw with ⟨o, ha⟩ | ⟨o, u, ha⟩ <;> obtain ⟨t, ht⟩ := h.act_w ha <;> obtain ⟨t', hr⟩ := (h.work w).step ht
    · cases hr with
      | body hu => cases hu
    · cases hr with
      | body hu => cases hu
      | dec _ => exact .inr (.inr ⟨w, i, _, _, rfl, ht, rfl⟩)
      | dec_fail _ => exact .inr (.inr ⟨w, i, _, _, rfl, ht, rfl⟩)

/-- Who writes to the state of a worker. -/
theorem write_state {e : Ev T} {w v : Nat} (hw : x.Writes e (.state w) v) :
    (∃ i t, e = (K.main, i) ∧ K.M i t (.store .relaxed (.state w) startup) ∧ t.pc = .cState w ∧ v = startup) ∨
    (∃ i t, e = (K.main, i) ∧ K.M i t (.store .release (.state w) hasWork) ∧ t.pc = .xGive (w + 1) ∧ v = hasWork) ∨
    (∃ i t, e = (K.main, i) ∧ K.M i t (.store .release (.state w) exit) ∧ t.pc = .dExit w ∧ v = exit) ∨
    ∃ i r, e = (K.wk w, i) ∧ K.W w i ⟨.ready, r⟩ (.store .relaxed (.state w) ready) ∧ v = ready := by
  obtain ⟨t, i⟩ := e
  rcases h.only hw (by simp) with rfl | ⟨w', rfl⟩
  · rcases hw with ⟨o, ha⟩ | ⟨o, u, ha⟩ <;> obtain ⟨t, ht⟩ := h.act_m ha <;> obtain ⟨t', hr⟩ := h.main.step ht <;>
      have wf := (m_wf h.main).1 _ _ _ ht
    · cases hr with
      | user _ hu => cases hu
      | cState hp => exact .inl ⟨i, t, rfl, ht, hp, rfl⟩
      | @xGive k hp =>
        simp only [MS.Wf, hp] at wf
        have : k = k - 1 + 1 := by omega
        exact .inr (.inl ⟨i, t, rfl, ht, this ▸ hp, rfl⟩)
      | dExit hp => exact .inr (.inr (.inl ⟨i, t, rfl, ht, hp, rfl⟩))
    · cases hr with
      | user _ hu => cases hu
  · rcases hw with ⟨o, ha⟩ | ⟨o, u, ha⟩ <;> obtain ⟨t, ht⟩ := h.act_w ha <;> obtain ⟨t', hr⟩ := (h.work w').step ht
    · cases hr with
      | body hu => cases hu
      | ready => exact .inr (.inr (.inr ⟨i, _, rfl, ht, rfl⟩))
    · cases hr with
      | body hu => cases hu

/-- Who writes to the task of a worker. -/
theorem write_task {e : Ev T} {w v : Nat} (hw : x.Writes e (.task w) v) :
    (∃ i t, e = (K.main, i) ∧ K.M i t (.store .relaxed (.task w) 0) ∧ t.pc = .cTask w ∧ v = 0) ∨
    (∃ i t, e = (K.main, i) ∧ K.M i t (.store .relaxed (.task w) (obj t.b (w + 1))) ∧ t.pc = .xTask (w + 1) ∧ v = obj t.b (w + 1)) ∨
    ∃ i r, e = (K.wk w, i) ∧ K.W w i ⟨.clear, r⟩ (.store .relaxed (.task w) 0) ∧ v = 0 := by
  obtain ⟨t, i⟩ := e
  rcases h.only hw (by simp) with rfl | ⟨w', rfl⟩
  · rcases hw with ⟨o, ha⟩ | ⟨o, u, ha⟩ <;> obtain ⟨t, ht⟩ := h.act_m ha <;> obtain ⟨t', hr⟩ := h.main.step ht <;>
      have wf := (m_wf h.main).1 _ _ _ ht
    · cases hr with
      | user _ hu => cases hu
      | cTask hp => exact .inl ⟨i, t, rfl, ht, hp, rfl⟩
      | @xTask k hp =>
        simp only [MS.Wf, hp] at wf
        have : k = k - 1 + 1 := by omega
        rw [this] at hp ht ⊢
        exact .inr (.inl ⟨i, t, rfl, ht, hp, rfl⟩)
    · cases hr with
      | user _ hu => cases hu
  · rcases hw with ⟨o, ha⟩ | ⟨o, u, ha⟩ <;> obtain ⟨t, ht⟩ := h.act_w ha <;> obtain ⟨t', hr⟩ := (h.work w').step ht
    · cases hr with
      | body hu => cases hu
      | clear => exact .inr (.inr ⟨i, _, rfl, ht, rfl⟩)
    · cases hr with
      | body hu => cases hu

end Run.Ok
end Pool
end Ruy.Race

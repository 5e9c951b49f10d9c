import Verif.Race.PoolRuns
import Verif.Race.PoolAdvance
/-
C76: ThreadPool::Execute under the C++ memory model.

The worker threads, the thread that owns the pool and everything that they do with `count_`, `state_` and `task_` are in
`Verif/Race/Pool.lean`, with the memory orders of the code; the executions are those of `Verif/Race/Cpp.lean`, in which a load
may return any value that the axioms of the language allow.  Tasks and the program around the pool do arbitrary things.
The specification is in terms of the actions of the threads only: marks for the calls of Execute and of Task::Run.
-/
namespace Ruy.Race.Pool
open Exec
variable {T L C : Type} {x : Exec T (PLoc L) Nat (PCode C)}

/-- `f` is an action of a call of `Task::Run` on object `v` by thread `t`. -/
def InRun (x : Exec T (PLoc L) Nat (PCode C)) (t : T) (v : Nat) (f : Ev T) : Prop :=
  f.1 = t ∧ x.act f ≠ none ∧ ∃ i, i < f.2 ∧ x.act (t, i) = some (.call (.enter v)) ∧
    ∀ j, i < j → j ≤ f.2 → x.act (t, j) ≠ some (.call (.leave v))

/-- The thread that is to run task `i` of a batch. -/
def Run.runner (K : Run x) (i : Nat) : T := if i = 0 then K.main else K.wk (i - 1)

/-- A thread of the pool, or the one that owns it. -/
def Run.Mine (K : Run x) (t : T) : Prop := t = K.main ∨ ∃ w, t = K.wk w

section
variable {K : Run x} (h : K.Ok)
include h

/-- What runs, and where. -/
theorem inRun_cases {t : T} (ht : K.Mine t) {v : Nat} {f : Ev T} (hf : InRun x t v f) :
    (t = K.main ∧ ∃ u a, K.M f.2 u a ∧ u.pc = .body ∧ v = obj u.b 0) ∨
    ∃ w u a, t = K.wk w ∧ K.W w f.2 u a ∧ u.pc = .body v := by
  obtain ⟨rfl, hne, i, hif, hi, hl⟩ := hf
  obtain ⟨a, ha⟩ := Option.ne_none_iff_exists'.1 hne
  obtain ⟨t, f⟩ := f
  rcases ht with rfl | ⟨w, rfl⟩
  · obtain ⟨s, hs⟩ := h.act_m hi
    obtain ⟨u, hu⟩ := h.act_m ha
    obtain ⟨p1, p2, p3⟩ := m_inside h.main hs hif (fun j u h1 h2 e => hl j h1 h2 (h.m_act e)) hu
    exact .inl ⟨rfl, u, a, hu, p1, by rw [p3, p2]⟩
  · obtain ⟨s, hs⟩ := h.act_w hi
    obtain ⟨u, hu⟩ := h.act_w ha
    obtain ⟨p1, _⟩ := w_inside (h.work w) hs hif (fun j u h1 h2 e => hl j h1 h2 (h.w_act e)) hu
    exact .inr ⟨w, u, a, rfl, hu, p1⟩

variable (hx : x.Consistent)
include hx

/-- **What precedes Execute happens before its tasks.** -/
theorem c76_before {a b n i : Nat} (ha : x.act (K.main, a) = some (.call (.execute b n))) {t : T} (ht : K.Mine t) {f : Ev T}
    (hf : InRun x t (obj b i) f) : x.Hb (K.main, a) f := by
  obtain ⟨s, hs⟩ := h.act_m ha
  have ef := hf.1
  obtain ⟨t', f⟩ := f
  obtain rfl : t' = t := ef
  rcases inRun_cases h ht hf with ⟨rfl, u, c, hu, p, e⟩ | ⟨w, u, c, rfl, hu, p⟩
  · obtain ⟨j, v, hj, e', _⟩ := m_batch h.main hu (by rw [p]; rfl)
    rw [← (obj_inj e).1] at e'
    have := m_batch_one h.main hs e'
    exact this ▸ h.hb_m hj hu
  · obtain ⟨q, ho⟩ := of_exists h hx hu (by rw [p]; rfl)
    obtain ⟨k, v, hk, pv, ev, eo, _⟩ := worker_task h hx hu (.inr p) ho
    obtain ⟨j, v', hj, e', _⟩ := m_batch h.main hk (by rw [pv]; rfl)
    rw [← (obj_inj eo).1] at e'
    have := m_batch_one h.main hs e'
    exact (this ▸ h.hb_m hj hk).trans (after_main h hu (by rw [p]; rfl) ho hk (.inr ⟨ev, by simp [pv]⟩))

/-- **Tasks happen before what follows Execute.** -/
theorem c76_after {c b i : Nat} (hc : x.act (K.main, c) = some (.call (.executed b))) {t : T} (ht : K.Mine t) {f : Ev T}
    (hf : InRun x t (obj b i) f) : x.Hb f (K.main, c) := by
  obtain ⟨s, hs⟩ := h.act_m hc
  obtain ⟨ps, eb⟩ := m_executed_pc h.main hs
  have ef := hf.1
  obtain ⟨t', f⟩ := f
  obtain rfl : t' = t := ef
  rcases inRun_cases h ht hf with ⟨rfl, u, y, hu, p, e⟩ | ⟨w, u, y, rfl, hu, p⟩
  · rcases Nat.lt_trichotomy f c with g | g | g
    · exact h.hb_m g hs
    · subst g
      have : some (u, _) = some (_, _) := hu.symm.trans hs
      injection this with this; injection this with this _
      rw [this, ps] at p; cases p
    · have := m_executed h.main hs hu g
      have := (obj_inj e).1
      omega
  · obtain ⟨q, ho⟩ := of_exists h hx hu (by rw [p]; rfl)
    obtain ⟨k, v, hk, pv, ev, eo, _⟩ := worker_task h hx hu (.inr p) ho
    have eo := (obj_inj eo).1
    refine before_main h hx hu (by rw [p]; rfl) ho hs ?_
    have kc : k ≤ c := by
      by_contra g
      have := m_executed h.main hs hk (by omega)
      omega
    rcases m_ph h.main hk hs kc with e | e
    · exact .inr ⟨by rw [← ev, e], by simp [MS.isOpen, ps]⟩
    · exact .inl (by omega)

/-- **Each task of a batch runs once, on the thread it is for**, and has returned before Execute returns. -/
theorem c76_once {c b : Nat} (hc : x.act (K.main, c) = some (.call (.executed b))) :
    ∃ a n, a < c ∧ x.act (K.main, a) = some (.call (.execute b n)) ∧ 1 ≤ n ∧ ∀ i, i < n → ∃ j k, j < k ∧
      x.act (K.runner i, j) = some (.call (.enter (obj b i))) ∧ x.act (K.runner i, k) = some (.call (.leave (obj b i))) ∧
      x.Hb (K.main, a) (K.runner i, j) ∧ x.Hb (K.runner i, k) (K.main, c) ∧
      ∀ e : Ev T, K.Mine e.1 → x.act e = some (.call (.enter (obj b i))) → e = (K.runner i, j) := by
  obtain ⟨s, hs⟩ := h.act_m hc
  obtain ⟨ps, eb⟩ := m_executed_pc h.main hs
  have wf := (m_wf h.main).1 _ _ _ hs
  simp only [MS.Wf, ps] at wf
  obtain ⟨a, v, hac, ha, _⟩ := m_batch h.main hs (by rw [ps]; rfl)
  rw [← eb] at ha
  refine ⟨a, s.n, hac, h.m_act ha, wf.1, fun i hi => ?_⟩
  by_cases i0 : i = 0
  · subst i0
    obtain ⟨j, k, u, u', hjk, hkc, ej, ek⟩ := m_ran h.main hs (.inr ps)
    rw [← eb] at ej ek
    obtain ⟨pe, ve⟩ := m_enter_pc h.main ej
    refine ⟨j, k, hjk, h.m_act ej, h.m_act ek, ?_, h.hb_m hkc hs, fun e he hv => ?_⟩
    · obtain ⟨a', _, ha', e', _⟩ := m_batch h.main ej (by rw [pe]; rfl)
      rw [← (obj_inj ve).1] at e'
      have := m_batch_one h.main ha e'
      exact this ▸ h.hb_m ha' ej
    · obtain ⟨t, e⟩ := e
      rcases he with rfl | ⟨w, rfl⟩
      · obtain ⟨y, hy⟩ := h.act_m hv
        rw [m_enter_one h.main hy ej]; rfl
      · obtain ⟨y, hy⟩ := h.act_w hv
        have pe := w_enter_pc (h.work w) hy
        obtain ⟨q, ho⟩ := of_exists h hx hy (by rw [pe]; rfl)
        obtain ⟨_, _, _, _, _, eo, _⟩ := worker_task h hx hy (.inl pe) ho
        have := (obj_inj eo).2
        omega
  · obtain ⟨w, rfl⟩ : ∃ w, i = w + 1 := ⟨i - 1, by omega⟩
    have er : K.runner (w + 1) = K.wk w := by simp [Run.runner]
    rw [er]
    have wf2 := wf.2 (by omega)
    obtain ⟨z, s', hz, ez, es, ep⟩ := m_waited h.main hs (q := s.ph.id) wf2.1 (.inr ⟨rfl, by simp [MS.isOpen, ps]⟩)
    have eph := m_ph_eq h.main hs ez es.symm
    obtain ⟨r, kd, y, hkd, ho, hb⟩ := collected h hx s.ph.id z s' ⟨ez, ep⟩ es w (by rw [← eph]; omega) (by rw [← eph]; omega)
    have r0 : r ≠ 0 := fun c => by
      have := (of_range h ho hs rfl).2.2.2.2 c
      rw [wf2.2.2.2.2] at this; cases this
    have busy : s.busy = true := by simp [MS.busy, ps]; omega
    rcases w_ran (h.work w) hkd with ⟨k', hk', e'⟩ | ⟨k, k', v, hkk, hk', e', _⟩
    · have := task_read h hx e' (.inl rfl) ho hs rfl (fun _ => busy)
      simp [r0, obj] at this
    · obtain ⟨j, hjk, ej⟩ := w_enter (h.work w) e' rfl
      have ej : K.W w j ⟨.enter v, r⟩ _ := ej
      obtain ⟨m, t, hm, pm, em, eo, _⟩ := worker_task h hx ej (.inl rfl) ho
      have tb : t.b = b := by rw [eb]; exact m_same_batch h.main hm hs em (by simp [MS.busy, pm]) busy
      rw [tb] at eo
      subst eo
      have am := after_main h ej rfl ho hm (.inr ⟨em, by simp [pm]⟩)
      refine ⟨j, k, hjk, h.w_act ej, h.w_act e', ?_, (h.hb_w (by omega) hkd).trans (hb.trans (h.hb_m hz hs)), fun e he hv => ?_⟩
      · obtain ⟨a', _, ha', e', _⟩ := m_batch h.main hm (by rw [pm]; rfl)
        rw [tb] at e'
        have := m_batch_one h.main ha e'
        exact (this ▸ h.hb_m ha' hm).trans am
      · obtain ⟨t', e⟩ := e
        rcases he with rfl | ⟨w', rfl⟩
        · obtain ⟨y, hy⟩ := h.act_m hv
          have := (obj_inj (m_enter_pc h.main hy).2).2
          omega
        · obtain ⟨y, hy⟩ := h.act_w hv
          have pe := w_enter_pc (h.work w') hy
          obtain ⟨q, ho'⟩ := of_exists h hx hy (by rw [pe]; rfl)
          obtain ⟨m', t', hm', pm', em', eo', _⟩ := worker_task h hx hy (.inl pe) ho'
          obtain ⟨e1, e2⟩ := obj_inj eo'
          obtain rfl : w = w' := by omega
          have := m_give_batch h.main hm hm' pm pm' (by rw [tb, e1])
          subst this
          have : some (t, _) = some (_, _) := hm.symm.trans hm'
          injection this with this; injection this with this _
          have er : y.r = r := of_inj h hx (p := s.ph.id) (by rw [← em, this, em']; exact ho') ho
          obtain ⟨ypc, yr⟩ := y
          simp only at pe er
          subst pe er
          rw [w_one (h.work w) hy ej (by simp) (by simp)]

/-- **No task object runs twice**, whether or not Execute has returned. -/
theorem c76_at_most_once {e e' : Ev T} (he : K.Mine e.1) (he' : K.Mine e'.1) {v : Nat} (hv : x.act e = some (.call (.enter v)))
    (hv' : x.act e' = some (.call (.enter v))) : e = e' := by
  obtain ⟨t, i⟩ := e
  obtain ⟨t', j⟩ := e'
  rcases he with rfl | ⟨w, rfl⟩ <;> rcases he' with rfl | ⟨w', rfl⟩
  · obtain ⟨y, hy⟩ := h.act_m hv
    obtain ⟨z, hz⟩ := h.act_m hv'
    obtain ⟨_, rfl⟩ := m_enter_pc h.main hy
    rw [m_enter_one h.main hy hz]
  · obtain ⟨y, hy⟩ := h.act_m hv
    obtain ⟨z, hz⟩ := h.act_w hv'
    obtain ⟨_, rfl⟩ := m_enter_pc h.main hy
    have pe := w_enter_pc (h.work w') hz
    obtain ⟨q, ho⟩ := of_exists h hx hz (by rw [pe]; rfl)
    obtain ⟨_, _, _, _, _, eo, _⟩ := worker_task h hx hz (.inl pe) ho
    have := (obj_inj eo).2
    omega
  · obtain ⟨y, hy⟩ := h.act_m hv'
    obtain ⟨z, hz⟩ := h.act_w hv
    obtain ⟨_, rfl⟩ := m_enter_pc h.main hy
    have pe := w_enter_pc (h.work w) hz
    obtain ⟨q, ho⟩ := of_exists h hx hz (by rw [pe]; rfl)
    obtain ⟨_, _, _, _, _, eo, _⟩ := worker_task h hx hz (.inl pe) ho
    have := (obj_inj eo).2
    omega
  · obtain ⟨y, hy⟩ := h.act_w hv
    obtain ⟨z, hz⟩ := h.act_w hv'
    have pe := w_enter_pc (h.work w) hy
    have pe' := w_enter_pc (h.work w') hz
    obtain ⟨q, ho⟩ := of_exists h hx hy (by rw [pe]; rfl)
    obtain ⟨q', ho'⟩ := of_exists h hx hz (by rw [pe']; rfl)
    obtain ⟨m, s, hm, pm, em, eo, _⟩ := worker_task h hx hy (.inl pe) ho
    obtain ⟨m', s', hm', pm', em', eo', _⟩ := worker_task h hx hz (.inl pe') ho'
    obtain ⟨e1, e2⟩ := obj_inj (eo.symm.trans eo')
    obtain rfl : w = w' := by omega
    have := m_give_batch h.main hm hm' pm pm' e1
    subst this
    have : some (s, _) = some (_, _) := hm.symm.trans hm'
    injection this with this; injection this with this _
    have er : y.r = z.r := of_inj h hx ho (by rw [← em, this, em']; exact ho')
    obtain ⟨ypc, yr⟩ := y
    obtain ⟨zpc, zr⟩ := z
    simp only at pe pe' er
    subst pe pe' er
    rw [w_one (h.work w) hy hz (by simp) (by simp)]

/-- **Nothing else runs**: what a thread of the pool runs is a task of a batch, on the thread it is for. -/
theorem c76_only {e : Ev T} (he : K.Mine e.1) {v : Nat} (hv : x.act e = some (.call (.enter v))) :
    ∃ a b n i, x.act (K.main, a) = some (.call (.execute b n)) ∧ i < n ∧ v = obj b i ∧ e.1 = K.runner i := by
  obtain ⟨t, e⟩ := e
  rcases he with rfl | ⟨w, rfl⟩
  · obtain ⟨y, hy⟩ := h.act_m hv
    obtain ⟨p, eo⟩ := m_enter_pc h.main hy
    obtain ⟨a, _, _, ha, _⟩ := m_batch h.main hy (by rw [p]; rfl)
    have wf := (m_wf h.main).1 _ _ _ hy
    simp only [MS.Wf, p] at wf
    exact ⟨a, y.b, y.n, 0, h.m_act ha, by omega, eo, rfl⟩
  · obtain ⟨y, hy⟩ := h.act_w hv
    have pe := w_enter_pc (h.work w) hy
    obtain ⟨q, ho⟩ := of_exists h hx hy (by rw [pe]; rfl)
    obtain ⟨m, t, hm, pm, em, eo, hn⟩ := worker_task h hx hy (.inl pe) ho
    obtain ⟨a, _, _, ha, _⟩ := m_batch h.main hm (by rw [pm]; rfl)
    exact ⟨a, t.b, t.n, w + 1, h.m_act ha, hn, eo, by simp [Run.runner]⟩

/-- Accesses to the pointer to the task. -/
def Accesses (x : Exec T (PLoc L) Nat (PCode C)) (e : Ev T) (w : Nat) : Prop :=
  (∃ v, x.Reads e (.task w) v) ∨ ∃ v, x.Writes e (.task w) v

omit hx in
theorem accesses_cases {e : Ev T} {w : Nat} (he : Accesses x e w) :
    (∃ i t a, e = (K.main, i) ∧ K.M i t a ∧ (t.pc = .cTask w ∨ t.pc = .xNull (w + 1) ∨ t.pc = .xTask (w + 1))) ∨
    ∃ k u a, e = (K.wk w, k) ∧ K.W w k u a ∧ u.pc.inRound = true := by
  obtain ⟨t, i⟩ := e
  rcases he with ⟨v, he⟩ | ⟨v, he⟩
  · rcases h.only_read he (by simp) with rfl | ⟨w', rfl⟩
    · rcases he with ⟨o, ha⟩ | ⟨o, u, ha⟩ <;> obtain ⟨t, ht⟩ := h.act_m ha <;> obtain ⟨t', hr⟩ := h.main.step ht <;>
        have wf := (m_wf h.main).1 _ _ _ ht
      · cases hr with
        | user _ hu => cases hu
        | @xNull k hp =>
          simp only [MS.Wf, hp] at wf
          have : k = k - 1 + 1 := by omega
          exact .inl ⟨i, t, _, rfl, ht, .inr (.inl (this ▸ hp))⟩
        | @xNull_fail k _ hp _ =>
          simp only [MS.Wf, hp] at wf
          have : k = k - 1 + 1 := by omega
          exact .inl ⟨i, t, _, rfl, ht, .inr (.inl (this ▸ hp))⟩
      · cases hr with
        | user _ hu => cases hu
    · rcases he with ⟨o, ha⟩ | ⟨o, u, ha⟩ <;> obtain ⟨t, ht⟩ := h.act_w ha <;> obtain ⟨t', hr⟩ := (h.work w').step ht
      · cases hr with
        | body hu => cases hu
        | _ => exact .inr ⟨i, _, _, rfl, ht, rfl⟩
      · cases hr with
        | body hu => cases hu
  · rcases h.write_task he with ⟨i, t, e, hi, p, _⟩ | ⟨i, t, e, hi, p, _⟩ | ⟨i, r, e, hi, _⟩
    · exact .inl ⟨i, t, _, e, hi, .inl p⟩
    · exact .inl ⟨i, t, _, e, hi, .inr (.inr p)⟩
    · exact .inr ⟨i, _, _, e, hi, rfl⟩

/-- **`task_` has no data race**: of two accesses to it, one happens before the other. -/
theorem c76_no_race {e f : Ev T} {w : Nat} (he : Accesses x e w) (hf : Accesses x f w) (hne : e ≠ f) : x.Hb e f ∨ x.Hb f e := by
  have key : ∀ {i t a k u b}, K.M i t a → (t.pc = .cTask w ∨ t.pc = .xNull (w + 1) ∨ t.pc = .xTask (w + 1)) → K.W w k u b →
      u.pc.inRound = true → x.Hb (K.main, i) (K.wk w, k) ∨ x.Hb (K.wk w, k) (K.main, i) := by
    intro i t a k u b hi hp hk hu
    obtain ⟨q, ho⟩ := of_exists h hx hk hu
    rcases Nat.lt_trichotomy t.ph.id q with c | c | c
    · exact .inl (after_main h hk hu ho hi (.inl c))
    · exact .inl (after_main h hk hu ho hi (.inr ⟨c, by tauto⟩))
    · exact .inr (before_main h hx hk hu ho hi (.inl c))
  rcases accesses_cases h he with ⟨i, t, a, rfl, hi, pi⟩ | ⟨k, u, a, rfl, hk, pk⟩ <;>
    rcases accesses_cases h hf with ⟨j, s, b, rfl, hj, pj⟩ | ⟨l, v, b, rfl, hl, pl⟩
  · rcases Nat.lt_trichotomy i j with c | c | c
    · exact .inl (h.hb_m c hj)
    · exact absurd (by rw [c]) hne
    · exact .inr (h.hb_m c hi)
  · exact key hi pi hl pl
  · exact (key hj pj hk pk).symm
  · rcases Nat.lt_trichotomy k l with c | c | c
    · exact .inl (h.hb_w c hl)
    · exact absurd (by rw [c]) hne
    · exact .inr (h.hb_w c hk)

/-- **No check of the code fails**, on any thread: RUY_DCHECK in thread_pool.cc and blocking_counter.cc, and no call through a
null pointer. -/
theorem c76_no_failure : K.ms.pc ≠ .failed ∧ ∀ w, (K.ws w).pc ≠ .failed := by
  refine ⟨fun hc => ?_, fun w hc => ?_⟩
  · rcases h.main.last with e | ⟨i, t, a, hi, hr⟩
    · rw [e] at hc; cases hc
    · have hi : K.M i t a := hi
      have wf := (m_wf h.main).1 _ _ _ hi
      generalize hm : K.ms = m at hr
      rw [hm] at hc
      cases hr with
      | user hp _ => rw [hc] at hp; simp at hp
      | cLoad_fail hp _ hv => exact hv (zero h hx hi)
      | xLoad_fail hp _ hv => exact hv (zero h hx hi)
      | cSpin hp _ => rw [hc] at hp; cases hp
      | spin hp _ => rw [hc] at hp; cases hp
      | @xChk_fail k v hp hv =>
        simp only [MS.Wf, hp] at wf
        exact hv (state_give h hx hi (by rw [hp]; congr 1; omega))
      | @xNull_fail k v hp hv =>
        simp only [MS.Wf, hp] at wf
        exact hv (task_null h hx hi (by rw [hp]; congr 1; omega))
      | dChk_fail hp h1 _ => exact h1 (state_request h hx hi hp)
      | dLast_fail hp hv => exact hv (state_last h hx hi hp)
      | _ =>
        revert hc
        simp [MS.begin, give, request, Pool.destroy] <;> (try split_ifs) <;> simp
  · rcases (h.work w).last with e | ⟨i, t, a, hi, hr⟩
    · rw [e] at hc; cases hc
    · have hi : K.W w i t a := hi
      generalize hm : K.ws w = m at hr
      rw [hm] at hc
      cases hr with
      | again_null =>
        obtain ⟨q, ho⟩ := of_exists h hx hi rfl
        obtain ⟨j, v, _, hv, e⟩ := w_again (h.work w) hi rfl
        have ho' := ho
        rcases ho with ⟨r0, j', t, hj, p, et⟩ | ⟨r0, j', t, _, hj, p, et, _, _⟩
        · have := task_read h hx e (.inl rfl) ho' hj et (fun c => absurd r0 c)
          rw [if_pos r0] at this
          exact hv this
        · have := task_read h hx hi (.inr rfl) ho' hj et (fun _ => by simp [MS.busy, p])
          rw [if_neg r0] at this
          simp [obj] at this
      | dec_fail _ => exact absurd (positive h hx hi) (Nat.lt_irrefl _)
      | last_fail hv => exact hv (state_done h hx hi rfl)
      | quit _ _ => revert hc; cases K.d <;> simp
      | _ => simp at hc

/-- **The counter never goes below 0**: a decrement finds it positive, with or without checks. -/
theorem c76_counter {e : Ev T} (he : K.Mine e.1) {o : Ord} {u v : Nat} (ha : x.act e = some (.rmw o .count u v)) : 0 < u ∧ v + 1 = u := by
  obtain ⟨t, i⟩ := e
  rcases h.write_count (.inr ⟨o, u, ha⟩) with ⟨j, _, e, hj, _⟩ | ⟨j, _, e, hj, _⟩ | ⟨w, j, r, u', e, hj, ev⟩
  · injection e with e1 e2; subst e1 e2
    rw [h.m_act hj] at ha; cases ha
  · injection e with e1 e2; subst e1 e2
    rw [h.m_act hj] at ha; cases ha
  · injection e with e1 e2; subst e1 e2
    rw [h.w_act hj] at ha
    cases ha
    have := positive h hx hj
    omega

omit hx in
/-- **After the destructor, all workers are gone**: everything they did happens before. -/
theorem c76_joined {i : Nat} {t : MS} {a : PAct T L C} (hi : K.ml[i]? = some (t, a)) (ht : t.pc = .gone) {w k : Nat}
    (hk : x.act (K.wk w, k) ≠ none) : x.Hb (K.wk w, k) (K.main, i) := by
  obtain ⟨b, hb⟩ := Option.ne_none_iff_exists'.1 hk
  obtain ⟨u, hu⟩ := h.act_w hb
  obtain ⟨j, hj⟩ := h.spawned w (fun e => by unfold Run.W at hu; rw [e] at hu; simp at hu)
  obtain ⟨s, hs⟩ := h.act_m hj
  have hp := spawn_pc h hs
  have hji : j < i := by
    rcases Nat.lt_trichotomy j i with c | c | c
    · exact c
    · subst c
      have : some (s, _) = some (t, a) := hs.symm.trans hi
      injection this with this; injection this with this _
      rw [this, ht] at hp; cases hp
    · have := (h.main.since (Q := fun s => s.pc = .gone) hi (fun s hr => by cases hr <;> simp_all)
        (fun s a s' hs hr => by cases hr <;> simp_all)).1 j s _ hs c
      rw [hp] at this; cases this
  have hsz : w < t.size := by
    rcases m_has h.main hs hi hp hji with c | ⟨_, _, c⟩
    · exact c
    · rw [ht] at c; cases c
  obtain ⟨l, v, hl, e⟩ := m_joins h.main hi hsz ht
  exact (Relation.TransGen.single (.join (h.m_act e) (Exec.act_lt hb))).trans (h.hb_m hl hi)

end

/-- A thread can go on: with a load, whatever value it returns; with a read-modify-write, whatever it reads; or with
something else. -/
def CanStep {S : Type} (R : S → PAct T L C → S → Prop) (s : S) : Prop :=
  (∃ o l, ∀ v, ∃ s', R s (.load o l v) s') ∨ (∃ o l, ∃ f : Nat → Nat, ∀ v, ∃ s', R s (.rmw o l v (f v)) s') ∨
    ∃ a s', R s a s' ∧ (∀ o l v, a ≠ .load o l v) ∧ ∀ o l v u, a ≠ .rmw o l v u

omit x in
/-- **The code is total**: no thread is stuck before it is done. -/
theorem c76_progress (d : Bool) (wk : Nat → T) :
    (∀ w s, s.pc ≠ .done → s.pc ≠ .failed → CanStep (L := L) (C := C) (WStep d wk w) s) ∧
      ∀ s, s.pc ≠ .gone → s.pc ≠ .failed → CanStep (L := L) (C := C) (MStep d wk) s := by
  have lw : ∀ {w s o l}, (∀ v, ∃ s', wNext (T := T) (L := L) (C := C) d w s (.val v) = some (.load o l v, s')) →
      CanStep (L := L) (C := C) (WStep d wk w) s :=
    fun h => Or.inl ⟨_, _, fun v => by obtain ⟨s', e⟩ := h v; exact ⟨s', wNext_step e⟩⟩
  have lm : ∀ {s o l}, (∀ v, ∃ s', mNext (T := T) (L := L) (C := C) d wk s (.val v) = some (.load o l v, s')) →
      CanStep (L := L) (C := C) (MStep d wk) s :=
    fun h => Or.inl ⟨_, _, fun v => by obtain ⟨s', e⟩ := h v; exact ⟨s', mNext_step e⟩⟩
  refine ⟨fun w s h1 h2 => ?_, fun s h1 h2 => ?_⟩
  · obtain ⟨pc, r⟩ := s
    cases pc with
    | fetch => exact lw fun v => ⟨_, rfl⟩
    | again => exact lw fun v => ⟨_, rfl⟩
    | enter v => exact Or.inr (Or.inr ⟨_, _, .enter, by simp, by simp⟩)
    | body v => exact Or.inr (Or.inr ⟨_, _, .leave, by simp, by simp⟩)
    | clear => exact Or.inr (Or.inr ⟨_, _, .clear, by simp, by simp⟩)
    | ready => exact Or.inr (Or.inr ⟨_, _, .ready, by simp, by simp⟩)
    | dec =>
      refine Or.inr (Or.inl ⟨.acqRel, .count, (· - 1), fun v => ?_⟩)
      exact ⟨_, wNext_step (i := .val v) rfl⟩
    | wait => exact lw fun v => ⟨_, rfl⟩
    | last => exact lw fun v => ⟨_, rfl⟩
    | done => exact absurd rfl h1
    | failed => exact absurd rfl h2
  · obtain ⟨pc, sz, b, n, ph⟩ := s
    cases pc with
    | fresh => exact Or.inr (Or.inr ⟨_, _, .construct rfl, by simp, by simp⟩)
    | out => exact Or.inr (Or.inr ⟨_, _, .destroy rfl, by simp, by simp⟩)
    | cLoad => exact lm fun v => ⟨_, rfl⟩
    | cStore => exact Or.inr (Or.inr ⟨_, _, .cStore rfl, by simp, by simp⟩)
    | cState w => exact Or.inr (Or.inr ⟨_, _, .cState rfl, by simp, by simp⟩)
    | cTask w => exact Or.inr (Or.inr ⟨_, _, .cTask rfl, by simp, by simp⟩)
    | cSpawn w => exact Or.inr (Or.inr ⟨_, _, .cSpawn rfl, by simp, by simp⟩)
    | cWait => exact lm fun v => ⟨_, rfl⟩
    | xLoad => exact lm fun v => ⟨_, rfl⟩
    | xStore => exact Or.inr (Or.inr ⟨_, _, .xStore rfl, by simp, by simp⟩)
    | xChk i => exact lm fun v => ⟨_, rfl⟩
    | xNull i => exact lm fun v => ⟨_, rfl⟩
    | xTask i => exact Or.inr (Or.inr ⟨_, _, .xTask rfl, by simp, by simp⟩)
    | xGive i => exact Or.inr (Or.inr ⟨_, _, .xGive rfl, by simp, by simp⟩)
    | enter => exact Or.inr (Or.inr ⟨_, _, .enter rfl, by simp, by simp⟩)
    | body => exact Or.inr (Or.inr ⟨_, _, .leave rfl, by simp, by simp⟩)
    | wait => exact lm fun v => ⟨_, rfl⟩
    | executed => exact Or.inr (Or.inr ⟨_, _, .executed rfl, by simp, by simp⟩)
    | dChk w => exact lm fun v => ⟨_, rfl⟩
    | dExit w => exact Or.inr (Or.inr ⟨_, _, .dExit rfl, by simp, by simp⟩)
    | dLast w => exact lm fun v => ⟨_, rfl⟩
    | dJoin w => exact Or.inr (Or.inr ⟨_, _, .dJoin rfl, by simp, by simp⟩)
    | gone => exact absurd rfl h1
    | failed => exact absurd rfl h2

/-! ### An execution

A pool that gets two workers when three tasks are to be run, and is destroyed, with RUY_DCHECK on. -/

def exMain : List (In Unit Nat) :=
  [.code (.call 7), .go, .code (.call 8), .exec 3, .val 0, .go, .go, .go, .go, .go, .go, .go, .val 1, .val 0, .val 0, .go,
   .val ready, .val 0, .go, .go, .val ready, .val 0, .go, .go, .go, .code (.call 9), .go, .val 1, .val 0, .go, .code (.call 10), .bye,
   .val ready, .go, .val ready, .go, .val exit, .go, .val exit, .go, .code (.call 11)]

def exWork (w : Nat) : List (In Unit Nat) :=
  [.val 0, .go, .val (2 - w), .val ready, .val hasWork, .val (obj 0 (w + 1)), .val (obj 0 (w + 1)), .go, .code (.call (20 + w)), .go, .go, .go,
   .val (2 - w), .val exit, .val exit]

/-- Which thread takes the next turn. -/
def exOrder : List (Ev Nat) := turns
  (List.replicate 12 0 ++ [1, 1, 1, 0, 2, 2, 2, 0, 0, 0, 1, 2] ++ List.replicate 11 0 ++ List.replicate 9 1 ++ [0] ++ List.replicate 9 2 ++
    List.replicate 8 0 ++ [1, 1, 2, 2] ++ List.replicate 5 0)

def exM : List (MS × PAct Nat Unit Nat) × MS := (play (mNext true (· + 1)) exMain [] .init).getD ([], .init)
def exW (w : Nat) : List (WS × PAct Nat Unit Nat) × WS :=
  (play (wNext true w) (if w < 2 then exWork w else []) [] ⟨.fetch, 0⟩).getD ([], ⟨.fetch, 0⟩)

def exTr : Nat → List (PAct Nat Unit Nat)
  | 0 => exM.1.map (·.2)
  | w + 1 => (exW w).1.map (·.2)

def exX : Exec Nat (PLoc Unit) Nat (PCode Nat) := Exec.interleave exTr exOrder

def exK : Run exX where
  main := 0
  wk := (· + 1)
  d := true
  ml := exM.1
  ms := exM.2
  wl w := (exW w).1
  ws w := (exW w).2

theorem ex_none {w : Nat} (hw : 2 ≤ w) : (exW w).1 = [] := by
  simp [exW, show ¬w < 2 by omega, play]

theorem ex_consistent : exX.Consistent := by
  refine (playsB_plays (n := 3) (fun t ht => ?_) (by decide +kernel)).consistent
  obtain ⟨w, rfl⟩ : ∃ w, t = w + 1 := ⟨t - 1, by omega⟩
  simp [exTr, ex_none (show 2 ≤ w by omega)]

theorem ex_ok : exK.Ok where
  inj := fun h => by simpa [exK] using h
  ne := by simp [exK]
  main := play_getD (fun _ _ _ _ => mNext_step) _
  main_tr := rfl
  work := fun w => play_getD (R := WStep true (· + 1) w) (fun _ _ _ _ => wNext_step) _
  work_tr := fun _ => rfl
  spawned := fun w hw => by
    have : w < 2 := by
      by_contra c
      exact hw (ex_none (by omega))
    obtain rfl | rfl : w = 0 ∨ w = 1 := by omega
    · exact ⟨8, by decide +kernel⟩
    · exact ⟨11, by decide +kernel⟩
  only := fun {e _ _} _ _ => by
    obtain ⟨t, i⟩ := e
    cases t with
    | zero => exact .inl rfl
    | succ w => exact .inr ⟨w, rfl⟩
  only_read := fun {e _ _} _ _ => by
    obtain ⟨t, i⟩ := e
    cases t with
    | zero => exact .inl rfl
    | succ w => exact .inr ⟨w, rfl⟩

/-- Worker 0 runs code 20 in task 1. -/
theorem ex_run : InRun exX 1 (obj 0 1) (1, 8) ∧ exX.act (1, 8) = some (.call (.user 20)) := by
  refine ⟨⟨rfl, by decide +kernel, 7, by decide, by decide +kernel, fun j h1 h2 => ?_⟩, by decide +kernel⟩
  obtain rfl : j = 8 := by
    have : j ≤ 8 := h2
    omega
  decide +kernel

example : exX.Hb (0, 3) (1, 8) := c76_before ex_ok ex_consistent (n := 3) (by decide +kernel) (.inr ⟨0, rfl⟩) ex_run.1
example : exX.Hb (1, 8) (0, 29) := c76_after ex_ok ex_consistent (b := 0) (by decide +kernel) (.inr ⟨0, rfl⟩) ex_run.1
example : ∃ a n, a < 29 ∧ exX.act (0, a) = some (.call (.execute 0 n)) ∧ 1 ≤ n ∧ ∀ i, i < n → ∃ j k, j < k ∧
    exX.act (exK.runner i, j) = some (.call (.enter (obj 0 i))) ∧ exX.act (exK.runner i, k) = some (.call (.leave (obj 0 i))) ∧
    exX.Hb (0, a) (exK.runner i, j) ∧ exX.Hb (exK.runner i, k) (0, 29) ∧
    ∀ e : Ev Nat, exK.Mine e.1 → exX.act e = some (.call (.enter (obj 0 i))) → e = (exK.runner i, j) :=
  c76_once ex_ok ex_consistent (by decide +kernel)
example (j : Nat) (h : exX.act (2, j) = some (.call (.enter (obj 0 2)))) : j = 7 :=
  congrArg Prod.snd (c76_at_most_once ex_ok ex_consistent (e := (2, j)) (e' := (2, 7)) (.inr ⟨1, rfl⟩) (.inr ⟨1, rfl⟩) h (by decide +kernel))
example : ∃ a b n i, exX.act (0, a) = some (.call (.execute b n)) ∧ i < n ∧ obj 0 2 = obj b i ∧ 2 = exK.runner i :=
  c76_only ex_ok ex_consistent (e := (2, 7)) (.inr ⟨1, rfl⟩) (by decide +kernel)
/-- Main stores the task of worker 0, the worker clears it. -/
example : exX.Hb (0, 18) (1, 10) ∨ exX.Hb (1, 10) (0, 18) :=
  c76_no_race ex_ok ex_consistent (w := 0) (.inr ⟨obj 0 1, .inl ⟨.relaxed, by decide +kernel⟩⟩) (.inr ⟨0, .inl ⟨.relaxed, by decide +kernel⟩⟩) (by decide)
example : exK.ms.pc = .gone ∧ (exK.ws 0).pc = .done ∧ exK.ms.pc ≠ .failed ∧ ∀ w, (exK.ws w).pc ≠ .failed :=
  ⟨by decide +kernel, by decide +kernel, c76_no_failure ex_ok ex_consistent⟩
example : 0 < 2 ∧ 1 + 1 = 2 := c76_counter ex_ok ex_consistent (e := (1, 2)) (o := .acqRel) (.inr ⟨0, rfl⟩) (by decide +kernel)
example : exX.Hb (2, 8) (0, 40) := by
  refine c76_joined ex_ok (i := 40) (t := ⟨.gone, 2, 1, 3, ⟨2, 0, 2, false⟩⟩) (a := .call (.user 11)) (by decide +kernel) rfl (w := 1) (k := 8) ?_
  decide +kernel
example : CanStep (T := Nat) (L := Unit) (C := Nat) (MStep true (· + 1)) .init :=
  (c76_progress true _).2 _ (by simp [MS.init]) (by simp [MS.init])

end Ruy.Race.Pool

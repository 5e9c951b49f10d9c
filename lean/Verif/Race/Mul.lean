import Verif.Race.PoolProps
import Verif.Race.Project
import Verif.Race.Props
/-
TrMul with several threads on a ThreadPool (trmul.cc:371-416, thread_pool.cc): the tasks of one call of Execute run
TrMulTask::Run.  The rest of the program does arbitrary things: other calls of Mul with the same pool before and after, other threads.
(With one task the code leaves the atomics alone, trmul.cc:371; tasks that use them anyway are covered as well.)
-/
namespace Ruy.Race.Pool
open Exec
variable {T L C : Type} {x : Exec T (PLoc L) Nat (PCode C)} {p : Prog}

/-- A call of TrMul that uses `n` tasks: call number `b` of Execute, at action `a` of the calling thread; where its atomics
are in memory, and which pieces of code of the program are its calls of RunPack, RunKernel and Resolve; the
stores of trmul.cc:385-398; what the tasks have done, and how far they have come. -/
structure Mul (K : Run x) (p : Prog) where
  b : Nat
  n : Nat
  a : Nat
  addr : Loc → L
  code : Work → C
  init : Loc → Nat
  acts : Nat → List (TAct T)
  ts : Nat → TS

variable {K : Run x} (M : Mul K p)

/-- An action of a task in the execution of the program. -/
def Mul.lift : TAct T → PAct T L C
  | .load o l v => .load o (.user (M.addr l)) v
  | .store o l v => .store o (.user (M.addr l)) v
  | .rmw o l v w => .rmw o (.user (M.addr l)) v w
  | .call c => .call (.user (M.code c))
  | .spawn t => .spawn t
  | .join t => .join t
  | .skip => .skip

/-- `e` is an action of one of the tasks. -/
def Mul.In (e : Ev T) : Prop := ∃ k, k < M.n ∧ InRun x (K.runner k) (obj M.b k) e

/-- What the code of TrMul does, and what the program may not do. -/
structure Mul.Ok : Prop where
  /-- trmul.cc:416 -/
  execute : x.act (K.main, M.a) = some (.call (.execute M.b M.n))
  /-- Different atomics have different addresses (allocated at trmul.cc:384, 397). -/
  addr_inj : ∀ {l l'}, Used p l → Used p l' → M.addr l = M.addr l' → l = l'
  code_inj : ∀ {w w'}, M.code w = M.code w' → w = w'
  /-- trmul.cc:385-388, 398 -/
  init : ∀ l, Used p l → M.init l < M.a ∧ ∃ o, x.act (K.main, M.init l) = some (.store o (.user (M.addr l)) (first M.n l))
  /-- trmul.cc:406-412: task `k` runs TrMulTask::Run with thread id `k`. -/
  run : ∀ k, k < M.n → Steps T p k (M.acts k) (M.ts k)
  idle : ∀ k, k < M.n → (∀ j, x.act (K.runner k, j) ≠ some (.call (.enter (obj M.b k)))) → M.acts k = []
  body : ∀ k j, k < M.n → x.act (K.runner k, j) = some (.call (.enter (obj M.b k))) →
    (∀ i, i < (M.acts k).length → x.act (K.runner k, j + 1 + i) = ((M.acts k)[i]?).map M.lift) ∧
      (x.act (K.runner k, j + 1 + (M.acts k).length) = none ∨
        x.act (K.runner k, j + 1 + (M.acts k).length) = some (.call (.leave (obj M.b k))) ∧ (M.ts k).pc = .done)
  /-- Nothing else writes to the atomics while they are in use: other writes, say of another Mul to which the allocator gave the
  same memory, happen before the initialization or after the return of Execute. -/
  only : ∀ e l v, Used p l → x.Writes e (.user (M.addr l)) v → e = (K.main, M.init l) ∨ M.In e ∨ x.Hb e (K.main, M.init l) ∨
    ∃ c, x.act (K.main, c) = some (.call (.executed M.b)) ∧ x.Hb (K.main, c) e

/-! ### The part of the execution that belongs to the TrMul -/

open Classical in
/-- Its atomics and its code. -/
noncomputable def Mul.view : View (PLoc L) (PCode C) Loc Work where
  loc l := match l with
    | .user l => if h : ∃ u, Used p u ∧ M.addr u = l then some h.choose else none
    | _ => none
  code c := match c with
    | .user c => if h : ∃ w, M.code w = c then some h.choose else none
    | _ => none
  inj := fun {a b l} ha hb => by
    cases a <;> cases b <;> simp only [reduceCtorEq] at ha hb
    split_ifs at ha with h1
    split_ifs at hb with h2
    injection ha with ha
    injection hb with hb
    rw [← h1.choose_spec.2, ← h2.choose_spec.2, ha, hb]

section
variable {M} (h : M.Ok)
include h

theorem Mul.Ok.loc {l : Loc} (hl : Used p l) : M.view.loc (.user (M.addr l)) = some l := by
  have hex : ∃ u, Used p u ∧ M.addr u = M.addr l := ⟨l, hl, rfl⟩
  simp only [Mul.view]
  rw [dif_pos hex]
  exact congrArg some (h.addr_inj hex.choose_spec.1 hl hex.choose_spec.2)

theorem Mul.Ok.code (w : Work) : M.view.code (.user (M.code w)) = some w := by
  have hex : ∃ u, M.code u = M.code w := ⟨w, rfl⟩
  simp only [Mul.view]
  rw [dif_pos hex]
  exact congrArg some (h.code_inj hex.choose_spec)

omit h in
theorem loc_some {l : PLoc L} {u : Loc} (hl : M.view.loc l = some u) : l = .user (M.addr u) ∧ Used p u := by
  cases l <;> simp only [Mul.view, reduceCtorEq] at hl
  split_ifs at hl with h1
  injection hl with hl
  subst hl
  exact ⟨by rw [h1.choose_spec.2], h1.choose_spec.1⟩

omit h in
theorem code_some {c : PCode C} {w : Work} (hc : M.view.code c = some w) : c = .user (M.code w) := by
  cases c <;> simp only [Mul.view, reduceCtorEq] at hc
  split_ifs at hc with h1
  injection hc with hc
  subst hc
  rw [h1.choose_spec]

variable (hp : FromMap p)
include hp

/-- Actions of tasks are seen as what they are. -/
theorem Mul.Ok.see {k : Nat} (hk : k < M.n) {a : TAct T} (ha : a ∈ M.acts k) : M.view.act (M.lift a) = a := by
  obtain ⟨_, _, _, g⟩ := hp.grid
  obtain ⟨l1, l2, e⟩ := List.append_of_mem ha
  have := (inv_steps g (h.run k hk)).past l1 a l2 e
  cases a with
  | load o l v =>
    cases l with
    | next => exact this.elim
    | status s b => exact View.act_load.2 ⟨_, rfl, h.loc this.2⟩
  | store o l v =>
    cases l with
    | next => exact this.elim
    | status s b => exact View.act_store.2 ⟨_, rfl, h.loc this.2.2.1⟩
  | rmw o l v w =>
    cases l with
    | next => exact View.act_rmw.2 ⟨_, rfl, h.loc (l := .next) trivial⟩
    | status s b => exact View.act_rmw.2 ⟨_, rfl, h.loc this.2.2.2⟩
  | call c => exact View.act_call.2 ⟨_, rfl, h.code c⟩
  | spawn t => exact this.elim
  | join t => exact this.elim
  | skip => rfl

end

open Classical in
/-- Where task `k` begins. -/
noncomputable def Mul.lo (k : Nat) : Nat :=
  if h : ∃ j, x.act (K.runner k, j) = some (.call (.enter (obj M.b k))) then h.choose + 1 else 0

/-- The tasks in the part of the execution. -/
noncomputable def Mul.tasks : Tasks (M.view.exec x) p M.n where
  th := K.runner
  lo := M.lo
  acts := M.acts
  ts := M.ts
  init l := (K.main, M.init l)

section
variable {M} (hK : K.Ok) (hx : x.Consistent) (h : M.Ok)

theorem runner_mine (k : Nat) : K.Mine (K.runner k) := by
  unfold Run.runner
  split_ifs
  · exact .inl rfl
  · exact .inr ⟨_, rfl⟩

include hK

theorem runner_inj {j k : Nat} (e : K.runner j = K.runner k) : j = k := by
  unfold Run.runner at e
  split_ifs at e with h1 h2 h2
  · omega
  · exact absurd e.symm (hK.ne _)
  · exact absurd e (hK.ne _)
  · have := hK.inj e
    omega

include hx

theorem enter_lo {k j : Nat} (hj : x.act (K.runner k, j) = some (.call (.enter (obj M.b k)))) : M.lo k = j + 1 := by
  have hex : ∃ j, x.act (K.runner k, j) = some (.call (.enter (obj M.b k))) := ⟨j, hj⟩
  unfold Mul.lo
  rw [dif_pos hex]
  have := c76_at_most_once hK hx (runner_mine k) (runner_mine k) hex.choose_spec hj
  rw [(Prod.mk.inj this).2]

include h

theorem entered {k i : Nat} (hk : k < M.n) (hi : i < (M.acts k).length) :
    ∃ j, M.lo k = j + 1 ∧ x.act (K.runner k, j) = some (.call (.enter (obj M.b k))) := by
  by_contra c
  have : M.acts k = [] := h.idle k hk fun j hj => c ⟨j, enter_lo hK hx hj, hj⟩
  rw [this] at hi
  simp at hi

omit hK hx h in
theorem lift_ne (a : TAct T) (v : Nat) : M.lift a ≠ .call (.leave v) := by cases a <;> simp [Mul.lift]

/-- The actions of the tasks in both ways of counting. -/
theorem in_iff {e : Ev T} : M.tasks.In e ↔ M.In e := by
  constructor
  · rintro ⟨k, i, hk, hi, rfl⟩
    have hi : i < (M.acts k).length := hi
    obtain ⟨j, hj, ej⟩ := entered hK hx h hk hi
    obtain ⟨b1, _⟩ := h.body k j hk ej
    refine ⟨k, hk, rfl, ?_, j, ?_, ej, fun j' h1 h2 => ?_⟩
    · show x.act (K.runner k, M.lo k + i) ≠ none
      rw [hj, b1 i hi, List.getElem?_eq_getElem hi]
      simp
    · show j < M.lo k + i
      omega
    · have h2 : j' ≤ M.lo k + i := h2
      obtain ⟨r, rfl⟩ : ∃ r, j' = j + 1 + r := ⟨j' - (j + 1), by omega⟩
      have hr : r < (M.acts k).length := by omega
      show x.act (K.runner k, j + 1 + r) ≠ _
      rw [b1 r hr, List.getElem?_eq_getElem hr]
      simpa using lift_ne _ _
  · rintro ⟨k, hk, he, hn, j, hj, ej, hl⟩
    obtain ⟨t, f⟩ := e
    simp only at he hj hl
    subst he
    obtain ⟨b1, b2⟩ := h.body k j hk ej
    have hf : f < j + 1 + (M.acts k).length := by
      by_contra c
      rcases b2 with b2 | ⟨b2, _⟩
      · obtain ⟨y, hy⟩ := Option.ne_none_iff_exists'.1 hn
        have h1 := act_lt hy
        have h2 := List.getElem?_eq_none_iff.1 b2
        simp only at h1 h2
        omega
      · exact hl _ (by omega) (by omega) b2
    refine ⟨k, f - (j + 1), hk, ?_, ?_⟩
    · show f - (j + 1) < (M.acts k).length
      omega
    · show (K.runner k, f) = (K.runner k, M.lo k + (f - (j + 1)))
      rw [enter_lo hK hx ej, Nat.add_sub_cancel' (by omega)]

variable (hp : FromMap p)
include hp

/-- An action of a task. -/
theorem in_act {e : Ev T} (he : M.In e) : ∃ k a, k < M.n ∧ a ∈ M.acts k ∧ x.act e = some (M.lift a) ∧ (M.view.exec x).act e = some a := by
  obtain ⟨k, i, hk, hi, rfl⟩ := (in_iff hK hx h).2 he
  have hi : i < (M.acts k).length := hi
  obtain ⟨j, hj, ej⟩ := entered hK hx h hk hi
  obtain ⟨b1, _⟩ := h.body k j hk ej
  have e1 : x.act (K.runner k, M.lo k + i) = some (M.lift (M.acts k)[i]) := by
    rw [hj, b1 i hi, List.getElem?_eq_getElem hi]
    rfl
  exact ⟨k, _, hk, List.getElem_mem hi, e1, View.exec_some.2 ⟨_, e1, h.see hp hk (List.getElem_mem hi)⟩⟩

/-- What C75 assumes about the start of the tasks is what C76 proves about the pool. -/
theorem tasks_ok : M.tasks.Ok where
  threads j k _ _ e := runner_inj hK e
  run k hk := h.run k hk
  slice k i hk hi := by
    have hi : i < (M.acts k).length := hi
    obtain ⟨j, hj, ej⟩ := entered hK hx h hk hi
    obtain ⟨b1, _⟩ := h.body k j hk ej
    show (M.view.exec x).act (K.runner k, M.lo k + i) = (M.acts k)[i]?
    rw [View.exec_act, hj, b1 i hi, List.getElem?_eq_getElem hi]
    simp only [Option.map_some]
    rw [h.see hp hk (List.getElem_mem hi)]
  init l hl := by
    obtain ⟨_, o, e⟩ := h.init l hl
    exact ⟨o, View.exec_some.2 ⟨_, e, View.act_store.2 ⟨_, rfl, h.loc hl⟩⟩⟩
  before l e hl he := by
    obtain ⟨k, hk, hr⟩ := (in_iff hK hx h).1 he
    refine View.hb.2 ((hb_po (h.init l hl).1 (act_lt h.execute)).trans (c76_before hK hx h.execute (runner_mine k) hr))
  only e l v hl hw := by
    obtain ⟨l', h1, h2⟩ := View.writes.1 hw
    obtain ⟨rfl, _⟩ := loc_some h2
    rcases h.only e l v hl h1 with c | c | c | ⟨c, ec, hc⟩
    · exact .inl c
    · exact .inr (.inl ((in_iff hK hx h).2 c))
    · exact .inr (.inr (.inl (View.hb.2 c)))
    · refine .inr (.inr (.inr fun e' he' => View.hb.2 ?_))
      obtain ⟨k, hk, hr⟩ := (in_iff hK hx h).1 he'
      exact (c76_after hK hx ec (runner_mine k) hr).trans hc

omit hp in
/-- When Execute has returned, all tasks have. -/
theorem tasks_finished {c : Nat} (hc : x.act (K.main, c) = some (.call (.executed M.b))) : 1 ≤ M.n ∧ M.tasks.Finished := by
  obtain ⟨a, n, _, ha, hn, hr⟩ := c76_once hK hx hc
  have en : n = M.n := by
    obtain ⟨s, hs⟩ := hK.act_m ha
    obtain ⟨s', hs'⟩ := hK.act_m h.execute
    have := m_batch_one hK.main hs hs'
    subst this
    have := h.execute
    rw [ha] at this
    cases this
    rfl
  subst en
  refine ⟨hn, fun k hk => ?_⟩
  obtain ⟨j, l, hjl, ej, el, _⟩ := hr k hk
  obtain ⟨b1, b2⟩ := h.body k j hk ej
  rcases b2 with b2 | b2
  · exfalso
    have h1 := act_lt el
    have h2 := List.getElem?_eq_none_iff.1 b2
    simp only at h1 h2
    obtain ⟨r, rfl⟩ : ∃ r, l = j + 1 + r := ⟨l - (j + 1), by omega⟩
    have hr : r < (M.acts k).length := by omega
    rw [b1 r hr, List.getElem?_eq_getElem hr] at el
    exact lift_ne _ _ (Option.some.inj el)
  · exact b2.2

end
end Ruy.Race.Pool

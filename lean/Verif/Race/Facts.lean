import Verif.Race.Global
import Mathlib.Data.Fintype.Card
/-
Who packs what and who computes what, over all tasks; calls in an order that respects happens-before.
-/
namespace Ruy.Race
open Ruy.Mat Ruy.Mul Ruy.BlockMap
open Ruy.TrMul (Grid Locals tiles_disj)
open Ruy.Simd.Flow (Op InOrder GridOk CallsOk prepackCalls prepackCalls_ok HasPack HasKernel Block Covered Written all_written)

variable {T : Type} {x : Exec T Loc Nat Work} {p : Prog} {n : Nat} {K : Tasks x p n}

/-- Block numbers of a task. -/
theorem enter_inv {dims kd m : SidePair Nat} (g : Grid p.bm dims kd m) {b v : Nat} {e : Locals} (h : enter p b v = .ok (some e)) :
    b < m.lhs * m.rhs ∧ getBlockByIndex p.bm b = .ok e.block ∧ (∀ s : Side, e.block.get s < m.get s) ∧
      ∀ s : Side, getBlockMatrixCoords s p.bm (e.block.get s) = .ok (e.start.get s, e.stop.get s) := by
  rcases enter_grid g b v with ⟨_, h'⟩ | ⟨bl, l, r, h1, h2, h3, h4, h5, h6, h'⟩
  · rw [h] at h'; cases h'
  · rw [h] at h'; cases h'
    refine ⟨h1, h4, fun s => ?_, fun s => ?_⟩
    · cases s
      · exact h2
      · exact h3
    · cases s
      · exact h5
      · exact h6

section
variable {dims kd m : SidePair Nat} (g : Grid p.bm dims kd m) (h : K.Ok) (hx : x.Consistent)
include g h

/-- What a kernel call computes. -/
theorem kernel_inv {e : Ev T} {id : Nat} {block start stop : SidePair Nat} (he : K.In e)
    (ha : x.act e = some (.call (.kernel id block start stop))) :
    id < m.lhs * m.rhs ∧ getBlockByIndex p.bm id = .ok block ∧ (∀ s : Side, block.get s < m.get s) ∧
      ∀ s : Side, getBlockMatrixCoords s p.bm (block.get s) = .ok (start.get s, stop.get s) := by
  obtain ⟨k, l1, a, l2, hh⟩ := h.here g he
  have := hh.act
  rw [ha] at this; cases this
  obtain ⟨⟨v, e', h1, rfl, rfl, rfl⟩, _⟩ := hh.past
  exact enter_inv g h1

/-- Block numbers that were fetched are values of increments. -/
theorem fetched_ev {k v : Nat} (hk : k < n) (hv : v ∈ fetched (K.acts k)) :
    ∃ e o w, K.In e ∧ e.1 = K.th k ∧ x.act e = some (.rmw o .next v w) := by
  obtain ⟨a, ha, hav⟩ := List.mem_filterMap.1 hv
  obtain ⟨l1, l2, e⟩ := List.append_of_mem ha
  have hh := h.at g hk e
  split at hav
  · cases hav
    exact ⟨_, _, _, hh.in_, rfl, hh.act⟩
  · cases hav

theorem ev_fetched {e : Ev T} {v w : Nat} {o : Ord} (he : K.In e) (ha : x.act e = some (.rmw o .next v w)) :
    ∃ k, k < n ∧ v ∈ fetched (K.acts k) := by
  obtain ⟨k, l1, a, l2, hh⟩ := h.here g he
  have := hh.act
  rw [ha] at this; cases this
  refine ⟨k, hh.task, List.mem_filterMap.2 ⟨.rmw o .next v w, by rw [hh.acts]; simp, rfl⟩⟩

include hx

/-- No check fails, and nothing is undefined. -/
theorem not_failed {k : Nat} (hk : k < n) : (K.ts k).pc ≠ .failed := by
  intro hf
  have hp := (inv_steps g (h.run k hk)).pc
  rw [hf] at hp
  obtain ⟨l0, s, b, v, e, hv, hu, hs⟩ := hp
  exact hv (check_passes g h hx (h.at g (l2 := []) hk e) hs)

/-- The blocks of a task. -/
theorem task_ids {k : Nat} (hk : k < n) : (K.acts k = [] ∧ (K.ts k).pc = .start k) ∨
    ∃ r, ran (K.acts k) ++ r = k :: fetched (K.acts k) ∧ ((K.ts k).pc = .done → ∃ b, r = [b] ∧ m.lhs * m.rhs ≤ b) := by
  have hp := (inv_steps g (h.run k hk)).pc
  have nf := not_failed g h hx hk
  generalize hpc : (K.ts k).pc = pc at *
  cases pc with
  | start t => obtain ⟨rfl, h2⟩ := hp; exact Or.inl ⟨h2, rfl⟩
  | head b => exact Or.inr ⟨_, hp, fun h => by cases h⟩
  | req e => exact Or.inr ⟨_, hp.1.ids, fun h => by cases h⟩
  | ahead e => exact Or.inr ⟨_, Iter.ids hp, fun h => by cases h⟩
  | packing e => exact Or.inr ⟨_, hp.1.ids, fun h => by cases h⟩
  | publish e => exact Or.inr ⟨_, hp.1.ids, fun h => by cases h⟩
  | confirm e => exact Or.inr ⟨_, hp.1.ids, fun h => by cases h⟩
  | kernel e => exact Or.inr ⟨_, hp.1.ids, fun h => by cases h⟩
  | done =>
    obtain ⟨b, h1, h2⟩ := hp
    refine Or.inr ⟨_, h1, fun _ => ⟨b, rfl, ?_⟩⟩
    rcases enter_grid g b 0 with ⟨h', _⟩ | ⟨_, _, _, _, _, _, _, _, _, h'⟩
    · exact h'
    · rw [h2] at h'; cases h'
  | failed => exact absurd rfl nf

theorem ran_ids {k id : Nat} (hk : k < n) (hi : id ∈ ran (K.acts k)) : id = k ∨ id ∈ fetched (K.acts k) := by
  rcases task_ids g h hx hk with ⟨e, _⟩ | ⟨r, e, _⟩
  · rw [e] at hi; cases hi
  · have : id ∈ k :: fetched (K.acts k) := by rw [← e]; exact List.mem_append_left _ hi
    exact List.mem_cons.1 this

theorem fetched_ge {k v : Nat} (hk : k < n) (hv : v ∈ fetched (K.acts k)) : n ≤ v := by
  obtain ⟨e, o, w, he, _, ha⟩ := fetched_ev g h hk hv
  exact (next_range g h hx v he ha).1


theorem fetched_nodup {k : Nat} (hk : k < n) : (fetched (K.acts k)).Nodup := by
  unfold fetched List.Nodup
  rw [List.pairwise_filterMap, List.pairwise_iff_getElem]
  intro i j hi hj hij v hv v' hv' he
  subst he
  have ai := h.slice k i hk hi
  have aj := h.slice k j hk hj
  rw [List.getElem?_eq_getElem hi] at ai
  rw [List.getElem?_eq_getElem hj] at aj
  split at hv
  · rename_i e1
    cases hv
    split at hv'
    · rename_i e2
      cases hv'
      rw [e1] at ai
      rw [e2] at aj
      have := next_inj g h hx ⟨k, i, hk, hi, rfl⟩ ⟨k, j, hk, hj, rfl⟩ ai aj
      have := (Prod.mk.inj this).2
      omega
    · cases hv'
  · cases hv

theorem ran_nodup {k : Nat} (hk : k < n) : (ran (K.acts k)).Nodup := by
  rcases task_ids g h hx hk with ⟨e, _⟩ | ⟨r, e, _⟩
  · rw [e]; exact List.nodup_nil
  · have : (ran (K.acts k) ++ r).Nodup := by
      rw [e, List.nodup_cons]
      exact ⟨fun hm => by have := fetched_ge g h hx hk hm; omega, fetched_nodup g h hx hk⟩
    exact this.of_append_left

/-- A block is computed once. -/
theorem kernel_once {a b : Ev T} {id : Nat} {block start stop block' start' stop' : SidePair Nat} (ha : K.In a) (hb : K.In b)
    (h1 : x.act a = some (.call (.kernel id block start stop))) (h2 : x.act b = some (.call (.kernel id block' start' stop'))) :
    a = b := by
  obtain ⟨k, i, hk, hi, rfl⟩ := ha
  obtain ⟨k', j, hk', hj, rfl⟩ := hb
  rw [h.slice k i hk hi, List.getElem?_eq_getElem hi] at h1
  rw [h.slice k' j hk' hj, List.getElem?_eq_getElem hj] at h2
  have e1 := Option.some.inj h1
  have e2 := Option.some.inj h2
  have m1 : id ∈ ran (K.acts k) := List.mem_filterMap.2 ⟨_, List.getElem_mem hi, by rw [e1]⟩
  have m2 : id ∈ ran (K.acts k') := List.mem_filterMap.2 ⟨_, List.getElem_mem hj, by rw [e2]⟩
  have hkk : k = k' := by
    rcases ran_ids g h hx hk m1 with c1 | c1 <;> rcases ran_ids g h hx hk' m2 with c2 | c2
    · omega
    · have := fetched_ge g h hx hk' c2; omega
    · have := fetched_ge g h hx hk c1; omega
    · obtain ⟨u, _, _, hu, hu', au⟩ := fetched_ev g h hk c1
      obtain ⟨w, _, _, hw, hw', aw⟩ := fetched_ev g h hk' c2
      cases next_inj g h hx hu hw au aw
      exact h.threads k k' hk hk' (hu'.symm.trans hw')
  subst hkk
  have nd := ran_nodup g h hx hk
  unfold ran List.Nodup at nd
  rw [List.pairwise_filterMap, List.pairwise_iff_getElem] at nd
  rcases Nat.lt_trichotomy i j with hij | hij | hij
  · exact (nd i j hi hj hij id (by rw [e1]) id (by rw [e2]) rfl).elim
  · rw [hij]
  · exact (nd j i hj hi hij id (by rw [e2]) id (by rw [e1]) rfl).elim

omit hx in
/-- The block that a task works on when it increments the counter. -/
theorem fetch_block {v : Nat} {e : Ev T} {o : Ord} {w : Nat} (he : K.In e) (ha : x.act e = some (.rmw o .next v w)) :
    ∃ k l1 l2 l0 b, K.Here e k l1 (.rmw o .next v w) l2 ∧ k :: fetched l1 = l0 ++ [b] ∧ b < m.lhs * m.rhs := by
  obtain ⟨k, l1, a, l2, hh⟩ := h.here g he
  have := hh.act
  rw [ha] at this; cases this
  obtain ⟨_, l0, b, e', h1, h2⟩ := hh.past
  exact ⟨k, l1, l2, l0, b, hh, h1, (enter_inv g h2).1⟩

/-- Different increments, different blocks. -/
theorem fetch_block_inj {v v' w w' b : Nat} {e e' : Ev T} {o o' : Ord} {k k' : Nat} {l1 l2 l1' l2' : List (TAct T)} {l0 l0' : List Nat}
    (h1 : K.Here e k l1 (.rmw o .next v w) l2) (h2 : K.Here e' k' l1' (.rmw o' .next v' w') l2')
    (e1 : k :: fetched l1 = l0 ++ [b]) (e2 : k' :: fetched l1' = l0' ++ [b]) : e = e' := by
  have m1 : b = k ∨ b ∈ fetched l1 := List.mem_cons.1 (by rw [e1]; simp)
  have m2 : b = k' ∨ b ∈ fetched l1' := List.mem_cons.1 (by rw [e2]; simp)
  have sub : ∀ {k l1 a l2 b} {e : Ev T}, K.Here e k l1 a l2 → b ∈ fetched l1 → b ∈ fetched (K.acts k) := by
    intro k l1 a l2 b e hh hb
    rw [hh.acts]
    unfold fetched
    rw [List.filterMap_append]
    exact List.mem_append_left _ hb
  have hkk : k = k' := by
    rcases m1 with c1 | c1 <;> rcases m2 with c2 | c2
    · omega
    · have := fetched_ge g h hx h2.task (sub h2 c2); have := h1.task; omega
    · have := fetched_ge g h hx h1.task (sub h1 c1); have := h2.task; omega
    · obtain ⟨u, _, _, hu, hu', au⟩ := fetched_ev g h h1.task (sub h1 c1)
      obtain ⟨w, _, _, hw, hw', aw⟩ := fetched_ev g h h2.task (sub h2 c2)
      cases next_inj g h hx hu hw au aw
      exact h.threads k k' h1.task h2.task (hu'.symm.trans hw')
  subst hkk
  have nd : (k :: fetched (K.acts k)).Nodup := List.nodup_cons.2
    ⟨fun hm => by have := fetched_ge g h hx h1.task hm; have := h1.task; omega, fetched_nodup g h hx h1.task⟩
  have key : ∀ {l1 l2 l1' l2' : List (TAct T)} {v v' w w' : Nat} {o o' : Ord} {l0 l0' : List Nat},
      K.acts k = l1 ++ .rmw o .next v w :: l2 → K.acts k = l1' ++ .rmw o' .next v' w' :: l2' →
      k :: fetched l1 = l0 ++ [b] → k :: fetched l1' = l0' ++ [b] → ¬l1.length < l1'.length := by
    intro l1 l2 l1' l2' v v' w w' o o' l0 l0' a1 a2 e1 e2 hlt
    have hp : ∃ r, l1' = l1 ++ .rmw o .next v w :: r := by
      have t := congrArg (List.take l1'.length) (a1.symm.trans a2)
      rw [List.take_left, List.take_append, List.take_of_length_le hlt.le] at t
      obtain ⟨d, hd⟩ : ∃ d, l1'.length - l1.length = d + 1 := ⟨l1'.length - l1.length - 1, by omega⟩
      rw [hd, List.take_succ_cons] at t
      exact ⟨_, t.symm⟩
    obtain ⟨r, rfl⟩ := hp
    have ef : fetched (l1 ++ .rmw o .next v w :: r) = fetched l1 ++ v :: fetched r := by
      unfold fetched
      rw [List.filterMap_append, List.filterMap_cons]
    rw [ef, ← List.cons_append, e1] at e2
    have nd' : (l0 ++ [b] ++ v :: fetched r).Nodup := by
      have := nd
      rw [a2] at this
      unfold fetched at this
      rw [List.filterMap_append, ← List.cons_append] at this
      have := this.of_append_left
      rw [← e1, List.cons_append, ← ef]
      exact this
    have hb : b ∈ v :: fetched r := by
      have := congrArg List.getLast? e2
      rw [List.getLast?_append, List.getLast?_concat] at this
      cases hl : (v :: fetched r).getLast? with
      | none => simp at hl
      | some z =>
        rw [hl] at this
        have this : z = b := by simpa using this
        rw [← this]
        exact List.mem_of_getLast? hl
    exact (List.nodup_append.1 nd').2.2 b (by simp) b hb rfl
  have e3 : l1.length = l1'.length := by
    have := key h1.acts h2.acts e1 e2
    have := key h2.acts h1.acts e2 e1
    omega
  rw [h1.ev, h2.ev, e3]

/-- The counter stays below the number of tasks plus the number of blocks. -/
theorem next_lt {v : Nat} {e : Ev T} {o : Ord} {w : Nat} (he : K.In e) (ha : x.act e = some (.rmw o .next v w)) :
    v < n + m.lhs * m.rhs := by
  obtain ⟨hv, hall⟩ := next_range g h hx v he ha
  have hsel : ∀ u : Fin (v - n + 1), ∃ b : Fin (m.lhs * m.rhs), ∃ e k l1 l2 l0 o w, K.Here e k l1 (.rmw o .next (n + u) w) l2 ∧
      k :: fetched l1 = l0 ++ [b.1] := by
    intro u
    obtain ⟨b, o', w', hb, ab⟩ := hall (n + u) (by omega) (by have := u.2; omega)
    obtain ⟨k, l1, l2, l0, c, hh, h1, h2⟩ := fetch_block g h hb ab
    exact ⟨⟨c, h2⟩, b, k, l1, l2, l0, o', w', hh, h1⟩
  choose f hf using hsel
  have inj : Function.Injective f := by
    intro u u' hu
    obtain ⟨e1, k1, a1, b1, c1, o1, w1, d1, d1'⟩ := hf u
    obtain ⟨e2, k2, a2, b2, c2, o2, w2, d2, d2'⟩ := hf u'
    rw [hu] at d1'
    have := fetch_block_inj g h hx d1 d2 d1' d2'
    subst this
    have := d1.act.symm.trans d2.act
    injection this with this
    injection this with _ _ this
    exact Fin.ext (by omega)
  have := Fintype.card_le_of_injective f inj
  rw [Fintype.card_fin, Fintype.card_fin] at this
  omega

/-- When all tasks have returned, every block has been computed. -/
theorem all_computed (hn : 0 < n) (hf : K.Finished) {id : Nat} (hid : id < m.lhs * m.rhs) :
    ∃ e block start stop, K.In e ∧ x.act e = some (.call (.kernel id block start stop)) := by
  have key : ∃ k, k < n ∧ (id = k ∨ id ∈ fetched (K.acts k)) := by
    by_cases h1 : id < n
    · exact ⟨id, h1, Or.inl rfl⟩
    · rcases task_ids g h hx hn with ⟨_, e⟩ | ⟨r, e, e'⟩
      · rw [hf 0 hn] at e; cases e
      · obtain ⟨b, rfl, hb⟩ := e' (hf 0 hn)
        have hm : b ∈ 0 :: fetched (K.acts 0) := by rw [← e]; simp
        rcases List.mem_cons.1 hm with hm | hm
        · omega
        · obtain ⟨e, o, w, he, _, ha⟩ := fetched_ev g h hn hm
          obtain ⟨e', o', w', he', ha'⟩ := (next_range g h hx b he ha).2 id (by omega) (by omega)
          obtain ⟨k, hk, hk'⟩ := ev_fetched g h he' ha'
          exact ⟨k, hk, Or.inr hk'⟩
  obtain ⟨k, hk, hk'⟩ := key
  have hr : id ∈ ran (K.acts k) := by
    rcases task_ids g h hx hk with ⟨_, e⟩ | ⟨r, e, e'⟩
    · rw [hf k hk] at e; cases e
    · obtain ⟨b, rfl, hb⟩ := e' (hf k hk)
      have hm : id ∈ ran (K.acts k) ++ [b] := by rw [e]; exact List.mem_cons.2 hk'
      rcases List.mem_append.1 hm with hm | hm
      · exact hm
      · have := List.mem_singleton.1 hm; omega
  obtain ⟨a, ha, hav⟩ := List.mem_filterMap.1 hr
  obtain ⟨l1, l2, e⟩ := List.append_of_mem ha
  have hh := h.at g hk e
  split at hav
  · cases hav
    exact ⟨_, _, _, _, hh.in_, hh.act⟩
  · cases hav

/-- Packing a block happens before computing with it. -/
theorem pack_before {q e : Ev T} {s : Side} {b lo hi id : Nat} {block start stop : SidePair Nat} (hq : K.In q) (he : K.In e)
    (h1 : x.act q = some (.call (.pack s b lo hi))) (h2 : x.act e = some (.call (.kernel id block start stop)))
    (hb : block.get s = b) : x.Hb q e := by
  obtain ⟨_, _, _, _, _, _, hu, _⟩ := pack_won g h hq h1
  obtain ⟨k, l1, a, l2, hh⟩ := h.here g he
  have := hh.act
  rw [h2] at this; cases this
  obtain ⟨_, hs⟩ := hh.past
  obtain ⟨_, q', lo', hi', _, _, hq', ha', hb'⟩ := seen_pack g h hx hh (hs s hu.1)
  rw [hb] at ha'
  cases pack_once g h hx hq hq' h1 ha'
  exact hb'

theorem packed_before {e : Ev T} {id : Nat} {block start stop : SidePair Nat} (he : K.In e)
    (h2 : x.act e = some (.call (.kernel id block start stop))) {s : Side} (hp : p.pre.get s = false) :
    ∃ q, K.In q ∧ x.act q = some (.call (.pack s (block.get s) (start.get s) (stop.get s))) ∧ x.Hb q e := by
  obtain ⟨k, l1, a, l2, hh⟩ := h.here g he
  have := hh.act
  rw [h2] at this; cases this
  obtain ⟨_, hs⟩ := hh.past
  obtain ⟨_, q', lo', hi', _, _, hq', ha', hb'⟩ := seen_pack g h hx hh (hs s hp)
  obtain ⟨_, _, _, _, _, _, _, hc⟩ := pack_won g h hq' ha'
  rw [(kernel_inv g h he h2).2.2.2 s] at hc
  cases hc
  exact ⟨q', hq', ha', hb'⟩

/-- Calls of the tasks that access the same memory, at least one writing, are ordered. -/
theorem conflict_ordered {a b : Ev T} {c c' : Work} (ha : K.In a) (hb : K.In b) (h1 : x.act a = some (.call c))
    (h2 : x.act b = some (.call c')) (hw : Exec.Conflict foot c c') : a = b ∨ x.Hb a b ∨ x.Hb b a := by
  have pp : ∀ {a b : Ev T} {s b1 lo hi b2 lo' hi' col}, K.In a → K.In b → x.act a = some (.call (.pack s b1 lo hi)) →
      x.act b = some (.call (.pack s b2 lo' hi')) → lo ≤ col ∧ col < hi → lo' ≤ col ∧ col < hi' → a = b := by
    intro a b s b1 lo hi b2 lo' hi' col ha hb h1 h2 i1 i2
    obtain ⟨_, _, _, _, _, _, u1, c1⟩ := pack_won g h ha h1
    obtain ⟨_, _, _, _, _, _, u2, c2⟩ := pack_won g h hb h2
    obtain ⟨_, n1, e1, l1⟩ := u1
    obtain ⟨_, n2, e2, l2⟩ := u2
    rw [g.side] at e1 e2
    cases e1; cases e2
    cases tiles_disj (g.tiles s) l1 l2 c1 c2 i1 i2
    exact pack_once g h hx ha hb h1 h2
  have pk : ∀ {a b : Ev T} {s b1 lo hi id block start stop col}, K.In a → K.In b → x.act a = some (.call (.pack s b1 lo hi)) →
      x.act b = some (.call (.kernel id block start stop)) → lo ≤ col ∧ col < hi → start.get s ≤ col ∧ col < stop.get s →
      x.Hb a b := by
    intro a b s b1 lo hi id block start stop col ha hb h1 h2 i1 i2
    obtain ⟨_, _, _, _, _, _, u1, c1⟩ := pack_won g h ha h1
    obtain ⟨_, _, k3, k4⟩ := kernel_inv g h hb h2
    obtain ⟨_, n1, e1, l1⟩ := u1
    rw [g.side] at e1
    cases e1
    cases tiles_disj (g.tiles s) l1 (k3 s) c1 (k4 s) i1 i2
    exact pack_before g h hx ha hb h1 h2 rfl
  have kk : ∀ {a b : Ev T} {id block start stop id' block' start' stop'} {i j : Nat}, K.In a → K.In b →
      x.act a = some (.call (.kernel id block start stop)) → x.act b = some (.call (.kernel id' block' start' stop')) →
      ((start.lhs ≤ i ∧ i < stop.lhs) ∧ start.rhs ≤ j ∧ j < stop.rhs) →
      ((start'.lhs ≤ i ∧ i < stop'.lhs) ∧ start'.rhs ≤ j ∧ j < stop'.rhs) → a = b := by
    intro a b id block start stop id' block' start' stop' i j ha hb h1 h2 i1 i2
    obtain ⟨k1, k2, k3, k4⟩ := kernel_inv g h ha h1
    obtain ⟨k1', k2', k3', k4'⟩ := kernel_inv g h hb h2
    have e1 := tiles_disj (g.tiles .lhs) (k3 .lhs) (k3' .lhs) (k4 .lhs) (k4' .lhs) i1.1 i2.1
    have e2 := tiles_disj (g.tiles .rhs) (k3 .rhs) (k3' .rhs) (k4 .rhs) (k4' .rhs) i1.2 i2.2
    have e3 : block = block' := by
      cases block; cases block'
      dsimp only [SidePair.get] at e1 e2
      rw [e1, e2]
    subst e3
    cases g.inj id id' block k1 k1' k2 k2'
    exact kernel_once g h hx ha hb h1 h2
  obtain ⟨d, hw⟩ := hw
  cases c with
  | pack s b1 lo hi =>
    cases c' with
    | pack s' b2 lo' hi' =>
      cases d with
      | packed s'' col =>
        rcases hw with ⟨⟨rfl, w1⟩, hw | ⟨rfl, w2⟩⟩ | ⟨hw, _⟩
        · exact hw.elim
        · exact Or.inl (pp ha hb h1 h2 w1 w2)
        · exact hw.elim
      | _ => rcases hw with ⟨hw, _⟩ | ⟨hw, _⟩ <;> exact hw.elim
    | kernel id block start stop =>
      cases d with
      | packed s'' col =>
        rcases hw with ⟨⟨rfl, w1⟩, w2 | hw⟩ | ⟨hw, _⟩
        · exact Or.inr (Or.inl (pk ha hb h1 h2 w1 w2))
        · exact hw.elim
        · exact hw.elim
      | _ => rcases hw with ⟨hw, _⟩ | ⟨hw, _⟩ <;> exact hw.elim
    | resolve =>
      cases d with
      | packed s'' col => rcases hw with ⟨_, hw | hw⟩ | ⟨hw, _⟩ <;> exact hw.elim
      | _ => rcases hw with ⟨hw, _⟩ | ⟨hw, _⟩ <;> exact hw.elim
  | kernel id block start stop =>
    cases c' with
    | pack s b1 lo hi =>
      cases d with
      | packed s'' col =>
        rcases hw with ⟨hw, _⟩ | ⟨w2, rfl, w1⟩
        · exact hw.elim
        · exact Or.inr (Or.inr (pk hb ha h2 h1 w1 w2))
      | _ => rcases hw with ⟨_, hw | hw⟩ | ⟨hw, _⟩ <;> exact hw.elim
    | kernel id' block' start' stop' =>
      cases d with
      | packed s'' col => rcases hw with ⟨hw, _⟩ | ⟨_, hw⟩ <;> exact hw.elim
      | dst i j =>
        rcases hw with ⟨w1, hw | w2⟩ | ⟨hw, _⟩
        · exact hw.elim
        · exact Or.inl (kk ha hb h1 h2 w1 w2)
        · exact hw.elim
      | cpu => rcases hw with ⟨hw, _⟩ | ⟨hw, _⟩ <;> exact hw.elim
    | resolve =>
      cases d with
      | packed s'' col => rcases hw with ⟨hw, _⟩ | ⟨_, hw⟩ <;> exact hw.elim
      | dst i j => rcases hw with ⟨_, hw | hw⟩ | ⟨hw, _⟩ <;> exact hw.elim
      | cpu => rcases hw with ⟨hw, _⟩ | ⟨hw, _⟩ <;> exact hw.elim
  | resolve =>
    exfalso
    cases d with
    | cpu => rcases hw with ⟨hw, _⟩ | ⟨_, hw⟩ <;> [exact hw; (cases c' <;> exact hw)]
    | _ => rcases hw with ⟨hw, _⟩ | ⟨hw, _⟩ <;> exact hw

end

/-! ### Orders of the calls -/

/-- The calls of the tasks in an order that respects happens-before. -/
structure Linear (K : Tasks x p n) (es : List (Ev T)) : Prop where
  nodup : es.Nodup
  mem : ∀ e, e ∈ es ↔ K.In e ∧ ∃ c, x.act e = some (.call c)
  order : es.Pairwise fun a b => ¬x.Hb b a

/-- RunPack and RunKernel among them. -/
def opOf : Option (TAct T) → Option Op
  | some (.call (.pack s _ lo hi)) => some (.pack s lo hi)
  | some (.call (.kernel _ _ start stop)) => some (.kernel start stop)
  | _ => none

def opsOf (x : Exec T Loc Nat Work) (es : List (Ev T)) : List Op := es.filterMap fun e => opOf (x.act e)

theorem mem_opsOf {es : List (Ev T)} {o : Op} : o ∈ opsOf x es ↔ ∃ e, e ∈ es ∧ opOf (x.act e) = some o := by
  unfold opsOf
  rw [List.mem_filterMap]

theorem opOf_pack {a : Option (TAct T)} {s : Side} {lo hi : Nat} (h : opOf a = some (.pack s lo hi)) :
    ∃ b, a = some (.call (.pack s b lo hi)) := by
  unfold opOf at h
  split at h <;> cases h
  exact ⟨_, rfl⟩

theorem opOf_kernel {a : Option (TAct T)} {start stop : SidePair Nat} (h : opOf a = some (.kernel start stop)) :
    ∃ id b, a = some (.call (.kernel id b start stop)) := by
  unfold opOf at h
  split at h <;> cases h
  exact ⟨_, _, rfl⟩

/-- Insertion into a list ordered by `r`. -/
theorem insert_ordered {E : Type} {r : E → E → Prop} (ht : ∀ {a b c}, r a b → r b c → r a c) (hi : ∀ a, ¬r a a) (l : List E)
    (h : l.Pairwise fun a b => ¬r b a) (e : E) : ∃ l' : List E, l'.Perm (e :: l) ∧ l'.Pairwise fun a b => ¬r b a := by
  have split : ∃ A B, l = A ++ B ∧ (∀ b ∈ B, ¬r b e) ∧ (A = [] ∨ ∃ A' z, A = A' ++ [z] ∧ r z e) := by
    clear h
    induction l with
    | nil => exact ⟨[], [], rfl, fun _ h => (by cases h), Or.inl rfl⟩
    | cons a l ih =>
      obtain ⟨A, B, rfl, h1, h2⟩ := ih
      rcases h2 with rfl | ⟨A', z, rfl, h2⟩
      · by_cases h3 : r a e
        · exact ⟨[a], B, rfl, h1, Or.inr ⟨[], a, rfl, h3⟩⟩
        · refine ⟨[], a :: B, rfl, fun b hb => ?_, Or.inl rfl⟩
          rcases List.mem_cons.1 hb with rfl | hb
          · exact h3
          · exact h1 b hb
      · exact ⟨a :: (A' ++ [z]), B, rfl, h1, Or.inr ⟨a :: A', z, rfl, h2⟩⟩
  obtain ⟨A, B, rfl, h1, h2⟩ := split
  refine ⟨A ++ e :: B, List.perm_middle, ?_⟩
  obtain ⟨p1, p2, p3⟩ := List.pairwise_append.1 h
  refine List.pairwise_append.2 ⟨p1, List.pairwise_cons.2 ⟨fun b hb => h1 b hb, p2⟩, fun a ha b hb => ?_⟩
  rcases List.mem_cons.1 hb with rfl | hb
  · intro hr
    rcases h2 with rfl | ⟨A', z, rfl, h2⟩
    · cases ha
    · rcases List.mem_append.1 ha with ha | ha
      · exact (List.pairwise_append.1 p1).2.2 a ha z (List.mem_singleton.2 rfl) (ht h2 hr)
      · cases List.mem_singleton.1 ha
        exact hi _ (ht h2 hr)
  · exact p3 a ha b hb

theorem sort_ordered {E : Type} {r : E → E → Prop} (ht : ∀ {a b c}, r a b → r b c → r a c) (hi : ∀ a, ¬r a a) (l : List E) :
    ∃ l' : List E, l'.Perm l ∧ l'.Pairwise fun a b => ¬r b a := by
  induction l with
  | nil => exact ⟨[], List.Perm.nil, List.Pairwise.nil⟩
  | cons e l ih =>
    obtain ⟨l', h1, h2⟩ := ih
    obtain ⟨l'', h3, h4⟩ := insert_ordered (r := r) ht hi l' h2 e
    exact ⟨l'', h3.trans (h1.cons e), h4⟩

/-- There is such an order. -/
theorem exists_linear (hx : x.Consistent) : ∃ es, Linear K es := by
  classical
  have fin : {e : Ev T | K.In e ∧ ∃ c, x.act e = some (.call c)}.Finite := by
    have : {e : Ev T | K.In e ∧ ∃ c, x.act e = some (.call c)} ⊆
        ⋃ k ∈ Set.Iio n, (fun i => (K.th k, K.lo k + i)) '' {i | i < (K.acts k).length} := by
      rintro e ⟨⟨k, i, hk, hi, rfl⟩, _⟩
      exact Set.mem_biUnion (show k ∈ Set.Iio n from hk) ⟨i, hi, rfl⟩
    exact ((Set.finite_Iio n).biUnion fun k _ => (Set.finite_lt_nat _).image _).subset this
  obtain ⟨l, h1, h2⟩ := sort_ordered (r := x.Hb) (fun h h' => h.trans h') hx.hb_irrefl fin.toFinset.toList
  refine ⟨l, (h1.nodup_iff).2 (Finset.nodup_toList _), fun e => ?_, h2⟩
  rw [h1.mem_iff, Finset.mem_toList, Set.Finite.mem_toFinset]
  rfl

section
variable {kc : Side → Nat} {dims kd m : SidePair Nat} (gk : GridOk kc dims p.bm m kd) (h : K.Ok) (hx : x.Consistent)
include gk h hx

/-- The calls of the tasks after those for prepacked sides: every kernel after the packing of what it reads. -/
theorem linear_calls (hd : ∀ s : Side, Block (kc s) (dims.get s) 0 (dims.get s)) {es : List (Ev T)} (hl : Linear K es) :
    CallsOk kc dims p.pre (prepackCalls p.pre dims ++ opsOf x es) := by
  have g := gk.grid
  have pre0 := prepackCalls_ok (kc := kc) (pre := p.pre) hd
  have key : ∀ es1 es2, es = es1 ++ es2 → CallsOk kc dims p.pre (prepackCalls p.pre dims ++ opsOf x es1) := by
    intro es1
    induction es1 using List.reverseRecOn with
    | nil => intro _ _; simpa [opsOf] using pre0
    | append_singleton es1 e ih =>
      intro es2 he
      have ih := ih (e :: es2) (by rw [he]; simp)
      have he' : e ∈ es := by rw [he]; simp
      obtain ⟨hin, c, hc⟩ := (hl.mem e).1 he'
      have eo : opsOf x (es1 ++ [e]) = opsOf x es1 ++ (opOf (x.act e)).toList := by
        unfold opsOf
        rw [List.filterMap_append]
        cases hh : opOf (x.act e) <;> simp [hh]
      rw [eo, hc, ← List.append_assoc]
      cases c with
      | resolve => simpa [opOf] using ih
      | pack s b lo hi =>
        obtain ⟨_, _, _, _, _, _, hu, hcoord⟩ := pack_won g h hin hc
        obtain ⟨_, n1, e1, l1⟩ := hu
        rw [g.side] at e1
        cases e1
        exact ih.add (ih.order.pack (gk.block l1 hcoord))
      | kernel id block start stop =>
        obtain ⟨_, _, k3, k4⟩ := kernel_inv g h hin hc
        refine ih.add (ih.order.kernel (fun s => gk.block (k3 s) (k4 s)) (fun s col h1 h2 => ?_))
        refine ih.covered gk (k3 s) (k4 s) ?_ h1 h2
        cases hp : p.pre.get s with
        | true => exact Or.inl rfl
        | false =>
          obtain ⟨q, hq, aq, hb⟩ := packed_before g h hx hin hc hp
          refine Or.inr ⟨_, k4 s, List.mem_append_right _ (mem_opsOf.2 ⟨q, ?_, by rw [aq]; rfl⟩)⟩
          have hqm : q ∈ es := (hl.mem q).2 ⟨hq, _, aq⟩
          rw [he, List.append_assoc] at hqm
          have ho := hl.order
          rw [he, List.append_assoc] at ho
          rcases List.mem_append.1 hqm with hqm | hqm
          · exact hqm
          · exfalso
            rcases List.mem_append.1 hqm with hqm | hqm
            · cases List.mem_singleton.1 hqm
              exact hx.hb_irrefl _ hb
            · have := (List.pairwise_append.1 (List.pairwise_append.1 ho).2.1).2.2 e (List.mem_singleton.2 rfl) q hqm
              exact this hb
  exact key es [] (by simp)

/-- All tasks have returned: every entry has been computed. -/
theorem linear_written (hn : 0 < n) (hf : K.Finished) {es : List (Ev T)} (hl : Linear K es) {i j : Nat}
    (hi : i < dims.lhs) (hj : j < dims.rhs) : Written (opsOf x es) i j := by
  have g := gk.grid
  refine all_written gk (fun id hid => ?_) hi hj
  obtain ⟨e, block, start, stop, he, ha⟩ := all_computed g h hx hn hf hid
  obtain ⟨_, k2, _, k4⟩ := kernel_inv g h he ha
  refine ⟨block, _, _, k2, k4 .lhs, k4 .rhs, mem_opsOf.2 ⟨e, (hl.mem e).2 ⟨he, _, ha⟩, ?_⟩⟩
  rw [ha]
  rfl

end
end Ruy.Race

import Verif.Race.Task
/-
What one task does before each of its actions, whatever its atomic operations return.
-/
namespace Ruy.Race
open Ruy.Mat Ruy.Mul Ruy.BlockMap
open Ruy.TrMul (setSide Locals Call Grid)
open Ruy.Simd.Flow (split_snoc)

variable {T : Type} {p : Prog} {tid : Nat} {l l1 l2 : List (TAct T)} {a : TAct T}

/-- The task has published the block itself, or has read a status other than the first two. -/
def Seen (l : List (TAct T)) (s : Side) (b : Nat) : Prop :=
  Act.store .release (.status s b) finished ∈ l ∨
    ∃ v, v ≠ notStarted ∧ v ≠ inProgress ∧ Act.load .acquire (.status s b) v ∈ l

/-- The block numbers that a task has obtained from the counter. -/
def fetched (l : List (TAct T)) : List Nat := l.filterMap fun a => match a with
  | .rmw _ .next v _ => some v
  | _ => none

/-- What precedes action `a` of a task, if `l` are the actions before it. -/
def Past (p : Prog) (tid : Nat) (l : List (TAct T)) : TAct T → Prop
  | .rmw _ .next v w => w = v + 1 ∧ ∃ l0 b e, tid :: fetched l = l0 ++ [b] ∧ enter p b v = .ok (some e)
  | .rmw o (.status s b) v w => o = .acqRel ∧ v = notStarted ∧ w = inProgress ∧ Used p (.status s b)
  | .store _ .next _ => False
  | .store o (.status s b) v => o = .release ∧ v = finished ∧ Used p (.status s b) ∧
      ∃ l0 lo hi, l = l0 ++ [.rmw .acqRel (.status s b) notStarted inProgress, .call (.pack s b lo hi)]
  | .load _ .next _ => False
  | .load o (.status s b) _ => o = .acquire ∧ Used p (.status s b)
  | .call (.pack s b lo hi) => Used p (.status s b) ∧ getBlockMatrixCoords s p.bm b = .ok (lo, hi) ∧
      ∃ l0, l = l0 ++ [.rmw .acqRel (.status s b) notStarted inProgress]
  | .call (.kernel id block start stop) =>
      (∃ v e, enter p id v = .ok (some e) ∧ e.block = block ∧ e.start = start ∧ e.stop = stop) ∧
        ∀ s : Side, p.pre.get s = false → Seen l s (block.get s)
  | .call .resolve => True
  | .spawn _ => False
  | .join _ => False
  | .skip => False

/-- The blocks that a task has computed. -/
def ran (l : List (TAct T)) : List Nat := l.filterMap fun a => match a with
  | .call (.kernel id _ _ _) => some id
  | _ => none

theorem Seen.mono {s : Side} {b : Nat} (h : Seen l s b) (l' : List (TAct T)) : Seen (l ++ l') s b := by
  rcases h with h | ⟨v, h1, h2, h⟩
  · exact Or.inl (List.mem_append_left _ h)
  · exact Or.inr ⟨v, h1, h2, List.mem_append_left _ h⟩

/-- The local variables belong to the block of the iteration. -/
structure Iter (p : Prog) (tid : Nat) (l : List (TAct T)) (e : Locals) : Prop where
  enter : ∃ e', enter p e.bid e.next = .ok (some e') ∧ e'.block = e.block ∧ e'.start = e.start ∧ e'.stop = e.stop
  ids : ran l ++ [e.bid, e.next] = tid :: fetched l

/-- The block of side `s` is ready for this task. -/
def Ready (p : Prog) (l : List (TAct T)) (s : Side) (b : Nat) : Prop := p.pre.get s = false → Seen l s b

/-- The left block is ready if the flag says so. -/
def Half (p : Prog) (l : List (TAct T)) (e : Locals) (c : Call) (s : Side) (b : Nat) : Prop :=
  match c, s with
  | .ahead, _ => True
  | .req _, .lhs => b = e.block.lhs
  | .req both, .rhs => b = e.block.rhs ∧ (both = true → Ready p l .lhs e.block.lhs)

/-- Invariant of the program counter. -/
def At (p : Prog) (tid : Nat) (l : List (TAct T)) : Pc → Prop
  | .start t => t = tid ∧ l = []
  | .head b => ran l ++ [b] = tid :: fetched l
  | .req e side both => Iter p tid l e ∧ (side = .rhs → both = true → Ready p l .lhs e.block.lhs)
  | .ahead e => Iter p tid l e
  | .packing e c s b lo hi => Iter p tid l e ∧ Half p l e c s b ∧ Used p (.status s b) ∧
      getBlockMatrixCoords s p.bm b = .ok (lo, hi) ∧ ∃ l0, l = l0 ++ [.rmw .acqRel (.status s b) notStarted inProgress]
  | .publish e c s b => Iter p tid l e ∧ Half p l e c s b ∧ Used p (.status s b) ∧
      ∃ l0 lo hi, l = l0 ++ [.rmw .acqRel (.status s b) notStarted inProgress, .call (.pack s b lo hi)]
  | .confirm e c s b => Iter p tid l e ∧ Half p l e c s b ∧ Used p (.status s b) ∧ Seen l s b
  | .kernel e => Iter p tid l e ∧ ∀ s : Side, Ready p l s (e.block.get s)
  | .done => ∃ b, ran l ++ [b] = tid :: fetched l ∧ enter p b 0 = .ok none
  | .failed => ∃ l0 s b v, l = l0 ++ [.load .acquire (.status s b) v] ∧ v ≠ finished ∧ Used p (.status s b) ∧ Seen l0 s b

/-- Invariant of a task. -/
structure Inv (p : Prog) (tid : Nat) (l : List (TAct T)) (s : TS) : Prop where
  past : ∀ l1 a l2, l = l1 ++ a :: l2 → Past p tid l1 a
  local_ : ∀ sd b, s.packed sd b = true → Seen l sd b
  pc : At p tid l s.pc

theorem past_snoc (h : ∀ l1 a l2, l = l1 ++ a :: l2 → Past p tid l1 a) (ha : Past p tid l a) :
    ∀ l1 b l2, l ++ [a] = l1 ++ b :: l2 → Past p tid l1 b := by
  intro l1 b l2 he
  rcases split_snoc he with ⟨rfl, rfl, _⟩ | ⟨l2', _, he'⟩
  · exact ha
  · exact h l1 b l2' he'

theorem fetched_snoc (l : List (TAct T)) (a : TAct T) : fetched (l ++ [a]) = fetched l ++ fetched [a] := List.filterMap_append
theorem ran_snoc (l : List (TAct T)) (a : TAct T) : ran (l ++ [a]) = ran l ++ ran [a] := List.filterMap_append

/-- Actions on the statuses and of the pack functions. -/
def Quiet (a : TAct T) : Prop := fetched [a] = [] ∧ ran [a] = []

theorem Iter.snoc {e : Locals} (h : Iter p tid l e) (ha : Quiet a) : Iter p tid (l ++ [a]) e := by
  refine ⟨h.enter, ?_⟩
  rw [fetched_snoc, ran_snoc, ha.1, ha.2, List.append_nil, List.append_nil]
  exact h.ids

theorem Half.snoc {e : Locals} {c : Call} {s : Side} {b : Nat} (h : Half p l e c s b) (l' : List (TAct T)) :
    Half p (l ++ l') e c s b := by
  unfold Half at *
  cases c with
  | ahead => trivial
  | req both =>
    cases s with
    | lhs => exact h
    | rhs => exact ⟨h.1, fun hb hp => (h.2 hb hp).mono _⟩

/-- After TryPack. -/
theorem at_afterTry {e : Locals} {c : Call} {s : Side} {b : Nat} {ok : Bool} (hi : Iter p tid l e) (hh : Half p l e c s b)
    (hr : ok = true → Ready p l s b) : At p tid l (afterTry e c s ok) := by
  unfold afterTry
  cases c with
  | ahead => exact ⟨hi, fun h => by cases h⟩
  | req both =>
    cases s with
    | lhs =>
      have hh : b = e.block.lhs := hh
      subst hh
      refine ⟨hi, fun _ hb => hr ?_⟩
      simp only [Bool.and_eq_true] at hb
      exact hb.2
    | rhs =>
      obtain ⟨hb, hl⟩ : b = e.block.rhs ∧ (both = true → Ready p l .lhs e.block.lhs) := hh
      subst hb
      dsimp only
      split
      · rename_i h
        simp only [Bool.and_eq_true] at h
        exact ⟨hi, fun s => by cases s; exact hl h.1; exact hr h.2⟩
      · exact hi

/-- The call of TryPack that comes next belongs to the iteration. -/
theorem nextTry_ok {dims kd n : SidePair Nat} (g : Grid p.bm dims kd n) {pc : Pc} (h : At p tid l pc) {y : Try}
    (hy : nextTry p pc = .ok (.inl y)) :
    Iter p tid l y.e ∧ Half p l y.e y.c y.side y.block ∧ y.block < n.get y.side ∧
      getBlockMatrixCoords y.side p.bm y.block = .ok (y.lo, y.hi) := by
  cases pc with
  | req e side both =>
    cases hy
    obtain ⟨⟨⟨e', he, e1, e2, e3⟩, ids⟩, hleft⟩ := h
    refine ⟨⟨⟨e', he, e1, e2, e3⟩, ids⟩, ?_, ?_⟩
    · cases side with
      | lhs => rfl
      | rhs => exact ⟨rfl, hleft rfl⟩
    · unfold enter at he
      rw [g.total, C.ok_bind] at he
      split at he
      · rename_i hlt
        obtain ⟨b, hb, hbl, hbr⟩ := g.decode _ hlt
        obtain ⟨l1, l2, hl, _⟩ := (g.tiles .lhs).block b.lhs hbl
        obtain ⟨r1, r2, hr, _⟩ := (g.tiles .rhs).block b.rhs hbr
        rw [hb, C.ok_bind, hl, C.ok_bind, hr, C.ok_bind] at he
        cases he
        dsimp only at e1 e2 e3
        rw [← e1, ← e2, ← e3]
        cases side
        · exact ⟨hbl, hl⟩
        · exact ⟨hbr, hr⟩
      · cases he
  | ahead e =>
    unfold nextTry at hy
    dsimp only at hy
    rw [g.side, C.ok_bind] at hy
    split at hy
    · cases hy
    · rename_i hlt
      obtain ⟨l1, l2, hl, _⟩ := (g.tiles e.aheadSide).block _ (Nat.lt_of_not_le hlt)
      rw [hl, C.ok_bind] at hy
      cases hy
      have h : Iter p tid l e := h
      exact ⟨⟨h.enter, h.ids⟩, trivial, Nat.lt_of_not_le hlt, hl⟩
  | _ => cases hy

theorem early_true {f : Side → Nat → Bool} {y : Try} (hf : ∀ sd b, f sd b = true → Seen l sd b) (h : early p f y = .ok true) :
    Ready p l y.side y.block := by
  intro hp
  unfold early at h
  rw [hp] at h
  simp only [Bool.false_eq_true, if_false] at h
  refine hf _ _ ?_
  cases hn : numBlocksPerSide p.bm y.side with
  | error e => rw [hn] at h; cases h
  | ok n =>
    rw [hn, C.ok_bind] at h
    unfold C.require at h
    split at h
    · exact Except.ok.inj h
    · cases h

theorem early_false {f : Side → Nat → Bool} {y : Try} (h : early p f y = .ok false) : Used p (.status y.side y.block) := by
  unfold early at h
  split at h
  · cases h
  · rename_i hp
    cases hn : numBlocksPerSide p.bm y.side with
    | error e => rw [hn] at h; cases h
    | ok n =>
      rw [hn, C.ok_bind] at h
      unfold C.require at h
      split at h
      · rename_i hb
        exact ⟨by simpa using hp, n, hn, hb⟩
      · cases h

theorem enter_iter {b v : Nat} {e : Locals} (h : enter p b v = .ok (some e)) : e.bid = b ∧ e.next = v := by
  unfold enter at h
  cases hn : numBlocks p.bm with
  | error e => rw [hn] at h; cases h
  | ok n =>
    rw [hn, C.ok_bind] at h
    split at h
    · cases h1 : getBlockByIndex p.bm b with
      | error e => rw [h1] at h; cases h
      | ok bl =>
        rw [h1, C.ok_bind] at h
        cases h2 : getBlockMatrixCoords .lhs p.bm bl.lhs with
        | error e => rw [h2] at h; cases h
        | ok x =>
          rw [h2, C.ok_bind] at h
          cases h3 : getBlockMatrixCoords .rhs p.bm bl.rhs with
          | error e => rw [h3] at h; cases h
          | ok y =>
            rw [h3, C.ok_bind] at h
            cases h
            exact ⟨rfl, rfl⟩
    · cases h

/-- Entering an iteration does not fail. -/
theorem enter_grid {dims kd n : SidePair Nat} (g : Grid p.bm dims kd n) (b v : Nat) :
    (n.lhs * n.rhs ≤ b ∧ enter p b v = .ok none) ∨ ∃ bl l r, b < n.lhs * n.rhs ∧ bl.lhs < n.lhs ∧ bl.rhs < n.rhs ∧
      getBlockByIndex p.bm b = .ok bl ∧ getBlockMatrixCoords .lhs p.bm bl.lhs = .ok l ∧
      getBlockMatrixCoords .rhs p.bm bl.rhs = .ok r ∧
      enter p b v = .ok (some ⟨b, v, bl, ⟨l.1, r.1⟩, ⟨l.2, r.2⟩, ⟨bl.lhs + 1, bl.rhs + 1⟩, .lhs⟩) := by
  by_cases hlt : b < n.lhs * n.rhs
  · obtain ⟨bl, hb, hbl, hbr⟩ := g.decode _ hlt
    obtain ⟨l1, l2, hl, _⟩ := (g.tiles .lhs).block bl.lhs hbl
    obtain ⟨r1, r2, hr, _⟩ := (g.tiles .rhs).block bl.rhs hbr
    refine Or.inr ⟨bl, _, _, hlt, hbl, hbr, hb, hl, hr, ?_⟩
    unfold enter
    rw [g.total, C.ok_bind, if_pos hlt, hb, C.ok_bind, hl, C.ok_bind, hr, C.ok_bind]
    rfl
  · refine Or.inl ⟨Nat.le_of_not_lt hlt, ?_⟩
    unfold enter
    rw [g.total, C.ok_bind, if_neg hlt]
    rfl

theorem inv_step {dims kd n : SidePair Nat} (g : Grid p.bm dims kd n) {s s' : TS} (h : Inv p tid l s) {o : Option (TAct T)}
    (hs : Step T p s o s') : Inv p tid (l ++ o.toList) s' := by
  obtain ⟨past, loc, pc⟩ := h
  have loc' : ∀ l' sd b, s.packed sd b = true → Seen (l ++ l') sd b := fun l' sd b hb => (loc sd b hb).mono _
  cases hs with
  | resolve =>
    obtain ⟨rfl, rfl⟩ := pc
    exact ⟨past_snoc past trivial, loc' _, rfl⟩
  | leave he =>
    rw [Option.toList_none, List.append_nil]
    exact ⟨past, loc, _, pc, he⟩
  | @fetch b v e f he =>
    obtain ⟨e1, e2⟩ := enter_iter he
    refine ⟨past_snoc past ⟨rfl, ran l, b, e, pc.symm, he⟩, loc' _, ⟨⟨e, ?_, rfl, rfl, rfl⟩, ?_⟩, fun h => by cases h⟩
    · rw [e1, e2]; exact he
    · have pc : ran l ++ [b] = tid :: fetched l := pc
      simp only [Option.toList_some]
      rw [fetched_snoc, ran_snoc, e1, e2, ← List.cons_append, ← pc]
      show ran l ++ [] ++ [b, v] = ran l ++ [b] ++ [v]
      simp
  | @fault b v e f he =>
    rcases enter_grid g b v with ⟨_, h⟩ | ⟨_, _, _, _, _, _, _, _, _, h⟩ <;> rw [h] at he <;> cases he
  | @skip e f pc' he =>
    rw [Option.toList_none, List.append_nil]
    refine ⟨past, loc, ?_⟩
    unfold nextTry at he
    dsimp only at he
    rw [g.side, C.ok_bind] at he
    have pc : Iter p tid l e := pc
    split at he
    · cases he
      exact ⟨⟨pc.enter, pc.ids⟩, fun h => by cases h⟩
    · rename_i hlt
      obtain ⟨l1, l2, hl, _⟩ := (g.tiles e.aheadSide).block _ (Nat.lt_of_not_le hlt)
      rw [hl, C.ok_bind] at he
      cases he
  | already hy he =>
    rw [Option.toList_none, List.append_nil]
    obtain ⟨h1, h2, _, _⟩ := nextTry_ok g pc hy
    exact ⟨past, loc, at_afterTry h1 h2 fun _ => early_true loc he⟩
  | won hy he =>
    obtain ⟨h1, h2, h3, h4⟩ := nextTry_ok g pc hy
    have hu := early_false he
    exact ⟨past_snoc past ⟨rfl, rfl, rfl, hu⟩, loc' _, h1.snoc ⟨rfl, rfl⟩, h2.snoc _, hu, h4, l, rfl⟩
  | busy hy he =>
    obtain ⟨h1, h2, h3, h4⟩ := nextTry_ok g pc hy
    have hu := early_false he
    exact ⟨past_snoc past ⟨rfl, hu⟩, loc' _, at_afterTry (h1.snoc ⟨rfl, rfl⟩) (h2.snoc _) fun h => by cases h⟩
  | seen hy he hv1 hv2 =>
    obtain ⟨h1, h2, h3, h4⟩ := nextTry_ok g pc hy
    have hu := early_false he
    exact ⟨past_snoc past ⟨rfl, hu⟩, loc' _, h1.snoc ⟨rfl, rfl⟩, h2.snoc _, hu,
      Or.inr ⟨_, hv1, hv2, List.mem_append_right _ (List.mem_singleton.2 rfl)⟩⟩
  | @stuck pc' f e he =>
    exfalso
    cases pc' with
    | req => cases he
    | ahead e =>
      unfold nextTry at he
      dsimp only at he
      rw [g.side, C.ok_bind] at he
      split at he
      · cases he
      · rename_i hlt
        obtain ⟨l1, l2, hl, _⟩ := (g.tiles e.aheadSide).block _ (Nat.lt_of_not_le hlt)
        rw [hl, C.ok_bind] at he
        cases he
    | _ => cases he
  | @outside pc' f y e hy he =>
    exfalso
    obtain ⟨_, _, h3, _⟩ := nextTry_ok g pc hy
    unfold early at he
    split at he
    · cases he
    · rw [g.side, C.ok_bind] at he
      unfold C.require at he
      rw [if_pos h3] at he
      cases he
  | @pack e c s b lo hi f =>
    obtain ⟨h1, h2, hu, hc, l0, rfl⟩ := pc
    refine ⟨past_snoc past ⟨hu, hc, l0, rfl⟩, loc' _, h1.snoc ⟨rfl, rfl⟩, h2.snoc _, hu, l0, lo, hi, ?_⟩
    simp
  | publish =>
    obtain ⟨h1, h2, hu, l0, lo, hi, rfl⟩ := pc
    exact ⟨past_snoc past ⟨rfl, rfl, hu, l0, lo, hi, rfl⟩, loc' _, h1.snoc ⟨rfl, rfl⟩, h2.snoc _, hu,
      Or.inl (List.mem_append_right _ (List.mem_singleton.2 rfl))⟩
  | @confirm e c s b f hd =>
    obtain ⟨h1, h2, hu, hsn⟩ := pc
    refine ⟨past_snoc past ⟨rfl, hu⟩, fun sd b' hm => ?_, at_afterTry (h1.snoc ⟨rfl, rfl⟩) (h2.snoc _) fun _ _ => hsn.mono _⟩
    have hm : mark f s b sd b' = true := hm
    unfold mark at hm
    by_cases e1 : sd = s
    · subst e1
      rw [Function.update_self] at hm
      by_cases e2 : b' = b
      · subst e2; exact hsn.mono _
      · rw [Function.update_of_ne e2] at hm
        exact loc' _ sd b' hm
    · rw [Function.update_of_ne e1] at hm
      exact loc' _ sd b' hm
  | deny hd hv =>
    obtain ⟨h1, h2, hu, hsn⟩ := pc
    exact ⟨past_snoc past ⟨rfl, hu⟩, loc' _, l, _, _, _, rfl, hv, hu, hsn⟩
  | @unchecked e c s b f hd =>
    rw [Option.toList_none, List.append_nil]
    obtain ⟨h1, h2, hu, hsn⟩ := pc
    refine ⟨past, fun sd b' hm => ?_, at_afterTry h1 h2 fun _ _ => hsn⟩
    have hm : mark f s b sd b' = true := hm
    unfold mark at hm
    by_cases e1 : sd = s
    · subst e1
      rw [Function.update_self] at hm
      by_cases e2 : b' = b
      · subst e2; exact hsn
      · rw [Function.update_of_ne e2] at hm
        exact loc sd b' hm
    · rw [Function.update_of_ne e1] at hm
      exact loc sd b' hm
  | @kernel e f =>
    obtain ⟨h1, h2⟩ := pc
    obtain ⟨e', he, e1, e2, e3⟩ := h1.enter
    refine ⟨past_snoc past ⟨⟨_, e', he, e1, e2, e3⟩, h2⟩, loc' _, ?_⟩
    show ran (l ++ [_]) ++ [e.next] = tid :: fetched (l ++ [_])
    rw [fetched_snoc, ran_snoc]
    show ran l ++ [e.bid] ++ [e.next] = tid :: (fetched l ++ [])
    rw [List.append_nil, ← h1.ids]
    simp

/-- The invariant holds throughout. -/
theorem inv_steps {dims kd n : SidePair Nat} (g : Grid p.bm dims kd n) {s : TS} (h : Steps T p tid l s) : Inv p tid l s := by
  induction h with
  | start => exact ⟨fun l1 a l2 he => (by cases l1 <;> cases he), fun _ _ h => (by cases h), rfl, rfl⟩
  | silent _ hs ih => have := inv_step g ih hs; rwa [Option.toList_none, List.append_nil] at this
  | act _ hs ih => exact inv_step g ih hs

end Ruy.Race

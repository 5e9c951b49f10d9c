import Verif.Race.Pool
import Verif.Race.Interleave
/-
The code of a pool, executable: what a thread does next, given what it reads.  For progress and for examples.
-/
namespace Ruy.Race.Pool
variable {T L C : Type}

/-- Actions of the program. -/
inductive UAct (L C : Type)
  | load (o : Ord) (l : L) (v : Nat)
  | store (o : Ord) (l : L) (v : Nat)
  | rmw (o : Ord) (l : L) (v w : Nat)
  | call (c : C)

def UAct.act : UAct L C → PAct T L C
  | .load o l v => .load o (.user l) v
  | .store o l v => .store o (.user l) v
  | .rmw o l v w => .rmw o (.user l) v w
  | .call c => .call (.user c)

theorem UAct.isUser {wk : Nat → T} (u : UAct L C) : IsUser wk u.act := by cases u <;> constructor

/-- What a thread is told: the value that it reads, to go on, to run code of the program, to call Execute with `n` tasks, or to
destroy the pool. -/
inductive In (L C : Type)
  | val (v : Nat)
  | go
  | code (u : UAct L C)
  | exec (n : Nat)
  | bye

/-- One action of worker `w`. -/
def wNext (d : Bool) (w : Nat) (s : WS) (i : In L C) : Option (PAct T L C × WS) :=
  match s.pc, i with
  | .fetch, .val v => some (.load .relaxed (.task w) v, ⟨if v = 0 then .ready else .again, s.r⟩)
  | .again, .val v => some (.load .relaxed (.task w) v, ⟨if v = 0 then .failed else .enter v, s.r⟩)
  | .enter v, .go => some (.call (.enter v), ⟨.body v, s.r⟩)
  | .body v, .code u => some (u.act, ⟨.body v, s.r⟩)
  | .body v, .go => some (.call (.leave v), ⟨.clear, s.r⟩)
  | .clear, .go => some (.store .relaxed (.task w) 0, ⟨.ready, s.r⟩)
  | .ready, .go => some (.store .relaxed (.state w) ready, ⟨.dec, s.r⟩)
  | .dec, .val v => some (.rmw .acqRel .count v (v - 1), ⟨if d = true ∧ v = 0 then .failed else .wait, s.r + 1⟩)
  | .wait, .val v => some (.load .acquire (.state w) v,
      ⟨if v = ready then .wait else if v = hasWork then .fetch else if d then .last else .done, s.r⟩)
  | .last, .val v => some (.load .acquire (.state w) v, ⟨if v = exit then .done else .failed, s.r⟩)
  | _, _ => none

theorem wNext_step {d : Bool} {wk : Nat → T} {w : Nat} {s s' : WS} {i : In L C} {a : PAct T L C} (h : wNext d w s i = some (a, s')) :
    WStep d wk w s a s' := by
  obtain ⟨pc, r⟩ := s
  unfold wNext at h
  split at h <;> cases h <;> rename_i e <;> simp only at e <;> subst e
  · split_ifs with c
    · subst c; exact .fetch_null
    · exact .fetch c
  · split_ifs with c
    · subst c; exact .again_null
    · exact .again c
  · exact .enter
  · exact .body (UAct.isUser _)
  · exact .leave
  · exact .clear
  · exact .ready
  · split_ifs with c
    · obtain ⟨c, rfl⟩ := c; exact .dec_fail c
    · exact .dec fun hd => Nat.pos_of_ne_zero fun c' => c ⟨hd, c'⟩
  · split_ifs with c c' c''
    · subst c; exact .spin
    · subst c'; exact .work
    · have := WStep.quit (T := T) (L := L) (C := C) (d := d) (wk := wk) (w := w) (r := r) c c'
      simpa [c''] using this
    · have := WStep.quit (T := T) (L := L) (C := C) (d := d) (wk := wk) (w := w) (r := r) c c'
      simpa [c''] using this
  · split_ifs with c
    · subst c; exact .last
    · exact .last_fail c

/-- One action of the thread that owns the pool. -/
def mNext (d : Bool) (wk : Nat → T) (s : MS) (i : In L C) : Option (PAct T L C × MS) :=
  match s.pc, i with
  | .fresh, .code u => some (u.act, s)
  | .out, .code u => some (u.act, s)
  | .body, .code u => some (u.act, s)
  | .gone, .code u => some (u.act, s)
  | .fresh, .go => some (.store .relaxed .count 0, { s with pc := .out })
  | .out, .exec n => if 1 ≤ n then some (.call (.execute s.b n), s.begin n) else none
  | .cLoad, .val v => some (.load .relaxed .count v, { s with pc := if d = true ∧ v ≠ 0 then .failed else .cStore })
  | .cStore, .go => some (.store .release .count (s.n - 1 - s.size), { s with pc := .cState s.size })
  | .cState w, .go => some (.store .relaxed (.state w) startup, { s with pc := .cTask w })
  | .cTask w, .go => some (.store .relaxed (.task w) 0, { s with pc := .cSpawn w })
  | .cSpawn w, .go => some (.spawn (wk w), { s with pc := if w + 1 < s.n - 1 then .cState (w + 1) else .cWait })
  | .cWait, .val v => some (.load .acquire .count v,
      if v = 0 then { s with pc := .xLoad, size := s.n - 1, ph := ⟨s.ph.id + 1, 0, s.n - 1, false⟩ } else s)
  | .xLoad, .val v => some (.load .relaxed .count v, { s with pc := if d = true ∧ v ≠ 0 then .failed else .xStore })
  | .xStore, .go => some (.store .release .count (s.n - 1), { s with pc := give d 1 })
  | .xChk i, .val v => some (.load .acquire (.state (i - 1)) v, { s with pc := if v = ready then .xNull i else .failed })
  | .xNull i, .val v => some (.load .relaxed (.task (i - 1)) v, { s with pc := if v = 0 then .xTask i else .failed })
  | .xTask i, .go => some (.store .relaxed (.task (i - 1)) (obj s.b i), { s with pc := .xGive i })
  | .xGive i, .go => some (.store .release (.state (i - 1)) hasWork,
      { s with pc := if i + 1 < s.n then give d (i + 1) else .enter })
  | .enter, .go => some (.call (.enter (obj s.b 0)), { s with pc := .body })
  | .body, .go => some (.call (.leave (obj s.b 0)), { s with pc := if s.n = 1 then .executed else .wait })
  | .wait, .val v => some (.load .acquire .count v, if v = 0 then { s with pc := .executed } else s)
  | .executed, .go => some (.call (.executed s.b), { s with pc := .out, b := s.b + 1 })
  | .out, .bye => some (.call .destroy, { s with pc := if s.size = 0 then .gone else request d 0 })
  | .dChk w, .val v => some (.load .acquire (.state w) v, { s with pc := if v = ready ∨ v = hasWork then .dExit w else .failed })
  | .dExit w, .go => some (.store .release (.state w) exit,
      { s with pc := if w + 1 < s.size then request d (w + 1) else Pool.destroy d 0 })
  | .dLast w, .val v => some (.load .acquire (.state w) v, { s with pc := if v = exit then .dJoin w else .failed })
  | .dJoin w, .go => some (.join (wk w), { s with pc := if w + 1 < s.size then Pool.destroy d (w + 1) else .gone })
  | _, _ => none

theorem mNext_step {d : Bool} {wk : Nat → T} {s s' : MS} {i : In L C} {a : PAct T L C} (h : mNext d wk s i = some (a, s')) :
    MStep d wk s a s' := by
  unfold mNext at h
  split at h
  · cases h; exact .user (.inl (by assumption)) (UAct.isUser _)
  · cases h; exact .user (.inr (.inl (by assumption))) (UAct.isUser _)
  · cases h; exact .user (.inr (.inr (.inl (by assumption)))) (UAct.isUser _)
  · cases h; exact .user (.inr (.inr (.inr (by assumption)))) (UAct.isUser _)
  · cases h; exact .construct (by assumption)
  · split_ifs at h with c
    cases h; exact .begin (by assumption) c
  · cases h
    split_ifs with c
    · exact .cLoad_fail (by assumption) c.1 c.2
    · exact .cLoad (by assumption) fun hd => by_contra fun hv => c ⟨hd, hv⟩
  · cases h; exact .cStore (by assumption)
  · cases h; exact .cState (by assumption)
  · cases h; exact .cTask (by assumption)
  · cases h; exact .cSpawn (by assumption)
  · cases h
    split_ifs with c
    · subst c; exact .cWait (by assumption)
    · exact .cSpin (by assumption) c
  · cases h
    split_ifs with c
    · exact .xLoad_fail (by assumption) c.1 c.2
    · exact .xLoad (by assumption) fun hd => by_contra fun hv => c ⟨hd, hv⟩
  · cases h; exact .xStore (by assumption)
  · cases h
    split_ifs with c
    · subst c; exact .xChk (by assumption)
    · exact .xChk_fail (by assumption) c
  · cases h
    split_ifs with c
    · subst c; exact .xNull (by assumption)
    · exact .xNull_fail (by assumption) c
  · cases h; exact .xTask (by assumption)
  · cases h; exact .xGive (by assumption)
  · cases h; exact .enter (by assumption)
  · cases h; exact .leave (by assumption)
  · cases h
    split_ifs with c
    · subst c; exact .wait (by assumption)
    · exact .spin (by assumption) c
  · cases h; exact .executed (by assumption)
  · cases h; exact .destroy (by assumption)
  · cases h
    split_ifs with c
    · exact .dChk (by assumption) c
    · exact .dChk_fail (by assumption) (fun e => c (.inl e)) (fun e => c (.inr e))
  · cases h; exact .dExit (by assumption)
  · cases h
    split_ifs with c
    · subst c; exact .dLast (by assumption)
    · exact .dLast_fail (by assumption) c
  · cases h; exact .dJoin (by assumption)
  · cases h

/-- A run that follows a script. -/
def play {S A I : Type} (next : S → I → Option (A × S)) : List I → List (S × A) → S → Option (List (S × A) × S)
  | [], ls, s => some (ls, s)
  | i :: is, ls, s => match next s i with
    | none => none
    | some (a, s') => play next is (ls ++ [(s, a)]) s'

theorem play_steps {S A I : Type} {R : S → A → S → Prop} {next : S → I → Option (A × S)} (hn : ∀ s i a s', next s i = some (a, s') → R s a s')
    {s0 : S} : ∀ (is : List I) {ls : List (S × A)} {s : S} {ls' s'}, LSteps R s0 ls s → play next is ls s = some (ls', s') → LSteps R s0 ls' s'
  | [], ls, s, ls', s', h, e => by
    simp only [play, Option.some.injEq, Prod.mk.injEq] at e
    obtain ⟨rfl, rfl⟩ := e
    exact h
  | i :: is, ls, s, ls', s', h, e => by
    unfold play at e
    split at e
    · cases e
    · rename_i a t ht
      exact play_steps hn is (h.snoc (hn _ _ _ _ ht)) e

/-- A script that cannot be followed gives the empty run. -/
theorem play_getD {S A I : Type} {R : S → A → S → Prop} {next : S → I → Option (A × S)} (hn : ∀ s i a s', next s i = some (a, s') → R s a s')
    {s0 : S} (is : List I) : LSteps R s0 ((play next is [] s0).getD ([], s0)).1 ((play next is [] s0).getD ([], s0)).2 := by
  cases e : play next is [] s0 with
  | none => exact .nil
  | some p => exact play_steps hn is .nil e

open Exec

/-- Numbered actions of threads that take turns. -/
def turns : List Nat → List (Ev Nat)
  | ts => (List.range ts.length).map fun i => (ts.getD i 0, (ts.take i).count (ts.getD i 0))

/-- `Plays` for finitely many of infinitely many threads. -/
def playsB {L C : Type} [DecidableEq L] (n : Nat) (tr : Nat → List (Act Nat L Nat C)) (g : List (Ev Nat)) : Bool :=
  (List.range n).all (fun t => (List.range (tr t).length).all fun j => (t, j) ∈ g &&
    (List.range j).all fun i => g.idxOf (t, i) < g.idxOf (t, j)) &&
  g.all (fun e => match (tr e.1)[e.2]? with
    | some (.spawn t) => t < n && (List.range (tr t).length).all fun i => g.idxOf e < g.idxOf (t, i)
    | some (.join t) => t < n && (List.range (tr t).length).all fun i => g.idxOf (t, i) < g.idxOf e
    | _ => true) &&
  g.all fun r => match ((tr r.1)[r.2]?).bind rd with
    | none => true
    | some (l, v) => g.any fun w => ((tr w.1)[w.2]?).bind wr = some (l, v) && g.idxOf w < g.idxOf r &&
      g.all fun w' => writesTo tr w' ≠ some l || g.idxOf w' ≤ g.idxOf w || g.idxOf r ≤ g.idxOf w'

theorem playsB_plays {L C : Type} [DecidableEq L] {n : Nat} {tr : Nat → List (Act Nat L Nat C)} {g : List (Ev Nat)}
    (hn : ∀ t, n ≤ t → tr t = []) (h : playsB n tr g = true) : Plays tr g := by
  simp only [playsB, Bool.and_eq_true, List.all_eq_true, List.mem_range, decide_eq_true_eq] at h
  obtain ⟨⟨h1, h2⟩, h3⟩ := h
  have lt : ∀ {t i}, i < (tr t).length → t < n := fun {t i} hi => by
    by_contra c
    rw [hn t (by omega)] at hi
    simp at hi
  refine ⟨fun t i hi => (h1 t (lt hi) i hi).1, fun t j hj i hi => (h1 t (lt hj) j hj).2 i hi, fun e he t ht i hi => ?_,
    fun e he t ht i hi => ?_, fun r hr hs => ?_⟩
  · have := h2 e he
    rw [ht] at this
    simp only [Bool.and_eq_true, List.all_eq_true, List.mem_range, decide_eq_true_eq] at this
    exact this.2 i hi
  · have := h2 e he
    rw [ht] at this
    simp only [Bool.and_eq_true, List.all_eq_true, List.mem_range, decide_eq_true_eq] at this
    exact this.2 i hi
  · obtain ⟨⟨l, v⟩, hlv⟩ := Option.isSome_iff_exists.1 hs
    have := h3 r hr
    rw [hlv] at this
    simp only [List.any_eq_true, Bool.and_eq_true, decide_eq_true_eq, List.all_eq_true, Bool.or_eq_true] at this
    obtain ⟨w, hw, ⟨e1, e2⟩, e3⟩ := this
    refine ⟨w, hw, by rw [e1, hlv], e2, fun w' hw' ew hlt => ?_⟩
    have hwl : writesTo tr w = some l := by simp [writesTo, e1]
    rcases e3 w' hw' with (c | c) | c
    · exact absurd (ew.trans hwl) c
    · omega
    · exact c

end Ruy.Race.Pool

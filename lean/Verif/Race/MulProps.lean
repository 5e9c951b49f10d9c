import Verif.Race.Mul
/-
C77: TrMul with several threads, including the thread pool, under the C++ memory model.

The program is arbitrary except that one call of Execute runs the tasks of a TrMul (`Mul.Ok`); pool and tasks follow the code,
with its memory orders.  C76 provides what C75 assumes about the start of the tasks.

  c77_no_race        no data race between the tasks, the code before Execute and the code after it
  c77_no_failure     no check of the tasks fails, no block index is out of range
  c77_once           each block is packed at most once and computed at most once, by whichever task
  c77_complete       when Execute has returned, every block has been computed; this happens before what follows
  c77_order          calls in every order that respects happens-before are in order and reach every entry
  c77_float, c77_dot, c77_neon, c77_x86    what memory then contains
-/
namespace Ruy.Race.Pool
open Exec
open Ruy.Mat Ruy.Mul Ruy.BlockMap
open Ruy.TrMul (MapFor)
open Ruy.Simd.Flow (Op InOrder GridOk prepackCalls Written Block colsOf)
open Ruy.Tune (Tuning)

variable {T L C : Type} {x : Exec T (PLoc L) Nat (PCode C)} {p : Prog} {K : Run x} {M : Mul K p}

/-- `e` is an action of the calling thread up to the call of Execute, of a task, or of the calling thread from the
return of Execute on. -/
def Mul.Around (M : Mul K p) (e : Ev T) : Prop :=
  (e.1 = K.main ∧ e.2 ≤ M.a) ∨ M.In e ∨ ∃ c, x.act (K.main, c) = some (.call (.executed M.b)) ∧ e.1 = K.main ∧ c ≤ e.2

/-- The calls of RunPack and RunKernel. -/
def opOfWork : Work → Option Op
  | .pack s _ lo hi => some (.pack s lo hi)
  | .kernel _ _ start stop => some (.kernel start stop)
  | .resolve => none

/-- The calls that the tasks make, in an order that respects happens-before: the events and what they call. -/
structure Mul.Linear (M : Mul K p) (es : List (Ev T)) (ws : List Work) : Prop where
  nodup : es.Nodup
  mem : ∀ e, e ∈ es ↔ M.In e ∧ ∃ c, x.act e = some (.call c)
  order : es.Pairwise fun a b => ¬x.Hb b a
  calls : List.Forall₂ (fun e w => x.act e = some (.call (.user (M.code w)))) es ws

theorem fromMap_of {A : Type} {m : TrMul.Mem A} (hm : MapFor m p.bm) : FromMap p := by
  obtain ⟨a, h1, _, _, _, _, h2, h3⟩ := hm
  exact ⟨a, h1, h2, h3⟩

theorem call_iff (h : M.Ok) {e : Ev T} {w : Work} :
    x.act e = some (.call (.user (M.code w))) ↔ (M.view.exec x).act e = some (.call w) := by
  constructor
  · exact fun hc => View.exec_some.2 ⟨_, hc, View.act_call.2 ⟨_, rfl, h.code w⟩⟩
  · intro hc
    obtain ⟨a, h1, h2⟩ := View.exec_some.1 hc
    obtain ⟨c, rfl, hc⟩ := View.act_call.1 h2
    rw [h1, code_some hc]

section
variable (hp : FromMap p) (hK : K.Ok) (hx : x.Consistent) (h : M.Ok)
include hp hK hx h

/-- What a task calls. -/
theorem task_call {e : Ev T} (he : M.In e) {c : PCode C} (hc : x.act e = some (.call c)) : ∃ w, c = .user (M.code w) := by
  obtain ⟨k, a, hk, ha, e1, e2⟩ := in_act hK hx h hp he
  rw [e1] at hc
  cases a <;> simp only [Mul.lift, Option.some.injEq, Act.call.injEq, reduceCtorEq] at hc
  exact ⟨_, hc.symm⟩

/-- C77: no data race.  `F` says what code of the program accesses; pieces of code of the tasks conflict only as in `foot`. -/
theorem c77_no_race {D : Type} {F : Foot (PCode C) D}
    (hF : ∀ w w', Conflict F (.user (M.code w)) (.user (M.code w')) → Conflict foot w w') {e f : Ev T}
    (he : M.Around e) (hf : M.Around f) : ¬x.DataRace F e f := by
  rintro ⟨hne, c, c', h1, h2, hc, n1, n2⟩
  have main : ∀ {e f : Ev T}, e.1 = K.main → f.1 = K.main → e ≠ f → x.act e ≠ none → x.act f ≠ none → x.Hb e f ∨ x.Hb f e := by
    rintro ⟨_, i⟩ ⟨_, j⟩ rfl rfl hne he hf
    obtain ⟨_, he⟩ := Option.ne_none_iff_exists'.1 he
    obtain ⟨_, hf⟩ := Option.ne_none_iff_exists'.1 hf
    rcases Nat.lt_trichotomy i j with c | c | c
    · exact .inl (hb_po c (act_lt hf))
    · exact absurd (by rw [c]) hne
    · exact .inr (hb_po c (act_lt he))
  have before : ∀ {e f : Ev T}, e.1 = K.main → e.2 ≤ M.a → M.In f → x.Hb e f := by
    rintro ⟨_, i⟩ f rfl hi ⟨k, hk, hr⟩
    have := c76_before hK hx h.execute (runner_mine k) hr
    rcases Nat.lt_or_eq_of_le hi with c | c
    · exact (hb_po c (act_lt h.execute)).trans this
    · simp only at c
      rw [c]; exact this
  have after : ∀ {e f : Ev T} {c : Nat}, x.act (K.main, c) = some (.call (.executed M.b)) → e.1 = K.main → c ≤ e.2 → x.act e ≠ none → M.In f → x.Hb f e := by
    rintro ⟨_, i⟩ f c hc rfl hi hn ⟨k, hk, hr⟩
    have := c76_after hK hx hc (runner_mine k) hr
    obtain ⟨_, hn⟩ := Option.ne_none_iff_exists'.1 hn
    rcases Nat.lt_or_eq_of_le hi with d | d
    · exact this.trans (hb_po d (act_lt hn))
    · simp only at d
      rw [← d]; exact this
  have ord : x.Hb e f ∨ x.Hb f e := by
    rcases he with ⟨e1, e2⟩ | he | ⟨c1, e0, e1, e2⟩ <;> rcases hf with ⟨f1, f2⟩ | hf | ⟨c2, f0, f1, f2⟩
    · exact main e1 f1 hne (by simp [h1]) (by simp [h2])
    · exact .inl (before e1 e2 hf)
    · exact main e1 f1 hne (by simp [h1]) (by simp [h2])
    · exact .inr (before f1 f2 he)
    · obtain ⟨w, rfl⟩ := task_call hp hK hx h he h1
      obtain ⟨w', rfl⟩ := task_call hp hK hx h hf h2
      have nr := c75_no_race hp (tasks_ok hK hx h hp) (View.consistent hx) ((in_iff hK hx h).2 he) ((in_iff hK hx h).2 hf)
      by_contra hn
      exact nr ⟨hne, w, w', (call_iff h).1 h1, (call_iff h).1 h2, hF w w' hc, fun g => hn (.inl (View.hb.1 g)),
        fun g => hn (.inr (View.hb.1 g))⟩
    · exact .inl (after f0 f1 f2 (by simp [h2]) he)
    · exact main e1 f1 hne (by simp [h1]) (by simp [h2])
    · exact .inr (after e0 e1 e2 (by simp [h1]) hf)
    · exact main e1 f1 hne (by simp [h1]) (by simp [h2])
  exact ord.elim n1 n2

/-- C77: the checks of the tasks pass. -/
theorem c77_no_failure {k : Nat} (hk : k < M.n) : (M.ts k).pc ≠ .failed :=
  c75_no_failure hp (tasks_ok hK hx h hp) (View.consistent hx) hk

/-- C77: every block is packed at most once and computed at most once; it is computed with the coordinates of the block map, and
after its two blocks have been packed, on sides that are not prepacked. -/
theorem c77_once :
    (∀ e f s c lo hi lo' hi', M.In e → M.In f → x.act e = some (.call (.user (M.code (.pack s c lo hi)))) →
      x.act f = some (.call (.user (M.code (.pack s c lo' hi')))) → e = f) ∧
    ∀ e id block start stop, M.In e → x.act e = some (.call (.user (M.code (.kernel id block start stop)))) →
      (∀ f block' start' stop', M.In f → x.act f = some (.call (.user (M.code (.kernel id block' start' stop')))) → e = f) ∧
      getBlockByIndex p.bm id = .ok block ∧
      ∀ s : Side, getBlockMatrixCoords s p.bm (block.get s) = .ok (start.get s, stop.get s) ∧
        (p.pre.get s = false →
          ∃ q, M.In q ∧ x.act q = some (.call (.user (M.code (.pack s (block.get s) (start.get s) (stop.get s))))) ∧ x.Hb q e) := by
  have ok := tasks_ok hK hx h hp
  have yx := View.consistent (W := M.view) hx
  refine ⟨fun e f s c lo hi lo' hi' he hf h1 h2 => ?_, fun e id block start stop he h1 => ?_⟩
  · exact c75_packed_once hp ok yx ((in_iff hK hx h).2 he) ((in_iff hK hx h).2 hf) ((call_iff h).1 h1)
      ((call_iff h).1 h2)
  · obtain ⟨c1, c2, c3⟩ := c75_computed_once hp ok yx ((in_iff hK hx h).2 he) ((call_iff h).1 h1)
    refine ⟨fun f b' s' t' hf h2 => c1 f b' s' t' ((in_iff hK hx h).2 hf) ((call_iff h).1 h2), c2, fun s => ⟨(c3 s).1, fun hs => ?_⟩⟩
    obtain ⟨q, q1, q2, q3⟩ := (c3 s).2 hs
    have q1 := (in_iff hK hx h).1 q1
    exact ⟨q, q1, (call_iff h).2 q2, View.hb.1 q3⟩

/-- C77: when Execute has returned, every block has been computed, between the call and the return. -/
theorem c77_complete {c : Nat} (hc : x.act (K.main, c) = some (.call (.executed M.b))) {N : Nat} (hN : numBlocks p.bm = .ok N) {id : Nat}
    (hid : id < N) : ∃ e block start stop, M.In e ∧ x.act e = some (.call (.user (M.code (.kernel id block start stop)))) ∧
      x.Hb (K.main, M.a) e ∧ x.Hb e (K.main, c) := by
  obtain ⟨hn, hf⟩ := tasks_finished hK hx h hc
  obtain ⟨e, block, start, stop, he, ha⟩ := c75_complete hp (tasks_ok hK hx h hp) (View.consistent hx) hn hf hN hid
  have he := (in_iff hK hx h).1 he
  refine ⟨e, block, start, stop, he, (call_iff h).2 ha, ?_⟩
  obtain ⟨k, hk, hr⟩ := he
  exact ⟨c76_before hK hx h.execute (runner_mine k) hr, c76_after hK hx hc (runner_mine k) hr⟩

/-! ### Orders of the calls -/

theorem linear_iff {es : List (Ev T)} {ws : List Work} (hl : M.Linear es ws) :
    Race.Linear M.tasks es ∧ opsOf (M.view.exec x) es = ws.filterMap opOfWork := by
  refine ⟨⟨hl.nodup, fun e => ?_, hl.order.imp fun hn hh => hn (View.hb.1 hh)⟩, ?_⟩
  · rw [hl.mem, in_iff hK hx h]
    constructor
    · rintro ⟨he, c, hc⟩
      obtain ⟨w, rfl⟩ := task_call hp hK hx h he hc
      exact ⟨he, w, (call_iff h).1 hc⟩
    · rintro ⟨he, w, hw⟩
      exact ⟨he, _, (call_iff h).2 hw⟩
  · have hm : ∀ e ∈ es, M.In e := fun e he => ((hl.mem e).1 he).1
    have hc := hl.calls
    clear hl
    unfold opsOf
    induction hc with
    | nil => rfl
    | @cons e w es ws h1 _ ih =>
      have h2 := (call_iff h).1 h1
      rw [List.filterMap_cons, List.filterMap_cons, ih fun e he => hm e (by simp [he]), h2]
      cases w <;> rfl

/-- C77: orders of the calls that respect happens-before. -/
theorem c77_order {kc : Side → Nat} {dims kd m : SidePair Nat} (gk : GridOk kc dims p.bm m kd) (hd : ∀ s : Side, Block (kc s) (dims.get s) 0 (dims.get s)) :
    (∃ es ws, M.Linear es ws) ∧ ∀ es ws, M.Linear es ws → InOrder kc dims (prepackCalls p.pre dims ++ ws.filterMap opOfWork) ∧
      ∀ c, x.act (K.main, c) = some (.call (.executed M.b)) →
        ∀ i j, i < dims.lhs → j < dims.rhs → Written (prepackCalls p.pre dims ++ ws.filterMap opOfWork) i j := by
  obtain ⟨⟨es, he⟩, ho⟩ := c75_order gk hd (tasks_ok hK hx h hp) (View.consistent hx)
  constructor
  · have hw : ∀ e ∈ es, ∃ w, x.act e = some (.call (.user (M.code w))) := fun e hh => by
      obtain ⟨h1, w, h2⟩ := (he.mem e).1 hh
      exact ⟨w, (call_iff h).2 h2⟩
    have : ∃ ws, List.Forall₂ (fun e w => x.act e = some (.call (.user (M.code w)))) es ws := by
      clear he
      induction es with
      | nil => exact ⟨[], .nil⟩
      | cons e es ih =>
        obtain ⟨w, h1⟩ := hw e (by simp)
        obtain ⟨ws, h2⟩ := ih fun e he => hw e (by simp [he])
        exact ⟨w :: ws, .cons h1 h2⟩
    obtain ⟨ws, hws⟩ := this
    refine ⟨es, ws, he.nodup, fun e => ?_, he.order.imp fun hn hh => hn (View.hb.2 hh), hws⟩
    rw [he.mem, in_iff hK hx h]
    constructor
    · rintro ⟨h1, w, h2⟩
      exact ⟨h1, _, (call_iff h).2 h2⟩
    · rintro ⟨h1, c, hc⟩
      obtain ⟨w, rfl⟩ := task_call hp hK hx h h1 hc
      exact ⟨h1, w, (call_iff h).1 hc⟩
  · intro es ws hl
    obtain ⟨l1, l2⟩ := linear_iff hp hK hx h hl
    obtain ⟨o1, o2⟩ := ho es l1
    rw [l2] at o1 o2
    refine ⟨o1, fun c hc => ?_⟩
    obtain ⟨hn, hf⟩ := tasks_finished hK hx h hc
    exact o2 hn hf

end

section
variable (hK : K.Ok) (hx : x.Consistent) (h : M.Ok) {c : Nat} (hc : x.act (K.main, c) = some (.call (.executed M.b))) {es : List (Ev T)} {ws : List Work}
  (hl : M.Linear es ws)
include hK hx h hc hl

/-- C77: float matrices on AArch64. -/
theorem c77_float {A : Type} {t : NeonF.Flow.Task A} {m : NeonF.Flow.Mach A} {U : Tuning → Prop} (ht : NeonF.Flow.TaskOk t)
    (hm : MapFor (NeonF.Flow.shape t) p.bm) {ops : List (Tuning × Op)}
    (ho : NeonF.Flow.Tuned U ops (prepackCalls p.pre (colsOf (NeonF.Flow.shape t)) ++ ws.filterMap opOfWork)) :
    (∃ r, NeonF.Flow.Runs t ops m r) ∧
      ∀ r, NeonF.Flow.Runs t ops m r → ∃ m', r = .ok m' ∧ NeonF.Flow.Multiplied U t m m' := by
  have hp := fromMap_of hm
  obtain ⟨l1, l2⟩ := linear_iff hp hK hx h hl
  obtain ⟨hn, hf⟩ := tasks_finished hK hx h hc
  exact c75_float ht hm (tasks_ok hK hx h hp) (View.consistent hx) hn hf l1 (by rw [l2]; exact ho)

/-- C77: 8-bit matrices on AArch64 with the dot-product instructions. -/
theorem c77_dot {t : Neon.Flow.Task} {m : Neon.Flow.Mach} (ht : Neon.DFlow.TaskOk t) (hm : MapFor (Neon.Flow.shape t) p.bm)
    {ops : List (Tuning × Op)} (ho : ops.map (·.2) = prepackCalls p.pre (colsOf (Neon.Flow.shape t)) ++ ws.filterMap opOfWork) :
    (∃ r, Neon.DFlow.Runs t ops m r) ∧
      ∀ r, Neon.DFlow.Runs t ops m r → ∃ m', r = .ok m' ∧ Neon.DFlow.Multiplied t m m' := by
  have hp := fromMap_of hm
  obtain ⟨l1, l2⟩ := linear_iff hp hK hx h hl
  obtain ⟨hn, hf⟩ := tasks_finished hK hx h hc
  exact c75_dot ht hm (tasks_ok hK hx h hp) (View.consistent hx) hn hf l1 (by rw [l2]; exact ho)

/-- C77: 8-bit matrices on AArch64. -/
theorem c77_neon {t : Neon.Flow.Task} {m : Neon.Flow.Mach} (ht : Neon.Flow.TaskOk t) (hm : MapFor (Neon.Flow.shape t) p.bm)
    {ops : List (Bool × Op)} (ho : ops.map (·.2) = prepackCalls p.pre (colsOf (Neon.Flow.shape t)) ++ ws.filterMap opOfWork) :
    (∃ r, Neon.Flow.Runs t ops m r) ∧
      ∀ r, Neon.Flow.Runs t ops m r → ∃ m', r = .ok m' ∧ Neon.Flow.Multiplied t m m' := by
  have hp := fromMap_of hm
  obtain ⟨l1, l2⟩ := linear_iff hp hK hx h hl
  obtain ⟨hn, hf⟩ := tasks_finished hK hx h hc
  exact c75_neon ht hm (tasks_ok hK hx h hp) (View.consistent hx) hn hf l1 (by rw [l2]; exact ho)

/-- C77: integer matrices on x86. -/
theorem c77_x86 {P : Simd.Flow.Path} {ml : Int → Int → Int → Int} (hP : (P, ml) ∈ Simd.Flow.paths) {jb : Simd.Flow.Job} {m : TrMul.Mem Int}
    (ht : Simd.Flow.JobOk P.kernel.isa.kc jb m) (hm : MapFor m p.bm) :
    ∃ m', Simd.Flow.runOps P jb (prepackCalls p.pre ⟨m.packed.lhs.layout.cols, m.packed.rhs.layout.cols⟩ ++ ws.filterMap opOfWork) m = .ok m' ∧
      Simd.Flow.Multiplied ml jb m m' := by
  have hp := fromMap_of hm
  obtain ⟨l1, l2⟩ := linear_iff hp hK hx h hl
  obtain ⟨hn, hf⟩ := tasks_finished hK hx h hc
  have := c75_x86 hP ht hm (tasks_ok hK hx h hp) (View.consistent hx) hn hf l1
  rwa [l2] at this

end

/-! ### An execution

One worker and two tasks; the tasks do what they do in the example of C75.  `none` is other code of the program. -/

def exActs (k : Nat) : List (TAct Nat) × TS := if k = 0 then
    runTask Nat exProg 100 [2, 0, 2, 0, 2, 4, 2, 2, 6] [] ⟨.start 0, fun _ _ => false⟩
  else runTask Nat exProg 100 [3, 1, 0, 2, 1, 0, 2, 2, 2, 5, 0, 2, 7] [] ⟨.start 1, fun _ _ => false⟩

def exUser : TAct Nat → UAct Loc (Option Work)
  | .load o l v => .load o l v
  | .store o l v => .store o l v
  | .rmw o l v w => .rmw o l v w
  | .call c => .call (some c)
  | _ => .call none

def mulMain : List (In Loc (Option Work)) :=
  ([.status .lhs 0, .status .rhs 0, .status .rhs 1, .status .rhs 2, .status .rhs 3, .next] : List Loc).map
    (fun l => .code (.store .relaxed l (first 2 l))) ++
  [.go, .exec 2, .val 0, .go, .go, .go, .go, .val 0, .val 0, .go, .val ready, .val 0, .go, .go, .go] ++
  (exActs 0).1.map (.code ∘ exUser) ++
  [.go, .val 0, .go, .code (.call none), .bye, .val ready, .go, .val exit, .go]

def mulWork : List (In Loc (Option Work)) :=
  [.val 0, .go, .val 1, .val hasWork, .val (obj 0 1), .val (obj 0 1), .go] ++ (exActs 1).1.map (.code ∘ exUser) ++
  [.go, .go, .go, .val 1, .val exit, .val exit]

def mulOrder : List (Ev Nat) := turns
  (List.replicate 13 0 ++ List.replicate 3 1 ++ List.replicate 11 0 ++ List.replicate 16 1 ++ List.replicate 9 0 ++ List.replicate 9 1 ++
    List.replicate 4 0 ++ List.replicate 4 1 ++ List.replicate 6 0 ++ List.replicate 2 1 ++ List.replicate 2 0)

def mulM : List (MS × PAct Nat Loc (Option Work)) × MS := (play (mNext true (· + 1)) mulMain [] .init).getD ([], .init)
def mulW (w : Nat) : List (WS × PAct Nat Loc (Option Work)) × WS :=
  (play (wNext true w) (if w = 0 then mulWork else []) [] ⟨.fetch, 0⟩).getD ([], ⟨.fetch, 0⟩)

def mulTr : Nat → List (PAct Nat Loc (Option Work))
  | 0 => mulM.1.map (·.2)
  | w + 1 => (mulW w).1.map (·.2)

def mulX : Exec Nat (PLoc Loc) Nat (PCode (Option Work)) := Exec.interleave mulTr mulOrder

def mulK : Run mulX where
  main := 0
  wk := (· + 1)
  d := true
  ml := mulM.1
  ms := mulM.2
  wl w := (mulW w).1
  ws w := (mulW w).2

theorem mul_none {w : Nat} (hw : w ≠ 0) : (mulW w).1 = [] := by
  simp [mulW, hw, play]

theorem mul_consistent : mulX.Consistent := by
  refine (playsB_plays (n := 2) (fun t ht => ?_) (by decide +kernel)).consistent
  obtain ⟨w, rfl⟩ : ∃ w, t = w + 1 := ⟨t - 1, by omega⟩
  simp [mulTr, mul_none (show w ≠ 0 by omega)]

theorem mul_run : mulK.Ok where
  inj := fun h => by simpa [mulK] using h
  ne := by simp [mulK]
  main := play_getD (fun _ _ _ _ => mNext_step) _
  main_tr := rfl
  work := fun w => play_getD (R := WStep true (· + 1) w) (fun _ _ _ _ => wNext_step) _
  work_tr := fun _ => rfl
  spawned := fun w hw => by
    have : w = 0 := by
      by_contra c
      exact hw (mul_none c)
    subst this
    exact ⟨12, by decide +kernel⟩
  only := fun {e _ _} _ _ => by
    obtain ⟨t, i⟩ := e
    cases t with
    | zero => exact .inl rfl
    | succ w => exact .inr ⟨w, rfl⟩
  only_read := fun {e _ _} _ _ => by
    obtain ⟨t, i⟩ := e
    cases t with
    | zero => exact .inl rfl
    | succ w => exact .inr ⟨w, rfl⟩

def exMul : Mul mulK exProg where
  b := 0
  n := 2
  a := 7
  addr := id
  code := some
  init l := match l with
    | .status .lhs _ => 0
    | .status .rhs b => b + 1
    | .next => 5
  acts k := (exActs k).1
  ts k := (exActs k).2

theorem mul_at {k j : Nat} (hk : k < 2) (hj : mulX.act (mulK.runner k, j) = some (.call (.enter (obj 0 k)))) :
    (k = 0 ∧ j = 20) ∨ (k = 1 ∧ j = 6) := by
  obtain rfl | rfl : k = 0 ∨ k = 1 := by omega
  · have := c76_at_most_once mul_run mul_consistent (e := (0, j)) (e' := (0, 20)) (.inl rfl) (.inl rfl) hj (by decide +kernel)
    exact .inl ⟨rfl, congrArg Prod.snd this⟩
  · have := c76_at_most_once mul_run mul_consistent (e := (1, j)) (e' := (1, 6)) (.inr ⟨0, rfl⟩) (.inr ⟨0, rfl⟩) hj (by decide +kernel)
    exact .inr ⟨rfl, congrArg Prod.snd this⟩

theorem mul_in {k i : Nat} (hk : k < 2) (hi : i < if k = 0 then 15 else 21) : exMul.In (k, (if k = 0 then 21 else 7) + i) := by
  obtain rfl | rfl : k = 0 ∨ k = 1 := by omega
  · simp only [if_true] at hi
    have h1 : ∀ i, i < 15 → mulX.act (0, 21 + i) ≠ none ∧ mulX.act (0, 21 + i) ≠ some (.call (.leave (obj 0 0))) := by decide +kernel
    refine ⟨0, by decide, rfl, (h1 i hi).1, 20, by simp only [if_true]; omega, by decide +kernel, fun j h2 h3 => ?_⟩
    simp only [if_true] at h3
    obtain ⟨r, rfl⟩ : ∃ r, j = 21 + r := ⟨j - 21, by omega⟩
    exact (h1 r (by omega)).2
  · have hi : i < 21 := hi
    have h1 : ∀ i, i < 21 → mulX.act (1, 7 + i) ≠ none ∧ mulX.act (1, 7 + i) ≠ some (.call (.leave (obj 0 1))) := by decide +kernel
    refine ⟨1, by decide, rfl, (h1 i hi).1, 6, by show 6 < 7 + i; omega, by decide +kernel, fun j h2 h3 => ?_⟩
    have h3 : j ≤ 7 + i := h3
    obtain ⟨r, rfl⟩ : ∃ r, j = 7 + r := ⟨j - 7, by omega⟩
    exact (h1 r (by omega)).2

theorem mul_ok : exMul.Ok where
  execute := by decide +kernel
  addr_inj _ _ e := e
  code_inj e := Option.some.inj e
  init l hl := by
    rcases ex_used hl with rfl | rfl | rfl | rfl | rfl | rfl <;> exact ⟨by decide, .relaxed, by decide +kernel⟩
  run k hk := by
    have hk : k < 2 := hk
    obtain rfl | rfl : k = 0 ∨ k = 1 := by omega
    · show Steps Nat exProg 0 (exActs 0).1 (exActs 0).2
      unfold exActs
      rw [if_pos rfl]
      exact runTask_steps 100 _ .start
    · show Steps Nat exProg 1 (exActs 1).1 (exActs 1).2
      unfold exActs
      rw [if_neg (by decide)]
      exact runTask_steps 100 _ .start
  idle k hk hn := by
    have hk : k < 2 := hk
    obtain rfl | rfl : k = 0 ∨ k = 1 := by omega
    · exact absurd (by decide +kernel) (hn 20)
    · exact absurd (by decide +kernel) (hn 6)
  body k j hk hj := by
    rcases mul_at hk hj with ⟨rfl, rfl⟩ | ⟨rfl, rfl⟩
    · exact ⟨by decide +kernel, .inr ⟨by decide +kernel, by decide +kernel⟩⟩
    · exact ⟨by decide +kernel, .inr ⟨by decide +kernel, by decide +kernel⟩⟩
  only e l v hl hw := by
    have hw := Exec.writes_iff.1 hw
    have h0 : ∀ i, i < 45 → (match (mulX.act (0, i)).bind Exec.wr with
        | some (.user l, _) => (21 ≤ i && i < 36) || i == exMul.init l
        | _ => true) = true := by decide +kernel
    have h1 : ∀ i, i < 34 → (match (mulX.act (1, i)).bind Exec.wr with
        | some (.user _, _) => 7 ≤ i && i < 28
        | _ => true) = true := by decide +kernel
    have n0 : (mulTr 0).length = 45 := by decide +kernel
    have n1 : (mulTr 1).length = 34 := by decide +kernel
    obtain ⟨t, i⟩ := e
    have hi : i < (mulTr t).length := (Exec.writes_iff.2 hw).lt
    obtain rfl | rfl | ⟨w, w0, rfl⟩ : t = 0 ∨ t = 1 ∨ ∃ w, w ≠ 0 ∧ t = w + 1 := by
      rcases t with _ | _ | t
      · exact .inl rfl
      · exact .inr (.inl rfl)
      · exact .inr (.inr ⟨t + 1, by omega, rfl⟩)
    · have := h0 i (by omega)
      rw [hw] at this
      simp only [Bool.or_eq_true, Bool.and_eq_true, decide_eq_true_eq, beq_iff_eq] at this
      rcases this with c | c
      · have := mul_in (k := 0) (i := i - 21) (by decide) (by simp only [if_true]; omega)
        simp only [if_true, Nat.add_sub_cancel' c.1] at this
        exact .inr (.inl this)
      · exact .inl (by rw [c]; rfl)
    · have := h1 i (by omega)
      rw [hw] at this
      simp only [Bool.and_eq_true, decide_eq_true_eq] at this
      have h2 : exMul.In (1, 7 + (i - 7)) := mul_in (k := 1) (i := i - 7) (by decide) (by show i - 7 < 21; omega)
      rw [Nat.add_sub_cancel' this.1] at h2
      exact .inr (.inl h2)
    · simp [mulTr, mul_none w0] at hi

/-- What the program accesses: the tasks as in `foot`, other code everything. -/
def exFoot : Foot (PCode (Option Work)) Data where
  reads c d := match c with
    | .user (some w) => foot.reads w d
    | _ => False
  writes c d := match c with
    | .user (some w) => foot.writes w d
    | .user none => True
    | _ => False

/-- Thread 1 packs block 2 of the right side, thread 0 uses it; later thread 0 writes to everything. -/
example : mulX.act (1, 16) = some (.call (.user (some (.pack .rhs 2 64 96)))) ∧
    mulX.act (0, 35) = some (.call (.user (some (.kernel 2 ⟨0, 2⟩ ⟨0, 64⟩ ⟨16, 96⟩)))) ∧ mulX.act (0, 39) = some (.call (.user none)) :=
  ⟨by decide +kernel, by decide +kernel, by decide +kernel⟩

example : ¬mulX.DataRace exFoot (1, 16) (0, 35) ∧ ¬mulX.DataRace exFoot (1, 16) (0, 39) :=
  have h1 : exMul.Around (1, 16) := .inr (.inl (mul_in (k := 1) (i := 9) (by decide) (by decide)))
  ⟨c77_no_race ex_map mul_run mul_consistent mul_ok (F := exFoot) (fun _ _ h => h) h1
      (.inr (.inl (mul_in (k := 0) (i := 14) (by decide) (by decide)))),
    c77_no_race ex_map mul_run mul_consistent mul_ok (F := exFoot) (fun _ _ h => h) h1
      (.inr (.inr ⟨38, by decide +kernel, rfl, by decide⟩))⟩

example : (exMul.ts 1).pc ≠ .failed := c77_no_failure ex_map mul_run mul_consistent mul_ok (by decide)

example : ∃ q, exMul.In q ∧ mulX.act q = some (.call (.user (some (.pack .rhs 2 64 96)))) ∧ mulX.Hb q (0, 35) :=
  ((((c77_once ex_map mul_run mul_consistent mul_ok).2 (0, 35) 2 ⟨0, 2⟩ ⟨0, 64⟩ ⟨16, 96⟩ (mul_in (k := 0) (i := 14) (by decide) (by decide))
    (by decide +kernel)).2.2) .rhs).2 rfl

theorem mul_executed : mulX.act (mulK.main, 38) = some (.call (.executed exMul.b)) := by decide +kernel

example : ∃ e block start stop, exMul.In e ∧ mulX.act e = some (.call (.user (some (.kernel 3 block start stop)))) ∧
    mulX.Hb (0, 7) e ∧ mulX.Hb e (0, 38) :=
  c77_complete ex_map mul_run mul_consistent mul_ok mul_executed (N := 4) (by decide +kernel) (by decide)

/-- The hypotheses of `c77_order` and `c77_float`: any order of the calls, A55 cores and X1 cores together. -/
example {A : Type} (dot : Bool) (o : NeonF.Ops A) (lo hi : A) (m : NeonF.Flow.Mach A) : ∃ es ws, exMul.Linear es ws ∧
    ∀ ops : List (Tuning × Op), NeonF.Flow.Tuned (fun u => u = .x1 ∨ u = .a55ish) ops (prepackCalls ⟨false, false⟩ ⟨16, 128⟩ ++ ws.filterMap opOfWork) →
    ∃ m', NeonF.Flow.Runs (NeonF.Flow.exTask2 dot o lo hi) ops m (.ok m') ∧
      NeonF.Flow.Multiplied (fun u => u = .x1 ∨ u = .a55ish) (NeonF.Flow.exTask2 dot o lo hi) m m' := by
  obtain ⟨k, kd, g, _⟩ := NeonF.Flow.gridOk_of (NeonF.Flow.exTask2_ok dot o lo hi) (NeonF.Flow.exMapFor dot o lo hi)
  obtain ⟨⟨es, ws, hl⟩, _⟩ := c77_order ex_map mul_run mul_consistent mul_ok g (fun s =>
    (NeonF.Flow.prepack_ok (pre := ⟨true, true⟩) (NeonF.Flow.exTask2_ok dot o lo hi) g).order.packs s 0 _ (by cases s <;> simp [prepackCalls]))
  refine ⟨es, ws, hl, fun ops ho => ?_⟩
  obtain ⟨⟨r, hr⟩, hv⟩ := c77_float mul_run mul_consistent mul_ok mul_executed hl (m := m) (NeonF.Flow.exTask2_ok dot o lo hi)
    (NeonF.Flow.exMapFor dot o lo hi) ho
  obtain ⟨m', rfl, h⟩ := hv r hr
  exact ⟨m', hr, h⟩

/-- The hypotheses of `c77_dot`. -/
example (dt : Neon.Dt) (m : Neon.Flow.Mach) {es : List (Ev Nat)} {ws : List Work} (hl : exMul.Linear es ws) {ops : List (Tuning × Op)}
    (ho : ops.map (·.2) = prepackCalls ⟨false, false⟩ ⟨16, 128⟩ ++ ws.filterMap opOfWork) :
    ∃ m', Neon.DFlow.Runs (Neon.DFlow.exTask2 dt) ops m (.ok m') ∧ Neon.DFlow.Multiplied (Neon.DFlow.exTask2 dt) m m' := by
  obtain ⟨⟨r, hr⟩, hv⟩ := c77_dot mul_run mul_consistent mul_ok mul_executed hl (m := m) (Neon.DFlow.exTask2_ok dt) (Neon.DFlow.exMapFor dt) ho
  obtain ⟨m', rfl, h⟩ := hv r hr
  exact ⟨m', hr, h⟩

/-! ### Execute with one task: no worker is needed -/

section One
variable (is : List Loc) (acts : List (TAct Nat))

def oneMain : List (In Loc (Option Work)) :=
  is.map (fun l => .code (.store .relaxed l (first 1 l))) ++ [.go, .exec 1, .go] ++ acts.map (.code ∘ exUser) ++ [.go, .go]

def oneM : List (MS × PAct Nat Loc (Option Work)) × MS := (play (mNext true (· + 1)) (oneMain is acts) [] .init).getD ([], .init)

def oneTr : Nat → List (PAct Nat Loc (Option Work))
  | 0 => (oneM is acts).1.map (·.2)
  | _ + 1 => []

def oneX : Exec Nat (PLoc Loc) Nat (PCode (Option Work)) :=
  Exec.interleave (oneTr is acts) ((List.range (is.length + acts.length + 5)).map fun i => (0, i))

def oneK : Run (oneX is acts) where
  main := 0
  wk := (· + 1)
  d := true
  ml := (oneM is acts).1
  ms := (oneM is acts).2
  wl _ := []
  ws _ := ⟨.fetch, 0⟩

theorem one_run : (oneK is acts).Ok where
  inj := fun h => by simpa [oneK] using h
  ne := by simp [oneK]
  main := play_getD (fun _ _ _ _ => mNext_step) _
  main_tr := rfl
  work := fun _ => .nil
  work_tr := fun _ => rfl
  spawned := fun w hw => (hw rfl).elim
  only := fun {e _ _} _ _ => by
    obtain ⟨t, i⟩ := e
    cases t with
    | zero => exact .inl rfl
    | succ w => exact .inr ⟨w, rfl⟩
  only_read := fun {e _ _} _ _ => by
    obtain ⟨t, i⟩ := e
    cases t with
    | zero => exact .inl rfl
    | succ w => exact .inr ⟨w, rfl⟩

def oneMul (q : Prog) (ts : TS) : Mul (oneK is acts) q where
  b := 0
  n := 1
  a := is.length + 1
  addr := id
  code := some
  init l := is.idxOf l
  acts _ := acts
  ts _ := ts

/-- What is left to compute. -/
def oneB (q : Prog) (ts : TS) : Bool :=
  (oneX is acts).act (0, is.length + 1) = some (.call (.execute 0 1)) &&
  (oneX is acts).act (0, is.length + 2) = some (.call (.enter (obj 0 0))) &&
  (oneX is acts).act (0, is.length + 3 + acts.length) = some (.call (.leave (obj 0 0))) &&
  ts.pc = .done &&
  is.all (fun l => (oneX is acts).act (0, is.idxOf l) = some (.store .relaxed (.user l) (first 1 l))) &&
  (List.range acts.length).all (fun i => (oneX is acts).act (0, is.length + 3 + i) = (acts[i]?).map (oneMul is acts q ts).lift) &&
  (List.range (oneTr is acts 0).length).all fun i => match ((oneX is acts).act (0, i)).bind Exec.wr with
    | some (.user l, _) => (is.length + 3 ≤ i && i < is.length + 3 + acts.length) || i == is.idxOf l
    | _ => true

variable {is acts}

theorem one_ok {q : Prog} {ts : TS} (hx : (oneX is acts).Consistent) (h : Steps Nat q 0 acts ts) (hi : ∀ l, Used q l → l ∈ is)
    (hb : oneB is acts q ts = true) : (oneMul is acts q ts).Ok := by
  simp only [oneB, Bool.and_eq_true, decide_eq_true_eq, List.all_eq_true, List.mem_range] at hb
  obtain ⟨⟨⟨⟨⟨⟨b1, b2⟩, b3⟩, b4⟩, b5⟩, b6⟩, b7⟩ := hb
  have at2 : ∀ {k j}, k < 1 → (oneX is acts).act ((oneK is acts).runner k, j) = some (.call (.enter (obj 0 k))) → k = 0 ∧ j = is.length + 2 := by
    intro k j hk hj
    obtain rfl : k = 0 := by omega
    have := c76_at_most_once (one_run is acts) hx (e := (0, j)) (e' := (0, is.length + 2)) (.inl rfl) (.inl rfl) hj b2
    exact ⟨rfl, congrArg Prod.snd this⟩
  refine ⟨b1, fun _ _ e => e, fun e => Option.some.inj e, fun l hl => ⟨?_, _, b5 l (hi l hl)⟩, fun k hk => ?_, fun k hk hn => ?_,
    fun k j hk hj => ?_, fun e l v hl hw => ?_⟩
  · have := List.idxOf_lt_length_of_mem (hi l hl)
    show is.idxOf l < is.length + 1
    omega
  · have hk : k < 1 := hk
    obtain rfl : k = 0 := by omega
    exact h
  · have hk : k < 1 := hk
    obtain rfl : k = 0 := by omega
    exact absurd b2 (hn _)
  · obtain ⟨rfl, rfl⟩ := at2 hk hj
    exact ⟨b6, .inr ⟨b3, b4⟩⟩
  · obtain ⟨t, i⟩ := e
    have hlt : i < (oneTr is acts t).length := hw.lt
    have hw' := Exec.writes_iff.1 hw
    cases t with
    | succ w => simp [oneTr] at hlt
    | zero =>
      have := b7 i hlt
      rw [hw'] at this
      simp only [Bool.or_eq_true, Bool.and_eq_true, decide_eq_true_eq, beq_iff_eq] at this
      rcases this with c | c
      · refine .inr (.inl ⟨0, Nat.one_pos, rfl, hw.some, is.length + 2, by show _ < i; omega, b2, fun j h1 h2 => ?_⟩)
        have h2 : j ≤ i := h2
        obtain ⟨r, rfl⟩ : ∃ r, j = is.length + 3 + r := ⟨j - (is.length + 3), by omega⟩
        have hr : r < acts.length := by omega
        show (oneX is acts).act (0, is.length + 3 + r) ≠ _
        rw [b6 r hr, List.getElem?_eq_getElem hr]
        simpa using lift_ne _ _
      · exact .inl (by rw [c]; rfl)

end One

def oneX86 : List (TAct Nat) × TS := runTask Nat x86Prog 100 [1, 0, 2, 0, 2, 2, 0, 2] [] ⟨.start 0, fun _ _ => false⟩

theorem oneX86_consistent : (oneX x86Locs oneX86.1).Consistent :=
  (playsB_plays (n := 1) (fun t ht => by cases t with
    | zero => omega
    | succ t => rfl) (by decide +kernel)).consistent

theorem oneX86_ok : (oneMul x86Locs oneX86.1 x86Prog oneX86.2).Ok :=
  one_ok oneX86_consistent (runTask_steps 100 _ .start) (fun _ => x86_used) (by decide +kernel)

/-- The hypotheses of `c77_x86`. -/
example {es : List (Ev Nat)} {ws : List Work} (hl : (oneMul x86Locs oneX86.1 x86Prog oneX86.2).Linear es ws) :
    ∃ m', Simd.Flow.runOps Simd.Flow.path2 (Simd.Flow.exJob2 .int32) (prepackCalls ⟨false, false⟩ ⟨8, 128⟩ ++ ws.filterMap opOfWork)
      Simd.Flow.exMem2 = .ok m' ∧ Simd.Flow.Multiplied Simd.lane (Simd.Flow.exJob2 .int32) Simd.Flow.exMem2 m' :=
  c77_x86 (one_run _ _) oneX86_consistent oneX86_ok (c := x86Locs.length + 3 + oneX86.1.length + 1) (by decide +kernel) hl
    (P := Simd.Flow.path2) (by simp [Simd.Flow.paths]) (Simd.Flow.exOk2 (by decide)) Simd.Flow.exMapFor

def oneNeon : List (TAct Nat) × TS := runTask Nat neonProg 100 [1, 0, 2, 3, 4, 5, 6, 7, 8] [] ⟨.start 0, fun _ _ => false⟩

theorem oneNeon_consistent : (oneX neonLocs oneNeon.1).Consistent :=
  (playsB_plays (n := 1) (fun t ht => by cases t with
    | zero => omega
    | succ t => rfl) (by decide +kernel)).consistent

theorem oneNeon_ok : (oneMul neonLocs oneNeon.1 neonProg oneNeon.2).Ok :=
  one_ok oneNeon_consistent (runTask_steps 100 _ .start) (fun _ => neon_used) (by decide +kernel)

/-- The hypotheses of `c77_neon`. -/
example (dt : Neon.Dt) (m : Neon.Flow.Mach) {es : List (Ev Nat)} {ws : List Work} (hl : (oneMul neonLocs oneNeon.1 neonProg oneNeon.2).Linear es ws)
    {ops : List (Bool × Op)} (ho : ops.map (·.2) = prepackCalls ⟨false, true⟩ ⟨8, 128⟩ ++ ws.filterMap opOfWork) :
    ∃ m', Neon.Flow.Runs (Neon.Flow.exTask2 dt) ops m (.ok m') ∧ Neon.Flow.Multiplied (Neon.Flow.exTask2 dt) m m' := by
  obtain ⟨⟨r, hr⟩, hv⟩ := c77_neon (one_run _ _) oneNeon_consistent oneNeon_ok (c := neonLocs.length + 3 + oneNeon.1.length + 1) (by decide +kernel) hl
    (m := m) (Neon.Flow.exTask2_ok dt) (Neon.Flow.exMapFor dt) ho
  obtain ⟨m', rfl, h⟩ := hv r hr
  exact ⟨m', hr, h⟩

end Ruy.Race.Pool

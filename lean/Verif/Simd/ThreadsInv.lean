import Verif.Simd.ThreadsLemmas
/-
Several threads on the x86 paths: the calls of every execution, in the order in which they return.
-/
namespace Ruy.Simd.Flow
open Ruy.Mat Ruy.Mul Ruy.BlockMap
open Ruy.TrMul (Mem setSide Cfg State Seq Grid MapFor PC Locals Call setPC setStatus setLocal afterTry enterKernel tryCas
  stepHead stepAhead stepPacking stepConfirm stepKernel rowEnd)

section
variable {A : Type} {cfg : Cfg A} {s s' : State A} {t : Nat}

/-! ### What one step changes -/

/-- Relevant changes of a step which performs no call: the thread keeps its blocks. -/
structure Quiet (s s' : State A) (t : Nat) (e : Locals) : Prop where
  counter : s'.counter = s.counter
  others : ∀ u, u ≠ t → s'.pc u = s.pc u
  ids : (s'.pc t).ids = [e.bid, e.next]
  status : ∀ sd b, s'.status sd b = .finished → s.status sd b = .finished

theorem setPC_self (s : State A) (t : Nat) (p : PC) : (setPC s t p).pc t = p := by simp [setPC]
theorem setPC_other (s : State A) {t u : Nat} (h : u ≠ t) (p : PC) : (setPC s t p).pc u = s.pc u := by
  simp [setPC, h]

theorem quiet_setPC (e : Locals) {p : PC} (hp : p.ids = [e.bid, e.next]) : Quiet s (setPC s t p) t e :=
  ⟨rfl, fun _ h => setPC_other s h p, by rw [setPC_self, hp], fun _ _ h => h⟩

theorem afterTry_quiet {e : Locals} {c : Call} {sd : Side} {ok : Bool}
    (h : afterTry s t e c sd ok = .ok s') : Quiet s s' t e := by
  unfold afterTry at h
  split at h
  · cases h; exact quiet_setPC e rfl
  · cases h; exact quiet_setPC e rfl
  · split at h
    · unfold enterKernel at h
      obtain ⟨_, _, h⟩ := C.bind_ok h
      obtain ⟨_, _, h⟩ := C.bind_ok h
      cases h
      exact ⟨rfl, fun _ h => setPC_other s h _, by
        show ((setPC s t _).pc t).ids = _
        rw [setPC_self]; rfl, fun _ _ h => h⟩
    · cases h; exact quiet_setPC e rfl

theorem setStatus_finished {f : Side → Nat → TrMul.Status} {sd sd' : Side} {b b' : Nat} {x : TrMul.Status}
    (h : setStatus f sd b x sd' b' = .finished) :
    f sd' b' = .finished ∨ (sd' = sd ∧ b' = b ∧ x = .finished) := by
  unfold setStatus at h
  by_cases h1 : sd' = sd
  · subst h1
    rw [Function.update_self] at h
    by_cases h2 : b' = b
    · subst h2
      rw [Function.update_self] at h
      exact Or.inr ⟨rfl, rfl, h⟩
    · rw [Function.update_of_ne h2] at h
      exact Or.inl h
  · rw [Function.update_of_ne h1] at h
    exact Or.inl h

theorem tryCas_quiet {e : Locals} {c : Call} {sd : Side} {b lo hi : Nat}
    (h : tryCas s t e c sd b lo hi = .ok s') : Quiet s s' t e := by
  unfold tryCas at h
  split at h
  · obtain ⟨_, _, h⟩ := C.bind_ok h
    cases h
    refine ⟨rfl, fun _ h => setPC_other s h _, by
      show ((setPC s t _).pc t).ids = _
      rw [setPC_self]; rfl, fun sd' b' h => ?_⟩
    rcases setStatus_finished h with h | ⟨_, _, h⟩
    · exact h
    · cases h
  · exact afterTry_quiet h
  · cases h; exact quiet_setPC e rfl

theorem tryPack_quiet {e : Locals} {c : Call} {sd : Side} {b lo hi : Nat}
    (h : TrMul.tryPack cfg s t e c sd b lo hi = .ok s') : Quiet s s' t e := by
  unfold TrMul.tryPack at h
  split at h
  · exact afterTry_quiet h
  · obtain ⟨_, _, h⟩ := C.bind_ok h
    obtain ⟨_, _, h⟩ := C.bind_ok h
    split at h
    · exact afterTry_quiet h
    · exact tryCas_quiet h

/-- A step of thread `t`. -/
inductive Kind (cfg : Cfg A) (s s' : State A) (t : Nat) : Prop
  /-- takes a block -/
  | head (b n : Nat) : s.pc t = .head b → numBlocks cfg.bm = .ok n → b < n →
      s'.counter = s.counter + 1 → (∀ u, u ≠ t → s'.pc u = s.pc u) → (s'.pc t).ids = [b, s.counter] →
      s'.status = s.status → Kind cfg s s' t
  /-- leaves the loop -/
  | exit (b n : Nat) : s.pc t = .head b → numBlocks cfg.bm = .ok n → n ≤ b →
      s'.counter = s.counter → (∀ u, u ≠ t → s'.pc u = s.pc u) → s'.status = s.status → Kind cfg s s' t
  /-- keeps its blocks, no call returns -/
  | quiet (e : Locals) : (s.pc t).ids = [e.bid, e.next] → Quiet s s' t e →
      (∀ e' c sd b col stop, s.pc t = .packing e' c sd b col stop → col < stop) →
      (∀ e' i j, s.pc t = .kernel e' i j → i < rowEnd s e') → Kind cfg s s' t
  /-- RunPack returns -/
  | packed (e : Locals) (c : Call) (sd : Side) (b col stop : Nat) : s.pc t = .packing e c sd b col stop →
      ¬ col < stop → s'.counter = s.counter → (∀ u, u ≠ t → s'.pc u = s.pc u) →
      (s'.pc t).ids = [e.bid, e.next] → s'.status = setStatus s.status sd b .finished → Kind cfg s s' t
  /-- RunKernel returns -/
  | computed (e : Locals) (i j : Nat) : s.pc t = .kernel e i j → ¬ i < rowEnd s e → s'.counter = s.counter →
      (∀ u, u ≠ t → s'.pc u = s.pc u) → (s'.pc t).ids = [e.next] → s'.status = s.status → Kind cfg s s' t
  /-- has returned before -/
  | done : s.pc t = .done → s' = s → Kind cfg s s' t

theorem step_kind (h : TrMul.step cfg s t = .ok s') : Kind cfg s s' t := by
  unfold TrMul.step at h
  split at h
  · rename_i b hpc
    unfold stepHead at h
    obtain ⟨n, hn, h⟩ := C.bind_ok h
    split at h
    · rename_i hb
      obtain ⟨blk, _, h⟩ := C.bind_ok h
      obtain ⟨l, _, h⟩ := C.bind_ok h
      obtain ⟨r, _, h⟩ := C.bind_ok h
      cases h
      refine .head b n hpc hn hb rfl (fun _ h => setPC_other s h _) ?_ rfl
      show ((setPC s t _).pc t).ids = _
      rw [setPC_self]; rfl
    · cases h
      exact .exit b n hpc hn (by omega) rfl (fun _ h => setPC_other s h _) rfl
  · rename_i e sd both hpc
    refine .quiet e (by rw [hpc]; rfl) (tryPack_quiet h) ?_ ?_ <;> intros <;> rename_i hc <;>
      rw [hpc] at hc <;> cases hc
  · rename_i e hpc
    refine .quiet e (by rw [hpc]; rfl) ?_ ?_ ?_
    · unfold stepAhead at h
      dsimp only at h
      obtain ⟨n, _, h⟩ := C.bind_ok h
      split at h
      · cases h
        exact quiet_setPC e rfl
      · obtain ⟨x, _, h⟩ := C.bind_ok h
        have q := tryPack_quiet h
        exact ⟨q.counter, q.others, q.ids, q.status⟩
    all_goals intros; rename_i hc; rw [hpc] at hc; cases hc
  · rename_i e c sd b col stop hpc
    unfold stepPacking at h
    split at h
    · rename_i hlt
      obtain ⟨p, _, h⟩ := C.bind_ok h
      cases h
      refine .quiet e (by rw [hpc]; rfl) ⟨rfl, fun _ h => setPC_other s h _, ?_, fun _ _ h => h⟩ ?_ ?_
      · show ((setPC s t _).pc t).ids = _
        rw [setPC_self]; rfl
      · intro _ _ _ _ _ _ hc; rw [hpc] at hc; cases hc; exact hlt
      · intro _ _ _ hc; rw [hpc] at hc; cases hc
    · rename_i hlt
      cases h
      refine .packed e c sd b col stop hpc hlt rfl (fun _ h => setPC_other s h _) ?_ rfl
      show ((setPC s t _).pc t).ids = _
      rw [setPC_self]; rfl
  · rename_i e c sd b hpc
    unfold stepConfirm at h
    obtain ⟨_, _, h⟩ := C.bind_ok h
    have q := afterTry_quiet h
    refine .quiet e (by rw [hpc]; rfl) ⟨q.counter, q.others, q.ids, q.status⟩ ?_ ?_ <;> intros <;>
      rename_i hc <;> rw [hpc] at hc <;> cases hc
  · rename_i e i j hpc
    unfold stepKernel at h
    split at h
    · rename_i hlt
      have fin : ∀ e' i' j', s.pc t = .kernel e' i' j' → i' < rowEnd s e' := by
        intro _ _ _ hc; rw [hpc] at hc; cases hc; exact hlt
      have nop : ∀ e' c sd b col stop, s.pc t = .packing e' c sd b col stop → col < stop := by
        intro _ _ _ _ _ _ hc; rw [hpc] at hc; cases hc
      split at h
      · obtain ⟨d, _, h⟩ := C.bind_ok h
        cases h
        refine .quiet e (by rw [hpc]; rfl) ⟨rfl, fun _ h => setPC_other s h _, ?_, fun _ _ h => h⟩ nop fin
        show ((setPC s t _).pc t).ids = _
        rw [setPC_self]; rfl
      · cases h
        exact .quiet e (by rw [hpc]; rfl) (quiet_setPC e rfl) nop fin
    · rename_i hlt
      cases h
      refine .computed e i j hpc hlt rfl (fun _ h => setPC_other s h _) ?_ rfl
      rw [setPC_self]; rfl
  · rename_i hpc
    cases h
    exact .done hpc rfl

end

/-! ### The trace of an execution -/

section
variable {P : Path} {ml : Int → Int → Int → Int} {jb : Job} {pre : SidePair Bool} {m : Mem Int} {bm : BlockMap}
  {n kd : SidePair Nat} {threads : Nat}

/-- The state of an execution, seen through its trace. -/
structure RunOk (P : Path) (jb : Job) (pre : SidePair Bool) (bm : BlockMap) (n : SidePair Nat) (threads : Nat)
    (m : Mem Int) (ops : List Op) (x : XState) : Prop where
  ctl : TrMul.Inv (control pre bm threads) n (shape m) x.ctl
  trace : Trace P jb pre m ops x.mem
  packed : ∀ (sd : Side) b, b < n.get sd → x.ctl.status sd b = .finished → HasPack bm ops sd b
  done : ∀ id, id < x.ctl.counter → id < n.lhs * n.rhs →
    (∃ t, id ∈ (x.ctl.pc t).ids) ∨ HasKernel bm ops id

theorem done_mono {ops : List Op} {s s' : State Unit} {t : Nat}
    (h : ∀ id, id < s.counter → id < n.lhs * n.rhs → (∃ t, id ∈ (s.pc t).ids) ∨ HasKernel bm ops id)
    (hc : s'.counter = s.counter) (ho : ∀ u, u ≠ t → s'.pc u = s.pc u) {ops' : List Op}
    (hk : ∀ id, HasKernel bm ops id → HasKernel bm ops' id)
    (hid : ∀ id, id ∈ (s.pc t).ids → id < n.lhs * n.rhs → id ∈ (s'.pc t).ids ∨ HasKernel bm ops' id) :
    ∀ id, id < s'.counter → id < n.lhs * n.rhs → (∃ t, id ∈ (s'.pc t).ids) ∨ HasKernel bm ops' id := by
  intro id h1 h2
  rw [hc] at h1
  rcases h id h1 h2 with ⟨u, hu⟩ | hd
  · by_cases hut : u = t
    · subst hut
      exact (hid id hu h2).imp (fun h => ⟨u, h⟩) (fun h => h)
    · exact Or.inl ⟨u, by rw [ho u hut]; exact hu⟩
  · exact Or.inr (hk id hd)

theorem shape_get (m : Mem Int) (sd : Side) : (shape m).packed.get sd = shapeP (m.packed.get sd) := by
  cases sd <;> rfl

theorem xstep_of (hP : (P, ml) ∈ paths) (h : JobOk P.kernel.isa.kc jb m)
    (hm : MapOk P.kernel.isa.kc m bm n kd) (su : TrMul.Setup (control pre bm threads) (shape m) n)
    (tot : ∀ s, TrMul.Inv (control pre bm threads) n (shape m) s → ∀ t, ∃ s', TrMul.step (control pre bm threads) s t = .ok s')
    {ops : List Op} {x : XState} (ok : RunOk P jb pre bm n threads m ops x) (t : Nat) :
    ∃ x' ops', xstep P jb (control pre bm threads) x t = .ok x' ∧ RunOk P jb pre bm n threads m ops' x' := by
  obtain ⟨s', hs⟩ := tot x.ctl ok.ctl t
  have hinv := TrMul.step_inv su ok.ctl hs
  have pcok := ok.ctl.pc t
  have none_of : returning bm x.ctl t = .ok none → ∀ (hpk : ∀ (sd : Side) b, b < n.get sd → s'.status sd b = .finished → HasPack bm ops sd b)
      (hdn : ∀ id, id < s'.counter → id < n.lhs * n.rhs → (∃ t, id ∈ (s'.pc t).ids) ∨ HasKernel bm ops id),
      ∃ x' ops', xstep P jb (control pre bm threads) x t = .ok x' ∧ RunOk P jb pre bm n threads m ops' x' := by
    intro hr hpk hdn
    refine ⟨⟨s', x.mem⟩, ops, ?_, hinv, ok.trace, hpk, hdn⟩
    unfold xstep
    rw [show (control pre bm threads).bm = bm from rfl, hr, C.ok_bind]
    unfold perform
    rw [C.ok_bind, hs, C.ok_bind]
  have some_of : ∀ o m', returning bm x.ctl t = .ok (some o) → step P jb x.mem o = .ok m' →
      Trace P jb pre m (ops ++ [o]) m' → ∀ (hpk : ∀ (sd : Side) b, b < n.get sd → s'.status sd b = .finished → HasPack bm (ops ++ [o]) sd b)
      (hdn : ∀ id, id < s'.counter → id < n.lhs * n.rhs → (∃ t, id ∈ (s'.pc t).ids) ∨ HasKernel bm (ops ++ [o]) id),
      ∃ x' ops', xstep P jb (control pre bm threads) x t = .ok x' ∧ RunOk P jb pre bm n threads m ops' x' := by
    intro o m' hr he tr hpk hdn
    refine ⟨⟨s', m'⟩, ops ++ [o], ?_, hinv, tr, hpk, hdn⟩
    unfold xstep
    rw [show (control pre bm threads).bm = bm from rfl, hr, C.ok_bind]
    rw [show perform P jb x.mem (some o) = .ok m' from he, C.ok_bind, hs, C.ok_bind]
  cases step_kind hs with
  | head b N hpc hn hb hc ho hi hst =>
    refine none_of (by unfold returning; rw [hpc]) (fun sd b' hb' hf => ok.packed sd b' hb' (by rw [← hst]; exact hf))
      (fun id h1 h2 => ?_)
    by_cases hid : id = x.ctl.counter
    · exact Or.inl ⟨t, by rw [hi, hid]; simp⟩
    · rcases ok.done id (by omega) h2 with ⟨u, hu⟩ | hd
      · by_cases hut : u = t
        · subst hut
          rw [hpc] at hu
          simp only [PC.ids, List.mem_cons, List.not_mem_nil, or_false] at hu
          exact Or.inl ⟨u, by rw [hi, hu]; simp⟩
        · exact Or.inl ⟨u, by rw [ho u hut]; exact hu⟩
      · exact Or.inr hd
  | exit b N hpc hn hb hc ho hst =>
    refine none_of (by unfold returning; rw [hpc]) (fun sd b' hb' hf => ok.packed sd b' hb' (by rw [← hst]; exact hf))
      (done_mono ok.done hc ho (fun _ h => h) (fun id hid hlt => ?_))
    rw [hpc] at hid
    simp only [PC.ids, List.mem_cons, List.not_mem_nil, or_false] at hid
    have := hm.grid.total
    rw [show (control pre bm threads).bm = bm from rfl, this] at hn
    cases hn
    omega
  | quiet e hids q hnp hnk =>
    refine none_of ?_ (fun sd b' hb' hf => ok.packed sd b' hb' (q.status sd b' hf))
      (done_mono ok.done q.counter q.others (fun _ h => h) (fun id hid _ => Or.inl (by rw [q.ids, ← hids]; exact hid)))
    unfold returning
    split
    · rename_i e' c sd b col stop hpc
      rw [if_pos (hnp e' c sd b col stop hpc)]
    · rename_i e' i j hpc
      rw [if_pos (hnk e' i j hpc)]
    · rfl
  | packed e c sd b col stop hpc hlt hc ho hi hst =>
    rw [hpc] at pcok
    obtain ⟨_, _, _, _, _, hbn, _, lo, hco, _⟩ := pcok
    have hco : getBlockMatrixCoords sd bm b = .ok (lo, stop) := hco
    obtain ⟨m', he, tr⟩ := ok.trace.add hP h (ok.trace.ordered.pack (hm.block hbn hco))
    refine some_of _ m' ?_ he tr (fun sd' b' hb' hf => ?_)
      (done_mono ok.done hc ho (fun _ h => h.mono _) (fun id hid _ => Or.inl ?_))
    · unfold returning
      rw [hpc]
      dsimp only
      rw [if_neg hlt, hco, C.ok_bind]
    · rw [hst] at hf
      rcases setStatus_finished hf with hf | ⟨rfl, rfl, _⟩
      · exact (ok.packed sd' b' hb' hf).mono _
      · exact ⟨_, hco, by simp⟩
    · rw [hi]; rw [hpc] at hid; exact hid
  | computed e i j hpc hlt hc ho hi hst =>
    rw [hpc] at pcok
    obtain ⟨lok, _, hav, _⟩ := pcok
    have hblt : ∀ sd, e.block.get sd < n.get sd := lok.blockLt (cfg := control pre bm threads) hm.grid
    have hco : ∀ sd, getBlockMatrixCoords sd bm (e.block.get sd) = .ok (e.start.get sd, e.stop.get sd) := lok.coords
    have hord : Ordered P.kernel.isa.kc jb m (ops ++ [.kernel e.start e.stop]) := by
      refine ok.trace.ordered.kernel (fun sd => hm.block (hblt sd) (hco sd)) (fun sd c h1 h2 => ?_)
      refine ok.trace.covered hm (hblt sd) (hco sd) ((hav sd).imp (fun h => h) (fun hl => ?_)) h1 h2
      exact ok.packed sd _ (hblt sd) (ok.ctl.locals t sd _ hl).1
    obtain ⟨m', he, tr⟩ := ok.trace.add hP h hord
    refine some_of _ m' ?_ he tr (fun sd' b' hb' hf => (ok.packed sd' b' hb' (by rw [← hst]; exact hf)).mono _)
      (done_mono ok.done hc ho (fun _ h => h.mono _) (fun id hid hN => ?_))
    · unfold returning
      rw [hpc]
      dsimp only
      rw [if_neg hlt]
    · rw [hpc] at hid
      simp only [PC.ids, List.mem_cons, List.not_mem_nil, or_false] at hid
      rcases hid with rfl | rfl
      · refine Or.inr ⟨e.block, _, _, lok.block, hco .lhs, hco .rhs, ?_⟩
        simp only [SidePair.get_lhs, SidePair.get_rhs, List.mem_append, List.mem_singleton]
        exact Or.inr trivial
      · exact Or.inl (by rw [hi]; simp)
  | done hpc hs' =>
    subst hs'
    exact none_of (by unfold returning; rw [hpc]) ok.packed ok.done

theorem xrun_of (hP : (P, ml) ∈ paths) (h : JobOk P.kernel.isa.kc jb m)
    (hm : MapOk P.kernel.isa.kc m bm n kd) (su : TrMul.Setup (control pre bm threads) (shape m) n)
    (tot : ∀ s, TrMul.Inv (control pre bm threads) n (shape m) s → ∀ t, ∃ s', TrMul.step (control pre bm threads) s t = .ok s')
    {ops : List Op} {x : XState} (ok : RunOk P jb pre bm n threads m ops x) (sched : List Nat) :
    ∃ x' ops', xrun P jb (control pre bm threads) sched x = .ok x' ∧ RunOk P jb pre bm n threads m ops' x' ∧
      TrMul.run (control pre bm threads) sched x.ctl = .ok x'.ctl := by
  induction sched generalizing x ops with
  | nil => exact ⟨x, ops, rfl, ok, rfl⟩
  | cons t ts ih =>
    obtain ⟨x1, ops1, e1, ok1⟩ := xstep_of hP h hm su tot ok t
    obtain ⟨x2, ops2, e2, ok2, e3⟩ := ih ok1
    refine ⟨x2, ops2, ?_, ok2, ?_⟩
    · unfold xrun
      rw [e1, C.ok_bind, e2]
    · unfold xstep at e1
      obtain ⟨_, _, e1⟩ := C.bind_ok e1
      obtain ⟨_, _, e1⟩ := C.bind_ok e1
      obtain ⟨s1, hs, e1⟩ := C.bind_ok e1
      cases e1
      unfold TrMul.run
      rw [hs, C.ok_bind]
      exact e3

/-! ### The control flow -/

theorem packedVal_unit (f : Unit → Unit) (pre : SidePair Bool) (sd : Side) (zp : Int) (r c : Nat) :
    packedVal unitArith f ((control pre bm threads).tp.src.get sd) zp r c = .ok () := by
  unfold packedVal
  cases sd <;> exact if_neg (fun h => absurd h.1 (Nat.not_lt_zero _))

theorem colSum_unit (f : Unit → Unit) (pre : SidePair Bool) (sd : Side) (zp : Int) (N c : Nat) :
    colSum unitArith f ((control pre bm threads).tp.src.get sd) zp N c = .ok () := by
  unfold colSum
  obtain ⟨s, e, _⟩ := forUpTo_total (n := N) (s := ())
    (body := fun r acc => do
      let v ← packedVal unitArith f ((control pre bm threads).tp.src.get sd) zp r c
      unitArith.add acc v) (fun _ _ => True) trivial
    (fun i t _ _ => ⟨(), by rw [packedVal_unit, C.ok_bind]; rfl, trivial⟩)
  exact e

theorem elem_unit {p : PMat Unit} (hp : PackedOk p.layout) (hf : PFits p) {r c : Nat}
    (hr : r < p.layout.rows) (hc : c < p.layout.cols) : p.elem r c = .ok () := by
  have h1 := poff_lt hp hr hc
  have h2 := hf.int
  have h3 := hf.data
  unfold PMat.elem
  rw [poffset_eq hp.kernel, C.int_of (by omega), C.ok_bind, Buf.read_of (by omega)]

theorem target_unit (m' : Mem Int) (i j : Nat) :
    TrMul.target (control pre bm threads).tp (shape m') i j = .ok () := by
  unfold TrMul.target opEntry opAccum
  obtain ⟨s, e, _⟩ := forUpTo_total (n := (TrMul.operand (control pre bm threads).tp (shape m') .lhs).depth)
    (s := ())
    (body := opDotStep unitArith (TrMul.operand (control pre bm threads).tp (shape m') .lhs)
      (TrMul.operand (control pre bm threads).tp (shape m') .rhs) i j) (fun _ _ => True) trivial
    (fun k t _ _ => ⟨(), by
      unfold opDotStep
      rw [show (TrMul.operand (control pre bm threads).tp (shape m') .lhs).val unitArith k i = .ok () from
          packedVal_unit (bm := bm) (threads := threads) _ pre .lhs _ _ _, C.ok_bind,
        show (TrMul.operand (control pre bm threads).tp (shape m') .rhs).val unitArith k j = .ok () from
          packedVal_unit (bm := bm) (threads := threads) _ pre .rhs _ _ _, C.ok_bind]
      rfl, trivial⟩)
  have e : forUpTo (TrMul.operand (control pre bm threads).tp (shape m') .lhs).depth
      (opDotStep (control pre bm threads).tp.ar (TrMul.operand (control pre bm threads).tp (shape m') .lhs)
      (TrMul.operand (control pre bm threads).tp (shape m') .rhs) i j) (control pre bm threads).tp.ar.zero = .ok () := e
  rw [e, C.ok_bind]
  rfl

theorem fits_shape {p : PMat Int} (h : PFits p) : PFits (shapeP p) :=
  ⟨h.int, h.data, fun b hb => by cases hb⟩

theorem control_ready (hP : (P, ml) ∈ paths) (h : JobOk P.kernel.isa.kc jb m) :
    TrMul.Ready (control pre bm threads).tp (shape m) := by
  have hkc := kc_of (paths_ok hP)
  have hl : ∀ sd, PackedOk (m.packed.get sd).layout := fun sd => ((h.side sd).facts hkc).1
  obtain ⟨_, _, _, _, rl, cl, _⟩ := (h.side .lhs).facts hkc
  obtain ⟨_, _, _, _, rr, cr, _⟩ := (h.side .rhs).facts hkc
  simp only [SidePair.get_lhs, SidePair.get_rhs] at rl cl rr cr
  refine ⟨fun sd => by rw [shape_get]; exact hl sd, ?_, ?_, ?_, ?_, Or.inr rfl, Or.inr rfl, fun sd _ c hc => ?_⟩
  · show m.packed.lhs.layout.rows = m.packed.rhs.layout.rows
    rw [rl, rr, h.depth]
  · show StrideOk m.dst.layout
    unfold StrideOk
    rw [h.dorder]
    exact h.dstride
  · show m.dst.layout.rows ≤ m.packed.lhs.layout.cols
    rw [h.drows]; exact cl
  · show m.dst.layout.cols ≤ m.packed.rhs.layout.cols
    rw [h.dcols]; exact cr
  · unfold TrMul.Packed
    rw [shape_get] at hc ⊢
    exact ⟨fun r hr => ⟨(), elem_unit (hl sd) (fits_shape (h.side sd).fits) hr hc, packedVal_unit _ pre sd _ _ _⟩,
      fun hn => by cases hn⟩

theorem control_safe (hP : (P, ml) ∈ paths) (h : JobOk P.kernel.isa.kc jb m) :
    TrMul.Safe (control pre bm threads).tp (shape m) := by
  have hkc := kc_of (paths_ok hP)
  obtain ⟨_, _, _, kl, _, _, cl, _⟩ := (h.side .lhs).facts hkc
  obtain ⟨_, _, _, kr, _, _, cr, _⟩ := (h.side .rhs).facts hkc
  simp only [SidePair.get_lhs, SidePair.get_rhs] at kl kr cl cr
  refine ⟨fun sd => by rw [shape_get]; exact fits_shape (h.side sd).fits, h.dfits,
    fun sd _ c _ => ⟨(), colSum_unit _ pre sd _ _ _⟩, fun i j _ _ => ⟨(), target_unit m i j⟩, ?_, ?_⟩
  · show m.packed.lhs.layout.cols < m.dst.layout.rows + m.packed.lhs.layout.kernel.cols
    rw [kl, h.drows]; exact cl
  · show m.packed.rhs.layout.cols < m.dst.layout.cols + m.packed.rhs.layout.kernel.cols
    rw [kr, h.dcols]; exact cr

theorem map_shape {bm : BlockMap} (h : MapFor m bm) : MapFor (shape m) bm := h

theorem control_setup (hP : (P, ml) ∈ paths) (h : JobOk P.kernel.isa.kc jb m)
    (hm : MapOk P.kernel.isa.kc m bm n kd) : TrMul.Setup (control pre bm threads) (shape m) n :=
  ⟨control_ready hP h, kd, hm.grid⟩

theorem control_total (hP : (P, ml) ∈ paths) (h : JobOk P.kernel.isa.kc jb m)
    (hm : MapOk P.kernel.isa.kc m bm n kd) (s : State Unit)
    (inv : TrMul.Inv (control pre bm threads) n (shape m) s) (t : Nat) :
    ∃ s', TrMul.step (control pre bm threads) s t = .ok s' :=
  TrMul.step_total (control_ready hP h) hm.grid (fun sd => by rw [hm.layout sd, shape_get]; rfl)
    (control_safe hP h) inv t

/-- The state in which the threads start. -/
theorem start_of (hP : (P, ml) ∈ paths) (h : JobOk P.kernel.isa.kc jb m)
    (hm : MapOk P.kernel.isa.kc m bm n kd) {m1 : Mem Int} {ops : List Op} (tr : Trace P jb pre m ops m1) :
    RunOk P jb pre bm n threads m ops ⟨TrMul.initState (control pre bm threads) (shape m), m1⟩ where
  ctl := TrMul.init_inv (control_setup hP h hm)
  trace := tr
  packed sd b _ hf := by cases hf
  done id h1 _ := by
    have h1 : id < threads := h1
    refine Or.inl ⟨id, ?_⟩
    show id ∈ (if id < threads then PC.head id else PC.done).ids
    rw [if_pos h1]
    simp [PC.ids]

theorem finish_of (hP : (P, ml) ∈ paths) (h : JobOk P.kernel.isa.kc jb m)
    (hm : MapOk P.kernel.isa.kc m bm n kd) (ht : 0 < threads) {ops : List Op} {x : XState}
    (ok : RunOk P jb pre bm n threads m ops x) (hf : TrMul.Finished (control pre bm threads) x.ctl) :
    Multiplied ml jb m x.mem := by
  refine ok.trace.multiplied hP h hm (fun id hid => ?_)
  have hdone : ∀ t, x.ctl.pc t = .done := fun t => by
    by_cases h : t < threads
    · exact hf t h
    · exact ok.ctl.outside t (by show threads ≤ t; omega)
  rcases ok.done id (Nat.lt_of_lt_of_le hid (ok.ctl.exit 0 ht (hf 0 ht))) hid with ⟨u, hu⟩ | hd
  · rw [hdone u] at hu
    simp [PC.ids] at hu
  · exact hd

end

end Ruy.Simd.Flow

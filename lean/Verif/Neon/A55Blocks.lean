import Verif.Neon.A55Sim
/-
The simulation of `Kernel8bitNeon` by `Kernel8bitNeonA55ish`.
-/
namespace Ruy.Neon

/-- How the states of the two kernels are related: equal; in the loop over depth; before the parameters
are loaded again; loads for the next block are missing: `H` has been done. -/
inductive Stage | eq | loop | mid | pend (H : List Instr)
  deriving DecidableEq

/-- `s` is a state of `Kernel8bitNeon`, `t` of `Kernel8bitNeonA55ish`. -/
def Rel (e : Env) (s t : St) : Stage → Prop
  | .eq => Agree [] [] s t
  | .loop => Agree [3, 4, 5, 6, 7, 8, 9, 10] [] s t
  | .mid => Agree [3, 4] [] s t
  | .pend H => ∃ u, Agree [] [] s (exec e loadAll u) ∧ Agree [] [] (exec e H u) t

def stageA : Stage := .pend load1
def stageB : Stage := .pend (load1 ++ load2)
def stageC : Stage := .pend (load1 ++ load2 ++ load3)
def stageD : Stage := .pend (load1 ++ load2 ++ load3 ++ load4)

/-- The relation on entry to a block. -/
def stage (pc : Nat) : Stage :=
  if pc = 2 ∨ pc = 3 then .loop else if 4 ≤ pc ∧ pc ≤ 7 then .mid
  else if pc = 8 ∨ pc = 9 then stageA else if 10 ≤ pc ∧ pc ≤ 14 ∨ pc = 43 then stageB
  else if pc = 15 ∨ pc = 16 then stageC
  else if pc = 17 ∨ pc = 18 ∨ pc = 19 ∨ pc = 27 ∨ pc = 35 then stageD else .eq

/-- Fields that are numbers. -/
structure Nums (e : Env) : Prop where
  sr : (e.field .startRow).isPtr = false
  lr : (e.field .lastRow).isPtr = false
  lc : (e.field .lastCol).isPtr = false
  ls : (e.field .lhsStride).isPtr = false
  rs : (e.field .rhsStride).isPtr = false

/-- Registers of `Kernel8bitNeon` that hold parameters. -/
structure Known1 (e : Env) (s : St) : Prop where
  x8 : s.x 8 = .int ((e.field .lastCol).num % 2 ^ 32)
  x9 : s.x 9 = .int ((e.field .lhsStride).num % 2 ^ 32)
  x10 : s.x 10 = .int ((e.field .rhsStride).num % 2 ^ 32)
structure Known2 (e : Env) (s : St) : Prop where
  x5 : s.x 5 = e.field .lhsBasePtr
  x6 : s.x 6 = .int ((e.field .startRow).num % 2 ^ 32)
  x7 : s.x 7 = .int ((e.field .lastRow).num % 2 ^ 32)

def Known (e : Env) (pc : Nat) (s : St) : Prop :=
  (1 ≤ pc → Known1 e s) ∧ (pc ∈ [1, 2, 3, 52, 53, 54] → Known2 e s)

theorem Known1.of {e : Env} {s : St} {b : List Instr} (h : Known1 e s) (h8 : 8 ∉ wxs b) (h9 : 9 ∉ wxs b)
    (h10 : 10 ∉ wxs b) : Known1 e (exec e b s) :=
  ⟨(exec_x h8).trans h.x8, (exec_x h9).trans h.x9, (exec_x h10).trans h.x10⟩

theorem Known2.of {e : Env} {s : St} {b : List Instr} (h : Known2 e s) (h5 : 5 ∉ wxs b) (h6 : 6 ∉ wxs b)
    (h7 : 7 ∉ wxs b) : Known2 e (exec e b s) :=
  ⟨(exec_x h5).trans h.x5, (exec_x h6).trans h.x6, (exec_x h7).trans h.x7⟩

/-! ### One block -/

theorem agree_nil {e : Env} {b : List Instr} {s t : St} (hf : flow b ([], []) = some ([], [])) (h : Agree [] [] s t) :
    Agree [] [] (exec e b s) (exec e b t) := Agree.exec hf h

/-- `c` is the program `b` followed by further loads. -/
theorem pend_step {e : Env} {b c H W : List Instr} {s t : St} (hc : reorder (b ++ W) c = true)
    (h1 : reorder (b ++ loadAll) (loadAll ++ b) = true) (h2 : reorder (b ++ H) (H ++ b) = true)
    (fb : flow b ([], []) = some ([], [])) (fc : flow c ([], []) = some ([], []))
    (h : Rel e s t (.pend H)) : Rel e (exec e b s) (exec e c t) (.pend (H ++ W)) := by
  obtain ⟨u, hs, ht⟩ := h
  refine ⟨exec e b u, ?_, ?_⟩
  · have := agree_nil (e := e) fb hs
    rwa [← exec_append, reorder_exec h1, exec_append] at this
  · have := agree_nil (e := e) fc ht
    rwa [reorder_exec hc, exec_append, ← exec_append e H b, reorder_exec h2, exec_append, ← exec_append e H W] at this

/-- `c` is the program `b` after the missing loads. -/
theorem pend_end {e : Env} {b c H W : List Instr} {s t : St} (hc : reorder (W ++ b) c = true)
    (hw : H ++ W = load1 ++ load2 ++ load3 ++ load4 ++ load5)
    (fb : flow b ([1, 2, 3, 4], []) = some ([], [])) (fb' : flow b ([], []) = some ([], []))
    (fc : flow c ([], []) = some ([], [])) (hb : (exec e b s).bad = false)
    (h : Rel e s t (.pend H)) : Rel e (exec e b s) (exec e c t) .eq := by
  obtain ⟨u, hs, ht⟩ := h
  have hu : (exec e loadAll u).bad = false := hs.bad.trans (exec_bad hb)
  have h1 := agree_nil (e := e) fc ht
  rw [reorder_exec hc, exec_append, ← exec_append e H W, hw] at h1
  exact ((agree_nil (e := e) fb' hs).trans (Agree.exec (e := e) fb (loadNext_agree hu))).trans h1

/-- The products of one step of the loop over depth, before and after the loads. -/
def before2 : List Instr := (gemm2.body.filter (fun i => !loadAll.contains i)).take 24
def after2 : List Instr := (gemm2.body.filter (fun i => !loadAll.contains i)).drop 24

theorem block2 {e : Env} {s t : St} (hb : (exec e gemm2.body s).bad = false) (h : Rel e s t .loop) :
    Rel e (exec e gemm2.body s) (exec e a55_2.body t) .loop := by
  have h1 : Agree [3, 4, 5, 6, 7, 8, 9, 10] [] (exec e gemm2.body s) (exec e gemm2.body t) :=
    Agree.exec (d := ([3, 4, 5, 6, 7, 8, 9, 10], [])) (by decide +kernel) h
  have e1 : exec e gemm2.body t = exec e after2 (exec e loadAll (exec e before2 t)) := by
    rw [← exec_append, ← exec_append]; exact reorder_exec (by decide +kernel)
  have e2 : exec e a55_2.body t = exec e after2 (exec e loadLoop (exec e before2 t)) := by
    rw [← exec_append, ← exec_append]; exact reorder_exec (by decide +kernel)
  refine Agree.trans h1 ?_
  rw [e1, e2]
  refine Agree.exec (d := ([3, 4, 5, 6, 7, 8, 9, 10], [])) (by decide +kernel) (loadLoop_agree ?_)
  have := h1.bad.trans hb
  rw [e1] at this
  exact exec_bad this

/-- What `Kernel8bitNeonA55ish` loads again after the loop over depth. -/
def reload : List Instr := [.ldpX 5 .lhsBasePtr, .ldpW 6 .startRow, .ldpW 7 .lastRow, .ldpW 8 .lastCol,
  .ldpW 9 .lhsStride, .ldpW 10 .rhsStride]

theorem reload_agree {e : Env} {s t : St} (hn : Nums e) (k1 : Known1 e s) (k2 : Known2 e s) (h : Rel e s t .loop) :
    Agree [3, 4] [] s (exec e reload t) := by
  refine ⟨?_, fun k hk _ => h.v k hk (by simp), h.m, h.z, h.lt, ?_⟩
  · intro r hr hd
    by_cases h10 : r ∈ [5, 6, 7, 8, 9, 10]
    · simp only [List.mem_cons, List.not_mem_nil, or_false] at h10
      rcases h10 with rfl | rfl | rfl | rfl | rfl | rfl
      · exact k2.x5.symm
      · exact k2.x6.symm
      · exact k2.x7.symm
      · exact k1.x8.symm
      · exact k1.x9.symm
      · exact k1.x10.symm
    · rw [exec_x (b := reload) (by exact h10)]
      refine h.x r hr (fun hm => ?_)
      simp only [List.mem_cons, List.not_mem_nil, or_false] at hm h10 hd
      omega
  · show (t.bad || (e.field .startRow).isPtr || (e.field .lastRow).isPtr || (e.field .lastCol).isPtr ||
      (e.field .lhsStride).isPtr || (e.field .rhsStride).isPtr) = s.bad
    rw [hn.sr, hn.lr, hn.lc, hn.ls, hn.rs, h.bad]
    simp only [Bool.or_false]

theorem block3 {e : Env} {s t : St} (hn : Nums e) (k1 : Known1 e s) (k2 : Known2 e s) (h : Rel e s t .loop) :
    Rel e (exec e gemm3.body s) (exec e a55_3.body t) .mid := by
  have e2 : exec e a55_3.body t = exec e gemm3.body (exec e reload t) := by
    rw [← exec_append]; exact reorder_exec (by decide +kernel)
  rw [e2]
  exact Agree.exec (d := ([3, 4], [])) (by decide +kernel) (reload_agree hn k1 k2 h)

/-- The work of block 7 without loads for the next block. -/
def work7 : List Instr := gemm7.body.filter (fun i => !loadAll.contains i)

theorem block7 {e : Env} {s t : St} (h : Rel e s t .mid) :
    Rel e (exec e gemm7.body s) (exec e a55_7.body t) stageA := by
  have h1 : Agree [] [] (exec e gemm7.body s) (exec e gemm7.body t) :=
    Agree.exec (d := ([], [])) (by decide +kernel) h
  have e1 : exec e gemm7.body t = exec e loadAll (exec e work7 t) := by
    rw [← exec_append]; exact reorder_exec (by decide +kernel)
  have e2 : exec e a55_7.body t = exec e load1 (exec e work7 t) := by
    rw [← exec_append]; exact reorder_exec (by decide +kernel)
  refine ⟨exec e work7 t, ?_, ?_⟩
  · rw [← e1]; exact h1
  · rw [← e2]; exact Agree.refl _

theorem block1 {e : Env} {s t : St} (h : Rel e s t .eq) : Rel e (exec e gemm1.body s) (exec e a55_1.body t) .loop :=
  (agree_nil (by decide +kernel) h).weaken (by simp) (by simp)

theorem block0 {e : Env} {s t : St} (h : Rel e s t .eq) : Rel e (exec e gemm0.body s) (exec e a55_0.body t) .eq := by
  have e2 : exec e a55_0.body t = exec e gemm0.body t := reorder_exec (by decide +kernel)
  rw [e2]
  exact agree_nil (by decide +kernel) h

theorem block51 {e : Env} {s t : St} (h : Rel e s t .eq) : Rel e (exec e gemm51.body s) (exec e a55_51.body t) .eq := by
  have e2 : exec e a55_51.body t = exec e gemm51.body t := reorder_exec (by decide +kernel)
  rw [e2]
  exact agree_nil (by decide +kernel) h

theorem blockMid {e : Env} {b : List Instr} {s t : St} (hf : flow b ([3, 4], []) = some ([3, 4], []))
    (h : Rel e s t .mid) : Rel e (exec e b s) (exec e b t) .mid := Agree.exec hf h

/-- All successors have this relation on entry. -/
def leads (post : Stage) : Term → Bool
  | .jmp l => decide (stage l = post)
  | .br _ l f => decide (stage l = post) && decide (stage f = post)

theorem leads_next {post : Stage} {t : Term} (h : leads post t = true) (s : St) : stage (next s t) = post := by
  cases t with
  | jmp l => exact of_decide_eq_true h
  | br c l f =>
    simp only [leads, Bool.and_eq_true, decide_eq_true_eq] at h
    show stage (bif holds s c then l else f) = post
    cases holds s c
    · exact h.2
    · exact h.1

theorem exec_flags {e : Env} {b : List Instr} : ∀ {s : St}, b.any Instr.wf = false →
    (exec e b s).z = s.z ∧ (exec e b s).lt = s.lt := by
  induction b with
  | nil => intro s _; exact ⟨rfl, rfl⟩
  | cons i is ih =>
    intro s h
    rw [List.any_cons, Bool.or_eq_false_iff] at h
    exact ⟨(ih h.2).1.trans (step_flags h.1).1, (ih h.2).2.trans (step_flags h.1).2⟩

/-- The missing loads do not concern the flags. -/
def quiet : Stage → Bool
  | .pend H => !H.any Instr.wf
  | _ => true

theorem Rel.flags {e : Env} {s t : St} {st : Stage} (h : Rel e s t st) (hq : quiet st = true) :
    t.z = s.z ∧ t.lt = s.lt := by
  cases st with
  | eq => exact ⟨Agree.z h, Agree.lt h⟩
  | loop => exact ⟨Agree.z h, Agree.lt h⟩
  | mid => exact ⟨Agree.z h, Agree.lt h⟩
  | pend H =>
    obtain ⟨u, hs, ht⟩ := h
    have hf := exec_flags (e := e) (s := u) (show H.any Instr.wf = false by simpa [quiet] using hq)
    exact ⟨ht.z.trans (hf.1.trans hs.z), ht.lt.trans (hf.2.trans hs.lt)⟩

/-- No successor of the block needs `Known2`. -/
def away : Term → Bool
  | .jmp l => !([1, 2, 3, 52, 53, 54].contains l)
  | .br _ l f => !([1, 2, 3, 52, 53, 54].contains l) && !([1, 2, 3, 52, 53, 54].contains f)

theorem away_next {t : Term} (h : away t = true) (s : St) : next s t ∉ [1, 2, 3, 52, 53, 54] := by
  cases t with
  | jmp l => simpa [away, next] using h
  | br c l f =>
    simp only [away, Bool.and_eq_true, Bool.not_eq_true', List.contains_eq_mem, decide_eq_false_iff_not] at h
    show (bif holds s c then l else f) ∉ _
    cases holds s c
    · exact h.2
    · exact h.1

theorem known_away {e : Env} {g : Block} {k : Nat} (hk : 1 ≤ k) (ha : away g.term = true) (h8 : 8 ∉ wxs g.body)
    (h9 : 9 ∉ wxs g.body) (h10 : 10 ∉ wxs g.body) (s : St) (h : Known e k s) :
    Known e (next (exec e g.body s) g.term) (exec e g.body s) :=
  ⟨fun _ => (h.1 hk).of h8 h9 h10, fun hm => absurd hm (away_next ha _)⟩

theorem known_keep {e : Env} {g : Block} {k : Nat} (hk : 1 ≤ k) (hk2 : k ∈ [1, 2, 3, 52, 53, 54])
    (hw : ∀ r ∈ [5, 6, 7, 8, 9, 10], r ∉ wxs g.body) (s : St) (h : Known e k s) :
    Known e (next (exec e g.body s) g.term) (exec e g.body s) :=
  ⟨fun _ => (h.1 hk).of (hw 8 (by decide)) (hw 9 (by decide)) (hw 10 (by decide)),
    fun _ => (h.2 hk2).of (hw 5 (by decide)) (hw 6 (by decide)) (hw 7 (by decide))⟩

/-- What a block establishes. -/
structure Simulated (e : Env) (g a : Block) (k : Nat) (post : Stage) : Prop where
  term : g.term = a.term
  leads : leads post g.term = true
  quiet : quiet post = true
  rel : ∀ s t, Rel e s t (stage k) → Known e k s → (exec e g.body s).bad = false →
    Rel e (exec e g.body s) (exec e a.body t) post
  known : ∀ s, Known e k s → Known e (next (exec e g.body s) g.term) (exec e g.body s)

theorem known0 {e : Env} (s : St) (_ : Known e 0 s) :
    Known e (next (exec e gemm0.body s) gemm0.term) (exec e gemm0.body s) :=
  ⟨fun _ => ⟨rfl, rfl, rfl⟩, fun _ => ⟨rfl, rfl, rfl⟩⟩

theorem known51 {e : Env} (s : St) (h : Known e 51 s) :
    Known e (next (exec e gemm51.body s) gemm51.term) (exec e gemm51.body s) :=
  ⟨fun _ => (h.1 (by decide)).of (by decide) (by decide) (by decide), fun _ => ⟨rfl, rfl, rfl⟩⟩

theorem sim0 {e : Env} : Simulated e gemm0 a55_0 0 .eq :=
  .mk rfl (by decide) (by decide) (fun _ _ h hk hb =>
    block0 h)
    known0

theorem sim1 {e : Env} : Simulated e gemm1 a55_1 1 .loop :=
  .mk rfl (by decide) (by decide) (fun _ _ h hk hb =>
    block1 h)
    (known_keep (by decide) (by decide) (by decide))

theorem sim2 {e : Env} : Simulated e gemm2 a55_2 2 .loop :=
  .mk rfl (by decide) (by decide) (fun _ _ h hk hb =>
    block2 hb h)
    (known_keep (by decide) (by decide) (by decide))

theorem sim3 {e : Env} (hn : Nums e) : Simulated e gemm3 a55_3 3 .mid :=
  .mk rfl (by decide) (by decide) (fun _ _ h hk hb =>
    block3 hn (hk.1 (by decide)) (hk.2 (by decide)) h)
    (known_away (by decide) (by decide) (by decide) (by decide) (by decide))

theorem sim4 {e : Env} : Simulated e gemm4 a55_4 4 .mid :=
  .mk rfl (by decide) (by decide) (fun _ _ h _ _ =>
    blockMid (by decide +kernel) h)
    (known_away (by decide) (by decide) (by decide) (by decide) (by decide))

theorem sim5 {e : Env} : Simulated e gemm5 a55_5 5 .mid :=
  .mk rfl (by decide) (by decide) (fun _ _ h _ _ =>
    blockMid (by decide +kernel) h)
    (known_away (by decide) (by decide) (by decide) (by decide) (by decide))

theorem sim6 {e : Env} : Simulated e gemm6 a55_6 6 .mid :=
  .mk rfl (by decide) (by decide) (fun _ _ h _ _ =>
    blockMid (by decide +kernel) h)
    (known_away (by decide) (by decide) (by decide) (by decide) (by decide))

theorem sim7 {e : Env} : Simulated e gemm7 a55_7 7 stageA :=
  .mk rfl (by decide) (by decide) (fun _ _ h hk hb =>
    block7 h)
    (known_away (by decide) (by decide) (by decide) (by decide) (by decide))

theorem sim8 {e : Env} : Simulated e gemm8 a55_8 8 stageB :=
  .mk rfl (by decide) (by decide) (fun _ _ h _ _ =>
    pend_step (W := load2) (by decide +kernel) (by decide +kernel) (by decide +kernel) (by decide +kernel) (by decide +kernel) h)
    (known_away (by decide) (by decide) (by decide) (by decide) (by decide))

theorem sim9 {e : Env} : Simulated e gemm9 a55_9 9 stageB :=
  .mk rfl (by decide) (by decide) (fun _ _ h _ _ =>
    pend_step (W := load2) (by decide +kernel) (by decide +kernel) (by decide +kernel) (by decide +kernel) (by decide +kernel) h)
    (known_away (by decide) (by decide) (by decide) (by decide) (by decide))

theorem sim10 {e : Env} : Simulated e gemm10 a55_10 10 stageB :=
  .mk rfl (by decide) (by decide) (fun _ _ h _ _ =>
    pend_step (W := []) (by decide +kernel) (by decide +kernel) (by decide +kernel) (by decide +kernel) (by decide +kernel) h)
    (known_away (by decide) (by decide) (by decide) (by decide) (by decide))

theorem sim11 {e : Env} : Simulated e gemm11 a55_11 11 stageB :=
  .mk rfl (by decide) (by decide) (fun _ _ h _ _ =>
    pend_step (W := []) (by decide +kernel) (by decide +kernel) (by decide +kernel) (by decide +kernel) (by decide +kernel) h)
    (known_away (by decide) (by decide) (by decide) (by decide) (by decide))

theorem sim12 {e : Env} : Simulated e gemm12 a55_12 12 stageB :=
  .mk rfl (by decide) (by decide) (fun _ _ h _ _ =>
    pend_step (W := []) (by decide +kernel) (by decide +kernel) (by decide +kernel) (by decide +kernel) (by decide +kernel) h)
    (known_away (by decide) (by decide) (by decide) (by decide) (by decide))

theorem sim13 {e : Env} : Simulated e gemm13 a55_13 13 stageB :=
  .mk rfl (by decide) (by decide) (fun _ _ h _ _ =>
    pend_step (W := []) (by decide +kernel) (by decide +kernel) (by decide +kernel) (by decide +kernel) (by decide +kernel) h)
    (known_away (by decide) (by decide) (by decide) (by decide) (by decide))

theorem sim14 {e : Env} : Simulated e gemm14 a55_14 14 stageC :=
  .mk rfl (by decide) (by decide) (fun _ _ h _ _ =>
    pend_step (W := load3) (by decide +kernel) (by decide +kernel) (by decide +kernel) (by decide +kernel) (by decide +kernel) h)
    (known_away (by decide) (by decide) (by decide) (by decide) (by decide))

theorem sim15 {e : Env} : Simulated e gemm15 a55_15 15 stageD :=
  .mk rfl (by decide) (by decide) (fun _ _ h _ _ =>
    pend_step (W := load4) (by decide +kernel) (by decide +kernel) (by decide +kernel) (by decide +kernel) (by decide +kernel) h)
    (known_away (by decide) (by decide) (by decide) (by decide) (by decide))

theorem sim16 {e : Env} : Simulated e gemm16 a55_16 16 stageD :=
  .mk rfl (by decide) (by decide) (fun _ _ h _ _ =>
    pend_step (W := load4) (by decide +kernel) (by decide +kernel) (by decide +kernel) (by decide +kernel) (by decide +kernel) h)
    (known_away (by decide) (by decide) (by decide) (by decide) (by decide))

theorem sim17 {e : Env} : Simulated e gemm17 a55_17 17 stageD :=
  .mk rfl (by decide) (by decide) (fun _ _ h _ _ =>
    pend_step (W := []) (by decide +kernel) (by decide +kernel) (by decide +kernel) (by decide +kernel) (by decide +kernel) h)
    (known_away (by decide) (by decide) (by decide) (by decide) (by decide))

theorem sim18 {e : Env} : Simulated e gemm18 a55_18 18 stageD :=
  .mk rfl (by decide) (by decide) (fun _ _ h _ _ =>
    pend_step (W := []) (by decide +kernel) (by decide +kernel) (by decide +kernel) (by decide +kernel) (by decide +kernel) h)
    (known_away (by decide) (by decide) (by decide) (by decide) (by decide))

theorem sim19 {e : Env} : Simulated e gemm19 a55_19 19 .eq :=
  .mk rfl (by decide) (by decide) (fun _ _ h _ hb =>
    pend_end (W := load5) (by decide +kernel) rfl (by decide +kernel) (by decide +kernel) (by decide +kernel) hb h)
    (known_away (by decide) (by decide) (by decide) (by decide) (by decide))

theorem sim20 {e : Env} : Simulated e gemm20 a55_20 20 .eq :=
  .mk rfl (by decide) (by decide) (fun _ _ h _ _ =>
    agree_nil (by decide +kernel) h)
    (known_away (by decide) (by decide) (by decide) (by decide) (by decide))

theorem sim21 {e : Env} : Simulated e gemm21 a55_21 21 .eq :=
  .mk rfl (by decide) (by decide) (fun _ _ h _ _ =>
    agree_nil (by decide +kernel) h)
    (known_away (by decide) (by decide) (by decide) (by decide) (by decide))

theorem sim22 {e : Env} : Simulated e gemm22 a55_22 22 .eq :=
  .mk rfl (by decide) (by decide) (fun _ _ h _ _ =>
    agree_nil (by decide +kernel) h)
    (known_away (by decide) (by decide) (by decide) (by decide) (by decide))

theorem sim23 {e : Env} : Simulated e gemm23 a55_23 23 .eq :=
  .mk rfl (by decide) (by decide) (fun _ _ h _ _ =>
    agree_nil (by decide +kernel) h)
    (known_away (by decide) (by decide) (by decide) (by decide) (by decide))

theorem sim24 {e : Env} : Simulated e gemm24 a55_24 24 .eq :=
  .mk rfl (by decide) (by decide) (fun _ _ h _ _ =>
    agree_nil (by decide +kernel) h)
    (known_away (by decide) (by decide) (by decide) (by decide) (by decide))

theorem sim25 {e : Env} : Simulated e gemm25 a55_25 25 .eq :=
  .mk rfl (by decide) (by decide) (fun _ _ h _ _ =>
    agree_nil (by decide +kernel) h)
    (known_away (by decide) (by decide) (by decide) (by decide) (by decide))

theorem sim26 {e : Env} : Simulated e gemm26 a55_26 26 .eq :=
  .mk rfl (by decide) (by decide) (fun _ _ h _ _ =>
    agree_nil (by decide +kernel) h)
    (known_away (by decide) (by decide) (by decide) (by decide) (by decide))

theorem sim27 {e : Env} : Simulated e gemm27 a55_27 27 .eq :=
  .mk rfl (by decide) (by decide) (fun _ _ h _ hb =>
    pend_end (W := load5) (by decide +kernel) rfl (by decide +kernel) (by decide +kernel) (by decide +kernel) hb h)
    (known_away (by decide) (by decide) (by decide) (by decide) (by decide))

theorem sim28 {e : Env} : Simulated e gemm28 a55_28 28 .eq :=
  .mk rfl (by decide) (by decide) (fun _ _ h _ _ =>
    agree_nil (by decide +kernel) h)
    (known_away (by decide) (by decide) (by decide) (by decide) (by decide))

theorem sim29 {e : Env} : Simulated e gemm29 a55_29 29 .eq :=
  .mk rfl (by decide) (by decide) (fun _ _ h _ _ =>
    agree_nil (by decide +kernel) h)
    (known_away (by decide) (by decide) (by decide) (by decide) (by decide))

theorem sim30 {e : Env} : Simulated e gemm30 a55_30 30 .eq :=
  .mk rfl (by decide) (by decide) (fun _ _ h _ _ =>
    agree_nil (by decide +kernel) h)
    (known_away (by decide) (by decide) (by decide) (by decide) (by decide))

theorem sim31 {e : Env} : Simulated e gemm31 a55_31 31 .eq :=
  .mk rfl (by decide) (by decide) (fun _ _ h _ _ =>
    agree_nil (by decide +kernel) h)
    (known_away (by decide) (by decide) (by decide) (by decide) (by decide))

theorem sim32 {e : Env} : Simulated e gemm32 a55_32 32 .eq :=
  .mk rfl (by decide) (by decide) (fun _ _ h _ _ =>
    agree_nil (by decide +kernel) h)
    (known_away (by decide) (by decide) (by decide) (by decide) (by decide))

theorem sim33 {e : Env} : Simulated e gemm33 a55_33 33 .eq :=
  .mk rfl (by decide) (by decide) (fun _ _ h _ _ =>
    agree_nil (by decide +kernel) h)
    (known_away (by decide) (by decide) (by decide) (by decide) (by decide))

theorem sim34 {e : Env} : Simulated e gemm34 a55_34 34 .eq :=
  .mk rfl (by decide) (by decide) (fun _ _ h _ _ =>
    agree_nil (by decide +kernel) h)
    (known_away (by decide) (by decide) (by decide) (by decide) (by decide))

theorem sim35 {e : Env} : Simulated e gemm35 a55_35 35 .eq :=
  .mk rfl (by decide) (by decide) (fun _ _ h _ hb =>
    pend_end (W := load5) (by decide +kernel) rfl (by decide +kernel) (by decide +kernel) (by decide +kernel) hb h)
    (known_away (by decide) (by decide) (by decide) (by decide) (by decide))

theorem sim36 {e : Env} : Simulated e gemm36 a55_36 36 .eq :=
  .mk rfl (by decide) (by decide) (fun _ _ h _ _ =>
    agree_nil (by decide +kernel) h)
    (known_away (by decide) (by decide) (by decide) (by decide) (by decide))

theorem sim37 {e : Env} : Simulated e gemm37 a55_37 37 .eq :=
  .mk rfl (by decide) (by decide) (fun _ _ h _ _ =>
    agree_nil (by decide +kernel) h)
    (known_away (by decide) (by decide) (by decide) (by decide) (by decide))

theorem sim38 {e : Env} : Simulated e gemm38 a55_38 38 .eq :=
  .mk rfl (by decide) (by decide) (fun _ _ h _ _ =>
    agree_nil (by decide +kernel) h)
    (known_away (by decide) (by decide) (by decide) (by decide) (by decide))

theorem sim39 {e : Env} : Simulated e gemm39 a55_39 39 .eq :=
  .mk rfl (by decide) (by decide) (fun _ _ h _ _ =>
    agree_nil (by decide +kernel) h)
    (known_away (by decide) (by decide) (by decide) (by decide) (by decide))

theorem sim40 {e : Env} : Simulated e gemm40 a55_40 40 .eq :=
  .mk rfl (by decide) (by decide) (fun _ _ h _ _ =>
    agree_nil (by decide +kernel) h)
    (known_away (by decide) (by decide) (by decide) (by decide) (by decide))

theorem sim41 {e : Env} : Simulated e gemm41 a55_41 41 .eq :=
  .mk rfl (by decide) (by decide) (fun _ _ h _ _ =>
    agree_nil (by decide +kernel) h)
    (known_away (by decide) (by decide) (by decide) (by decide) (by decide))

theorem sim42 {e : Env} : Simulated e gemm42 a55_42 42 .eq :=
  .mk rfl (by decide) (by decide) (fun _ _ h _ _ =>
    agree_nil (by decide +kernel) h)
    (known_away (by decide) (by decide) (by decide) (by decide) (by decide))

theorem sim43 {e : Env} : Simulated e gemm43 a55_43 43 .eq :=
  .mk rfl (by decide) (by decide) (fun _ _ h _ hb =>
    pend_end (W := load3 ++ load4 ++ load5) (by decide +kernel) rfl (by decide +kernel) (by decide +kernel) (by decide +kernel) hb h)
    (known_away (by decide) (by decide) (by decide) (by decide) (by decide))

theorem sim44 {e : Env} : Simulated e gemm44 a55_44 44 .eq :=
  .mk rfl (by decide) (by decide) (fun _ _ h _ _ =>
    agree_nil (by decide +kernel) h)
    (known_away (by decide) (by decide) (by decide) (by decide) (by decide))

theorem sim45 {e : Env} : Simulated e gemm45 a55_45 45 .eq :=
  .mk rfl (by decide) (by decide) (fun _ _ h _ _ =>
    agree_nil (by decide +kernel) h)
    (known_away (by decide) (by decide) (by decide) (by decide) (by decide))

theorem sim46 {e : Env} : Simulated e gemm46 a55_46 46 .eq :=
  .mk rfl (by decide) (by decide) (fun _ _ h _ _ =>
    agree_nil (by decide +kernel) h)
    (known_away (by decide) (by decide) (by decide) (by decide) (by decide))

theorem sim47 {e : Env} : Simulated e gemm47 a55_47 47 .eq :=
  .mk rfl (by decide) (by decide) (fun _ _ h _ _ =>
    agree_nil (by decide +kernel) h)
    (known_away (by decide) (by decide) (by decide) (by decide) (by decide))

theorem sim48 {e : Env} : Simulated e gemm48 a55_48 48 .eq :=
  .mk rfl (by decide) (by decide) (fun _ _ h _ _ =>
    agree_nil (by decide +kernel) h)
    (known_away (by decide) (by decide) (by decide) (by decide) (by decide))

theorem sim49 {e : Env} : Simulated e gemm49 a55_49 49 .eq :=
  .mk rfl (by decide) (by decide) (fun _ _ h _ _ =>
    agree_nil (by decide +kernel) h)
    (known_away (by decide) (by decide) (by decide) (by decide) (by decide))

theorem sim50 {e : Env} : Simulated e gemm50 a55_50 50 .eq :=
  .mk rfl (by decide) (by decide) (fun _ _ h _ _ =>
    agree_nil (by decide +kernel) h)
    (known_away (by decide) (by decide) (by decide) (by decide) (by decide))

theorem sim51 {e : Env} : Simulated e gemm51 a55_51 51 .eq :=
  .mk rfl (by decide) (by decide) (fun _ _ h hk hb =>
    block51 h)
    known51

theorem sim52 {e : Env} : Simulated e gemm52 a55_52 52 .eq :=
  .mk rfl (by decide) (by decide) (fun _ _ h _ _ =>
    agree_nil (by decide +kernel) h)
    (known_keep (by decide) (by decide) (by decide))

theorem sim53 {e : Env} : Simulated e gemm53 a55_53 53 .eq :=
  .mk rfl (by decide) (by decide) (fun _ _ h _ _ =>
    agree_nil (by decide +kernel) h)
    (known_keep (by decide) (by decide) (by decide))

theorem sim54 {e : Env} : Simulated e gemm54 a55_54 54 .eq :=
  .mk rfl (by decide) (by decide) (fun _ _ h _ _ =>
    agree_nil (by decide +kernel) h)
    (known_keep (by decide) (by decide) (by decide))

/-- The block of each kernel with number `k`. -/
theorem simulated {e : Env} (hn : Nums e) (k : Nat) (hk : k < 55) :
    ∃ g a post, gemmCode[k]? = some g ∧ a55Code[k]? = some a ∧ Simulated e g a k post := by
  interval_cases k
  · exact ⟨_, _, _, rfl, rfl, sim0⟩
  · exact ⟨_, _, _, rfl, rfl, sim1⟩
  · exact ⟨_, _, _, rfl, rfl, sim2⟩
  · exact ⟨_, _, _, rfl, rfl, sim3 hn⟩
  · exact ⟨_, _, _, rfl, rfl, sim4⟩
  · exact ⟨_, _, _, rfl, rfl, sim5⟩
  · exact ⟨_, _, _, rfl, rfl, sim6⟩
  · exact ⟨_, _, _, rfl, rfl, sim7⟩
  · exact ⟨_, _, _, rfl, rfl, sim8⟩
  · exact ⟨_, _, _, rfl, rfl, sim9⟩
  · exact ⟨_, _, _, rfl, rfl, sim10⟩
  · exact ⟨_, _, _, rfl, rfl, sim11⟩
  · exact ⟨_, _, _, rfl, rfl, sim12⟩
  · exact ⟨_, _, _, rfl, rfl, sim13⟩
  · exact ⟨_, _, _, rfl, rfl, sim14⟩
  · exact ⟨_, _, _, rfl, rfl, sim15⟩
  · exact ⟨_, _, _, rfl, rfl, sim16⟩
  · exact ⟨_, _, _, rfl, rfl, sim17⟩
  · exact ⟨_, _, _, rfl, rfl, sim18⟩
  · exact ⟨_, _, _, rfl, rfl, sim19⟩
  · exact ⟨_, _, _, rfl, rfl, sim20⟩
  · exact ⟨_, _, _, rfl, rfl, sim21⟩
  · exact ⟨_, _, _, rfl, rfl, sim22⟩
  · exact ⟨_, _, _, rfl, rfl, sim23⟩
  · exact ⟨_, _, _, rfl, rfl, sim24⟩
  · exact ⟨_, _, _, rfl, rfl, sim25⟩
  · exact ⟨_, _, _, rfl, rfl, sim26⟩
  · exact ⟨_, _, _, rfl, rfl, sim27⟩
  · exact ⟨_, _, _, rfl, rfl, sim28⟩
  · exact ⟨_, _, _, rfl, rfl, sim29⟩
  · exact ⟨_, _, _, rfl, rfl, sim30⟩
  · exact ⟨_, _, _, rfl, rfl, sim31⟩
  · exact ⟨_, _, _, rfl, rfl, sim32⟩
  · exact ⟨_, _, _, rfl, rfl, sim33⟩
  · exact ⟨_, _, _, rfl, rfl, sim34⟩
  · exact ⟨_, _, _, rfl, rfl, sim35⟩
  · exact ⟨_, _, _, rfl, rfl, sim36⟩
  · exact ⟨_, _, _, rfl, rfl, sim37⟩
  · exact ⟨_, _, _, rfl, rfl, sim38⟩
  · exact ⟨_, _, _, rfl, rfl, sim39⟩
  · exact ⟨_, _, _, rfl, rfl, sim40⟩
  · exact ⟨_, _, _, rfl, rfl, sim41⟩
  · exact ⟨_, _, _, rfl, rfl, sim42⟩
  · exact ⟨_, _, _, rfl, rfl, sim43⟩
  · exact ⟨_, _, _, rfl, rfl, sim44⟩
  · exact ⟨_, _, _, rfl, rfl, sim45⟩
  · exact ⟨_, _, _, rfl, rfl, sim46⟩
  · exact ⟨_, _, _, rfl, rfl, sim47⟩
  · exact ⟨_, _, _, rfl, rfl, sim48⟩
  · exact ⟨_, _, _, rfl, rfl, sim49⟩
  · exact ⟨_, _, _, rfl, rfl, sim50⟩
  · exact ⟨_, _, _, rfl, rfl, sim51⟩
  · exact ⟨_, _, _, rfl, rfl, sim52⟩
  · exact ⟨_, _, _, rfl, rfl, sim53⟩
  · exact ⟨_, _, _, rfl, rfl, sim54⟩

theorem bstep_some {e : Env} {P : List Block} {k : Nat} {b : Block} {s : St} (h : P[k]? = some b) :
    bstep e P (k, s) = (next (exec e b.body s) b.term, exec e b.body s) := by
  unfold bstep; simp only [h]

theorem bstep_none {e : Env} {P : List Block} {k : Nat} {s : St} (h : P[k]? = none) :
    bstep e P (k, s) = (k, s) := by
  unfold bstep; simp only [h]

theorem bstep_bad {e : Env} {P : List Block} {c : Nat × St} (h : (bstep e P c).2.bad = false) : c.2.bad = false := by
  obtain ⟨k, s⟩ := c
  cases hb : P[k]? with
  | none => rw [bstep_none hb] at h; exact h
  | some b => rw [bstep_some hb] at h; exact exec_bad h

theorem run_bad {e : Env} {P : List Block} {n : Nat} : ∀ {c : Nat × St}, (run e P n c).2.bad = false → c.2.bad = false := by
  induction n with
  | zero => intro c h; exact h
  | succ n ih => intro c h; exact bstep_bad (ih h)

theorem next_eq {a b : St} (h : b.z = a.z ∧ b.lt = a.lt) (t : Term) : next b t = next a t := by
  cases t with
  | jmp l => rfl
  | br c l f =>
    show (bif holds b c then l else f) = bif holds a c then l else f
    have : holds b c = holds a c := by cases c <;> simp only [holds, h.1, h.2]
    rw [this]

/-- The two kernels take the same way through their blocks. -/
theorem sim_run {e : Env} (hn : Nums e) {n : Nat} : ∀ {k : Nat} {s t : St}, Rel e s t (stage k) → Known e k s →
    (run e gemmCode n (k, s)).2.bad = false →
    ∃ t', run e a55Code n (k, t) = ((run e gemmCode n (k, s)).1, t') ∧
      Rel e (run e gemmCode n (k, s)).2 t' (stage (run e gemmCode n (k, s)).1) := by
  induction n with
  | zero => intro k s t h _ _; exact ⟨t, rfl, h⟩
  | succ n ih =>
    intro k s t h hk hb
    rcases Nat.lt_or_ge k 55 with h55 | h55
    · obtain ⟨g, a, post, hg, ha, hs⟩ := simulated hn k h55
      have e1 : run e gemmCode (n + 1) (k, s) =
          run e gemmCode n (next (exec e g.body s) g.term, exec e g.body s) := by
        show run e gemmCode n (bstep e gemmCode (k, s)) = _
        rw [bstep_some hg]
      have e2 : run e a55Code (n + 1) (k, t) = run e a55Code n (next (exec e a.body t) a.term, exec e a.body t) := by
        show run e a55Code n (bstep e a55Code (k, t)) = _
        rw [bstep_some ha]
      rw [e1] at hb ⊢
      have hb' : (exec e g.body s).bad = false := run_bad hb
      have hr := hs.rel s t h hk hb'
      rw [e2, ← hs.term, next_eq (hr.flags hs.quiet)]
      exact ih (by rw [leads_next hs.leads]; exact hr) (hs.known s hk) hb
    · have e1 : run e gemmCode (n + 1) (k, s) = run e gemmCode n (k, s) := by
        show run e gemmCode n (bstep e gemmCode (k, s)) = _
        rw [bstep_none (List.getElem?_eq_none h55)]
      have e2 : run e a55Code (n + 1) (k, t) = run e a55Code n (k, t) := by
        show run e a55Code n (bstep e a55Code (k, t)) = _
        rw [bstep_none (List.getElem?_eq_none h55)]
      rw [e1] at hb ⊢
      rw [e2]
      exact ih h hk hb

/-- From the same state, both kernels stop with the same memory. -/
theorem a55_same {e : Env} (hn : Nums e) {n : Nat} {s s' : St} (h : run e gemmCode n (0, s) = (55, s'))
    (hb : s'.bad = false) : ∃ t', run e a55Code n (0, s) = (55, t') ∧ t'.m = s'.m ∧ t'.bad = false := by
  obtain ⟨t', h1, h2⟩ := sim_run (k := 0) (s := s) (t := s) hn (n := n) (Agree.refl s)
    ⟨fun h => absurd h (by decide), fun h => absurd h (by decide)⟩ (by rw [h]; exact hb)
  rw [h] at h1 h2
  exact ⟨t', h1, Agree.m h2, (Agree.bad h2).trans hb⟩

end Ruy.Neon

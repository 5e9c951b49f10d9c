import Verif.Race.MulProps
import Verif.Arm8.ThreadsProps
import Verif.Arm32.ThreadsProps
import Verif.XFloat.Props
/-
C75 and C77 for three more paths: 8-bit and float matrices on 32-bit ARM, and float matrices on x86.

  c75_arm32, c77_arm32            any order of the calls that respects happens-before leaves the destination of C87
  c75_arm32_float, c77_arm32_float    that of C89
  c75_x86_float, c77_x86_float    and that of C61
-/
namespace Ruy.Race
open Ruy.Mat Ruy.Mul Ruy.BlockMap
open Ruy.TrMul (MapFor)
open Ruy.Simd.Flow (Op prepackCalls Block colsOf)

section
variable {T : Type} {x : Exec T Loc Nat Work} {p : Prog} {n : Nat} {K : Tasks x p n} {es : List (Ev T)}

/-- C75: 8-bit matrices on 32-bit ARM. -/
theorem c75_arm32 {t : Neon.Flow.Task} {m : Neon.Flow.Mach} (ht : Arm8.Flow.TaskOk t) (hm : MapFor (Neon.Flow.shape t) p.bm)
    (h : K.Ok) (hx : x.Consistent) (hn : 0 < n) (hf : K.Finished) (hl : Linear K es) :
    (∃ r, Arm8.Flow.Runs t (prepackCalls p.pre (colsOf (Neon.Flow.shape t)) ++ opsOf x es) m r) ∧
      ∀ r, Arm8.Flow.Runs t (prepackCalls p.pre (colsOf (Neon.Flow.shape t)) ++ opsOf x es) m r →
        ∃ m', r = .ok m' ∧ Neon.Flow.Multiplied t m m' := by
  obtain ⟨k, kd, g, _⟩ := Arm8.Flow.gridOk_of ht hm
  have hb : ∀ s : Side, Block (Arm8.Flow.cols s) ((colsOf (Neon.Flow.shape t)).get s) 0 ((colsOf (Neon.Flow.shape t)).get s) :=
    fun s => (Arm8.Flow.prepack_ok (pre := ⟨true, true⟩) ht g).order.packs s 0 _ (by cases s <;> simp [prepackCalls])
  obtain ⟨c1, c2⟩ := (c75_order g hb h hx).2 es hl
  obtain ⟨r1, r2⟩ := Arm8.Flow.runs_inv (m0 := m) ht (Arm8.Flow.InOrder.ordered c1)
  refine ⟨r1, fun r hr => ?_⟩
  obtain ⟨m', e, hI⟩ := r2 r hr
  exact ⟨m', e, Arm8.Flow.multiplied_of hI fun i j hi hj =>
    c2 hn hf i j (Arm8.Flow.dst_cols ht hi hj).1 (Arm8.Flow.dst_cols ht hi hj).2⟩

/-- C75: float matrices on 32-bit ARM. -/
theorem c75_arm32_float {A : Type} {t : Arm32.Flow.Task A} {m : NeonF.Flow.Mach A} (ht : Arm32.Flow.TaskOk t)
    (hm : MapFor (NeonF.Flow.shape t) p.bm) (h : K.Ok) (hx : x.Consistent) (hn : 0 < n) (hf : K.Finished) (hl : Linear K es) :
    (∃ r, Arm32.Flow.Runs t (prepackCalls p.pre (colsOf (NeonF.Flow.shape t)) ++ opsOf x es) m r) ∧
      ∀ r, Arm32.Flow.Runs t (prepackCalls p.pre (colsOf (NeonF.Flow.shape t)) ++ opsOf x es) m r →
        ∃ m', r = .ok m' ∧ Arm32.Flow.Multiplied t m m' := by
  obtain ⟨k, kd, g, _⟩ := Arm32.Flow.gridOk_of ht hm
  have hb : ∀ s : Side, Block (Arm32.Flow.cols s) ((colsOf (NeonF.Flow.shape t)).get s) 0 ((colsOf (NeonF.Flow.shape t)).get s) :=
    fun s => (Arm32.Flow.prepack_ok (pre := ⟨true, true⟩) ht g).order.packs s 0 _ (by cases s <;> simp [prepackCalls])
  obtain ⟨c1, c2⟩ := (c75_order g hb h hx).2 es hl
  obtain ⟨r1, r2⟩ := Arm32.Flow.runs_inv (m0 := m) ht (Arm32.Flow.InOrder.ordered c1)
  refine ⟨r1, fun r hr => ?_⟩
  obtain ⟨m', e, hI⟩ := r2 r hr
  exact ⟨m', e, Arm32.Flow.multiplied_of hI fun i j hi hj =>
    c2 hn hf i j (Arm32.Flow.dst_cols ht hi hj).1 (Arm32.Flow.dst_cols ht hi hj).2⟩

/-- C75: float matrices on x86. -/
theorem c75_x86_float {A : Type} {o : XFloat.VOps A} {P : XFloat.Path A} (hP : XFloat.IsPath o P) {jb : XFloat.Job A}
    {m : TrMul.Mem A} (ht : XFloat.JobOk P.isa.kc jb m) (hm : MapFor (XFloat.shape m) p.bm) (h : K.Ok) (hx : x.Consistent)
    (hn : 0 < n) (hf : K.Finished) (hl : Linear K es) :
    ∃ m', XFloat.runOps P jb (prepackCalls p.pre (colsOf (XFloat.shape m)) ++ opsOf x es) m = .ok m' ∧
      XFloat.Multiplied o jb m m' := by
  obtain ⟨ok, eo⟩ := hP.ok
  obtain ⟨k, kd, g, _⟩ := XFloat.gridOk_of ht hm
  have hb : ∀ s : Side, Block P.isa.kc ((colsOf (XFloat.shape m)).get s) 0 ((colsOf (XFloat.shape m)).get s) :=
    fun s => (XFloat.prepack_ok (pre := ⟨true, true⟩) ht g).order.packs s 0 _ (by cases s <;> simp [prepackCalls])
  obtain ⟨c1, c2⟩ := (c75_order g hb h hx).2 es hl
  obtain ⟨m', e, hI⟩ := XFloat.runOps_inv ok ht (XFloat.InOrder.ordered c1)
  rw [eo] at hI
  exact ⟨m', e, XFloat.multiplied_of ht hI fun i j hi hj =>
    c2 hn hf i j (XFloat.dst_cols ht hi hj).1 (XFloat.dst_cols ht hi hj).2⟩

end

/-- The hypotheses of `c75_x86_float`: the two tasks of the example of C75, on the same block map. -/
example (ch : ChannelDim) (u v : Int) {es : List (Ev (Fin 2))} (hl : Linear exTasks es) :
    ∃ m', XFloat.runOps (XFloat.pathAvx XFloat.intOps) (XFloat.exJob ch v) (prepackCalls ⟨false, false⟩ ⟨16, 128⟩ ++ opsOf exX es)
      (XFloat.exMem 8 u) = .ok m' ∧ m'.dst.elem 9 124 = .ok (XFloat.entry XFloat.intOps (XFloat.exJob ch v) 9 124) := by
  obtain ⟨m', e, hM⟩ := c75_x86_float (.avx (o := XFloat.intOps)) (XFloat.exJob_ok 8 (.inl rfl) ch u v) (XFloat.exMap8For u) ex_ok
    ex_consistent (by decide) ex_finished hl
  exact ⟨m', e, hM.entries 9 124 (by show 9 < 10; decide) (by show 124 < 125; decide) trivial⟩

/-- One task with the right side prepacked, on the map of the 32-bit ARM example: eight blocks of two sizes. -/
def armProg : Prog := ⟨⟨false, true⟩, Arm8.Flow.exMap, false⟩
def armRun : List (TAct Unit) × TS := runTask Unit armProg 100 [1, 0, 2, 3, 4, 5, 6, 7, 8] [] ⟨.start 0, fun _ _ => false⟩

theorem arm_consistent : (soloX neonLocs armRun.1).Consistent := Exec.Plays.consistent (by decide +kernel)

theorem arm_used {l : Loc} (hl : Used armProg l) : l ∈ neonLocs := by
  cases l with
  | next => decide
  | status s b =>
    obtain ⟨h0, m, h1, h2⟩ := hl
    cases s
    · have : numBlocksPerSide armProg.bm .lhs = .ok 1 := by decide +kernel
      rw [this] at h1; cases h1
      have : b = 0 := by omega
      subst this; decide
    · exact absurd h0 (by decide)

theorem arm_ok : (solo armProg neonLocs armRun).Ok := solo_ok (runTask_steps 100 _ .start) (by decide) fun _ => arm_used

theorem arm_finished : (solo armProg neonLocs armRun).Finished := fun _ _ => by
  show armRun.2.pc = _
  decide +kernel

/-- The hypotheses of `c75_arm32`. -/
example (dt : Neon.Dt) (m : Neon.Flow.Mach) {es : List (Ev Unit)} (hl : Linear (solo armProg neonLocs armRun) es) :
    ∃ m', Arm8.Flow.Runs (Arm8.Flow.exTask2 dt) (prepackCalls ⟨false, true⟩ ⟨8, 126⟩ ++ opsOf (soloX neonLocs armRun.1) es) m (.ok m') ∧
      Neon.Flow.Multiplied (Arm8.Flow.exTask2 dt) m m' := by
  obtain ⟨⟨r, hr⟩, hv⟩ := c75_arm32 (m := m) (Arm8.Flow.exTask2_ok dt) (Arm8.Flow.exMapFor dt) arm_ok arm_consistent
    (by decide) arm_finished hl
  obtain ⟨m', rfl, h⟩ := hv r hr
  exact ⟨m', hr, h⟩

/-- The same for the example of C90: eight blocks. -/
def floatProg : Prog := ⟨⟨false, true⟩, Arm32.Flow.exMap, false⟩
def floatRun : List (TAct Unit) × TS := runTask Unit floatProg 100 [1, 0, 2, 3, 4, 5, 6, 7, 8] [] ⟨.start 0, fun _ _ => false⟩

theorem float_consistent : (soloX neonLocs floatRun.1).Consistent := Exec.Plays.consistent (by decide +kernel)

theorem float_used {l : Loc} (hl : Used floatProg l) : l ∈ neonLocs := by
  cases l with
  | next => decide
  | status s b =>
    obtain ⟨h0, m, h1, h2⟩ := hl
    cases s
    · have : numBlocksPerSide floatProg.bm .lhs = .ok 1 := by decide +kernel
      rw [this] at h1; cases h1
      have : b = 0 := by omega
      subst this; decide
    · exact absurd h0 (by decide)

theorem float_ok : (solo floatProg neonLocs floatRun).Ok := solo_ok (runTask_steps 100 _ .start) (by decide) fun _ => float_used

theorem float_finished : (solo floatProg neonLocs floatRun).Finished := fun _ _ => by
  show floatRun.2.pc = _
  decide +kernel

/-- The hypotheses of `c75_arm32_float`. -/
example {A : Type} (o : NeonF.Ops A) (u v : A) (m : NeonF.Flow.Mach A) {es : List (Ev Unit)} (hl : Linear (solo floatProg neonLocs floatRun) es) :
    ∃ m', Arm32.Flow.Runs (Arm32.Flow.exTask2 o u v) (prepackCalls ⟨false, true⟩ ⟨16, 128⟩ ++ opsOf (soloX neonLocs floatRun.1) es) m (.ok m') ∧
      Arm32.Flow.Multiplied (Arm32.Flow.exTask2 o u v) m m' := by
  obtain ⟨⟨r, hr⟩, hv⟩ := c75_arm32_float (m := m) (Arm32.Flow.exTask2_ok o u v) (Arm32.Flow.exMapFor o u v) float_ok float_consistent
    (by decide) float_finished hl
  obtain ⟨m', rfl, h⟩ := hv r hr
  exact ⟨m', hr, h⟩

namespace Pool

section
variable {T L C : Type} {x : Exec T (PLoc L) Nat (PCode C)} {p : Prog} {K : Run x} {M : Mul K p}
  (hK : K.Ok) (hx : x.Consistent) (h : M.Ok) {c : Nat} (hc : x.act (K.main, c) = some (.call (.executed M.b))) {es : List (Ev T)}
  {ws : List Work} (hl : M.Linear es ws)
include hK hx h hc hl

/-- C77: 8-bit matrices on 32-bit ARM. -/
theorem c77_arm32 {t : Neon.Flow.Task} {m : Neon.Flow.Mach} (ht : Arm8.Flow.TaskOk t) (hm : MapFor (Neon.Flow.shape t) p.bm) :
    (∃ r, Arm8.Flow.Runs t (prepackCalls p.pre (colsOf (Neon.Flow.shape t)) ++ ws.filterMap opOfWork) m r) ∧
      ∀ r, Arm8.Flow.Runs t (prepackCalls p.pre (colsOf (Neon.Flow.shape t)) ++ ws.filterMap opOfWork) m r →
        ∃ m', r = .ok m' ∧ Neon.Flow.Multiplied t m m' := by
  have hp := fromMap_of hm
  obtain ⟨l1, l2⟩ := linear_iff hp hK hx h hl
  obtain ⟨hn, hf⟩ := tasks_finished hK hx h hc
  have := c75_arm32 (m := m) ht hm (tasks_ok hK hx h hp) (View.consistent hx) hn hf l1
  rwa [l2] at this

/-- C77: float matrices on 32-bit ARM. -/
theorem c77_arm32_float {A : Type} {t : Arm32.Flow.Task A} {m : NeonF.Flow.Mach A} (ht : Arm32.Flow.TaskOk t)
    (hm : MapFor (NeonF.Flow.shape t) p.bm) :
    (∃ r, Arm32.Flow.Runs t (prepackCalls p.pre (colsOf (NeonF.Flow.shape t)) ++ ws.filterMap opOfWork) m r) ∧
      ∀ r, Arm32.Flow.Runs t (prepackCalls p.pre (colsOf (NeonF.Flow.shape t)) ++ ws.filterMap opOfWork) m r →
        ∃ m', r = .ok m' ∧ Arm32.Flow.Multiplied t m m' := by
  have hp := fromMap_of hm
  obtain ⟨l1, l2⟩ := linear_iff hp hK hx h hl
  obtain ⟨hn, hf⟩ := tasks_finished hK hx h hc
  have := c75_arm32_float (m := m) ht hm (tasks_ok hK hx h hp) (View.consistent hx) hn hf l1
  rwa [l2] at this

/-- C77: float matrices on x86. -/
theorem c77_x86_float {A : Type} {o : XFloat.VOps A} {P : XFloat.Path A} (hP : XFloat.IsPath o P) {jb : XFloat.Job A}
    {m : TrMul.Mem A} (ht : XFloat.JobOk P.isa.kc jb m) (hm : MapFor (XFloat.shape m) p.bm) :
    ∃ m', XFloat.runOps P jb (prepackCalls p.pre (colsOf (XFloat.shape m)) ++ ws.filterMap opOfWork) m = .ok m' ∧
      XFloat.Multiplied o jb m m' := by
  have hp := fromMap_of hm
  obtain ⟨l1, l2⟩ := linear_iff hp hK hx h hl
  obtain ⟨hn, hf⟩ := tasks_finished hK hx h hc
  have := c75_x86_float hP ht hm (tasks_ok hK hx h hp) (View.consistent hx) hn hf l1
  rwa [l2] at this

end

/-- The hypotheses of `c77_x86_float`: two tasks, one of them run by a worker. -/
example (ch : ChannelDim) (u v : Int) {es : List (Ev Nat)} {ws : List Work} (hl : exMul.Linear es ws) :
    ∃ m', XFloat.runOps (XFloat.pathAvx2 XFloat.intOps) (XFloat.exJob ch v) (prepackCalls ⟨false, false⟩ ⟨16, 128⟩ ++ ws.filterMap opOfWork)
      (XFloat.exMem 8 u) = .ok m' ∧ m'.dst.elem 9 124 = .ok (XFloat.entry XFloat.intOps (XFloat.exJob ch v) 9 124) := by
  obtain ⟨m', e, hM⟩ := c77_x86_float mul_run mul_consistent mul_ok mul_executed hl (.avx2 (o := XFloat.intOps))
    (XFloat.exJob_ok 8 (.inl rfl) ch u v) (XFloat.exMap8For u)
  exact ⟨m', e, hM.entries 9 124 (by show 9 < 10; decide) (by show 124 < 125; decide) trivial⟩

def oneArm : List (TAct Nat) × TS := runTask Nat armProg 100 [1, 0, 2, 3, 4, 5, 6, 7, 8] [] ⟨.start 0, fun _ _ => false⟩

theorem oneArm_consistent : (oneX neonLocs oneArm.1).Consistent :=
  (playsB_plays (n := 1) (fun t ht => by cases t with
    | zero => omega
    | succ t => rfl) (by decide +kernel)).consistent

theorem oneArm_ok : (oneMul neonLocs oneArm.1 armProg oneArm.2).Ok :=
  one_ok oneArm_consistent (runTask_steps 100 _ .start) (fun _ => arm_used) (by decide +kernel)

/-- The hypotheses of `c77_arm32`. -/
example (dt : Neon.Dt) (m : Neon.Flow.Mach) {es : List (Ev Nat)} {ws : List Work}
    (hl : (oneMul neonLocs oneArm.1 armProg oneArm.2).Linear es ws) :
    ∃ m', Arm8.Flow.Runs (Arm8.Flow.exTask2 dt) (prepackCalls ⟨false, true⟩ ⟨8, 126⟩ ++ ws.filterMap opOfWork) m (.ok m') ∧
      Neon.Flow.Multiplied (Arm8.Flow.exTask2 dt) m m' := by
  obtain ⟨⟨r, hr⟩, hv⟩ := c77_arm32 (one_run _ _) oneArm_consistent oneArm_ok
    (c := neonLocs.length + 3 + oneArm.1.length + 1) (by decide +kernel) hl (m := m) (Arm8.Flow.exTask2_ok dt) (Arm8.Flow.exMapFor dt)
  obtain ⟨m', rfl, h⟩ := hv r hr
  exact ⟨m', hr, h⟩

def oneFloat : List (TAct Nat) × TS := runTask Nat floatProg 100 [1, 0, 2, 3, 4, 5, 6, 7, 8] [] ⟨.start 0, fun _ _ => false⟩

theorem oneFloat_consistent : (oneX neonLocs oneFloat.1).Consistent :=
  (playsB_plays (n := 1) (fun t ht => by cases t with
    | zero => omega
    | succ t => rfl) (by decide +kernel)).consistent

theorem oneFloat_ok : (oneMul neonLocs oneFloat.1 floatProg oneFloat.2).Ok :=
  one_ok oneFloat_consistent (runTask_steps 100 _ .start) (fun _ => float_used) (by decide +kernel)

/-- The hypotheses of `c77_arm32_float`. -/
example {A : Type} (o : NeonF.Ops A) (u v : A) (m : NeonF.Flow.Mach A) {es : List (Ev Nat)} {ws : List Work}
    (hl : (oneMul neonLocs oneFloat.1 floatProg oneFloat.2).Linear es ws) :
    ∃ m', Arm32.Flow.Runs (Arm32.Flow.exTask2 o u v) (prepackCalls ⟨false, true⟩ ⟨16, 128⟩ ++ ws.filterMap opOfWork) m (.ok m') ∧
      Arm32.Flow.Multiplied (Arm32.Flow.exTask2 o u v) m m' := by
  obtain ⟨⟨r, hr⟩, hv⟩ := c77_arm32_float (one_run _ _) oneFloat_consistent oneFloat_ok
    (c := neonLocs.length + 3 + oneFloat.1.length + 1) (by decide +kernel) hl (m := m) (Arm32.Flow.exTask2_ok o u v) (Arm32.Flow.exMapFor o u v)
  obtain ⟨m', rfl, h⟩ := hv r hr
  exact ⟨m', hr, h⟩

end Pool

end Ruy.Race

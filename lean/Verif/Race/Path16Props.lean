import Verif.Race.PathProps
import Verif.Simd.Flow16ThreadsProps
/-
C75 and C77 for an 8-bit LHS and an int16 RHS on AVX2 and AVX-512.

  c75_x86_int16, c77_x86_int16    any order of the calls that respects happens-before leaves the destination of C92
-/
namespace Ruy.Race
open Ruy.Mat Ruy.Mul Ruy.BlockMap
open Ruy.TrMul (MapFor)
open Ruy.Simd.Flow (Op Job Multiplied prepackCalls Block colsOf map_shape)

/-- C75: 8-bit by int16 matrices on AVX2 and AVX-512. -/
theorem c75_x86_int16 {T : Type} {x : Exec T Loc Nat Work} {p : Prog} {n : Nat} {K : Tasks x p n} {es : List (Ev T)} {jb : Job}
    {m : TrMul.Mem Int} {P : Simd.Flow16.Path16} {ml : Int → Int → Int → Int} (hP : (P, ml) ∈ Simd.Flow16.paths)
    (ht : Simd.Flow16.JobOk P.kc jb m) (hm : MapFor m p.bm) (h : K.Ok) (hx : x.Consistent)
    (hn : 0 < n) (hf : K.Finished) (hl : Linear K es) :
    ∃ m', Simd.Flow16.runOps P jb (prepackCalls p.pre ⟨m.packed.lhs.layout.cols, m.packed.rhs.layout.cols⟩ ++ opsOf x es) m = .ok m' ∧
      Multiplied ml jb m m' := by
  obtain ⟨k, kd, g, _⟩ := Simd.Flow16.gridOk_of ht (map_shape hm)
  have hb : ∀ s : Side, Block (Simd.Flow16.width P.kc s) ((colsOf (Simd.Flow.shape m)).get s) 0 ((colsOf (Simd.Flow.shape m)).get s) :=
    fun s => (Simd.Flow16.prepack_ok (pre := ⟨true, true⟩) ht g).order.packs s 0 _ (by cases s <;> simp [prepackCalls])
  obtain ⟨c1, c2⟩ := (c75_order g hb h hx).2 es hl
  obtain ⟨m', e, hI⟩ := Simd.Flow16.runOps_inv (Simd.Flow16.paths_ok hP) ht (Simd.Flow16.ordered_of c1)
  exact ⟨m', e, Simd.Flow16.multiplied_of hI fun i j hi hj =>
    c2 hn hf i j (Simd.Flow16.dst_cols ht hi hj).1 (Simd.Flow16.dst_cols ht hi hj).2⟩

/-- One task, no side prepacked, on the map of the example of C93: two blocks. -/
def wideProg : Prog := ⟨⟨false, false⟩, Simd.Flow16.exMap, true⟩
def wideRun : List (TAct Unit) × TS := runTask Unit wideProg 100 [1, 0, 2, 0, 2, 2, 0, 2] [] ⟨.start 0, fun _ _ => false⟩

theorem wide_consistent : (soloX x86Locs wideRun.1).Consistent := Exec.Plays.consistent (by decide +kernel)

theorem wide_used {l : Loc} (hl : Used wideProg l) : l ∈ x86Locs := by
  cases l with
  | next => decide
  | status s b =>
    obtain ⟨_, m, h1, h2⟩ := hl
    cases s
    · have : numBlocksPerSide wideProg.bm .lhs = .ok 1 := by decide +kernel
      rw [this] at h1; cases h1
      have : b = 0 := by omega
      subst this; decide
    · have : numBlocksPerSide wideProg.bm .rhs = .ok 2 := by decide +kernel
      rw [this] at h1; cases h1
      have : b = 0 ∨ b = 1 := by omega
      rcases this with rfl | rfl <;> decide

theorem wide_ok : (solo wideProg x86Locs wideRun).Ok := solo_ok (runTask_steps 100 _ .start) (by decide) fun _ => wide_used

theorem wide_finished : (solo wideProg x86Locs wideRun).Finished := fun _ _ => by
  show wideRun.2.pc = _
  decide +kernel

/-- The hypotheses of `c75_x86_int16`. -/
example (o : Mat.Order) {es : List (Ev Unit)} (hl : Linear (solo wideProg x86Locs wideRun) es) :
    ∃ m', Simd.Flow16.runOps Simd.Flow16.avx512 (Simd.Flow16.exJob2 o .int32) (prepackCalls ⟨false, false⟩ ⟨16, 256⟩ ++ opsOf (soloX x86Locs wideRun.1) es)
      (Simd.Flow16.exMem2 16) = .ok m' ∧ Multiplied Simd.lane512 (Simd.Flow16.exJob2 o .int32) (Simd.Flow16.exMem2 16) m' :=
  c75_x86_int16 Simd.Flow16.in512 (Simd.Flow16.exOk2 (Or.inr rfl) o (by decide)) Simd.Flow16.exMapFor wide_ok wide_consistent (by decide) wide_finished hl

namespace Pool

/-- C77: 8-bit by int16 matrices on AVX2 and AVX-512. -/
theorem c77_x86_int16 {T L C : Type} {x : Exec T (PLoc L) Nat (PCode C)} {p : Prog} {K : Run x} {M : Mul K p}
    (hK : K.Ok) (hx : x.Consistent) (h : M.Ok) {c : Nat} (hc : x.act (K.main, c) = some (.call (.executed M.b))) {es : List (Ev T)}
    {ws : List Work} (hl : M.Linear es ws) {jb : Job} {m : TrMul.Mem Int}
    {P : Simd.Flow16.Path16} {ml : Int → Int → Int → Int} (hP : (P, ml) ∈ Simd.Flow16.paths) (ht : Simd.Flow16.JobOk P.kc jb m) (hm : MapFor m p.bm) :
    ∃ m', Simd.Flow16.runOps P jb (prepackCalls p.pre ⟨m.packed.lhs.layout.cols, m.packed.rhs.layout.cols⟩ ++ ws.filterMap opOfWork) m = .ok m' ∧
      Multiplied ml jb m m' := by
  have hp := fromMap_of hm
  obtain ⟨l1, l2⟩ := linear_iff hp hK hx h hl
  obtain ⟨hn, hf⟩ := tasks_finished hK hx h hc
  have := c75_x86_int16 hP ht hm (tasks_ok hK hx h hp) (View.consistent hx) hn hf l1
  rwa [l2] at this

def oneWide : List (TAct Nat) × TS := runTask Nat wideProg 100 [1, 0, 2, 0, 2, 2, 0, 2] [] ⟨.start 0, fun _ _ => false⟩

theorem oneWide_consistent : (oneX x86Locs oneWide.1).Consistent :=
  (playsB_plays (n := 1) (fun t ht => by cases t with
    | zero => omega
    | succ t => rfl) (by decide +kernel)).consistent

theorem oneWide_ok : (oneMul x86Locs oneWide.1 wideProg oneWide.2).Ok :=
  one_ok oneWide_consistent (runTask_steps 100 _ .start) (fun _ => wide_used) (by decide +kernel)

/-- The hypotheses of `c77_x86_int16`. -/
example (o : Mat.Order) {es : List (Ev Nat)} {ws : List Work} (hl : (oneMul x86Locs oneWide.1 wideProg oneWide.2).Linear es ws) :
    ∃ m', Simd.Flow16.runOps Simd.Flow16.avx512 (Simd.Flow16.exJob2 o .int32) (prepackCalls ⟨false, false⟩ ⟨16, 256⟩ ++ ws.filterMap opOfWork)
      (Simd.Flow16.exMem2 16) = .ok m' ∧ Multiplied Simd.lane512 (Simd.Flow16.exJob2 o .int32) (Simd.Flow16.exMem2 16) m' :=
  c77_x86_int16 (one_run _ _) oneWide_consistent oneWide_ok (c := x86Locs.length + 3 + oneWide.1.length + 1) (by decide +kernel) hl
    Simd.Flow16.in512 (Simd.Flow16.exOk2 (Or.inr rfl) o (by decide)) Simd.Flow16.exMapFor

end Pool

end Ruy.Race

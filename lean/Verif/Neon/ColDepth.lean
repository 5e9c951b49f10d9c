import Verif.Neon.ColCode
import Verif.Neon.Block
/-
`Kernel8bitNeon1Col` from the start of a block to the loads for the next block (labels 1, 2, 79, 4).
-/
namespace Ruy.Neon
open Simd (wrap8 wrap16 wrap32)

/-- What is loaded before the depth loop, and between its iterations: one column of the RHS. -/
structure Loaded1 (j : Job) (a b : Nat) (s : St) : Prop where
  lp : s.x lhsPtr = .ptr .lhs (a + 64)
  rp : s.x rhsPtr = .ptr .rhs (b + 64)
  l : ∀ i, i < 4 → s.v i = j.vec .lhs (a + 16 * i)
  r : s.v 4 = j.vec .rhs b

def Prods1 (j : Job) (a b : Nat) (s : St) : Prop :=
  ∀ i, i < 4 → s.v (8 + i) = prodV (j.vec .lhs (a + 16 * i)) (j.vec .rhs b)

structure Loop1 (j : Job) (a b t : Nat) (s s' : St) : Prop where
  x1 : s'.x 1 = .int (16 * (t + 1))
  same : Same keepLoop s s'
  m : s'.m = s.m
  ok : s'.bad = false
  data : Loaded1 j (a + 64 * t) (b + 64 * t) s'
  p : Prods1 j (a + 64 * t) (b + 64 * t) s'
  acc : ∀ i, i < 4 → s'.v (16 + i) = accV j a b i 0 t

theorem loop_step1 {j : Job} {a b t : Nat} {s s' : St} (hf : j.depth < 2 ^ 31)
    (hd : Readable j a b s) (ht : t + 1 < j.depthSteps + 1) (hx : s.x 12 = .int j.depth) (h : Loop1 j a b t s s') :
    Loop1 j a b (t + 1) s (exec j.env col2.body s') := by
  have hml : s'.m .lhs = j.m .lhs := by rw [h.m]; exact hd.ml
  have hmr : s'.m .rhs = j.m .rhs := by rw [h.m]; exact hd.mr
  have hdep : j.depth = 16 * (j.depthSteps + 1) := rfl
  have bl : ∀ i, i < 4 → bytes s' (addN (s'.x lhsPtr) i) 0 = j.vec .lhs (a + 64 * (t + 1) + 16 * i) := by
    intro i _
    rw [h.data.lp, addN_ptr]; exact bytes_eq hml (by omega)
  have br : bytes s' (s'.x rhsPtr) 0 = j.vec .rhs (b + 64 * (t + 1)) := by
    rw [h.data.rp]; exact bytes_eq hmr (by omega)
  have hl : ∀ i, i < 4 → (exec j.env col2.body s').v i = bytes s' (addN (s'.x lhsPtr) i) 0 := by
    intro i hi
    interval_cases i <;> rfl
  have hr : (exec j.env col2.body s').v 4 = bytes s' (s'.x rhsPtr) 0 := rfl
  refine ⟨?_, h.same.trans (by repeat' first | exact rfl | constructor), h.m, ?_,
    ⟨?_, ?_, fun i hi => (hl i hi).trans (bl i hi), hr.trans br⟩, ?_, ?_⟩
  · show Val.int (((s'.x 1).num + 16) % 2 ^ 32) = _
    rw [h.x1]
    show Val.int ((16 * (t + 1) + 16) % 2 ^ 32) = _
    rw [Nat.mod_eq_of_lt (by omega)]
    rfl
  · show (s'.bad || out j.env (s'.x rhsPtr) 0 16 || out j.env (s'.x lhsPtr) 0 16 ||
      out j.env (addVal (s'.x lhsPtr) 16) 0 16 || out j.env (addVal (addVal (s'.x lhsPtr) 16) 16) 0 16 ||
      out j.env (addVal (addVal (addVal (s'.x lhsPtr) 16) 16) 16) 0 16 || (s'.x 1).isPtr || false ||
      (s'.x 12).isPtr) = false
    have h1 := hd.sl
    have h2 := hd.sr
    have h12 : (s'.x 12).isPtr = false := by
      rw [h.same.get (show 12 ∈ keepLoop by decide), hx]; rfl
    rw [h.ok, h.data.lp, h.data.rp, h.x1, h12]
    simp only [addVal]
    rw [out_ptr (by show _ ≤ j.size .rhs; omega), out_ptr (by show _ ≤ j.size .lhs; omega),
      out_ptr (by show _ ≤ j.size .lhs; omega), out_ptr (by show _ ≤ j.size .lhs; omega),
      out_ptr (by show _ ≤ j.size .lhs; omega)]
    rfl
  · show addVal (addVal (addVal (addVal (s'.x lhsPtr) 16) 16) 16) 16 = _
    rw [h.data.lp]; rfl
  · show addVal (addVal (s'.x rhsPtr) 16) 48 = _
    rw [h.data.rp]; rfl
  · have e : ∀ i, i < 4 → (exec j.env col2.body s').v (8 + i) =
        prodV (bytes s' (addN (s'.x lhsPtr) i) 0) (bytes s' (s'.x rhsPtr) 0) := by
      intro i hi
      interval_cases i <;> rfl
    intro i hi
    rw [e i hi, bl i hi, br]
  · have e0 : ∀ i, i < 4 → (exec j.env col2.body s').v (16 + i) =
        ofS fun l => getS (s'.v (16 + i)) l + (getH (s'.v (8 + i)) (2 * l) + getH (s'.v (8 + i)) (2 * l + 1)) := by
      intro i hi
      interval_cases i <;> rfl
    intro i hi
    rw [e0 i hi, h.acc i hi, h.p i hi]
    rfl

/-- Labels 1 and 2: the products of all but the last sixteen levels of depth. -/
theorem accumulate1 {j : Job} {a b : Nat} {s : St} (hf : j.depth < 2 ^ 31)
    (hd : Readable j a b s) (hx : s.x 12 = .int j.depth) (h : Loop1 j a b 0 s s) :
    ∃ s', Reach j.env colCode (1, s) (3, s') ∧ Loop1 j a b j.depthSteps s s' := by
  have hdep : j.depth = 16 * (j.depthSteps + 1) := rfl
  have ex : ∀ r, (exec j.env col1.body s).x r = s.x r := fun _ => rfl
  have ev : ∀ r, (exec j.env col1.body s).v r = s.v r := fun _ => rfl
  have h0 : Loop1 j a b 0 s (exec j.env col1.body s) :=
    ⟨(ex 1).trans h.x1, (by repeat' first | exact rfl | constructor), by simp only [col1, exec, step], by
      show (s.bad || (s.x 1).isPtr || (s.x 12).isPtr) = false
      rw [h.ok, h.x1, hx]; rfl,
      ⟨(ex _).trans h.data.lp, (ex _).trans h.data.rp, fun i hi => (ev _).trans (h.data.l i hi),
        (ev _).trans h.data.r⟩,
      fun i hi => (ev _).trans (h.p i hi), fun i hi => (ev _).trans (h.acc i hi)⟩
  have hz : (exec j.env col1.body s).z = decide (j.depthSteps = 0) := by
    show decide (sgn (s.x 1).num = sgn (s.x 12).num) = _
    rw [h.x1, hx]
    show decide (sgn (16 * (0 + 1)) = sgn j.depth) = _
    rw [sgn_of (by norm_num), sgn_of hf, decide_eq_decide]
    omega
  rcases Nat.eq_zero_or_pos j.depthSteps with hn | hn
  · refine ⟨_, Reach.block (b := col1) rfl ?_, by rw [hn]; exact h0⟩
    show (bif (exec j.env col1.body s).z then 3 else 2) = 3
    rw [hz, hn]; rfl
  · have hb : Reach j.env colCode (1, s) (2, exec j.env col1.body s) := by
      refine Reach.block (b := col1) rfl ?_
      show (bif (exec j.env col1.body s).z then 3 else 2) = 2
      rw [hz, decide_eq_false (by omega)]; rfl
    have key : ∀ d t s', t + 1 + d = j.depthSteps → Loop1 j a b t s s' →
        ∃ s'', Reach j.env colCode (2, s') (3, s'') ∧ Loop1 j a b j.depthSteps s s'' := by
      intro d
      induction d with
      | zero =>
        intro t s' ht hl
        have hl' := loop_step1 hf hd (by omega) hx hl
        refine ⟨_, Reach.block (b := col2) rfl ?_, by rw [show j.depthSteps = t + 1 by omega]; exact hl'⟩
        show (bif decide (sgn ((exec j.env col2.body s').x 1).num <
          sgn ((exec j.env col2.body s').x 12).num) then 2 else 3) = 3
        rw [hl'.x1, hl'.same.get (show 12 ∈ keepLoop by decide), hx]
        show (bif decide (sgn (16 * (t + 1 + 1)) < sgn j.depth) then 2 else 3) = 3
        rw [sgn_of (by omega), sgn_of hf, decide_eq_false (by omega)]; rfl
      | succ d ih =>
        intro t s' ht hl
        have hl' := loop_step1 hf hd (by omega) hx hl
        obtain ⟨s'', h1, h2⟩ := ih (t + 1) _ (by omega) hl'
        refine ⟨s'', Reach.trans (Reach.block (b := col2) rfl ?_) h1, h2⟩
        show (bif decide (sgn ((exec j.env col2.body s').x 1).num <
          sgn ((exec j.env col2.body s').x 12).num) then 2 else 3) = 2
        rw [hl'.x1, hl'.same.get (show 12 ∈ keepLoop by decide), hx]
        show (bif decide (sgn (16 * (t + 1 + 1)) < sgn j.depth) then 2 else 3) = 2
        rw [sgn_of (by omega), sgn_of hf, decide_eq_true (by omega)]; rfl
    obtain ⟨s'', h1, h2⟩ := key (j.depthSteps - 1) 0 _ (by omega) h0
    exact ⟨s'', hb.trans h1, h2⟩

/-- What the caller guarantees (kernel_arm.h:68-72, kernel_arm64.cc:1174): the destination has one column
and channels are rows. -/
structure OneCol (j : Job) : Prop where
  steps : j.colSteps = 0
  start : j.startCol = 0
  cols : j.dstCols = 1
  chan : j.chanCol = false

/-- At label 1. -/
structure Head1 (j : Job) (p : Nat) (s : St) : Prop where
  mid : Mid j p 0 s
  x1 : s.x 1 = .int 16
  x5 : s.x 5 = .ptr .lhs j.lhsBase
  x6 : s.x 6 = .int j.startRow
  x7 : s.x 7 = .int j.lastRow
  lc : s.x lhsColPtr = .ptr .lhs (lhsBlk j p)
  rc : s.x rhsColPtr = .ptr .rhs (rhsBlk j 0)
  data : Loaded1 j (lhsBlk j p) (rhsBlk j 0) s
  prods : Prods1 j (lhsBlk j p) (rhsBlk j 0) s
  zero : ∀ i, i < 4 → s.v (16 + i) = fun _ => 0

/-- Entries of the only column of a tile. -/
def Tile1 (f : Nat → Int) (s : St) : Prop := ∀ u, u < 4 → getS (s.v 16) u = f u

/-- At label 5. -/
structure Summed1 (j : Job) (p : Nat) (s : St) : Prop where
  mid : Mid j p 0 s
  lc : s.x lhsColPtr = .ptr .lhs (lhsBlk j (nextP j p))
  rc : s.x rhsColPtr = .ptr .rhs (rhsBlk j 0)
  tile : Tile1 (fun u => wrap32 (blockDot j (lhsBlk j p) (rhsBlk j 0) u 0 (j.depthSteps + 1))) s

/-- Block 3: the tile. -/
theorem tail_tile1 {j : Job} {a b : Nat} {s s' : St} (h : Loop1 j a b j.depthSteps s s') :
    Tile1 (fun u => wrap32 (blockDot j a b u 0 (j.depthSteps + 1))) (exec j.env col3.body s') := by
  have e : (exec j.env col3.body s').v 16 =
      tileV (accV j a b 0 0 (j.depthSteps + 1)) (accV j a b 1 0 (j.depthSteps + 1))
        (accV j a b 2 0 (j.depthSteps + 1)) (accV j a b 3 0 (j.depthSteps + 1)) := by
    have e0 : (exec j.env col3.body s').v 16 =
        tileV (vop .sadalp (s'.v (16 + 0)) (s'.v (8 + 0)) (s'.v (8 + 0)))
          (vop .sadalp (s'.v (16 + 1)) (s'.v (8 + 1)) (s'.v (8 + 1)))
          (vop .sadalp (s'.v (16 + 2)) (s'.v (8 + 2)) (s'.v (8 + 2)))
          (vop .sadalp (s'.v (16 + 3)) (s'.v (8 + 3)) (s'.v (8 + 3))) := rfl
    rw [e0, h.acc 0 (by omega), h.acc 1 (by omega), h.acc 2 (by omega), h.acc 3 (by omega), h.p 0 (by omega),
      h.p 1 (by omega), h.p 2 (by omega), h.p 3 (by omega)]
    rfl
  intro u hu
  rw [e, tile_value j a b 0 _ u hu]

theorem cb3 (e : Env) (s : St) : Same midRegs s (exec e col3.body s) ∧
    (exec e col3.body s).m = s.m ∧
    (exec e col3.body s).bad = (s.bad || (s.x rRow).isPtr || (s.x 7).isPtr) ∧
    (exec e col3.body s).lt = decide (sgn (s.x rRow).num < sgn (s.x 7).num) ∧
    Same [5, 9, 10, 32, 33] s (exec e col3.body s) := by
  cases s; exact ⟨by keep, rfl, rfl, rfl, by keep⟩

theorem Tile1.of {f : Nat → Int} {s s' : St} (h : Tile1 f s) (hv : s'.v = s.v) : Tile1 f s' := by
  intro u hu
  rw [hv]; exact h u hu

theorem summed1 {j : Job} (hf : j.Fits) (h1c : OneCol j) {p : Nat} (hp : p ≤ j.rowSteps) {s : St} (h : Head1 j p s) :
    ∃ s', Reach j.env colCode (1, s) (7, s') ∧ Summed1 j p s' ∧ s'.m = s.m := by
  obtain ⟨s1, h1, l⟩ := accumulate1 hf.deep (readable hf hp (Nat.zero_le _) h.mid.mem) h.mid.x12
    (a := lhsBlk j p) (b := rhsBlk j 0)
    ⟨h.x1, Same.refl _ _, rfl, h.mid.ok, h.data, h.prods, fun i hi => by rw [h.zero _ hi]; rfl⟩
  have m1 : Mid j p 0 s1 := h.mid.of (l.same.sub (by decide)) l.m l.ok
  have hx7 : s1.x 7 = .int j.lastRow := (l.same.get (by decide)).trans h.x7
  have hx5 : s1.x 5 = .ptr .lhs j.lhsBase := (l.same.get (by decide)).trans h.x5
  have hlc : s1.x lhsColPtr = .ptr .lhs (lhsBlk j p) := (l.same.get (by decide)).trans h.lc
  have hrc : s1.x rhsColPtr = .ptr .rhs (rhsBlk j 0) := (l.same.get (by decide)).trans h.rc
  have t2 := tail_tile1 l
  have frow := hf.row
  have hlast : j.lastRow = j.startRow + 4 * j.rowSteps := rfl
  have hlastc : j.lastCol = 0 := by unfold Job.lastCol; rw [h1c.start, h1c.steps]
  obtain ⟨k2, mm2, bad2, lt2, kk2⟩ := cb3 j.env s1
  have nx2 : ∀ l, (bif !(exec j.env col3.body s1).lt then 5 else 4) = l →
      Reach j.env colCode (3, s1) (l, exec j.env col3.body s1) := fun l hl =>
    Reach.block (b := col3) rfl hl
  generalize exec j.env col3.body s1 = s2 at *
  have m2 : Mid j p 0 s2 := m1.of k2 mm2 (by rw [bad2, m1.ok, m1.row, hx7]; rfl)
  have hx5 : s2.x 5 = .ptr .lhs j.lhsBase := (kk2.get (by decide)).trans hx5
  have hlc : s2.x lhsColPtr = .ptr .lhs (lhsBlk j p) := (kk2.get (by decide)).trans hlc
  have hrc : s2.x rhsColPtr = .ptr .rhs (rhsBlk j 0) := (kk2.get (by decide)).trans hrc
  have lt2 : s2.lt = decide (p < j.rowSteps) := by
    rw [lt2, m1.row, hx7]
    rw [sgn_lt (by omega) (by omega), decide_eq_decide]
    omega
  rcases Nat.lt_or_ge p j.rowSteps with hlt | hge
  · have r2 := nx2 4 (by rw [lt2, decide_eq_true hlt]; rfl)
    have r3 : Reach j.env colCode (4, s2) (7, exec j.env gemm4.body s2) :=
      Reach.block (b := col4) rfl rfl
    obtain ⟨k3, mm3, bad3, lc3, rc3, v3⟩ := b4 j.env s2
    refine ⟨_, (h1.trans r2).trans r3, ⟨m2.of k3 mm3 ?_, ?_, ?_, t2.of v3⟩, ?_⟩
    · rw [bad3, m2.ok, m2.x9]; rfl
    · rw [lc3, hlc, m2.x9]
      unfold nextP lhsBlk
      simp only [addVal, Val.num]
      rw [if_pos hlt, Nat.add_mul]
      exact congrArg _ (by omega)
    · rw [rc3, hrc]
    · rw [mm3, mm2, l.m]
  · have r2 := nx2 5 (by rw [lt2, decide_eq_false (by omega)]; rfl)
    obtain ⟨k3, mm3, bad3, lc3, rc3, v3, lt3⟩ := b5 j.env s2
    have nx3 : ∀ l, (bif !(exec j.env gemm5.body s2).lt then 7 else 6) = l →
        Reach j.env colCode (5, s2) (l, exec j.env gemm5.body s2) := fun l hl =>
      Reach.block (b := col5) rfl hl
    generalize exec j.env gemm5.body s2 = s3 at *
    have m3 : Mid j p 0 s3 := m2.of k3 mm3 (by rw [bad3, m2.ok, m2.col, m2.x8]; rfl)
    have lt3 : s3.lt = false := by
      rw [lt3, m2.col, m2.x8]
      rw [sgn_lt (by rw [h1c.start]; omega) (by omega)]
      exact decide_eq_false (by omega)
    have hlc : s3.x lhsColPtr = .ptr .lhs (lhsBlk j (nextP j p)) := by
      unfold nextP lhsBlk
      rw [lc3, hx5, if_neg (by omega), Nat.zero_mul]; rfl
    have r3 := nx3 7 (by rw [lt3]; rfl)
    refine ⟨_, (h1.trans r2).trans r3, ⟨m3, hlc, ?_, t2.of v3⟩, ?_⟩
    · rw [rc3, hrc]
    · rw [mm3, mm2, l.m]

end Ruy.Neon

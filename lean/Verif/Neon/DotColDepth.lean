import Verif.Neon.Dot1ColCode
import Verif.Neon.DotBlock
import Verif.Neon.ColDepth
/-
`Kernel8bitNeonDotprod1Col` from the start of a block to the loads for the next block (labels 1, 2, 79, 4).

The entries of a block: row `4 * h + i` (`h < 2`, `i < 4`) is in lane `i` of register `16 + h`.
-/
namespace Ruy.Neon.Dot
open Simd (wrap8 wrap16 wrap32)

theorem quad_lower (n m : Vec) (i : Nat) : quad n (lower m) i 0 = quad n m i 0 := by
  unfold quad
  rw [getB_lower m (by omega), getB_lower m (by omega), getB_lower m (by omega), getB_lower m (by omega)]

/-- What is loaded between the iterations of the depth loop: one column of the RHS. -/
structure Loaded1 (j : Job) (a b : Nat) (s : St) : Prop where
  l : ∀ h, h < 2 → s.v h = j.vec .lhs (a + 16 * h)
  r : s.v 2 = lower (j.vec .rhs b)

/-- The depth loop with group `t` in the registers. -/
structure Loop1 (j : Job) (a b t : Nat) (s s' : St) : Prop where
  x1 : s'.x 1 = .int (4 * (t + 1))
  same : Same keepLoop s s'
  m : s'.m = s.m
  ok : s'.bad = false
  lp : s'.x lhsPtr = .ptr .lhs (a + 32 * (t + 1))
  rp : s'.x rhsPtr = .ptr .rhs (b + 32 * (t + 1))
  data : Loaded1 j (a + 32 * t) (b + 32 * t) s'
  acc0 : ∀ i, i < 4 → wrap32 (getS (s'.v 16) i + rest j a b 0 0 0 i (t + 1)) = wrap32 (total j a b 0 0 0 i)
  acc1 : ∀ i, i < 4 → wrap32 (getS (s'.v 17) i + rest j a b 1 0 0 i t) = wrap32 (total j a b 1 0 0 i)

theorem c2 (e : Env) (s : St) : Same keepLoop s (exec e doto2.body s) ∧ (exec e doto2.body s).m = s.m ∧
    (exec e doto2.body s).x 1 = .int (((s.x 1).num + 4) % 2 ^ 32) ∧
    (exec e doto2.body s).x lhsPtr = addN (s.x lhsPtr) 2 ∧
    (exec e doto2.body s).x rhsPtr = addVal (addVal (s.x rhsPtr) 0) 32 ∧
    (exec e doto2.body s).bad = (s.bad || (s.x 1).isPtr || out e (s.x lhsPtr) 0 16 || false || (s.x 12).isPtr ||
      out e (s.x rhsPtr) 0 8 || out e (addN (s.x lhsPtr) 1) 0 16) ∧
    (exec e doto2.body s).lt = decide (sgn (((s.x 1).num + 4) % 2 ^ 32) < sgn (s.x 12).num) ∧
    (∀ h, h < 2 → (exec e doto2.body s).v h = bytes s (addN (s.x lhsPtr) h) 0) ∧
    (exec e doto2.body s).v 2 = lower (bytes s (s.x rhsPtr) 0) ∧
    (exec e doto2.body s).v 16 =
      eop .sdot 0 (s.v 16) (bytes s (s.x lhsPtr) 0) (lower (bytes s (s.x rhsPtr) 0)) ∧
    (exec e doto2.body s).v 17 = eop .sdot 0 (s.v 17) (s.v 1) (s.v 2) := by
  cases s
  refine ⟨by repeat' (first | exact trivial | refine ⟨rfl, ?_⟩), rfl, rfl, rfl, rfl, rfl, rfl, ?_, rfl, rfl, rfl⟩
  intro h hh; interval_cases h <;> rfl

theorem loop_step1 {j : Job} {a b t : Nat} {s s' : St} (hf : depth j < 2 ^ 31)
    (hd : Readable j a b s) (ht : t + 1 < j.depthSteps + 1) (hx : s.x 12 = .int (depth j)) (h : Loop1 j a b t s s') :
    Loop1 j a b (t + 1) s (exec (env j) doto2.body s') ∧
      (exec (env j) doto2.body s').lt = decide (t + 1 < j.depthSteps) := by
  have hml : s'.m .lhs = j.m .lhs := by rw [h.m]; exact hd.ml
  have hmr : s'.m .rhs = j.m .rhs := by rw [h.m]; exact hd.mr
  have hdep : depth j = 4 * (j.depthSteps + 1) := rfl
  have h1 := hd.sl
  have h2 := hd.sr
  have h12 : s'.x 12 = .int (depth j) := (h.same.get (by decide)).trans hx
  have bl : ∀ i, bytes s' (addN (s'.x lhsPtr) i) 0 = j.vec .lhs (a + 32 * (t + 1) + 16 * i) := fun i => by
    rw [h.lp, addN_ptr]; exact bytes_eq hml rfl
  have br : bytes s' (s'.x rhsPtr) 0 = j.vec .rhs (b + 32 * (t + 1)) := by
    rw [h.rp]; exact bytes_eq hmr rfl
  obtain ⟨k1, k2, k3, k4, k5, k6, k7, v0, v2, v16, v17⟩ := c2 (env j) s'
  generalize exec (env j) doto2.body s' = s1 at *
  have e1 : ((s'.x 1).num + 4) % 2 ^ 32 = 4 * (t + 1 + 1) := by
    rw [h.x1]; show (4 * (t + 1) + 4) % 2 ^ 32 = _
    rw [Nat.mod_eq_of_lt (by omega)]; rfl
  have b0 := bl 0
  rw [show addN (s'.x lhsPtr) 0 = s'.x lhsPtr from rfl] at b0
  refine ⟨⟨by rw [k3, e1], h.same.trans k1, k2.trans h.m, ?_, ?_, ?_, ⟨fun i hi => ?_, ?_⟩, ?_, ?_⟩, ?_⟩
  · rw [k6, h.ok, h.x1, h12, h.lp, h.rp, addN_ptr, out_ptr (by show _ ≤ j.size .lhs; omega),
      out_ptr (by show _ ≤ j.size .rhs; omega), out_ptr (by show _ ≤ j.size .lhs; omega)]
    rfl
  · rw [k4, h.lp, addN_ptr]; exact congrArg _ (by omega)
  · rw [k5, h.rp]; rfl
  · rw [v0 i hi, bl]
  · rw [v2, br]
  · intro i hi
    have ha := h.acc0 i hi
    rw [rest_step ht] at ha
    rw [v16, getS_sdot, b0, br, quad_lower, wrap32_add_l, ← ha]
    refine congrArg wrap32 ?_
    simp only [grp, Nat.mul_zero, Nat.add_zero]
    ring
  · intro i hi
    have ha := h.acc1 i hi
    rw [rest_step (by omega)] at ha
    rw [v17, getS_sdot, h.data.l 1 (by omega), h.data.r, quad_lower, wrap32_add_l, ← ha]
    refine congrArg wrap32 ?_
    simp only [grp, Nat.mul_zero, Nat.add_zero]
    ring
  · rw [k7, e1, h12]
    show decide (sgn (4 * (t + 1 + 1)) < sgn (depth j)) = _
    rw [sgn_of (by omega), sgn_of hf, decide_eq_decide]
    omega

/-- Labels 1 and 2: all levels of depth, but for the last group of the lower four rows. -/
theorem accumulate1 {j : Job} {a b : Nat} {s : St} (hf : depth j < 2 ^ 31)
    (hd : Readable j a b s) (hx : s.x 12 = .int (depth j)) (h : Loop1 j a b 0 s s) :
    ∃ s', Reach (env j) dotoCode (1, s) (3, s') ∧ Loop1 j a b j.depthSteps s s' := by
  have hdep : depth j = 4 * (j.depthSteps + 1) := rfl
  have ex : ∀ r, (exec (env j) doto1.body s).x r = s.x r := fun _ => rfl
  have ev : ∀ r, (exec (env j) doto1.body s).v r = s.v r := fun _ => rfl
  have h0 : Loop1 j a b 0 s (exec (env j) doto1.body s) :=
    ⟨(ex 1).trans h.x1, (by repeat' first | exact rfl | constructor), by simp only [doto1, exec, step], by
      show (s.bad || (s.x 1).isPtr || (s.x 12).isPtr) = false
      rw [h.ok, h.x1, hx]; rfl, (ex _).trans h.lp, (ex _).trans h.rp,
      ⟨fun i hi => (ev _).trans (h.data.l i hi), (ev _).trans h.data.r⟩,
      fun i hi => by rw [ev]; exact h.acc0 i hi, fun i hi => by rw [ev]; exact h.acc1 i hi⟩
  have hz : (exec (env j) doto1.body s).z = decide (j.depthSteps = 0) := by
    show decide (sgn (s.x 1).num = sgn (s.x 12).num) = _
    rw [h.x1, hx]
    show decide (sgn (4 * (0 + 1)) = sgn (depth j)) = _
    rw [sgn_of (by norm_num), sgn_of hf, decide_eq_decide]
    omega
  rcases Nat.eq_zero_or_pos j.depthSteps with hn | hn
  · refine ⟨_, Reach.block (b := doto1) rfl ?_, by rw [hn]; exact h0⟩
    show (bif (exec (env j) doto1.body s).z then 3 else 2) = 3
    rw [hz, hn]; rfl
  · have hb : Reach (env j) dotoCode (1, s) (2, exec (env j) doto1.body s) := by
      refine Reach.block (b := doto1) rfl ?_
      show (bif (exec (env j) doto1.body s).z then 3 else 2) = 2
      rw [hz, decide_eq_false (by omega)]; rfl
    have key : ∀ d t s', t + 1 + d = j.depthSteps → Loop1 j a b t s s' →
        ∃ s'', Reach (env j) dotoCode (2, s') (3, s'') ∧ Loop1 j a b j.depthSteps s s'' := by
      intro d
      induction d with
      | zero =>
        intro t s' ht hl
        obtain ⟨hl', hlt⟩ := loop_step1 hf hd (by omega) hx hl
        refine ⟨_, Reach.block (b := doto2) rfl ?_, by rw [show j.depthSteps = t + 1 by omega]; exact hl'⟩
        show (bif (exec (env j) doto2.body s').lt then 2 else 3) = 3
        rw [hlt, decide_eq_false (by omega)]; rfl
      | succ d ih =>
        intro t s' ht hl
        obtain ⟨hl', hlt⟩ := loop_step1 hf hd (by omega) hx hl
        obtain ⟨s'', h1, h2⟩ := ih (t + 1) _ (by omega) hl'
        refine ⟨s'', Reach.trans (Reach.block (b := doto2) rfl ?_) h1, h2⟩
        show (bif (exec (env j) doto2.body s').lt then 2 else 3) = 2
        rw [hlt, decide_eq_true (by omega)]; rfl
    obtain ⟨s'', h1, h2⟩ := key (j.depthSteps - 1) 0 _ (by omega) h0
    exact ⟨s'', hb.trans h1, h2⟩

/-- At label 1. -/
structure Head1 (j : Job) (p : Nat) (s : St) : Prop where
  mid : Mid j p 0 s
  x5 : s.x 5 = .ptr .lhs j.lhsBase
  x6 : s.x 6 = .int j.startRow
  x7 : s.x 7 = .int (lastRow j)
  lc : s.x lhsColPtr = .ptr .lhs (lhsBlk j p)
  rc : s.x rhsColPtr = .ptr .rhs (rhsBlk j 0)
  loop : Loop1 j (lhsBlk j p) (rhsBlk j 0) 0 s s

/-- Entries of the only column of a tile. -/
def Tile1 (f : Nat → Int) (s : St) : Prop :=
  ∀ h, h < 2 → ∀ i, i < 4 → getS (s.v (16 + h)) i = f (4 * h + i)

/-- At label 5. -/
structure Summed1 (j : Job) (p : Nat) (s : St) : Prop where
  mid : Mid j p 0 s
  lc : s.x lhsColPtr = .ptr .lhs (lhsBlk j (nextP j p))
  rc : s.x rhsColPtr = .ptr .rhs (rhsBlk j 0)
  tile : Tile1 (fun u => wrap32 (blockDot j (lhsBlk j p) (rhsBlk j 0) u 0)) s

theorem c3 (e : Env) (s : St) : Same midRegs s (exec e doto3.body s) ∧
    (exec e doto3.body s).m = s.m ∧
    (exec e doto3.body s).bad = (s.bad || (s.x rRow).isPtr || (s.x 7).isPtr) ∧
    (exec e doto3.body s).lt = decide (sgn (s.x rRow).num < sgn (s.x 7).num) ∧
    Same [5, 9, 10, 32, 33] s (exec e doto3.body s) ∧
    (exec e doto3.body s).v 16 = s.v 16 ∧
    (exec e doto3.body s).v 17 = eop .sdot 0 (s.v 17) (s.v 1) (s.v 2) := by
  cases s; exact ⟨by keep, rfl, rfl, rfl, by keep, rfl, rfl⟩

/-- Block 3: the tile. -/
theorem tail_tile1 {j : Job} {a b : Nat} {s s' : St} (h : Loop1 j a b j.depthSteps s s') :
    Tile1 (fun u => wrap32 (blockDot j a b u 0)) (exec (env j) doto3.body s') := by
  obtain ⟨_, _, _, _, _, v16, v17⟩ := c3 (env j) s'
  intro u hu i hi
  have e : wrap32 (blockDot j a b (4 * u + i) 0) = wrap32 (total j a b u 0 0 i) := by
    unfold blockDot
    rw [show (4 * u + i) / 4 = u by omega, show (4 * u + i) % 4 = i by omega]
  show _ = wrap32 (blockDot j a b (4 * u + i) 0)
  rw [e]
  interval_cases u
  · have ha := h.acc0 i hi
    rw [rest_end, add_zero, getS_wrap32] at ha
    show getS ((exec (env j) doto3.body s').v 16) i = _
    rw [v16, ha]
  · have ha := h.acc1 i hi
    rw [rest_step (by omega), rest_end, add_zero] at ha
    show getS ((exec (env j) doto3.body s').v 17) i = _
    rw [v17, getS_sdot, h.data.l 1 (by omega), h.data.r, quad_lower, ← ha]
    rfl

theorem Tile1.of {f : Nat → Int} {s s' : St} (h : Tile1 f s) (hv : s'.v = s.v) : Tile1 f s' := by
  intro u hu i hi
  rw [hv]; exact h u hu i hi

theorem summed1 {j : Job} (hf : Fits j) (h1c : OneCol j) {p : Nat} (hp : p ≤ j.rowSteps) {s : St} (h : Head1 j p s) :
    ∃ s', Reach (env j) dotoCode (1, s) (7, s') ∧ Summed1 j p s' ∧ s'.m = s.m := by
  obtain ⟨s1, h1, l⟩ := accumulate1 hf.deep (readable hf hp (Nat.zero_le _) h.mid.mem) h.mid.x12 h.loop
  have m1 : Mid j p 0 s1 := h.mid.of (l.same.sub (by decide)) l.m l.ok
  have hx7 : s1.x 7 = .int (lastRow j) := (l.same.get (by decide)).trans h.x7
  have hx5 : s1.x 5 = .ptr .lhs j.lhsBase := (l.same.get (by decide)).trans h.x5
  have hlc : s1.x lhsColPtr = .ptr .lhs (lhsBlk j p) := (l.same.get (by decide)).trans h.lc
  have hrc : s1.x rhsColPtr = .ptr .rhs (rhsBlk j 0) := (l.same.get (by decide)).trans h.rc
  have t2 := tail_tile1 l
  have frow := hf.row
  have hlast : lastRow j = j.startRow + 8 * j.rowSteps := rfl
  have hlastc : lastCol j = 0 := by unfold lastCol; rw [h1c.start, h1c.steps]
  obtain ⟨k2, mm2, bad2, lt2, kk2, _, _⟩ := c3 (env j) s1
  have nx2 : ∀ l, (bif !(exec (env j) doto3.body s1).lt then 5 else 4) = l →
      Reach (env j) dotoCode (3, s1) (l, exec (env j) doto3.body s1) := fun l hl =>
    Reach.block (b := doto3) rfl hl
  generalize exec (env j) doto3.body s1 = s2 at *
  have m2 : Mid j p 0 s2 := m1.of k2 mm2 (by rw [bad2, m1.ok, m1.row, hx7]; rfl)
  have hx5 : s2.x 5 = .ptr .lhs j.lhsBase := (kk2.get (by decide)).trans hx5
  have hlc : s2.x lhsColPtr = .ptr .lhs (lhsBlk j p) := (kk2.get (by decide)).trans hlc
  have hrc : s2.x rhsColPtr = .ptr .rhs (rhsBlk j 0) := (kk2.get (by decide)).trans hrc
  have lt2 : s2.lt = decide (p < j.rowSteps) := by
    rw [lt2, m1.row, hx7]
    rw [sgn_lt (by omega) (by omega), decide_eq_decide]
    omega
  rcases Nat.lt_or_ge p j.rowSteps with hlt | hge
  · have r2 := nx2 4 (by rw [lt2, decide_eq_true hlt]; rfl)
    have r3 : Reach (env j) dotoCode (4, s2) (7, exec (env j) dot8.body s2) :=
      Reach.block (b := doto4) rfl rfl
    obtain ⟨k3, mm3, bad3, lc3, rc3, v3⟩ := b8 (env j) s2
    refine ⟨_, (h1.trans r2).trans r3, ⟨m2.of k3 mm3 ?_, ?_, ?_, t2.of v3⟩, ?_⟩
    · rw [bad3, m2.ok, m2.x9]; rfl
    · rw [lc3, hlc, m2.x9]
      unfold nextP lhsBlk
      simp only [addVal, Val.num]
      rw [if_pos hlt, Nat.add_mul]
      exact congrArg _ (by omega)
    · rw [rc3, hrc]
    · rw [mm3, mm2, l.m]
  · have r2 := nx2 5 (by rw [lt2, decide_eq_false (by omega)]; rfl)
    obtain ⟨k3, mm3, bad3, lc3, rc3, v3, lt3⟩ := b9 (env j) s2
    have nx3 : ∀ l, (bif !(exec (env j) dot9.body s2).lt then 7 else 6) = l →
        Reach (env j) dotoCode (5, s2) (l, exec (env j) dot9.body s2) := fun l hl =>
      Reach.block (b := doto5) rfl hl
    generalize exec (env j) dot9.body s2 = s3 at *
    have m3 : Mid j p 0 s3 := m2.of k3 mm3 (by rw [bad3, m2.ok, m2.col, m2.x8]; rfl)
    have lt3 : s3.lt = false := by
      rw [lt3, m2.col, m2.x8]
      rw [sgn_lt (by rw [h1c.start]; omega) (by omega)]
      exact decide_eq_false (by omega)
    have hlc : s3.x lhsColPtr = .ptr .lhs (lhsBlk j (nextP j p)) := by
      unfold nextP lhsBlk
      rw [lc3, hx5, if_neg (by omega), Nat.zero_mul]; rfl
    have r3 := nx3 7 (by rw [lt3]; rfl)
    refine ⟨_, (h1.trans r2).trans r3, ⟨m3, hlc, ?_, t2.of v3⟩, ?_⟩
    · rw [rc3, hrc]
    · rw [mm3, mm2, l.m]

end Ruy.Neon.Dot

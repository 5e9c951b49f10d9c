import Verif.Neon.DotAccum
import Verif.Neon.Block
/-
The dot-product kernels from the end of the depth loop to the loads for the next block
(labels 79, 4, 5).

The kernels for different processors only differ in their depth loop; `Prog` is what the rest
depends on.
-/
namespace Ruy.Neon.Dot
open Simd (wrap8 wrap16 wrap32)

/-- A program like `dotCode` with another depth loop. -/
structure Prog (P : List Block) : Prop where
  first : P[0]? = some dot0
  tail : ∀ i, 7 ≤ i → P[i]? = dotCode[i]?
  acc : ∀ (j : Job) (a b : Nat) (s : St), depth j < 2 ^ 31 → Readable j a b s → s.x 12 = .int (depth j) →
    Loop j a b 0 1 s s →
    ∃ s'' g', Reach (env j) P (1, s) (7, s'') ∧ Loop j a b g' (j.depthSteps + 1) s s''

theorem dotProg : Prog dotCode :=
  ⟨rfl, fun _ _ => rfl, fun _ _ _ _ hf hd hx h => accumulate hf hd hx h⟩

theorem Prog.block {P : List Block} (hP : Prog P) {e : Env} {i : Nat} {b : Block} {s : St} {l : Nat} (hi : 7 ≤ i)
    (h : dotCode[i]? = some b) (hl : next (exec e b.body s) b.term = l) :
    Reach e P (i, s) (l, exec e b.body s) := Reach.block ((hP.tail i hi).trans h) hl

/-- What holds from the start of block (`p`, `q`) of the destination until it is stored. -/
structure Mid (j : Job) (p q : Nat) (s : St) : Prop where
  x8 : s.x 8 = .int (lastCol j)
  x9 : s.x 9 = .int j.lhsStride
  x10 : s.x 10 = .int j.rhsStride
  x11 : s.x 11 = .int j.dstStride
  x12 : s.x 12 = .int (depth j)
  dc : s.x dstColPtr = .ptr .dst (j.dstBase + q * (8 * j.dstStride))
  dp : s.x dstPtr = .ptr .dst (j.dstBase + q * (8 * j.dstStride) + p * (8 * j.dt.size))
  row : s.x rRow = .int (j.startRow + 8 * p)
  col : s.x rCol = .int (j.startCol + 8 * q)
  rows : s.x rDstRows = .int j.dstRows
  cols : s.x rDstCols = .int j.dstCols
  tmp : s.x tmpBuf = .ptr .tmp 0
  type : s.x dstTypeId = .int j.dt.id
  mem : ∀ r, r ≠ .dst → r ≠ .tmp → s.m r = j.m r
  ok : s.bad = false

theorem Mid.of {j : Job} {p q : Nat} {s s' : St} (h : Mid j p q s) (hs : Same midRegs s s')
    (hm : s'.m = s.m) (hb : s'.bad = false) : Mid j p q s' where
  x8 := (hs.get (by decide)).trans h.x8
  x9 := (hs.get (by decide)).trans h.x9
  x10 := (hs.get (by decide)).trans h.x10
  x11 := (hs.get (by decide)).trans h.x11
  x12 := (hs.get (by decide)).trans h.x12
  dc := (hs.get (by decide)).trans h.dc
  dp := (hs.get (by decide)).trans h.dp
  row := (hs.get (by decide)).trans h.row
  col := (hs.get (by decide)).trans h.col
  rows := (hs.get (by decide)).trans h.rows
  cols := (hs.get (by decide)).trans h.cols
  tmp := (hs.get (by decide)).trans h.tmp
  type := (hs.get (by decide)).trans h.type
  mem := fun r h1 h2 => by rw [hm]; exact h.mem r h1 h2
  ok := hb

def lhsBlk (j : Job) (p : Nat) : Nat := j.lhsBase + p * (8 * j.lhsStride)
def rhsBlk (j : Job) (q : Nat) : Nat := j.rhsBase + q * (8 * j.rhsStride)

/-- At label 1. -/
structure Head (j : Job) (p q : Nat) (s : St) : Prop where
  mid : Mid j p q s
  x5 : s.x 5 = .ptr .lhs j.lhsBase
  x6 : s.x 6 = .int j.startRow
  x7 : s.x 7 = .int (lastRow j)
  lc : s.x lhsColPtr = .ptr .lhs (lhsBlk j p)
  rc : s.x rhsColPtr = .ptr .rhs (rhsBlk j q)
  loop : Loop j (lhsBlk j p) (rhsBlk j q) 0 1 s s

/-- Entries of a tile: `f u w` for row `u` and column `w`. -/
def Tile (f : Nat → Nat → Int) (s : St) : Prop :=
  ∀ w, w < 8 → ∀ h, h < 2 → ∀ i, i < 4 → getS (s.v (16 + 2 * w + h)) i = f (4 * h + i) w

/-- The entry of row `u` and column `w` of the product of two packed blocks. -/
def blockDot (j : Job) (a b u w : Nat) : Int := total j a b (u / 4) (w / 4) (w % 4) (u % 4)

/-- At label 5. -/
structure Summed (j : Job) (p q : Nat) (s : St) : Prop where
  mid : Mid j p q s
  lc : s.x lhsColPtr = .ptr .lhs (lhsBlk j (nextP j p))
  rc : s.x rhsColPtr = .ptr .rhs (rhsBlk j (nextQ j p q))
  tile : Tile (fun u w => wrap32 (blockDot j (lhsBlk j p) (rhsBlk j q) u w)) s

theorem readable {j : Job} (hf : Fits j) {p q : Nat} (hp : p ≤ j.rowSteps) (hq : q ≤ j.colSteps)
    {s : St} (h : ∀ r, r ≠ .dst → r ≠ .tmp → s.m r = j.m r) :
    Readable j (lhsBlk j p) (rhsBlk j q) s where
  ml := h .lhs (by decide) (by decide)
  mr := h .rhs (by decide) (by decide)
  sl := by
    have h1 : (p + 1) * (8 * j.lhsStride) ≤ (j.rowSteps + 1) * (8 * j.lhsStride) :=
      Nat.mul_le_mul_right _ (by omega)
    have h2 := hf.lhsSize
    have h3 := hf.lhsDepth
    rw [Nat.add_mul, Nat.one_mul] at h1
    unfold lhsBlk
    unfold depth at h3
    omega
  sr := by
    have h1 : (q + 1) * (8 * j.rhsStride) ≤ (j.colSteps + 1) * (8 * j.rhsStride) :=
      Nat.mul_le_mul_right _ (by omega)
    have h2 := hf.rhsSize
    have h3 := hf.rhsDepth
    rw [Nat.add_mul, Nat.one_mul] at h1
    unfold rhsBlk
    unfold depth at h3
    omega

theorem getS_wrap32 (v : Vec) (i : Nat) : wrap32 (getS v i) = getS v i := by
  unfold getS; exact Simd.wrap32_wrap32 _

theorem b7v (e : Env) (s : St) :
    (∀ k, k < 4 → (exec e dot7.body s).v (16 + 8 * 0 + 2 * k + 0) = s.v (16 + 8 * 0 + 2 * k + 0)) ∧
    (∀ h, h < 2 → ∀ q, q < 2 → ¬(h = 0 ∧ q = 0) → ∀ k, k < 4 → (exec e dot7.body s).v (16 + 8 * q + 2 * k + h) =
      eop .sdot k (s.v (16 + 8 * q + 2 * k + h)) (s.v h) (s.v (2 + q))) := by
  refine ⟨?_, ?_⟩
  · intro k hk; interval_cases k <;> rfl
  · intro h hh q hq hn k hk
    interval_cases h <;> interval_cases q <;> interval_cases k <;> first | exact absurd ⟨rfl, rfl⟩ hn | rfl

/-- Block 7: the tile. -/
theorem tail_tile {j : Job} {a b g : Nat} {s s' : St} (h : Loop j a b g (j.depthSteps + 1) s s') :
    Tile (fun u w => wrap32 (blockDot j a b u w)) (exec (env j) dot7.body s') := by
  obtain ⟨v1, v2⟩ := b7v (env j) s'
  have key : ∀ u, u < 2 → ∀ q, q < 2 → ∀ k, k < 4 → ∀ i, i < 4 →
      getS ((exec (env j) dot7.body s').v (16 + 8 * q + 2 * k + u)) i = wrap32 (total j a b u q k i) := by
    intro u hu q hq k hk i hi
    have ha := h.acc u hu q hq k hk i hi
    rw [rest_end, add_zero] at ha
    by_cases h0 : u = 0 ∧ q = 0
    · obtain ⟨rfl, rfl⟩ := h0
      rw [v1 k hk, ← ha]
      unfold ahead
      rw [if_pos ⟨rfl, rfl⟩, Int.add_zero, getS_wrap32]
    · obtain ⟨d1, _⟩ := h.data 0 (by omega) u hu
      obtain ⟨_, d2⟩ := h.data 0 (by omega) q hq
      rw [Nat.mul_zero, Nat.zero_add, Nat.add_zero] at d1 d2
      rw [v2 u hu q hq h0 k hk, getS_sdot, d1, d2, ← ha]
      unfold ahead
      rw [if_neg h0]
      rfl
  intro w hw u hu i hi
  have e1 := key u hu (w / 4) (by omega) (w % 4) (by omega) i hi
  rw [show 16 + 8 * (w / 4) + 2 * (w % 4) + u = 16 + 2 * w + u by omega] at e1
  rw [e1]
  show _ = wrap32 (blockDot j a b (4 * u + i) w)
  unfold blockDot
  rw [show (4 * u + i) / 4 = u by omega, show (4 * u + i) % 4 = i by omega]

theorem b7 (e : Env) (s : St) : Same midRegs s (exec e dot7.body s) ∧
    (exec e dot7.body s).m = s.m ∧
    (exec e dot7.body s).bad = (s.bad || (s.x rRow).isPtr || (s.x 7).isPtr) ∧
    (exec e dot7.body s).lt = decide (sgn (s.x rRow).num < sgn (s.x 7).num) ∧
    Same [5, 9, 10, 32, 33] s (exec e dot7.body s) := by
  cases s; exact ⟨by keep, rfl, rfl, rfl, by keep⟩

theorem b8 (e : Env) (s : St) : Same midRegs s (exec e dot8.body s) ∧
    (exec e dot8.body s).m = s.m ∧
    (exec e dot8.body s).bad = (s.bad || (s.x 9).isPtr) ∧
    (exec e dot8.body s).x lhsColPtr = addVal (s.x lhsColPtr) ((s.x 9).num * 2 ^ 3) ∧
    (exec e dot8.body s).x rhsColPtr = s.x rhsColPtr ∧ (exec e dot8.body s).v = s.v := by
  cases s; exact ⟨by keep, rfl, rfl, rfl, rfl, rfl⟩

theorem b9 (e : Env) (s : St) : Same midRegs s (exec e dot9.body s) ∧
    (exec e dot9.body s).m = s.m ∧
    (exec e dot9.body s).bad = (s.bad || (s.x rCol).isPtr || (s.x 8).isPtr) ∧
    (exec e dot9.body s).x lhsColPtr = s.x 5 ∧
    (exec e dot9.body s).x rhsColPtr = s.x rhsColPtr ∧ (exec e dot9.body s).v = s.v ∧
    (exec e dot9.body s).lt = decide (sgn (s.x rCol).num < sgn (s.x 8).num) := by
  cases s; exact ⟨by keep, rfl, rfl, rfl, rfl, rfl, rfl⟩

theorem b10 (e : Env) (s : St) : Same midRegs s (exec e dot10.body s) ∧
    (exec e dot10.body s).m = s.m ∧
    (exec e dot10.body s).bad = (s.bad || (s.x 10).isPtr) ∧
    (exec e dot10.body s).x lhsColPtr = s.x lhsColPtr ∧
    (exec e dot10.body s).x rhsColPtr = addVal (s.x rhsColPtr) ((s.x 10).num * 2 ^ 3) ∧
    (exec e dot10.body s).v = s.v := by
  cases s; exact ⟨by keep, rfl, rfl, rfl, rfl, rfl⟩

theorem Tile.of {f : Nat → Nat → Int} {s s' : St} (h : Tile f s) (hv : s'.v = s.v) : Tile f s' := by
  intro w hw u hu i hi
  rw [hv]; exact h w hw u hu i hi

theorem summed {P : List Block} (hP : Prog P) {j : Job} (hf : Fits j) {p q : Nat} (hp : p ≤ j.rowSteps)
    (hq : q ≤ j.colSteps) {s : St} (h : Head j p q s) :
    ∃ s', Reach (env j) P (1, s) (11, s') ∧ Summed j p q s' ∧ s'.m = s.m := by
  obtain ⟨s1, g, h1, l⟩ := hP.acc j (lhsBlk j p) (rhsBlk j q) s hf.deep (readable hf hp hq h.mid.mem) h.mid.x12 h.loop
  have m1 : Mid j p q s1 := h.mid.of (l.same.sub (by decide)) l.m l.ok
  have hx7 : s1.x 7 = .int (lastRow j) := (l.same.get (by decide)).trans h.x7
  have hx5 : s1.x 5 = .ptr .lhs j.lhsBase := (l.same.get (by decide)).trans h.x5
  have hlc : s1.x lhsColPtr = .ptr .lhs (lhsBlk j p) := (l.same.get (by decide)).trans h.lc
  have hrc : s1.x rhsColPtr = .ptr .rhs (rhsBlk j q) := (l.same.get (by decide)).trans h.rc
  have t2 := tail_tile l
  have frow := hf.row
  have fcol := hf.col
  have hlast : lastRow j = j.startRow + 8 * j.rowSteps := rfl
  have hlastc : lastCol j = j.startCol + 8 * j.colSteps := rfl
  obtain ⟨k2, mm2, bad2, lt2, kk2⟩ := b7 (env j) s1
  have nx2 : ∀ l, (bif !(exec (env j) dot7.body s1).lt then 9 else 8) = l →
      Reach (env j) P (7, s1) (l, exec (env j) dot7.body s1) := fun l hl =>
    hP.block (b := dot7) (by omega) rfl hl
  generalize exec (env j) dot7.body s1 = s2 at *
  have m2 : Mid j p q s2 := m1.of k2 mm2 (by rw [bad2, m1.ok, m1.row, hx7]; rfl)
  have hx5 : s2.x 5 = .ptr .lhs j.lhsBase := (kk2.get (by decide)).trans hx5
  have hlc : s2.x lhsColPtr = .ptr .lhs (lhsBlk j p) := (kk2.get (by decide)).trans hlc
  have hrc : s2.x rhsColPtr = .ptr .rhs (rhsBlk j q) := (kk2.get (by decide)).trans hrc
  have lt2 : s2.lt = decide (p < j.rowSteps) := by
    rw [lt2, m1.row, hx7]
    rw [sgn_lt (by omega) (by omega), decide_eq_decide]
    omega
  rcases Nat.lt_or_ge p j.rowSteps with hlt | hge
  · have r2 := nx2 8 (by rw [lt2, decide_eq_true hlt]; rfl)
    have r3 : Reach (env j) P (8, s2) (11, exec (env j) dot8.body s2) :=
      hP.block (b := dot8) (by omega) rfl rfl
    obtain ⟨k3, mm3, bad3, lc3, rc3, v3⟩ := b8 (env j) s2
    refine ⟨_, (h1.trans r2).trans r3, ⟨m2.of k3 mm3 ?_, ?_, ?_, t2.of v3⟩, ?_⟩
    · rw [bad3, m2.ok, m2.x9]; rfl
    · rw [lc3, hlc, m2.x9]
      unfold nextP lhsBlk
      simp only [addVal, Val.num]
      rw [if_pos hlt, Nat.add_mul]
      exact congrArg _ (by omega)
    · unfold nextQ
      rw [rc3, hrc, if_pos hlt]
    · rw [mm3, mm2, l.m]
  · have r2 := nx2 9 (by rw [lt2, decide_eq_false (by omega)]; rfl)
    obtain ⟨k3, mm3, bad3, lc3, rc3, v3, lt3⟩ := b9 (env j) s2
    have nx3 : ∀ l, (bif !(exec (env j) dot9.body s2).lt then 11 else 10) = l →
        Reach (env j) P (9, s2) (l, exec (env j) dot9.body s2) := fun l hl =>
      hP.block (b := dot9) (by omega) rfl hl
    generalize exec (env j) dot9.body s2 = s3 at *
    have m3 : Mid j p q s3 := m2.of k3 mm3 (by rw [bad3, m2.ok, m2.col, m2.x8]; rfl)
    have lt3 : s3.lt = decide (q < j.colSteps) := by
      rw [lt3, m2.col, m2.x8]
      rw [sgn_lt (by omega) (by omega), decide_eq_decide]
      omega
    have hlc : s3.x lhsColPtr = .ptr .lhs (lhsBlk j (nextP j p)) := by
      unfold nextP lhsBlk
      rw [lc3, hx5, if_neg (by omega), Nat.zero_mul]; rfl
    rcases Nat.lt_or_ge q j.colSteps with hql | hqg
    · have r3 := nx3 10 (by rw [lt3, decide_eq_true hql]; rfl)
      have r4 : Reach (env j) P (10, s3) (11, exec (env j) dot10.body s3) :=
        hP.block (b := dot10) (by omega) rfl rfl
      obtain ⟨k4, mm4, bad4, lc4, rc4, v4⟩ := b10 (env j) s3
      refine ⟨_, ((h1.trans r2).trans r3).trans r4,
        ⟨m3.of k4 mm4 ?_, lc4.trans hlc, ?_, (t2.of v3).of v4⟩, ?_⟩
      · rw [bad4, m3.ok, m3.x10]; rfl
      · rw [rc4, rc3, hrc, m3.x10]
        unfold nextQ rhsBlk
        simp only [addVal, Val.num]
        rw [if_neg (by omega), if_pos hql, Nat.add_mul]
        exact congrArg _ (by omega)
      · rw [mm4, mm3, mm2, l.m]
    · have r3 := nx3 11 (by rw [lt3, decide_eq_false (by omega)]; rfl)
      refine ⟨_, (h1.trans r2).trans r3, ⟨m3, hlc, ?_, t2.of v3⟩, ?_⟩
      · unfold nextQ
        rw [rc3, hrc, if_neg (by omega), if_neg (by omega)]
      · rw [mm3, mm2, l.m]

end Ruy.Neon.Dot

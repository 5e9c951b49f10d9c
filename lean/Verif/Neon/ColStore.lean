import Verif.Neon.ColQuant
import Verif.Neon.Heads
/-
The stores of `Kernel8bitNeon1Col`.
-/
namespace Ruy.Neon
open Simd (wrap8 wrap16 wrap32 sqxtn16 sqadd16 sqxtun8 sqxtn8 saddw satS16 satU8 satS8 sat)

/-! ### The common part -/

/-- The blocks of a store in a program: head `n0`, fast path `n1`, end `n2`. -/
structure StoreAt1 (e : Env) (P : List Block) (hd a f g : List Instr) (k n0 n1 n2 after : Nat) : Prop where
  h : P[n0]? = some ⟨hd, .br .eq n1 (n0 + 1)⟩
  a : P[n0 + 1]? = some ⟨a, .jmp (n0 + 2)⟩
  b : P[n0 + 2]? = some ⟨bodyB, .jmp (n0 + 3)⟩
  c : P[n0 + 3]? = some ⟨bodyC k, .br .lt (n0 + 3) (n0 + 4)⟩
  l : ∀ s, s.lt = false → Reach e P (n0 + 4, s) (n2, s)
  f : P[n1]? = some ⟨f, .jmp n2⟩
  g : P[n2]? = some ⟨g, .jmp after⟩

/-- The head of a store. -/
structure HeadOk1 (j : Job) (p k zr : Nat) (val : Nat → Int) (s s' : St) : Prop where
  same : Same keepStore s s'
  m : s'.m = s.m
  ok : s'.bad = false
  x37 : s'.x dstPtr = s.x dstPtr
  x1 : s'.x 1 = .int (rowsIn j p)
  x4 : s'.x 4 = .ptr .dst (dstBlk j p 0)
  z : s'.z = true → rowsIn j p = 4
  v : ∀ i, i < 5 → s'.v i = s.v i
  zero : ∀ i, zr ≤ i → i < 4 → s'.v (16 + i) = fun _ => 0
  tile : ∀ u, u < 4 → ∀ b, b < k → s'.v 16 (k * u + b) = byteOf (val u) b

/-- The four stores. -/
def FastOk1 (f : List Instr) (k : Nat) : Prop :=
  ∀ e s, Same keepCopy s (exec e f s) ∧ (exec e f s).v = s.v ∧
    (exec e f s).bad = (s.bad || out e (s.x 4) 0 k || out e (addVal (s.x 4) k) 0 k ||
      out e (addVal (addVal (s.x 4) k) k) 0 k || out e (addVal (addVal (addVal (s.x 4) k) k) k) 0 k) ∧
    (exec e f s).m = st4 s.m (s.x 4) k (fun i b => s.v 16 (k * i + b))

def EndOk1 (g : List Instr) (k zr : Nat) : Prop :=
  ∀ e s, Same keepStore s (exec e g s) ∧ (exec e g s).m = s.m ∧ (exec e g s).bad = s.bad ∧
    (exec e g s).x dstPtr = addVal (s.x dstPtr) (4 * k) ∧
    (∀ i, i < 5 → (exec e g s).v i = s.v i) ∧
    ∀ i, i < 4 → (exec e g s).v (16 + i) = if i < zr then fun _ => 0 else s.v (16 + i)

structure Stored1 (j : Job) (p : Nat) (val : Nat → Int) (s s' : St) : Prop where
  same : Same keepStore s s'
  ok : s'.bad = false
  x37 : s'.x dstPtr = .ptr .dst (dstBlk j p 0 + 4 * j.dt.size)
  v : ∀ i, i < 5 → s'.v i = s.v i
  zero : ∀ i, i < 4 → s'.v (16 + i) = fun _ => 0
  m : ∀ r, r ≠ .dst → r ≠ .tmp → s'.m r = s.m r
  dst : ∃ T : Nat → Byte,
    (∀ u, u < 4 → ∀ b, b < j.dt.size → T (j.dt.size * u + b) = byteOf (val u) b) ∧
    s'.m .dst = wr s.m .dst (dstBlk j p 0) (j.dt.size * rowsIn j p) T .dst

theorem cols_one {j : Job} (h : OneCol j) : colsIn j 0 = 1 := by
  unfold colsIn; rw [h.cols, h.start]; rfl

theorem wr_eq {M M' : Region → Nat → Byte} {r : Region} {o n : Nat} {f g : Nat → Byte} (h : M r = M' r)
    (hf : ∀ b, b < n → f b = g b) : wr M r o n f r = wr M' r o n g r := by
  funext b
  unfold wr
  split_ifs with hb
  · exact hf _ (by omega)
  · rw [h]

theorem stored_core1 {j : Job} (hf : j.Fits) (h1c : OneCol j) {p : Nat} (hp : p ≤ j.rowSteps)
    {P : List Block} {hd a f g : List Instr} {n0 n1 n2 after zr k : Nat} (hk : j.dt.size = k)
    (hP : StoreAt1 j.env P hd a f g k n0 n1 n2 after) (hA : CopyOk a 1) (hF : FastOk1 f k)
    (hG : EndOk1 g k zr) {val : Nat → Int} {s : St} (hm : Mid j p 0 s)
    (h : HeadOk1 j p k zr val s (exec j.env hd s)) :
    ∃ s', Reach j.env P (n0, s) (after, s') ∧ Stored1 j p val s s' := by
  subst hk
  have nx : ∀ l, (bif (exec j.env hd s).z then n1 else n0 + 1) = l →
      Reach j.env P (n0, s) (l, exec j.env hd s) := fun l hl => Reach.block hP.h hl
  generalize exec j.env hd s = s1 at *
  have hk3 : j.dt.size = 1 ∨ j.dt.size = 2 ∨ j.dt.size = 4 := by cases j.dt <;> decide
  have xt : s1.x tmpBuf = .ptr .tmp 0 := (h.same.get (by decide)).trans hm.tmp
  have x37 : s1.x dstPtr = .ptr .dst (dstBlk j p 0) := h.x37.trans hm.dp
  have r4 : rowsIn j p ≤ 4 := by unfold rowsIn; omega
  have fin : ∀ s2, Reach j.env P (n0, s) (n2, s2) → Same keepCopy s1 s2 → s2.v = s1.v → s2.bad = false →
      (∀ r, r ≠ .dst → r ≠ .tmp → s2.m r = s1.m r) →
      s2.m .dst = wr s1.m .dst (dstBlk j p 0) (j.dt.size * rowsIn j p) (s1.v 16) .dst →
      ∃ s', Reach j.env P (n0, s) (after, s') ∧ Stored1 j p val s s' := by
    intro s2 r2 k2 v2 ok2 m2 d2
    obtain ⟨g1, g2, g3, g4, g5, g6⟩ := hG j.env s2
    refine ⟨_, r2.trans (Reach.block hP.g rfl), (h.same.trans (k2.sub (by decide))).trans g1, g3.trans ok2, ?_,
      fun i hi => by rw [g5 i hi, v2, h.v i hi], ?_, ?_, s1.v 16, h.tile, ?_⟩
    · rw [g4, k2.get (by decide), x37]; rfl
    · intro i hi
      rw [g6 i hi, v2]
      split_ifs with hz
      · rfl
      · exact h.zero i (by omega) hi
    · intro r h1 h2
      rw [g2, m2 r h1 h2, h.m]
    · rw [g2, d2, h.m]
  have hsd : ∀ i, i < rowsIn j p →
      dstBlk j p 0 + 0 * j.dstStride + j.dt.size * i + j.dt.size ≤ j.env.size .dst :=
    fun i hi => dst_bound hf hp (Nat.zero_le _) (by rw [cols_one h1c]; omega) hi
  cases hz : s1.z with
  | true =>
    have h4 := h.z hz
    have r1 := nx n1 (by rw [hz]; rfl)
    obtain ⟨f1, f2, f3, f5⟩ := hF j.env s1
    rw [h.x4] at f3 f5
    rw [st4_eq (f := s1.v 16) (fun i _ b _ => rfl)] at f5
    refine fin _ (r1.trans (Reach.block hP.f rfl)) f1 f2 ?_ ?_ ?_
    · have := hsd 3 (by omega)
      simp only [addVal] at f3
      rw [f3, h.ok, out_ptr (by omega), out_ptr (by omega), out_ptr (by omega), out_ptr (by omega)]
      rfl
    · intro r hr _
      rw [f5, wr_other hr]
    · rw [f5, h4]
  | false =>
    have r1 := nx (n0 + 1) (by rw [hz]; rfl)
    obtain ⟨a1, a2, a3, a4, a5, a6⟩ := hA j.env s1
    obtain ⟨a6, a7, a8⟩ := a6 xt hf.tmp
    have r2 : Reach j.env P (n0 + 1, s1) (n0 + 2, exec j.env a s1) := Reach.block hP.a rfl
    generalize exec j.env a s1 = s2 at *
    obtain ⟨b1, b2, b3, b4, b5, b6⟩ := bB j.env s2
    have r3 : Reach j.env P (n0 + 2, s2) (n0 + 3, exec j.env bodyB s2) := Reach.block hP.b rfl
    have st : 16 * j.dt.size ≤ j.env.size .tmp := by
      have := hf.tmp
      show _ ≤ j.size .tmp
      rcases hk3 with h' | h' | h' <;> omega
    obtain ⟨s4, r4', c4, l4⟩ := inner (e := j.env) (P := P) (n0 := n0 + 2) (k := j.dt.size) hP.c hk3 (w2 := 1)
      (s := s2) ((a1.get (by decide)).trans h.x1) r4 (w := 0) (by omega) st hsd (rowsIn j p - 1) 0
      (exec j.env bodyB s2) (by have := rows_pos hf hp; omega)
      ⟨b1, b4, (b5.get (by decide)).trans a5, (b5.get (by decide)).trans (a3.trans xt),
        ((b5.get (by decide)).trans (a4.trans h.x4)).trans (by rw [Nat.zero_mul, Nat.add_zero]),
        b2.trans (by rw [Nat.mul_zero, wr_zero]; rfl), b3.trans (a6.trans h.ok)⟩ b6
    have r5 := hP.l s4 l4
    refine fin s4 ((((r1.trans r2).trans r3).trans r4').trans r5) (a1.trans c4.same) (c4.v.trans a2) c4.ok ?_ ?_
    · intro r h1 h2
      rw [c4.m, wr_other h1, cols_other h1, a7 r h2]
    · rw [c4.m, Nat.zero_mul, Nat.add_zero]
      refine wr_eq (a7 .dst (by decide)) (fun b hb => ?_)
      have : j.dt.size * rowsIn j p ≤ j.dt.size * 4 := Nat.mul_le_mul_left _ r4
      have hb16 : b < 16 := by rcases hk3 with h' | h' | h' <;> rw [h'] at this hb <;> omega
      rw [Nat.mul_zero, Nat.zero_add, a8 b (by omega)]
      unfold tileByte
      rw [Nat.div_eq_of_lt hb16, Nat.mod_eq_of_lt hb16, Nat.add_zero]

/-! ### The four types -/

theorem cfast1 : FastOk1 col18.body 1 := by
  intro e s
  have hr : Same keepCopy s (exec e col18.body s) ∧ (exec e col18.body s).v = s.v ∧
      (exec e col18.body s).bad = (s.bad || out e (s.x 4) 0 1 || out e (addVal (s.x 4) 1) 0 1 ||
        out e (addVal (addVal (s.x 4) 1) 1) 0 1 || out e (addVal (addVal (addVal (s.x 4) 1) 1) 1) 0 1) ∧
      (exec e col18.body s).m = st4 s.m (s.x 4) 1 (fun i b => s.v 16 (i + b)) := by
    cases s; exact ⟨by keep, rfl, rfl, rfl⟩
  refine ⟨hr.1, hr.2.1, hr.2.2.1, ?_⟩
  rw [hr.2.2.2]
  simp only [Nat.one_mul]

theorem cfast2 : FastOk1 col33.body 2 := by
  intro e s
  cases s; exact ⟨by keep, rfl, rfl, rfl⟩

theorem cfast4 : FastOk1 col40.body 4 := by
  intro e s
  cases s; exact ⟨by keep, rfl, rfl, rfl⟩

theorem cend1 : EndOk1 col19.body 1 2 := by
  intro e s
  cases s
  refine ⟨by keep, rfl, rfl, rfl, ?_, ?_⟩
  all_goals
    intro i hi
    interval_cases i <;> rfl
theorem cend2 : EndOk1 col34.body 2 2 := by
  intro e s
  cases s
  refine ⟨by keep, rfl, rfl, rfl, ?_, ?_⟩
  all_goals
    intro i hi
    interval_cases i <;> rfl
theorem cend4 : EndOk1 col41.body 4 4 := by
  intro e s
  cases s
  refine ⟨by keep, rfl, rfl, rfl, ?_, ?_⟩
  all_goals
    intro i hi
    interval_cases i <;> rfl

theorem cst13 (e : Env) : StoreAt1 e colCode col13.body col14.body col18.body col19.body 1 13 18 19 42 :=
  ⟨rfl, rfl, rfl, rfl, fun _ _ => Reach.block (b := col17) rfl rfl, rfl, rfl⟩
theorem cst20 (e : Env) : StoreAt1 e colCode col20.body col21.body col25.body col26.body 1 20 25 26 42 :=
  ⟨rfl, rfl, rfl, rfl, fun _ _ => Reach.block (b := col24) rfl rfl, rfl, rfl⟩
theorem cst27 (e : Env) : StoreAt1 e colCode col27.body col28.body col33.body col34.body 2 27 33 34 42 := by
  refine ⟨rfl, rfl, rfl, rfl, fun s h => ?_, rfl, rfl⟩
  have r1 : Reach e colCode (31, s) (32, s) := by
    refine Reach.block (b := col31) rfl ?_
    show (bif s.lt then 29 else 32) = 32
    rw [h]; rfl
  exact r1.trans (Reach.block (b := col32) rfl rfl)
theorem cst35 (e : Env) : StoreAt1 e colCode col35.body col36.body col40.body col41.body 4 35 40 41 42 :=
  ⟨rfl, rfl, rfl, rfl, fun _ _ => Reach.block (b := col39) rfl rfl, rfl, rfl⟩

/-! ### Heads -/

def bytes4 (o1 o3 o4 : VOp) (a lo hi : Vec) : Vec :=
  vop o4 (vop o3 (vop o1 a a a) (vop o1 a a a) lo) (vop o3 (vop o1 a a a) (vop o1 a a a) lo) hi

def addZp1 (a z : Vec) : Vec := vop .sqaddH (vop .sqxtnS a a a) (vop .sqxtnS a a a) z

def words8 (a lo hi : Vec) : Vec :=
  vop .sminH (vop .smaxH (vop .sqxtnS a a a) (vop .sqxtnS a a a) lo)
    (vop .smaxH (vop .sqxtnS a a a) (vop .sqxtnS a a a) lo) hi

theorem getH_sqxtnS (d a m : Vec) {u : Nat} (hu : u < 4) : getH (vop .sqxtnS d a m) u = sqxtn16 (getS a u) := by
  simp only [vop]
  rw [getH_lower _ hu, getH_ofH]
  exact wrap16_sat _
theorem getU_sqxtun (d a m : Vec) {i : Nat} (hi : i < 8) : getU (vop .sqxtun d a m) i = sqxtun8 (getH a i) := by
  simp only [vop]
  rw [getU_lower _ hi, getU_ofB]
  unfold sqxtun8 satU8 sat; split_ifs <;> omega
theorem getB_sqxtn (d a m : Vec) {i : Nat} (hi : i < 8) : getB (vop .sqxtnH d a m) i = sqxtn8 (getH a i) := by
  simp only [vop]
  rw [getB_lower _ hi, getB_ofB]
  unfold sqxtn8 satS8 sat wrap8; split_ifs <;> omega

theorem getH_addZp1 {s : St} {z : Int} (h : getH (s.v 13) 4 = wrap16 z) (a : Vec) {u : Nat}
    (hu : u < 4) : getH (addZp1 a (zpV s)) u = sqadd16 (sqxtn16 (getS a u)) (wrap16 z) := by
  unfold addZp1
  rw [getH_sqadd, getH_zp h, getH_sqxtnS _ _ _ hu]

/-- Sizes and pointers after a head; `w` is the condition on the columns. -/
structure Widths1 (s s' : St) : Prop where
  x1 : s'.x 1 = widthE (s.x rDstRows) (s.x rRow)
  x4 : s'.x 4 = s.x dstPtr
  x37 : s'.x dstPtr = s.x dstPtr
  z : ∃ w, s'.z = (decide (sgn (widthE (s.x rDstRows) (s.x rRow)).num = sgn (Val.int 4).num) && w)

theorem widths1 {j : Job} (hf : j.Fits) {p : Nat} (hp : p ≤ j.rowSteps) {s s' : St}
    (hm : Mid j p 0 s) (h : Widths1 s s') :
    s'.x dstPtr = s.x dstPtr ∧ s'.x 1 = .int (rowsIn j p) ∧
      s'.x 4 = .ptr .dst (dstBlk j p 0) ∧ (s'.z = true → rowsIn j p = 4) := by
  obtain ⟨h1, h3, h4, w, h5⟩ := h
  have fr := hf.rows
  have fr' := hf.rowIn
  unfold Job.lastRow at fr'
  have e1 : widthE (s.x rDstRows) (s.x rRow) = .int (rowsIn j p) := by
    rw [hm.rows, hm.row]; exact widthE_eq fr (by omega)
  rw [e1] at h1 h5
  have r4 : rowsIn j p ≤ 4 := by unfold rowsIn; omega
  refine ⟨h4, h1, h3.trans hm.dp, fun hz => ?_⟩
  rw [h5, sgn_eq (by omega) (by omega), Bool.and_eq_true, decide_eq_true_eq] at hz
  exact hz.1

theorem cb13 (j : Job) (s : St) : Same keepStore s (exec j.env col13.body s) ∧
    (exec j.env col13.body s).m = s.m ∧
    (exec j.env col13.body s).bad = (s.bad || false || false || false || false ||
      (s.x rDstRows).isPtr || (s.x rRow).isPtr || false || false || false || false || false) ∧
    Widths1 s (exec j.env col13.body s) ∧
    (∀ i, i < 5 → (exec j.env col13.body s).v i = s.v i) ∧
    (∀ i, i < 2 → (exec j.env col13.body s).v (18 + i) = fun _ => 0) ∧
    (exec j.env col13.body s).v 16 = bytes4 .sqxtun .umaxB .uminB (addZp1 (s.v 16) (zpV s))
      (ofB fun _ => (Job.u32 j.clampMin % 2 ^ 8 : Nat)) (ofB fun _ => (Job.u32 j.clampMax % 2 ^ 8 : Nat)) := by
  cases s
  refine ⟨by keep, rfl, rfl, ⟨rfl, rfl, rfl, true, (Bool.and_true _).symm⟩, ?_, ?_, rfl⟩
  all_goals
    intro i hi
    interval_cases i <;> rfl

theorem cb20 (j : Job) (s : St) : Same keepStore s (exec j.env col20.body s) ∧
    (exec j.env col20.body s).m = s.m ∧
    (exec j.env col20.body s).bad = (s.bad || false || false || false || false ||
      (s.x rDstRows).isPtr || (s.x rRow).isPtr || (s.x rDstCols).isPtr || (s.x rCol).isPtr ||
      false || false || false || false || false || false || false || false) ∧
    Widths1 s (exec j.env col20.body s) ∧
    (∀ i, i < 5 → (exec j.env col20.body s).v i = s.v i) ∧
    (∀ i, i < 2 → (exec j.env col20.body s).v (18 + i) = fun _ => 0) ∧
    (exec j.env col20.body s).v 16 = bytes4 .sqxtnH .smaxB .sminB (addZp1 (s.v 16) (zpV s))
      (ofB fun _ => (Job.u32 j.clampMin % 2 ^ 8 : Nat)) (ofB fun _ => (Job.u32 j.clampMax % 2 ^ 8 : Nat)) := by
  cases s
  refine ⟨by keep, rfl, rfl, ⟨rfl, rfl, rfl, _, rfl⟩, ?_, ?_, rfl⟩
  all_goals
    intro i hi
    interval_cases i <;> rfl

theorem cb27 (j : Job) (s : St) : Same keepStore s (exec j.env col27.body s) ∧
    (exec j.env col27.body s).m = s.m ∧
    (exec j.env col27.body s).bad = (s.bad || false || false || false || false ||
      (s.x rDstRows).isPtr || (s.x rRow).isPtr || (s.x rDstCols).isPtr || (s.x rCol).isPtr ||
      false || false || false || false || false || false) ∧
    Widths1 s (exec j.env col27.body s) ∧
    (∀ i, i < 5 → (exec j.env col27.body s).v i = s.v i) ∧
    (∀ i, i < 2 → (exec j.env col27.body s).v (18 + i) = fun _ => 0) ∧
    (exec j.env col27.body s).v 16 = words8 (addZp4 (s.v 16) (zpV4 s))
      (ofH fun _ => (Job.u32 j.clampMin % 2 ^ 16 : Nat)) (ofH fun _ => (Job.u32 j.clampMax % 2 ^ 16 : Nat)) := by
  cases s
  refine ⟨by keep, rfl, rfl, ⟨rfl, rfl, rfl, true, (Bool.and_true _).symm⟩, ?_, ?_, rfl⟩
  all_goals
    intro i hi
    interval_cases i <;> rfl

theorem cb35 (j : Job) (s : St) : Same keepStore s (exec j.env col35.body s) ∧
    (exec j.env col35.body s).m = s.m ∧
    (exec j.env col35.body s).bad = (s.bad ||
      (s.x rDstRows).isPtr || (s.x rRow).isPtr || (s.x rDstCols).isPtr || (s.x rCol).isPtr ||
      false || false || false || false || false || false || false || false) ∧
    Widths1 s (exec j.env col35.body s) ∧
    (exec j.env col35.body s).v = s.v := by
  cases s
  exact ⟨by keep, rfl, rfl, ⟨rfl, rfl, rfl, _, rfl⟩, rfl⟩

theorem chead13 {j : Job} (hf : j.Fits) {p : Nat} (hp : p ≤ j.rowSteps) {s : St}
    (hm : Mid j p 0 s) (hz : getH (s.v 13) 4 = wrap16 j.dstZp) {f : Nat → Int} (ht : Tile1 f s) :
    HeadOk1 j p 1 2 (fun u => Simd.Neon.storeU8 (f u) j.dstZp j.clampMin j.clampMax) s
      (exec j.env col13.body s) := by
  obtain ⟨k1, k2, k3, k4, k5, k6, k7⟩ := cb13 j s
  generalize exec j.env col13.body s = s1 at *
  obtain ⟨w0, w1, w4, wz⟩ := widths1 hf hp hm k4
  refine ⟨k1, k2, ?_, w0, w1, w4, wz, k5, fun i h1 h2 => ?_, fun u hu b hb => ?_⟩
  · rw [k3, hm.ok, hm.rows, hm.row]; rfl
  · have := k6 (i - 2) (by omega)
    rwa [show 18 + (i - 2) = 16 + i by omega] at this
  · obtain rfl : b = 0 := by omega
    have key : getU (s1.v 16) u = Simd.Neon.storeU8 (f u) j.dstZp j.clampMin j.clampMax := by
      rw [k7]
      unfold bytes4 Simd.Neon.storeU8
      rw [getU_umin, getU_umax, getU_dup, getU_dup, getU_sqxtun _ _ _ (by omega), getH_addZp1 hz _ hu, ht u hu]
    rw [← key, byteOf_getU, Nat.one_mul, Nat.add_zero]

theorem chead20 {j : Job} (hf : j.Fits) {p : Nat} (hp : p ≤ j.rowSteps) {s : St}
    (hm : Mid j p 0 s) (hz : getH (s.v 13) 4 = wrap16 j.dstZp) {f : Nat → Int} (ht : Tile1 f s) :
    HeadOk1 j p 1 2 (fun u => Simd.Neon.storeS8 (f u) j.dstZp j.clampMin j.clampMax) s
      (exec j.env col20.body s) := by
  obtain ⟨k1, k2, k3, k4, k5, k6, k7⟩ := cb20 j s
  generalize exec j.env col20.body s = s1 at *
  obtain ⟨w0, w1, w4, wz⟩ := widths1 hf hp hm k4
  refine ⟨k1, k2, ?_, w0, w1, w4, wz, k5, fun i h1 h2 => ?_, fun u hu b hb => ?_⟩
  · rw [k3, hm.ok, hm.rows, hm.row, hm.cols, hm.col]; rfl
  · have := k6 (i - 2) (by omega)
    rwa [show 18 + (i - 2) = 16 + i by omega] at this
  · obtain rfl : b = 0 := by omega
    have key : getB (s1.v 16) u = Simd.Neon.storeS8 (f u) j.dstZp j.clampMin j.clampMax := by
      rw [k7]
      unfold bytes4 Simd.Neon.storeS8
      rw [getB_smin, getB_smax, getB_dup, getB_dup, getB_sqxtn _ _ _ (by omega), getH_addZp1 hz _ hu, ht u hu]
    rw [← key, byteOf_getB, Nat.one_mul, Nat.add_zero]

theorem chead27 {j : Job} (hf : j.Fits) {p : Nat} (hp : p ≤ j.rowSteps) {s : St}
    (hm : Mid j p 0 s) (hz : getH (s.v 13) 4 = wrap16 j.dstZp) {f : Nat → Int} (ht : Tile1 f s) :
    HeadOk1 j p 2 2 (fun u => Simd.Neon.storeS16 (f u) j.dstZp j.clampMin j.clampMax) s
      (exec j.env col27.body s) := by
  obtain ⟨k1, k2, k3, k4, k5, k6, k7⟩ := cb27 j s
  generalize exec j.env col27.body s = s1 at *
  obtain ⟨w0, w1, w4, wz⟩ := widths1 hf hp hm k4
  refine ⟨k1, k2, ?_, w0, w1, w4, wz, k5, fun i h1 h2 => ?_, fun u hu b hb => ?_⟩
  · rw [k3, hm.ok, hm.rows, hm.row, hm.cols, hm.col]; rfl
  · have := k6 (i - 2) (by omega)
    rwa [show 18 + (i - 2) = 16 + i by omega] at this
  · have hzz : getH (zpV4 s) u = wrap16 j.dstZp := by
      unfold zpV4
      rw [getH_lower _ hu, getH_ofH, hz, wrap16_wrap16]
    have key : getH (s1.v 16) u = Simd.Neon.storeS16 (f u) j.dstZp j.clampMin j.clampMax := by
      rw [k7]
      unfold words8 Simd.Neon.storeS16
      generalize hl : (ofH fun _ => (Job.u32 j.clampMin % 2 ^ 16 : Nat)) = vl
      generalize hh : (ofH fun _ => (Job.u32 j.clampMax % 2 ^ 16 : Nat)) = vh
      have e1 : getH vl u = wrap16 j.clampMin := by rw [← hl]; exact getH_dup _ _
      have e2 : getH vh u = wrap16 j.clampMax := by rw [← hh]; exact getH_dup _ _
      rw [getH_smin, getH_smax, e1, e2, getH_sqxtnS _ _ _ hu]
      unfold addZp4
      rw [getH_saddw, hzz, ht u hu]
    rw [← key, byteOf_getH _ _ _ hb]

theorem chead35 {j : Job} (hf : j.Fits) {p : Nat} (hp : p ≤ j.rowSteps) {s : St}
    (hm : Mid j p 0 s) {f : Nat → Int} (ht : Tile1 f s) :
    HeadOk1 j p 4 4 f s (exec j.env col35.body s) := by
  obtain ⟨k1, k2, k3, k4, k5⟩ := cb35 j s
  generalize exec j.env col35.body s = s1 at *
  obtain ⟨w0, w1, w4, wz⟩ := widths1 hf hp hm k4
  refine ⟨k1, k2, ?_, w0, w1, w4, wz, fun i _ => by rw [k5], fun i h1 h2 => absurd h1 (by omega),
    fun u hu b hb => ?_⟩
  · rw [k3, hm.ok, hm.rows, hm.row, hm.cols, hm.col]; rfl
  · rw [k5, ← ht u hu, byteOf_getS _ _ _ hb]

end Ruy.Neon

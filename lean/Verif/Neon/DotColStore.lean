import Verif.Neon.DotColQuant
import Verif.Neon.DotHeads
import Verif.Neon.ColStore
/-
The stores of `Kernel8bitNeonDotprod1Col`.
-/
namespace Ruy.Neon.Dot
open Simd (wrap8 wrap16 wrap32 sqxtn16 sqadd16 sqxtun8 sqxtn8 saddw satS16 satU8 satS8 sat)

/-! ### The common part -/

/-- The blocks of a store in a program. -/
structure StoreAt1 (P : List Block) (hd a f w : List Instr) (k n0 after : Nat) : Prop where
  h : P[n0]? = some ⟨hd, .br .eq (n0 + 2) (n0 + 1)⟩
  a : P[n0 + 1]? = some ⟨a, .jmp (n0 + 3)⟩
  f : P[n0 + 2]? = some ⟨f, .jmp (n0 + 3)⟩
  w : P[n0 + 3]? = some ⟨w, .br .eq (n0 + 7) (n0 + 4)⟩
  s : P[n0 + 4]? = some ⟨bodyS, .jmp (n0 + 5)⟩
  b : P[n0 + 5]? = some ⟨bodyB, .jmp (n0 + 6)⟩
  c : P[n0 + 6]? = some ⟨bodyC k, .br .lt (n0 + 6) (n0 + 7)⟩
  g : P[n0 + 7]? = some ⟨bodyG k, .jmp after⟩

/-- Byte `b` of the converted column. -/
def colByte1 (s : St) (b : Nat) : Byte := s.v (16 + b / 16) (b % 16)

/-- The head of a store. -/
structure HeadOk1 (j : Job) (p k : Nat) (val : Nat → Int) (s s' : St) : Prop where
  same : Same keepStore s s'
  m : s'.m = s.m
  ok : s'.bad = false
  x37 : s'.x dstPtr = s.x dstPtr
  x1 : s'.x 1 = .int (rowsIn j p)
  z : s'.z = decide (rowsIn j p = 8)
  v : ∀ i, i < 3 → s'.v i = s.v i
  tile : ∀ u, u < 8 → ∀ b, b < k → colByte1 s' (k * u + b) = byteOf (val u) b

/-- The accumulators at the start of the next block: the products of the first group of depth for the
upper four rows, zero for the others. -/
def Fresh1 (s s' : St) : Prop :=
  (∀ i, i < 3 → s'.v i = s.v i) ∧ s'.v 16 = eop .sdot 0 (fun _ => 0) (s.v 0) (s.v 2) ∧ s'.v 17 = fun _ => 0

/-- The column goes to where register `r` points. -/
def PutOk (a w : List Instr) (r k : Nat) : Prop :=
  ∀ e s g o, s.x r = .ptr g o → o + 8 * k ≤ e.size g →
    Same keepCopy s (exec e w (exec e a s)) ∧ (exec e w (exec e a s)).z = s.z ∧
    Fresh1 s (exec e w (exec e a s)) ∧ (exec e w (exec e a s)).bad = s.bad ∧
    (exec e w (exec e a s)).m = wr s.m g o (8 * k) (colByte1 s)

structure Stored1 (j : Job) (p : Nat) (val : Nat → Int) (s s' : St) : Prop where
  same : Same keepStore s s'
  ok : s'.bad = false
  x37 : s'.x dstPtr = .ptr .dst (dstBlk j p 0 + 8 * j.dt.size)
  fresh : Fresh1 s s'
  m : ∀ r, r ≠ .dst → r ≠ .tmp → s'.m r = s.m r
  dst : ∃ T : Nat → Byte,
    (∀ u, u < 8 → ∀ b, b < j.dt.size → T (j.dt.size * u + b) = byteOf (val u) b) ∧
    s'.m .dst = wr s.m .dst (dstBlk j p 0) (j.dt.size * rowsIn j p) T .dst

theorem cols_one {j : Job} (h : OneCol j) : colsIn j 0 = 1 := by
  unfold colsIn; rw [h.cols, h.start]; rfl

theorem stored_core1 {j : Job} (hf : Fits j) (h1c : OneCol j) {p : Nat} (hp : p ≤ j.rowSteps)
    {P : List Block} {hd a f w : List Instr} {n0 after k : Nat} (hk : j.dt.size = k)
    (hP : StoreAt1 P hd a f w k n0 after) (hA : PutOk a w tmpBuf k) (hF : PutOk f w dstPtr k)
    {val : Nat → Int} {s : St} (hm : Mid j p 0 s)
    (h : HeadOk1 j p k val s (exec (env j) hd s)) :
    ∃ s', Reach (env j) P (n0, s) (after, s') ∧ Stored1 j p val s s' := by
  subst hk
  have nx : ∀ l, (bif (exec (env j) hd s).z then n0 + 2 else n0 + 1) = l →
      Reach (env j) P (n0, s) (l, exec (env j) hd s) := fun l hl => Reach.block hP.h hl
  generalize exec (env j) hd s = s1 at *
  have hk3 : j.dt.size = 1 ∨ j.dt.size = 2 ∨ j.dt.size = 4 := by cases j.dt <;> decide
  have xt : s1.x tmpBuf = .ptr .tmp 0 := (h.same.get (by decide)).trans hm.tmp
  have x37 : s1.x dstPtr = .ptr .dst (dstBlk j p 0) := h.x37.trans hm.dp
  have r4 : rowsIn j p ≤ 8 := by unfold rowsIn; omega
  have fr : ∀ s2 : St, Fresh1 s1 s2 → Fresh1 s s2 := fun s2 hh => by
    refine ⟨fun i hi => (hh.1 i hi).trans (h.v i hi), ?_, hh.2.2⟩
    rw [hh.2.1, h.v 0 (by omega), h.v 2 (by omega)]
  have fin : ∀ s2, Reach (env j) P (n0, s) (n0 + 7, s2) → Same keepCopy s1 s2 → Fresh1 s1 s2 → s2.bad = false →
      (∀ r, r ≠ .dst → r ≠ .tmp → s2.m r = s1.m r) →
      s2.m .dst = wr s1.m .dst (dstBlk j p 0) (j.dt.size * rowsIn j p) (colByte1 s1) .dst →
      ∃ s', Reach (env j) P (n0, s) (after, s') ∧ Stored1 j p val s s' := by
    intro s2 r2 k2 v2 ok2 m2 d2
    obtain ⟨g1, g2, g3, g4, g5⟩ := bG (env j) j.dt.size s2
    have f2 := fr s2 v2
    have r3 : Reach (env j) P (n0 + 7, s2) (after, exec (env j) (bodyG j.dt.size) s2) := Reach.block hP.g rfl
    generalize exec (env j) (bodyG j.dt.size) s2 = s3 at *
    refine ⟨s3, r2.trans r3, (h.same.trans (k2.sub (by decide))).trans g1, g4.trans ok2, ?_, ?_,
      ?_, colByte1 s1, h.tile, ?_⟩
    · rw [g5, k2.get (by decide), x37]; rfl
    · unfold Fresh1
      rw [g3]; exact f2
    · intro r h1 h2
      rw [g2, m2 r h1 h2, h.m]
    · rw [g2, d2, h.m]
  have hsd : ∀ i, i < rowsIn j p →
      dstBlk j p 0 + 0 * j.dstStride + j.dt.size * i + j.dt.size ≤ (env j).size .dst :=
    fun i hi => dst_bound hf hp (Nat.zero_le _) (by rw [cols_one h1c]; omega) hi
  by_cases hz : rowsIn j p = 8
  · have r1 := nx (n0 + 2) (by rw [h.z, decide_eq_true hz]; rfl)
    obtain ⟨f1, f2, f3, f4, f5⟩ := hF (env j) s1 _ _ x37 (by
      have := hsd 7 (by omega)
      omega)
    have r2 : Reach (env j) P (n0 + 2, s1) (n0 + 3, exec (env j) f s1) := Reach.block hP.f rfl
    have r3 : Reach (env j) P (n0 + 3, exec (env j) f s1) (n0 + 7, exec (env j) w (exec (env j) f s1)) := by
      refine Reach.block hP.w ?_
      show (bif (exec (env j) w (exec (env j) f s1)).z then n0 + 7 else n0 + 4) = n0 + 7
      rw [f2, h.z, decide_eq_true hz]; rfl
    refine fin _ ((r1.trans r2).trans r3) f1 f3 (f4.trans h.ok) ?_ ?_
    · intro r hr _
      rw [f5, wr_other hr]
    · rw [f5, hz, Nat.mul_comm]
  · have r1 := nx (n0 + 1) (by rw [h.z, decide_eq_false hz]; rfl)
    have st : 64 * j.dt.size ≤ (env j).size .tmp := by
      have := hf.tmp
      show _ ≤ j.size .tmp
      rcases hk3 with h' | h' | h' <;> omega
    obtain ⟨a1, a2, a3, a4, a5⟩ := hA (env j) s1 _ _ xt (by omega)
    have r2 : Reach (env j) P (n0 + 1, s1) (n0 + 3, exec (env j) a s1) := Reach.block hP.a rfl
    have r3 : Reach (env j) P (n0 + 3, exec (env j) a s1) (n0 + 4, exec (env j) w (exec (env j) a s1)) := by
      refine Reach.block hP.w ?_
      show (bif (exec (env j) w (exec (env j) a s1)).z then n0 + 7 else n0 + 4) = n0 + 4
      rw [a2, h.z, decide_eq_false hz]; rfl
    generalize exec (env j) w (exec (env j) a s1) = s2 at *
    obtain ⟨b1, b2, b3, b4, b5, b6, b7⟩ := bS (env j) s2
    have r4' : Reach (env j) P (n0 + 4, s2) (n0 + 5, exec (env j) bodyS s2) := Reach.block hP.s rfl
    generalize exec (env j) bodyS s2 = s3 at *
    have k3 := a1.trans b1
    obtain ⟨c1, c2, c3, c4, c5, c6⟩ := bB (env j) s3
    have r5 : Reach (env j) P (n0 + 5, s3) (n0 + 6, exec (env j) bodyB s3) := Reach.block hP.b rfl
    generalize exec (env j) bodyB s3 = s4 at *
    obtain ⟨s5, r6, d5, _⟩ := inner (e := env j) (P := P) (n0 := n0 + 5) (k := j.dt.size) hP.c hk3 (w2 := 1)
      (s := s3) ((k3.get (by decide)).trans h.x1) r4 (w := 0) (by omega) st hsd (rowsIn j p - 1) 0
      s4 (by have := rows_pos hf hp; omega)
      ⟨c1, c4, (c5.get (by decide)).trans b7,
        (c5.get (by decide)).trans (b5.trans ((a1.get (by decide)).trans xt)),
        ((c5.get (by decide)).trans (b6.trans ((a1.get (by decide)).trans x37))).trans
          (by rw [Nat.zero_mul, Nat.add_zero]),
        c2.trans (by rw [Nat.mul_zero, wr_zero]; rfl), c3.trans (b4.trans (a4.trans h.ok))⟩ c6
    refine fin s5 (((((r1.trans r2).trans r3).trans r4').trans r5).trans r6) (k3.trans d5.same) ?_ d5.ok ?_ ?_
    · unfold Fresh1
      rw [d5.v.trans b3]; exact a3
    · intro r h1 h2
      rw [d5.m, wr_other h1, cols_other h1, b2, a5, wr_other h2]
    · rw [d5.m, Nat.zero_mul, Nat.add_zero]
      refine wr_eq (M' := s1.m) ?_ (fun b hb => ?_)
      · show s3.m .dst = s1.m .dst
        rw [b2, a5, wr_other (by decide)]
      have : j.dt.size * rowsIn j p ≤ j.dt.size * 8 := Nat.mul_le_mul_left _ r4
      rw [Nat.mul_zero, Nat.zero_add, b2, a5]
      unfold wr
      rw [if_pos ⟨rfl, by omega, by omega⟩, Nat.sub_zero]

/-! ### The four types -/

theorem wr_col {M : Region → Nat → Byte} {s : St} {g : Region} {o n : Nat} (hn : n ≤ 16) :
    wr M g o n (s.v 16) = wr M g o n (colByte1 s) :=
  wr_congr (fun b hb => by
    unfold colByte1
    rw [Nat.div_eq_of_lt (by omega), Nat.mod_eq_of_lt (by omega)])

theorem p17 (e : Env) (s : St) : Same keepCopy s (exec e doto17.body s) ∧ (exec e doto17.body s).z = s.z ∧
    Fresh1 s (exec e doto17.body s) ∧ (exec e doto17.body s).bad = (s.bad || out e (s.x 3) 0 8) ∧
    (exec e doto17.body s).m = wr s.m (s.x 3).region ((s.x 3).off + 0) 8 (s.v 16) := by
  cases s
  refine ⟨by keep, rfl, ⟨?_, rfl, rfl⟩, rfl, rfl⟩
  intro i hi
  interval_cases i <;> rfl

theorem p33 (e : Env) (s : St) : Same keepCopy s (exec e doto33.body s) ∧ (exec e doto33.body s).z = s.z ∧
    Fresh1 s (exec e doto33.body s) ∧ (exec e doto33.body s).bad = (s.bad || out e (s.x 3) 0 16) ∧
    (exec e doto33.body s).m = wr s.m (s.x 3).region ((s.x 3).off + 0) 16 (s.v 16) := by
  cases s
  refine ⟨by keep, rfl, ⟨?_, rfl, rfl⟩, rfl, rfl⟩
  intro i hi
  interval_cases i <;> rfl

theorem put_of {a w : List Instr} {r k : Nat} (hk : 8 * k ≤ 16)
    (ha : ∀ e s, Same keepCopy s (exec e a s) ∧ (exec e a s).z = s.z ∧ (exec e a s).v = s.v ∧
      (exec e a s).m = s.m ∧ (exec e a s).bad = s.bad ∧ (exec e a s).x 3 = s.x r)
    (hw : ∀ e s, Same keepCopy s (exec e w s) ∧ (exec e w s).z = s.z ∧
      Fresh1 s (exec e w s) ∧ (exec e w s).bad = (s.bad || out e (s.x 3) 0 (8 * k)) ∧
      (exec e w s).m = wr s.m (s.x 3).region ((s.x 3).off + 0) (8 * k) (s.v 16)) : PutOk a w r k := by
  intro e s g o hr hs
  obtain ⟨a1, a2, a3, a4, a5, a6⟩ := ha e s
  generalize exec e a s = s1 at *
  obtain ⟨b1, b2, b3, b4, b5⟩ := hw e s1
  generalize exec e w s1 = s2 at *
  rw [a6, hr] at b4 b5
  refine ⟨a1.trans b1, b2.trans a2, ?_, ?_, ?_⟩
  · unfold Fresh1 at *
    rw [a3] at b3; exact b3
  · rw [b4, out_ptr (by omega), Bool.or_false, a5]
  · rw [b5, a3, a4, Val.region, Val.off, Nat.add_zero, wr_col hk]

theorem s15 (e : Env) (s : St) : Same keepCopy s (exec e doto15.body s) ∧ (exec e doto15.body s).z = s.z ∧
    (exec e doto15.body s).v = s.v ∧ (exec e doto15.body s).m = s.m ∧ (exec e doto15.body s).bad = s.bad ∧
    (exec e doto15.body s).x 3 = s.x tmpBuf := by
  cases s; exact ⟨by keep, rfl, rfl, rfl, rfl, rfl⟩
theorem s16 (e : Env) (s : St) : Same keepCopy s (exec e doto16.body s) ∧ (exec e doto16.body s).z = s.z ∧
    (exec e doto16.body s).v = s.v ∧ (exec e doto16.body s).m = s.m ∧ (exec e doto16.body s).bad = s.bad ∧
    (exec e doto16.body s).x 3 = s.x dstPtr := by
  cases s; exact ⟨by keep, rfl, rfl, rfl, rfl, rfl⟩
theorem s31 (e : Env) (s : St) : Same keepCopy s (exec e doto31.body s) ∧ (exec e doto31.body s).z = s.z ∧
    (exec e doto31.body s).v = s.v ∧ (exec e doto31.body s).m = s.m ∧ (exec e doto31.body s).bad = s.bad ∧
    (exec e doto31.body s).x 3 = s.x tmpBuf := by
  cases s; exact ⟨by keep, rfl, rfl, rfl, rfl, rfl⟩

theorem put1t : PutOk doto15.body doto17.body tmpBuf 1 := put_of (by omega) s15 p17
theorem put1d : PutOk doto16.body doto17.body dstPtr 1 := put_of (by omega) s16 p17
theorem put2t : PutOk doto31.body doto33.body tmpBuf 2 := put_of (by omega) s31 p33
theorem put2d : PutOk doto32.body doto33.body dstPtr 2 := put_of (by omega) s16 p33

theorem wr_two {M : Region → Nat → Byte} {s : St} {g : Region} {o : Nat} :
    wr (wr M g o 16 (s.v 16)) g (o + 16) 16 (s.v 17) = wr M g o (8 * 4) (colByte1 s) := by
  rw [wr_congr (f := s.v 16) (g := colByte1 s) (fun b hb => by
      unfold colByte1
      rw [Nat.div_eq_of_lt (by omega), Nat.mod_eq_of_lt (by omega)]),
    wr_congr (f := s.v 17) (g := fun b => colByte1 s (16 + b)) (fun b hb => by
      unfold colByte1
      rw [show (16 + b) / 16 = 1 by omega, show (16 + b) % 16 = b by omega])]
  exact wr_append _ _ _ 16 16 (colByte1 s)

theorem p39 (e : Env) (s : St) : Same keepCopy s (exec e doto41.body (exec e doto39.body s)) ∧
    (exec e doto41.body (exec e doto39.body s)).z = s.z ∧
    Fresh1 s (exec e doto41.body (exec e doto39.body s)) ∧
    (exec e doto41.body (exec e doto39.body s)).bad = (s.bad || false || out e (s.x tmpBuf) 0 16 ||
      false || out e (addVal (s.x tmpBuf) 16) 0 16) ∧
    (exec e doto41.body (exec e doto39.body s)).m =
      wr (wr s.m (s.x tmpBuf).region ((s.x tmpBuf).off + 0) 16 (s.v 16)) (addVal (s.x tmpBuf) 16).region
        ((addVal (s.x tmpBuf) 16).off + 0) 16 (s.v 17) := by
  cases s
  refine ⟨by keep, rfl, ⟨?_, rfl, rfl⟩, rfl, rfl⟩
  intro i hi
  interval_cases i <;> rfl

theorem p40 (e : Env) (s : St) : Same keepCopy s (exec e doto41.body (exec e doto40.body s)) ∧
    (exec e doto41.body (exec e doto40.body s)).z = s.z ∧
    Fresh1 s (exec e doto41.body (exec e doto40.body s)) ∧
    (exec e doto41.body (exec e doto40.body s)).bad = (s.bad || out e (s.x dstPtr) 0 16 ||
      out e (addVal (s.x dstPtr) 16) 0 16) ∧
    (exec e doto41.body (exec e doto40.body s)).m =
      wr (wr s.m (s.x dstPtr).region ((s.x dstPtr).off + 0) 16 (s.v 16)) (addVal (s.x dstPtr) 16).region
        ((addVal (s.x dstPtr) 16).off + 0) 16 (s.v 17) := by
  cases s
  refine ⟨by keep, rfl, ⟨?_, rfl, rfl⟩, rfl, rfl⟩
  intro i hi
  interval_cases i <;> rfl

theorem put4t : PutOk doto39.body doto41.body tmpBuf 4 := by
  intro e s g o hr hs
  obtain ⟨b1, b2, b3, b4, b5⟩ := p39 e s
  generalize exec e doto41.body (exec e doto39.body s) = s2 at *
  rw [hr] at b4 b5
  simp only [addVal, Val.region, Val.off, Nat.add_zero] at b4 b5
  exact ⟨b1, b2, b3, by rw [b4, out_ptr (by omega), out_ptr (by omega)]; simp, by rw [b5, wr_two]⟩

theorem put4d : PutOk doto40.body doto41.body dstPtr 4 := by
  intro e s g o hr hs
  obtain ⟨b1, b2, b3, b4, b5⟩ := p40 e s
  generalize exec e doto41.body (exec e doto40.body s) = s2 at *
  rw [hr] at b4 b5
  simp only [addVal, Val.region, Val.off, Nat.add_zero] at b4 b5
  exact ⟨b1, b2, b3, by rw [b4, out_ptr (by omega), out_ptr (by omega)]; simp, by rw [b5, wr_two]⟩

theorem st14 : StoreAt1 dotoCode doto14.body doto15.body doto16.body doto17.body 1 14 46 :=
  ⟨rfl, rfl, rfl, rfl, rfl, rfl, rfl, rfl⟩
theorem st22 : StoreAt1 dotoCode doto22.body doto15.body doto16.body doto17.body 1 22 46 :=
  ⟨rfl, rfl, rfl, rfl, rfl, rfl, rfl, rfl⟩
theorem st30 : StoreAt1 dotoCode doto30.body doto31.body doto32.body doto33.body 2 30 46 :=
  ⟨rfl, rfl, rfl, rfl, rfl, rfl, rfl, rfl⟩
theorem st38 : StoreAt1 dotoCode doto38.body doto39.body doto40.body doto41.body 4 38 46 :=
  ⟨rfl, rfl, rfl, rfl, rfl, rfl, rfl, rfl⟩

/-! ### Heads -/

def Widths1 (s s' : St) : Prop :=
  s'.x 1 = widthE (s.x rDstRows) (s.x rRow) ∧ s'.x dstPtr = s.x dstPtr ∧
    s'.z = decide (sgn (widthE (s.x rDstRows) (s.x rRow)).num = sgn (Val.int 8).num)

theorem widths1 {j : Job} (hf : Fits j) {p : Nat} (hp : p ≤ j.rowSteps) {s s' : St}
    (hm : Mid j p 0 s) (h : Widths1 s s') :
    s'.x dstPtr = s.x dstPtr ∧ s'.x 1 = .int (rowsIn j p) ∧ s'.z = decide (rowsIn j p = 8) := by
  obtain ⟨h1, h4, h5⟩ := h
  have fr := hf.rows
  have fr' := hf.rowIn
  unfold lastRow at fr'
  have e1 : widthE (s.x rDstRows) (s.x rRow) = .int (rowsIn j p) := by
    rw [hm.rows, hm.row]; exact widthE_eq fr (by omega)
  rw [e1] at h1 h5
  have r4 : rowsIn j p ≤ 8 := by unfold rowsIn; omega
  refine ⟨h4, h1, ?_⟩
  rw [h5, sgn_eq (by omega) (by omega)]

theorem c14 (j : Job) (s : St) : Same keepStore s (exec (env j) doto14.body s) ∧
    (exec (env j) doto14.body s).m = s.m ∧
    (exec (env j) doto14.body s).bad = (s.bad || false || false || false || false ||
      (s.x rDstRows).isPtr || (s.x rRow).isPtr || (s.x rDstCols).isPtr || (s.x rCol).isPtr ||
      false || false || false || false || false || false) ∧
    Widths1 s (exec (env j) doto14.body s) ∧
    (∀ i, i < 3 → (exec (env j) doto14.body s).v i = s.v i) ∧
    (exec (env j) doto14.body s).v 16 = bytes4 .sqxtun .umaxB .uminB
      (addZp (s.v 16) (s.v 16) (s.v 17) (zpV s))
      (ofB fun _ => (Job.u32 j.clampMin % 2 ^ 8 : Nat)) (ofB fun _ => (Job.u32 j.clampMax % 2 ^ 8 : Nat)) := by
  cases s
  refine ⟨by keep, rfl, rfl, ⟨rfl, rfl, rfl⟩, ?_, rfl⟩
  intro i hi
  interval_cases i <;> rfl

theorem c22 (j : Job) (s : St) : Same keepStore s (exec (env j) doto22.body s) ∧
    (exec (env j) doto22.body s).m = s.m ∧
    (exec (env j) doto22.body s).bad = (s.bad || false || false || false || false ||
      (s.x rDstRows).isPtr || (s.x rRow).isPtr || (s.x rDstCols).isPtr || (s.x rCol).isPtr ||
      false || false || false || false || false || false) ∧
    Widths1 s (exec (env j) doto22.body s) ∧
    (∀ i, i < 3 → (exec (env j) doto22.body s).v i = s.v i) ∧
    (exec (env j) doto22.body s).v 16 = bytes4 .sqxtnH .smaxB .sminB
      (addZp (s.v 16) (s.v 16) (s.v 17) (zpV s))
      (ofB fun _ => (Job.u32 j.clampMin % 2 ^ 8 : Nat)) (ofB fun _ => (Job.u32 j.clampMax % 2 ^ 8 : Nat)) := by
  cases s
  refine ⟨by keep, rfl, rfl, ⟨rfl, rfl, rfl⟩, ?_, rfl⟩
  intro i hi
  interval_cases i <;> rfl

theorem c30 (j : Job) (s : St) : Same keepStore s (exec (env j) doto30.body s) ∧
    (exec (env j) doto30.body s).m = s.m ∧
    (exec (env j) doto30.body s).bad = (s.bad || false || false || false || false ||
      (s.x rDstRows).isPtr || (s.x rRow).isPtr || (s.x rDstCols).isPtr || (s.x rCol).isPtr ||
      false || false || false || false || false || false) ∧
    Widths1 s (exec (env j) doto30.body s) ∧
    (∀ i, i < 3 → (exec (env j) doto30.body s).v i = s.v i) ∧
    (exec (env j) doto30.body s).v 16 =
      words16 (addZp4 (s.v 16) (zpV s)) (addZp4 (s.v 16) (zpV s))
        (addZp4 (s.v 17) (zpV s)) (clampV j .clampMin) (clampV j .clampMax) := by
  cases s
  refine ⟨by keep, rfl, rfl, ⟨rfl, rfl, rfl⟩, ?_, rfl⟩
  intro i hi
  interval_cases i <;> rfl

theorem c38 (j : Job) (s : St) : Same keepStore s (exec (env j) doto38.body s) ∧
    (exec (env j) doto38.body s).m = s.m ∧
    (exec (env j) doto38.body s).bad = (s.bad ||
      (s.x rDstRows).isPtr || (s.x rRow).isPtr || (s.x rDstCols).isPtr || (s.x rCol).isPtr ||
      false || false || false || false || false || false || false || false) ∧
    Widths1 s (exec (env j) doto38.body s) ∧ (exec (env j) doto38.body s).v = s.v := by
  cases s
  exact ⟨by keep, rfl, rfl, ⟨rfl, rfl, rfl⟩, rfl⟩

theorem Tile1.at {f : Nat → Int} {s : St} (h : Tile1 f s) {u : Nat} (hu : u < 8) :
    getS (s.v (16 + u / 4)) (u % 4) = f u := by
  rw [h (u / 4) (by omega) (u % 4) (by omega), show 4 * (u / 4) + u % 4 = u by omega]

theorem getH_col1 {s : St} {z : Int} (h : getH (s.v 13) 4 = wrap16 z) {f : Nat → Int} (ht : Tile1 f s)
    {u : Nat} (hu : u < 8) :
    getH (addZp (s.v 16) (s.v 16) (s.v 17) (zpV s)) u = sqadd16 (sqxtn16 (f u)) (wrap16 z) := by
  have e := getH_addZp h (s.v 16) (s.v 16) (s.v 17) (w := u / 4) (by omega) (u := u % 4) (by omega)
  rw [show 4 * (u / 4) + u % 4 = u by omega] at e
  have t := ht.at hu
  rw [e, ← t]
  rcases (show u / 4 = 0 ∨ u / 4 = 1 by omega) with h4 | h4
  · rw [if_pos h4, h4]
  · rw [if_neg (by omega), h4]

theorem colByte1_one (s : St) {u : Nat} (hu : u < 8) : colByte1 s (1 * u + 0) = s.v 16 u := by
  unfold colByte1
  rw [Nat.one_mul, Nat.add_zero, Nat.div_eq_of_lt (by omega), Nat.mod_eq_of_lt (by omega)]

theorem hd14 {j : Job} (hf : Fits j) {p : Nat} (hp : p ≤ j.rowSteps) {s : St}
    (hm : Mid j p 0 s) (hz : getH (s.v 13) 4 = wrap16 j.dstZp) {f : Nat → Int} (ht : Tile1 f s) :
    HeadOk1 j p 1 (fun u => Simd.Neon.storeU8 (f u) j.dstZp j.clampMin j.clampMax) s
      (exec (env j) doto14.body s) := by
  obtain ⟨k1, k2, k3, k4, k5, k7⟩ := c14 j s
  generalize exec (env j) doto14.body s = s1 at *
  obtain ⟨w0, w1, wz⟩ := widths1 hf hp hm k4
  refine ⟨k1, k2, ?_, w0, w1, wz, k5, fun u hu b hb => ?_⟩
  · rw [k3, hm.ok, hm.rows, hm.row, hm.cols, hm.col]; rfl
  · obtain rfl : b = 0 := by omega
    have key : getU (s1.v 16) u = Simd.Neon.storeU8 (f u) j.dstZp j.clampMin j.clampMax := by
      rw [k7]
      unfold bytes4 Simd.Neon.storeU8
      rw [getU_umin, getU_umax, getU_dup, getU_dup, getU_sqxtun _ _ _ hu, getH_col1 hz ht hu]
    rw [← key, byteOf_getU, colByte1_one _ hu]

theorem hd22 {j : Job} (hf : Fits j) {p : Nat} (hp : p ≤ j.rowSteps) {s : St}
    (hm : Mid j p 0 s) (hz : getH (s.v 13) 4 = wrap16 j.dstZp) {f : Nat → Int} (ht : Tile1 f s) :
    HeadOk1 j p 1 (fun u => Simd.Neon.storeS8 (f u) j.dstZp j.clampMin j.clampMax) s
      (exec (env j) doto22.body s) := by
  obtain ⟨k1, k2, k3, k4, k5, k7⟩ := c22 j s
  generalize exec (env j) doto22.body s = s1 at *
  obtain ⟨w0, w1, wz⟩ := widths1 hf hp hm k4
  refine ⟨k1, k2, ?_, w0, w1, wz, k5, fun u hu b hb => ?_⟩
  · rw [k3, hm.ok, hm.rows, hm.row, hm.cols, hm.col]; rfl
  · obtain rfl : b = 0 := by omega
    have key : getB (s1.v 16) u = Simd.Neon.storeS8 (f u) j.dstZp j.clampMin j.clampMax := by
      rw [k7]
      unfold bytes4 Simd.Neon.storeS8
      rw [getB_smin, getB_smax, getB_dup, getB_dup, getB_sqxtn _ _ _ hu, getH_col1 hz ht hu]
    rw [← key, byteOf_getB, colByte1_one _ hu]

theorem getH_words1 {s : St} {z : Int} (h : getH (s.v 13) 4 = wrap16 z) {f : Nat → Int} (ht : Tile1 f s) (d : Vec)
    {lo hi : Vec} {u : Nat} (hu : u < 8) :
    getH (words16 d (addZp4 (s.v 16) (zpV s)) (addZp4 (s.v 17) (zpV s)) lo hi) u =
      min (max (sqxtn16 (saddw (f u) (wrap16 z))) (getH lo u)) (getH hi u) := by
  unfold words16
  rw [getH_smin, getH_smax]
  have e : getH (narrow d (addZp4 (s.v 16) (zpV s)) (addZp4 (s.v 17) (zpV s))) u =
      sqxtn16 (saddw (f u) (wrap16 z)) := ?_
  · rw [e]
  rcases Nat.lt_or_ge u 4 with h4 | h4
  · have := ht 0 (by omega) u h4
    rw [Nat.mul_zero, Nat.zero_add, Nat.add_zero] at this
    rw [getH_narrow_lo _ _ _ h4]
    unfold addZp4
    rw [getH_saddw, getH_zp h, this]
  · obtain ⟨i, rfl⟩ := Nat.exists_eq_add_of_le h4
    have : getS (s.v 17) i = f (4 * 1 + i) := ht 1 (by omega) i (by omega)
    rw [getH_narrow_hi]
    unfold addZp4
    rw [getH_saddw, getH_zp h, this, Nat.mul_one]

theorem hd30 {j : Job} (hf : Fits j) {p : Nat} (hp : p ≤ j.rowSteps) {s : St}
    (hm : Mid j p 0 s) (hz : getH (s.v 13) 4 = wrap16 j.dstZp) {f : Nat → Int} (ht : Tile1 f s) :
    HeadOk1 j p 2 (fun u => Simd.Neon.storeS16 (f u) j.dstZp j.clampMin j.clampMax) s
      (exec (env j) doto30.body s) := by
  obtain ⟨k1, k2, k3, k4, k5, k7⟩ := c30 j s
  generalize exec (env j) doto30.body s = s1 at *
  obtain ⟨w0, w1, wz⟩ := widths1 hf hp hm k4
  refine ⟨k1, k2, ?_, w0, w1, wz, k5, fun u hu b hb => ?_⟩
  · rw [k3, hm.ok, hm.rows, hm.row, hm.cols, hm.col]; rfl
  · unfold colByte1
    rw [Nat.div_eq_of_lt (by omega), Nat.mod_eq_of_lt (show 2 * u + b < 16 by omega), Nat.add_zero,
      ← byteOf_getH (s1.v 16) _ _ hb, k7, getH_words1 hz ht _ hu, (getH_clampV j u).1, (getH_clampV j u).2]
    rfl

theorem hd38 {j : Job} (hf : Fits j) {p : Nat} (hp : p ≤ j.rowSteps) {s : St}
    (hm : Mid j p 0 s) {f : Nat → Int} (ht : Tile1 f s) :
    HeadOk1 j p 4 f s (exec (env j) doto38.body s) := by
  obtain ⟨k1, k2, k3, k4, k5⟩ := c38 j s
  generalize exec (env j) doto38.body s = s1 at *
  obtain ⟨w0, w1, wz⟩ := widths1 hf hp hm k4
  refine ⟨k1, k2, ?_, w0, w1, wz, fun i _ => by rw [k5], fun u hu b hb => ?_⟩
  · rw [k3, hm.ok, hm.rows, hm.row, hm.cols, hm.col]; rfl
  · unfold colByte1
    rw [k5, show (4 * u + b) / 16 = u / 4 by omega,
      show (4 * u + b) % 16 = 4 * (u % 4) + b by omega, ← byteOf_getS (s.v _) (u % 4) _ hb, ht.at hu]

end Ruy.Neon.Dot

import Verif.Arm8.ColQuant
import Verif.Arm8.Stored
/-
The ARM32 8-bit kernel for one column: the stores of four entries, up to `AFTER_STORE`.
-/
namespace Ruy.Arm8.One
open Ruy.Arm8
open Ruy.Neon (St Val Region Vec VOp vop Byte Dt sgn sgn_of sgn_lt sgn_eq Same addVal out out_ptr bytes store wr wr_congr
  wr_append wr_zero wr_other numByte numByte_byte numByte_le2 numByte_le4 le2 le4 sgn_lt_succ
  leftE st4 st4_eq byteOf getB getU getH getS ofB ofH ofS loadSH
  byteOf_getU byteOf_getB byteOf_getH byteOf_getS getU_umax getU_umin getB_smax getB_smin getH_smax getH_smin
  getU_dup getB_dup getH_dup getH_sqadd getS_add getS_ofS getH_ofH getU_ofB getB_ofB wrap16_sat)
open Simd (wrap8 wrap16 wrap32 sqxtn16 sqadd16 sqxtun8 sqxtn8 saddw satS16 satU8 satS8 sat)

/-! ### The loop that copies a part of the entries from `dst_tmp_buf` -/

/-- What the loop at position `n` does: entries of `k` bytes, index in register `ix`; `fin` is the position after
it. -/
def EntryOk (e : Env) (n k ix fin : Nat) : Prop :=
  ∀ (s : St) (dp i w1 : Nat), s.x 1 = .int w1 → s.x 3 = .ptr .tmp 0 → s.x 4 = .ptr .dst dp → s.x ix = .int i →
    i < w1 → w1 ≤ 4 → k * i + k ≤ e.size .tmp → dp + k * i + k ≤ e.size .dst → s.bad = false →
    ∃ s', Reach e kernel (n, s) (bif decide (i + 1 < w1) then n else fin, s') ∧ Same keepEntry s s' ∧
      s'.m = wr s.m .dst (dp + k * i) k (fun b => s.m .tmp (k * i + b)) ∧
      s'.bad = false ∧ s'.v = s.v ∧ s'.x ix = .int (i + 1)

theorem entry8 (e : Env) {n : Nat} (hn : n = 21 ∨ n = 26) : EntryOk e n 1 8 (n + 2) := by
  intro s dp i w1 h1 h3 h4 h5 hi hw ht hd ok
  obtain ⟨a1, a2, a3, a4, a5, a6⟩ := k29x e s
  have r : ∀ l, (bif (exec e Arm8.k29.body s).lt then n else n + 2) = l →
      Reach e kernel (n, s) (l, exec e Arm8.k29.body s) := fun l hl =>
    Reach.block (b := ⟨Arm8.k29.body, .br .lt n (n + 2)⟩) (by rcases hn with rfl | rfl <;> rfl) hl
  refine ⟨_, r _ ?_, a1.sub (by decide), ?_, ?_, a4, ?_⟩
  · rw [a6, h1, h5, sgn_lt_succ (by omega) (by omega)]
  · rw [a2, h3, h4, h5, Nat.one_mul]
    refine wr_congr (fun b hb => ?_)
    obtain rfl : b = 0 := by omega
    rw [numByte_byte]
    show s.m .tmp (0 + i) = s.m .tmp (i + 0)
    rw [Nat.zero_add, Nat.add_zero]
  · rw [a3, ok, h1, h3, h4, h5]
    simp only [Val.num]
    rw [out_ptr (by show _ ≤ e.size .tmp; omega), out_ptr (by show _ ≤ e.size .dst; omega)]; rfl
  · rw [a5, h5]; exact congrArg Val.int (by simp only [Val.num]; omega)

theorem entry16 (e : Env) : EntryOk e 31 2 8 33 := by
  intro s dp i w1 h1 h3 h4 h5 hi hw ht hd ok
  obtain ⟨a1, a2, a3, a4, a5, a6⟩ := k43x e s
  have r : ∀ l, (bif (exec e Arm8.k43.body s).lt then 31 else 33) = l →
      Reach e kernel (31, s) (l, exec e Arm8.k43.body s) := fun l hl => Reach.block (b := k31) rfl hl
  have e2 : (Val.int i).num * 2 % 2 ^ 32 = 2 * i := by simp only [Val.num]; omega
  have e3 : ((Val.int i).num * 2 % 2 ^ 32 % 2 ^ 32 / 2 + 1) % 2 ^ 32 = i + 1 := by simp only [Val.num]; omega
  refine ⟨_, r _ ?_, a1.sub (by decide), ?_, ?_, a4, ?_⟩
  · rw [a6, h1, h5, e3, sgn_lt (by omega) (by omega)]
  · rw [a2, h3, h4, h5, e2]
    exact wr_congr (fun b hb => by
      rw [numByte_le2 _ _ hb]
      show s.m .tmp (0 + 2 * i + _) = _
      rw [Nat.zero_add])
  · rw [a3, ok, h1, h3, h4, h5, e2]
    rw [out_ptr (by show _ ≤ e.size .tmp; omega), out_ptr (by show _ ≤ e.size .dst; omega)]; rfl
  · rw [a5, h5, e3]

theorem entry32 (e : Env) : EntryOk e 39 4 5 40 := by
  intro s dp i w1 h1 h3 h4 h5 hi hw ht hd ok
  obtain ⟨a1, a2, a3, a4, a5, a6⟩ := k53x e s
  have r : ∀ l, (bif (exec e Arm8.k53.body s).lt then 39 else 40) = l →
      Reach e kernel (39, s) (l, exec e Arm8.k53.body s) := fun l hl => Reach.block (b := k39) rfl hl
  refine ⟨_, r _ ?_, a1.sub (by decide), ?_, ?_, a4, ?_⟩
  · rw [a6, h1, h5, sgn_lt_succ (by omega) (by omega)]
  · rw [a2, h3, h4, h5]
    exact wr_congr (fun b hb => by
      rw [numByte_le4 _ _ hb]
      show s.m .tmp (0 + 4 * i + _) = _
      rw [Nat.zero_add])
  · rw [a3, ok, h1, h3, h4, h5]
    simp only [Val.num]
    rw [out_ptr (by show _ ≤ e.size .tmp; omega), out_ptr (by show _ ≤ e.size .dst; omega)]; rfl
  · rw [a5, h5]; exact congrArg Val.int (by simp only [Val.num]; omega)

/-- The whole loop: `w1` entries. -/
theorem copied {e : Env} {n k ix fin : Nat} (hC : EntryOk e n k ix fin) {w1 dp : Nat} {s : St}
    (h1 : s.x 1 = .int w1) (h3 : s.x 3 = .ptr .tmp 0) (h4 : s.x 4 = .ptr .dst dp) (h5 : s.x ix = .int 0)
    (hw : w1 ≤ 4) (hp1 : 0 < w1) (ht : 4 * k ≤ e.size .tmp) (sd : ∀ i, i < w1 → dp + k * i + k ≤ e.size .dst)
    (ok : s.bad = false) :
    ∃ s', Reach e kernel (n, s) (fin, s') ∧ Same keepCopy s s' ∧ s'.v = s.v ∧ s'.bad = false ∧
      s'.m = wr s.m .dst dp (k * w1) (s.m .tmp) := by
  have key : ∀ d i s', i + 1 + d = w1 → Same keepEntry s s' → s'.v = s.v → s'.bad = false → s'.x ix = .int i →
      s'.m = wr s.m .dst dp (k * i) (s.m .tmp) →
      ∃ s'', Reach e kernel (n, s') (fin, s'') ∧ Same keepCopy s s'' ∧ s''.v = s.v ∧ s''.bad = false ∧
        s''.m = wr s.m .dst dp (k * w1) (s.m .tmp) := by
    intro d
    induction d with
    | zero =>
      intro i s' hd hs hv hb hi hm
      have hti : k * i + k ≤ e.size .tmp := by
        have : k * (i + 1) ≤ k * 4 := Nat.mul_le_mul_left _ (by omega)
        rw [Nat.mul_add, Nat.mul_one] at this; omega
      obtain ⟨s2, r2, a1, a2, a3, a4, a5⟩ := hC s' dp i w1 ((hs.get (by decide)).trans h1) ((hs.get (by decide)).trans h3)
        ((hs.get (by decide)).trans h4) hi (by omega) hw hti (sd i (by omega)) hb
      rw [decide_eq_false (by omega)] at r2
      refine ⟨s2, r2, (hs.trans a1).sub (by decide), a4.trans hv, a3, ?_⟩
      rw [a2, hm, wr_other (by decide), show w1 = i + 1 by omega, Nat.mul_add, Nat.mul_one]
      exact wr_append _ _ _ _ _ (s.m .tmp)
    | succ d ih =>
      intro i s' hd hs hv hb hi hm
      have hti : k * i + k ≤ e.size .tmp := by
        have : k * (i + 1) ≤ k * 4 := Nat.mul_le_mul_left _ (by omega)
        rw [Nat.mul_add, Nat.mul_one] at this; omega
      obtain ⟨s2, r2, a1, a2, a3, a4, a5⟩ := hC s' dp i w1 ((hs.get (by decide)).trans h1) ((hs.get (by decide)).trans h3)
        ((hs.get (by decide)).trans h4) hi (by omega) hw hti (sd i (by omega)) hb
      rw [decide_eq_true (by omega)] at r2
      obtain ⟨s3, r3, c⟩ := ih (i + 1) s2 (by omega) (hs.trans a1) (a4.trans hv) a3 a5 (by
        rw [a2, hm, wr_other (by decide), Nat.mul_add, Nat.mul_one]
        exact wr_append _ _ _ _ _ (s.m .tmp))
      exact ⟨s3, r2.trans r3, c⟩
  exact key (w1 - 1) 0 s (by omega) (Same.refl _ _) rfl ok h5 (by rw [Nat.mul_zero, wr_zero])

/-! ### Sizes -/

/-- The end of the first block of the stores. -/
def sizeB : List Instr := k19.body.drop 28
def sizeB32 : List Instr := k34.body.drop 16

theorem sizeBx (e : Env) (s : St) : Same keepStore s (exec e sizeB s) ∧
    (exec e sizeB s).m = s.m ∧ (exec e sizeB s).v = s.v ∧
    (exec e sizeB s).bad = (s.bad || (s.x 1).isPtr || (atMostR 4 (s.x 3) (s.x 1)).isPtr || (s.x 3).isPtr ||
      Nat.blt (s.x 13).num (16 + 4)) ∧
    (exec e sizeB s).x 1 = atMostR 4 (s.x 3) (s.x 1) ∧ (exec e sizeB s).x 4 = s.x 80 ∧
    (exec e sizeB s).z = decide (sgn (atMostR 4 (s.x 3) (s.x 1)).num = sgn (s.x 3).num) := by
  cases s
  exact ⟨by keep, rfl, rfl, rfl, rfl, rfl, rfl⟩

theorem sizeB32x (e : Env) (s : St) : Same keepStore s (exec e sizeB32 s) ∧
    (exec e sizeB32 s).m = s.m ∧ (exec e sizeB32 s).v = s.v ∧
    (exec e sizeB32 s).bad = (s.bad || (s.x 1).isPtr || (atMostR 4 (s.x 3) (s.x 1)).isPtr || (s.x 3).isPtr) ∧
    (exec e sizeB32 s).x 1 = atMostR 4 (s.x 3) (s.x 1) ∧
    (exec e sizeB32 s).z = decide (sgn (atMostR 4 (s.x 3) (s.x 1)).num = sgn (s.x 3).num) := by
  cases s
  exact ⟨by keep, rfl, rfl, rfl, rfl, rfl⟩

/-- The number of rows is known. -/
structure Sized (j : Job) (p : Nat) (s s' : St) : Prop where
  same : Same keepStore s s'
  m : s'.m = s.m
  ok : s'.bad = false
  x1 : s'.x 1 = .int (rowsIn j p)
  z : s'.z = decide (rowsIn j p = 4)

theorem left_eq {j : Job} (hf : j.Fits) {ty : Dt} {p : Nat} (hp : p ≤ j.rowSteps) {s s1 : St}
    (hm : Mid j ty p 0 s) (h : Left j s s1) : atMostR 4 (s1.x 3) (s1.x 1) = .int (rowsIn j p) :=
  (Arm8.left_eq hf hp (Nat.zero_le _) hm h).1

theorem sized {j : Job} (hf : j.Fits) {ty : Dt} {p : Nat} (hp : p ≤ j.rowSteps) {s s1 : St}
    (hm : Mid j ty p 0 s) (h : Left j s s1) (ok : s1.bad = false) :
    Sized j p s (exec j.env sizeB s1) ∧ (exec j.env sizeB s1).v = s1.v ∧
      (exec j.env sizeB s1).x 4 = .ptr .dst (dstBlk j ty p 0) := by
  have e1 := left_eq hf hp hm h
  have r4 : rowsIn j p ≤ 4 := by unfold rowsIn; omega
  obtain ⟨a1, a2, a3, a4, a5, a7, a9⟩ := sizeBx j.env s1
  generalize exec j.env sizeB s1 = s2 at *
  rw [e1] at a5
  rw [e1, h.x3] at a9
  refine ⟨⟨h.same.trans a1, a2.trans h.m, ?_, a5, a9.trans (sgn_eq (by omega) (by omega))⟩, a3, ?_⟩
  · rw [a4, e1, ok, h.x1, h.x3, h.same.get (by decide), hm.sp]; rfl
  · rw [a7, h.same.get (by decide), hm.dp]

theorem sized32 {j : Job} (hf : j.Fits) {ty : Dt} {p : Nat} (hp : p ≤ j.rowSteps) {s s1 : St}
    (hm : Mid j ty p 0 s) (h : Left j s s1) (ok : s1.bad = false) :
    Sized j p s (exec j.env sizeB32 s1) ∧ (exec j.env sizeB32 s1).v = s1.v := by
  have e1 := left_eq hf hp hm h
  have r4 : rowsIn j p ≤ 4 := by unfold rowsIn; omega
  obtain ⟨a1, a2, a3, a4, a5, a9⟩ := sizeB32x j.env s1
  generalize exec j.env sizeB32 s1 = s2 at *
  rw [e1] at a5
  rw [e1, h.x3] at a9
  refine ⟨⟨h.same.trans a1, a2.trans h.m, ?_, a5, a9.trans (sgn_eq (by omega) (by omega))⟩, a3⟩
  rw [a4, e1, ok, h.x1, h.x3]; rfl

/-! ### Narrowing -/

/-- VQMOVN.S32 of the column, in the lower half. -/
def narrow (a : Vec) : Vec := setLo a (nop .qmovnS a)

theorem getH_narrow (a : Vec) {u : Nat} (hu : u < 4) : getH (narrow a) u = sqxtn16 (getS a u) := by
  unfold narrow
  rw [getH_setLo_lo _ _ hu, getH_qmovn]

/-- The column with the zero point, as halfwords. -/
def zpV (z : Nat) (a : Vec) : Vec := vop .sqaddH (narrow a) (narrow a) (ofH fun _ => (z : Int))

theorem getH_zpV (x : Int) (a : Vec) {u : Nat} (hu : u < 4) :
    getH (zpV (Job.u32 x) a) u = sqadd16 (sqxtn16 (getS a u)) (wrap16 x) := by
  unfold zpV
  rw [getH_sqadd, getH_narrow _ hu, getH_ofH, wrap16_u32]

theorem getU_bytesV (x lo hi : Int) (a v : Vec) {u : Nat} (hu : u < 4) :
    getU (bytesV .qmovun .umaxB .uminB (zpV (Job.u32 x) a) (clampV v (Job.u32 lo % 2 ^ 8) (Job.u32 hi % 2 ^ 8))) u =
      Simd.Neon.storeU8 (getS a u) x lo hi := by
  have h8 : u < 8 := by omega
  unfold bytesV clampV Simd.Neon.storeU8
  rw [getU_setLo _ _ h8, getU_umin, getU_half _ _ h8, getU_setLo _ _ h8, getU_umax, getU_setLo _ _ h8, getU_setHi _ _ h8,
    getU_setLo _ _ h8, getU_qmovun, getH_zpV _ _ hu, u32_eq, getU_dup, getU_dup]

theorem getB_bytesV (x lo hi : Int) (a v : Vec) {u : Nat} (hu : u < 4) :
    getB (bytesV .qmovnH .smaxB .sminB (zpV (Job.u32 x) a) (clampV v (Job.u32 lo % 2 ^ 8) (Job.u32 hi % 2 ^ 8))) u =
      Simd.Neon.storeS8 (getS a u) x lo hi := by
  have h8 : u < 8 := by omega
  unfold bytesV clampV Simd.Neon.storeS8
  rw [getB_setLo _ _ h8, getB_smin, getB_half _ _ h8, getB_setLo _ _ h8, getB_smax, getB_setLo _ _ h8, getB_setHi _ _ h8,
    getB_setLo _ _ h8, getB_qmovn, getH_zpV _ _ hu, u32_eq, getB_dup, getB_dup]

/-- The zero point, the narrowing and the clamps for int16; the clamps are in the lower halves of `c` and `d`. -/
def maxV (n c : Vec) : Vec := setLo n (vop .smaxH n n c)
def minV (n c : Vec) : Vec := setLo n (vop .sminH n n c)
def wordsV (z : Int) (lo hi : Nat) (a c d : Vec) : Vec :=
  minV (maxV (narrow (addV z a)) (setLo c (ofH fun _ => (lo : Int)))) (setLo d (ofH fun _ => (hi : Int)))

theorem getH_wordsV (x lo hi : Int) (a c d : Vec) {u : Nat} (hu : u < 4) :
    getH (wordsV ((loadSH (.int (Job.u32 x))).num : Nat) (Job.u32 lo % 2 ^ 16) (Job.u32 hi % 2 ^ 16) a c d) u =
      Simd.Neon.storeS16 (getS a u) x lo hi := by
  unfold wordsV minV maxV Simd.Neon.storeS16
  rw [getH_setLo_lo _ _ hu, getH_smin, getH_setLo_lo _ _ hu, getH_smax, getH_narrow _ hu, getS_addV,
    getH_setLo_lo _ _ hu, getH_setLo_lo _ _ hu, u32_eq, getH_dup, getH_dup]

/-! ### The first parts of the four stores -/

set_option maxRecDepth 8000 in
theorem a19 (j : Job) (s : St) : Left j s (exec j.env (k19.body.take 28) s) ∧
    (exec j.env (k19.body.take 28) s).bad = headBad j.env s (s.bad || false || false || false || false || false) ∧
    (∀ i, i < 5 → (exec j.env (k19.body.take 28) s).v i = s.v i) ∧
    (∀ i, i < 6 → (exec j.env (k19.body.take 28) s).v (6 + i) = fun _ => 0) ∧
    (exec j.env (k19.body.take 28) s).v 15 = bytesV .qmovun .umaxB .uminB (zpV (Job.u32 j.dstZp) (s.v 14))
      (clampV (zpV (Job.u32 j.dstZp) (s.v 14)) (Job.u32 j.clampMin % 2 ^ 8) (Job.u32 j.clampMax % 2 ^ 8)) := by
  cases s
  refine ⟨⟨by keep, rfl, rfl, rfl, rfl, rfl⟩, rfl, ?_, ?_, rfl⟩
  all_goals
    intro i hi
    interval_cases i <;> rfl

set_option maxRecDepth 8000 in
theorem a24 (j : Job) (s : St) : Left j s (exec j.env (k24.body.take 28) s) ∧
    (exec j.env (k24.body.take 28) s).bad = headBad j.env s (s.bad || false || false || false || false || false) ∧
    (∀ i, i < 5 → (exec j.env (k24.body.take 28) s).v i = s.v i) ∧
    (∀ i, i < 6 → (exec j.env (k24.body.take 28) s).v (6 + i) = fun _ => 0) ∧
    (exec j.env (k24.body.take 28) s).v 15 = bytesV .qmovnH .smaxB .sminB (zpV (Job.u32 j.dstZp) (s.v 14))
      (clampV (zpV (Job.u32 j.dstZp) (s.v 14)) (Job.u32 j.clampMin % 2 ^ 8) (Job.u32 j.clampMax % 2 ^ 8)) := by
  cases s
  refine ⟨⟨by keep, rfl, rfl, rfl, rfl, rfl⟩, rfl, ?_, ?_, rfl⟩
  all_goals
    intro i hi
    interval_cases i <;> rfl

set_option maxRecDepth 8000 in
theorem a29 (j : Job) (s : St) : Left j s (exec j.env (k29.body.take 27) s) ∧
    (exec j.env (k29.body.take 27) s).bad =
      headBad j.env s (s.bad || false || false || false || false || false || false) ∧
    (∀ i, i < 5 → (exec j.env (k29.body.take 27) s).v i = s.v i) ∧
    (∀ i, i < 6 → (exec j.env (k29.body.take 27) s).v (6 + i) = fun _ => 0) ∧
    (exec j.env (k29.body.take 27) s).v 14 =
      wordsV ((loadSH (.int (Job.u32 j.dstZp))).num : Nat) (Job.u32 j.clampMin % 2 ^ 16) (Job.u32 j.clampMax % 2 ^ 16)
        (s.v 14) (s.v 12) (ofS fun _ => ((loadSH (.int (Job.u32 j.dstZp))).num : Nat)) := by
  cases s
  refine ⟨⟨by keep, rfl, rfl, rfl, rfl, rfl⟩, rfl, ?_, ?_, rfl⟩
  all_goals
    intro i hi
    interval_cases i <;> rfl

theorem a34 (j : Job) (s : St) : Left j s (exec j.env (k34.body.take 16) s) ∧
    (exec j.env (k34.body.take 16) s).bad = headBad j.env s s.bad ∧
    (∀ i, i < 5 → (exec j.env (k34.body.take 16) s).v i = s.v i) ∧
    (∀ i, i < 6 → (exec j.env (k34.body.take 16) s).v (6 + i) = fun _ => 0) ∧
    (exec j.env (k34.body.take 16) s).v 14 = s.v 14 := by
  cases s
  refine ⟨⟨by keep, rfl, rfl, rfl, rfl, rfl⟩, rfl, ?_, ?_, rfl⟩
  all_goals
    intro i hi
    interval_cases i <;> rfl

/-- The bytes of the column that is stored. -/
def tileByte (k : Nat) (s : St) (b : Nat) : Byte := if k = 1 then s.v 15 b else s.v 14 b

/-- After the first block of a store of entries of `k` bytes. -/
structure Headed (j : Job) (ty : Dt) (p : Nat) (val : Nat → Int) (s s' : St) : Prop where
  size : Sized j p s s'
  v : ∀ i, i < 5 → s'.v i = s.v i
  zero : ∀ i, i < 6 → s'.v (6 + i) = fun _ => 0
  tile : ∀ u, u < 4 → ∀ b, b < ty.size → tileByte ty.size s' (ty.size * u + b) = byteOf (val u) b

theorem head19 {j : Job} (hf : j.Fits) {ty : Dt} {p : Nat} (hp : p ≤ j.rowSteps) {s : St}
    {f : Nat → Int} (hty : ty = .u8) (hm : Mid j ty p 0 s) (ht : Tile f s) :
    Headed j ty p (fun u => Simd.Neon.storeU8 (f u) j.dstZp j.clampMin j.clampMax) s (exec j.env k19.body s) ∧
      (exec j.env k19.body s).x 4 = .ptr .dst (dstBlk j ty p 0) := by
  have hs : exec j.env k19.body s = exec j.env sizeB (exec j.env (k19.body.take 28) s) := by
    rw [← exec_append]; rfl
  rw [hs]
  obtain ⟨l1, b1, v1, z1, t1⟩ := a19 j s
  generalize exec j.env (k19.body.take 28) s = s1 at *
  rw [hm.ok] at b1
  obtain ⟨sz, e2, e3⟩ := sized hf hp hm l1 (b1.trans (headBad_ok hm))
  generalize exec j.env sizeB s1 = s2 at *
  subst hty
  refine ⟨⟨sz, fun i hi => by rw [e2]; exact v1 i hi, fun i hi => by rw [e2]; exact z1 i hi, fun u hu b hb => ?_⟩, e3⟩
  obtain rfl : b = 0 := by have : b < 1 := hb; omega
  show s2.v 15 (1 * u + 0) = _
  rw [show 1 * u + 0 = u by omega, ← byteOf_getU (s2.v 15), e2, t1, getU_bytesV _ _ _ _ _ hu, ht u hu]

theorem head24 {j : Job} (hf : j.Fits) {ty : Dt} {p : Nat} (hp : p ≤ j.rowSteps) {s : St}
    {f : Nat → Int} (hty : ty = .i8) (hm : Mid j ty p 0 s) (ht : Tile f s) :
    Headed j ty p (fun u => Simd.Neon.storeS8 (f u) j.dstZp j.clampMin j.clampMax) s (exec j.env k24.body s) ∧
      (exec j.env k24.body s).x 4 = .ptr .dst (dstBlk j ty p 0) := by
  have hs : exec j.env k24.body s = exec j.env sizeB (exec j.env (k24.body.take 28) s) := by
    rw [← exec_append]; rfl
  rw [hs]
  obtain ⟨l1, b1, v1, z1, t1⟩ := a24 j s
  generalize exec j.env (k24.body.take 28) s = s1 at *
  rw [hm.ok] at b1
  obtain ⟨sz, e2, e3⟩ := sized hf hp hm l1 (b1.trans (headBad_ok hm))
  generalize exec j.env sizeB s1 = s2 at *
  subst hty
  refine ⟨⟨sz, fun i hi => by rw [e2]; exact v1 i hi, fun i hi => by rw [e2]; exact z1 i hi, fun u hu b hb => ?_⟩, e3⟩
  obtain rfl : b = 0 := by have : b < 1 := hb; omega
  show s2.v 15 (1 * u + 0) = _
  rw [show 1 * u + 0 = u by omega, ← byteOf_getB (s2.v 15), e2, t1, getB_bytesV _ _ _ _ _ hu, ht u hu]

theorem head29 {j : Job} (hf : j.Fits) {ty : Dt} {p : Nat} (hp : p ≤ j.rowSteps) {s : St}
    {f : Nat → Int} (hty : ty = .i16) (hm : Mid j ty p 0 s) (ht : Tile f s) :
    Headed j ty p (fun u => Simd.Neon.storeS16 (f u) j.dstZp j.clampMin j.clampMax) s (exec j.env k29.body s) ∧
      (exec j.env k29.body s).x 4 = .ptr .dst (dstBlk j ty p 0) := by
  have hs : exec j.env k29.body s = exec j.env sizeB (exec j.env (k29.body.take 27) s) := by
    rw [← exec_append]; rfl
  rw [hs]
  obtain ⟨l1, b1, v1, z1, t1⟩ := a29 j s
  generalize exec j.env (k29.body.take 27) s = s1 at *
  rw [hm.ok] at b1
  obtain ⟨sz, e2, e3⟩ := sized hf hp hm l1 (b1.trans (headBad_ok hm))
  generalize exec j.env sizeB s1 = s2 at *
  subst hty
  refine ⟨⟨sz, fun i hi => by rw [e2]; exact v1 i hi, fun i hi => by rw [e2]; exact z1 i hi, fun u hu b hb => ?_⟩, e3⟩
  show s2.v 14 (2 * u + b) = _
  rw [← byteOf_getH (s2.v 14) _ _ hb, e2, t1, getH_wordsV _ _ _ _ _ _ hu, ht u hu]

theorem head34 {j : Job} (hf : j.Fits) {ty : Dt} {p : Nat} (hp : p ≤ j.rowSteps) {s : St}
    {f : Nat → Int} (hty : ty = .i32) (hm : Mid j ty p 0 s) (ht : Tile f s) :
    Headed j ty p f s (exec j.env k34.body s) := by
  have hs : exec j.env k34.body s = exec j.env sizeB32 (exec j.env (k34.body.take 16) s) := by
    rw [← exec_append]; rfl
  rw [hs]
  obtain ⟨l1, b1, v1, z1, t1⟩ := a34 j s
  generalize exec j.env (k34.body.take 16) s = s1 at *
  rw [hm.ok] at b1
  obtain ⟨sz, e2⟩ := sized32 hf hp hm l1 (b1.trans (headBad_ok hm))
  generalize exec j.env sizeB32 s1 = s2 at *
  subst hty
  refine ⟨sz, fun i hi => by rw [e2]; exact v1 i hi, fun i hi => by rw [e2]; exact z1 i hi, fun u hu b hb => ?_⟩
  show s2.v 14 (4 * u + b) = _
  rw [← byteOf_getS (s2.v 14) _ _ hb, e2, t1, ht u hu]

/-! ### Writing -/

theorem k20x (e : Env) (s : St) : Same (4 :: keepCopy) s (exec e k20.body s) ∧
    (exec e k20.body s).m = wr s.m (s.x 42).region ((s.x 42).off + 0) 8 (s.v 15) ∧ (exec e k20.body s).v = s.v ∧
    (exec e k20.body s).bad = (s.bad || out e.base (s.x 42) 0 8) ∧
    (exec e k20.body s).x 3 = s.x 42 ∧ (exec e k20.body s).x 8 = .int 0 := by
  cases s; exact ⟨by keep, rfl, rfl, rfl, rfl, rfl⟩

theorem k30x (e : Env) (s : St) : Same (4 :: keepCopy) s (exec e k30.body s) ∧
    (exec e k30.body s).m = wr s.m (s.x 42).region ((s.x 42).off + 0) 8 (s.v 14) ∧ (exec e k30.body s).v = s.v ∧
    (exec e k30.body s).bad = (s.bad || out e.base (s.x 42) 0 8) ∧
    (exec e k30.body s).x 3 = s.x 42 ∧ (exec e k30.body s).x 8 = .int 0 := by
  cases s; exact ⟨by keep, rfl, rfl, rfl, rfl, rfl⟩

theorem k22x (e : Env) (s : St) : Same keepCopy s (exec e k22.body s) ∧
    (exec e k22.body s).m = st4 s.m (s.x 80) 1 (fun i b => s.v 15 (i + b)) ∧
    (exec e k22.body s).v = s.v ∧
    (exec e k22.body s).bad = (s.bad || Nat.blt (s.x 13).num (16 + 4) || false || out e.base (s.x 80) 0 1 ||
      false || out e.base (addVal (s.x 80) 1) 0 1 || false || out e.base (addVal (addVal (s.x 80) 1) 1) 0 1 ||
      false || out e.base (addVal (addVal (addVal (s.x 80) 1) 1) 1) 0 1) := by
  cases s; exact ⟨by keep, rfl, rfl, rfl⟩

theorem k32x (e : Env) (s : St) : Same keepCopy s (exec e k32.body s) ∧
    (exec e k32.body s).m = st4 s.m (s.x 80) 2 (fun i b => s.v 14 (2 * i + b)) ∧
    (exec e k32.body s).v = s.v ∧
    (exec e k32.body s).bad = (s.bad || Nat.blt (s.x 13).num (16 + 4) || false || out e.base (s.x 80) 0 2 ||
      false || out e.base (addVal (s.x 80) 2) 0 2 || false || out e.base (addVal (addVal (s.x 80) 2) 2) 0 2 ||
      false || out e.base (addVal (addVal (addVal (s.x 80) 2) 2) 2) 0 2) := by
  cases s; exact ⟨by keep, rfl, rfl, rfl⟩

theorem k35x (e : Env) (s : St) : Same keepCopy s (exec e k35.body s) ∧ (exec e k35.body s).m = s.m ∧
    (exec e k35.body s).v = s.v ∧ (exec e k35.body s).bad = s.bad ∧ (exec e k35.body s).z = s.z ∧
    (exec e k35.body s).x 3 = s.x 42 := by
  cases s; exact ⟨by keep, rfl, rfl, rfl, rfl, rfl⟩

theorem k36x (e : Env) (s : St) : Same keepCopy s (exec e k36.body s) ∧ (exec e k36.body s).m = s.m ∧
    (exec e k36.body s).v = s.v ∧ (exec e k36.body s).bad = (s.bad || Nat.blt (s.x 13).num (16 + 4)) ∧
    (exec e k36.body s).z = s.z ∧ (exec e k36.body s).x 3 = s.x 80 := by
  cases s; exact ⟨by keep, rfl, rfl, rfl, rfl, rfl⟩

theorem k37x (e : Env) (s : St) : Same keepCopy s (exec e k37.body s) ∧
    (exec e k37.body s).m = wr s.m (s.x 3).region ((s.x 3).off + 0) 16 (s.v 14) ∧
    (exec e k37.body s).v = s.v ∧ (exec e k37.body s).z = s.z ∧
    (exec e k37.body s).bad = (s.bad || out e.base (s.x 3) 0 16) := by
  cases s; exact ⟨by keep, rfl, rfl, rfl, rfl⟩

theorem k38x (e : Env) (s : St) : Same keepCopy s (exec e k38.body s) ∧ (exec e k38.body s).m = s.m ∧
    (exec e k38.body s).v = s.v ∧ (exec e k38.body s).bad = (s.bad || Nat.blt (s.x 13).num (16 + 4)) ∧
    (exec e k38.body s).x 3 = s.x 42 ∧ (exec e k38.body s).x 4 = s.x 80 ∧ (exec e k38.body s).x 5 = .int 0 := by
  cases s; exact ⟨by keep, rfl, rfl, rfl, rfl, rfl, rfl⟩

/-- What the last block of a store of entries of `k` bytes does. -/
def EndOk (e : Env) (n k : Nat) : Prop :=
  ∀ (s : St) (o : Nat), s.x 13 = .int 96 → s.x 80 = .ptr .dst o → s.bad = false →
    ∃ s', Reach e kernel (n, s) (41, s') ∧ Same keepEnd s s' ∧ s'.m = s.m ∧ s'.bad = false ∧
      s'.x 80 = .ptr .dst (o + 4 * k) ∧ (∀ i, i < 10 → s'.v i = s.v i) ∧ (s.v 11 = (fun _ => 0) → s'.v 11 = fun _ => 0)

theorem end8 (e : Env) {n : Nat} (hn : n = 23 ∨ n = 28) : EndOk e n 1 := by
  intro s o h13 h80 ok
  obtain ⟨a1, a2, a3, a4, a5, a6⟩ := Arm8.k32x e s
  rw [ok, h13, h80] at a3
  rw [h80] at a4
  refine ⟨exec e Arm8.k32.body s, ?_, a1, a2, a3, a4, fun i hi => a5 i (by omega), fun h => (a5 11 (by omega)).trans h⟩
  rcases hn with rfl | rfl
  · exact Reach.block (b := k23) rfl rfl
  · exact Reach.block (b := k28) rfl rfl

theorem end16 (e : Env) : EndOk e 33 2 := by
  intro s o h13 h80 ok
  obtain ⟨a1, a2, a3, a4, a5⟩ := k46x e s
  rw [ok, h13, h80] at a3
  rw [h80] at a4
  exact ⟨exec e k46.body s, Reach.block (b := k33) rfl rfl, a1, a2, a3, a4, fun i hi => a5 i (by omega), fun h => (a5 11 (by omega)).trans h⟩

theorem end32 (e : Env) : EndOk e 40 4 := by
  intro s o h13 h80 ok
  obtain ⟨a1, a2, a3, a4, a5⟩ := k55x e s
  rw [ok, h13, h80] at a3
  rw [h80] at a4
  refine ⟨exec e k55.body s, Reach.block (b := k40) rfl rfl, a1, a2, a3, a4, fun i hi => ?_, fun _ => ?_⟩
  · rw [a5 i (by omega), if_neg (by omega)]
  · rw [a5 11 (by omega), if_pos (.inr rfl)]

/-- What a store leaves behind. -/
structure Stored (j : Job) (ty : Dt) (p : Nat) (val : Nat → Int) (s s' : St) : Prop where
  same : Same keepEnd s s'
  ok : s'.bad = false
  dp : s'.x 80 = .ptr .dst (dstBlk j ty p 0 + 4 * ty.size)
  v : ∀ i, i < 5 → s'.v i = s.v i
  zero : ∀ i, i < 4 → s'.v (6 + i) = fun _ => 0
  q11 : s'.v 11 = fun _ => 0
  m : ∀ r, r ≠ .dst → r ≠ .tmp → s'.m r = s.m r
  dst : ∃ T : Nat → Byte,
    (∀ u, u < 4 → ∀ b, b < ty.size → T (ty.size * u + b) = byteOf (val u) b) ∧
    s'.m .dst = wr s.m .dst (dstBlk j ty p 0) (ty.size * rowsIn j p) T .dst

/-- The end, from a state where the column is written. -/
theorem stored_end {j : Job} {ty : Dt} {p n0 n : Nat} {val : Nat → Int} {s s1 s2 : St}
    (hm : Mid j ty p 0 s) (h : Headed j ty p val s s1) (hE : EndOk j.env n ty.size)
    (r2 : Reach j.env kernel (n0, s) (n, s2)) (k2 : Same keepStore s1 s2) (v2 : s2.v = s1.v) (ok2 : s2.bad = false)
    (m2 : ∀ r, r ≠ .dst → r ≠ .tmp → s2.m r = s1.m r)
    (d2 : s2.m .dst = wr s1.m .dst (dstBlk j ty p 0) (ty.size * rowsIn j p) (tileByte ty.size s1) .dst) :
    ∃ s', Reach j.env kernel (n0, s) (41, s') ∧ Stored j ty p val s s' := by
  have same : Same keepStore s s2 := h.size.same.trans k2
  obtain ⟨s', r3, a1, a2, a3, a4, a5, a6⟩ := hE s2 _ ((same.get (by decide)).trans hm.sp)
    ((same.get (by decide)).trans hm.dp) ok2
  refine ⟨s', r2.trans r3, (same.sub (by decide)).trans a1, a3, a4, fun i hi => by rw [a5 i (by omega), v2, h.v i hi],
    fun i hi => by rw [a5 _ (by omega), v2, h.zero i (by omega)],
    a6 (by rw [v2]; exact h.zero 5 (by omega)), ?_, tileByte ty.size s1, h.tile, ?_⟩
  · intro r h1 h2
    rw [a2, m2 r h1 h2, h.size.m]
  · rw [a2, d2, h.size.m]

/-- A column copied out of `dst_tmp_buf`. -/
theorem wr_tmp {M M' : Region → Nat → Byte} {T : Nat → Byte} {n dp k : Nat} (hM : M' = wr M .tmp 0 n T) (h1 : k ≤ n) :
    wr M' .dst dp k (M' .tmp) .dst = wr M .dst dp k T .dst := by
  have e : ∀ b, b < n → M' .tmp b = T b := by
    intro b hb
    rw [hM]; unfold wr
    rw [if_pos ⟨rfl, by omega, by omega⟩, Nat.sub_zero]
  have e2 : M' .dst = M .dst := by rw [hM, wr_other (by decide)]
  rw [wr_congr (g := T) (fun b hb => e b (by omega))]
  funext b
  simp only [wr, e2]

/-- The blocks of a store of a narrow type. -/
structure Narrow (e : Env) (n k : Nat) : Prop where
  slow : ∀ s : St, s.x 42 = .ptr .tmp 0 → s.bad = false → 32 ≤ e.size .tmp →
    ∃ s', Reach e kernel (n + 1, s) (n + 2, s') ∧ Same (4 :: keepCopy) s s' ∧
      s'.m = wr s.m .tmp 0 8 (tileByte k s) ∧ s'.v = s.v ∧ s'.bad = false ∧ s'.x 3 = .ptr .tmp 0 ∧ s'.x 8 = .int 0
  copy : EntryOk e (n + 2) k 8 (n + 4)
  fast : ∀ (s : St) (o : Nat), s.x 13 = .int 96 → s.x 80 = .ptr .dst o →
    s.bad = false → o + 4 * k ≤ e.size .dst →
    ∃ s', Reach e kernel (n + 3, s) (n + 4, s') ∧ Same keepCopy s s' ∧
      s'.m = wr s.m .dst o (k * 4) (tileByte k s) ∧ s'.v = s.v ∧ s'.bad = false
  fin : EndOk e (n + 4) k

theorem narrow8 (e : Env) {n : Nat} (hn : n = 19 ∨ n = 24) : Narrow e n 1 := by
  refine ⟨fun s h42 ok ht => ?_, entry8 e (n := n + 2) (by omega), fun s o h13 h80 ok b1 => ?_, end8 e (by omega)⟩
  · obtain ⟨a1, a2, a3, a4, a5, a6⟩ := k20x e s
    rw [h42] at a2 a4 a5
    rw [ok, out_ptr (by show _ ≤ e.size .tmp; omega)] at a4
    refine ⟨exec e k20.body s, ?_, a1, a2, a3, a4, a5, a6⟩
    rcases hn with rfl | rfl
    · exact Reach.block (b := k20) rfl rfl
    · exact Reach.block (b := k25) rfl rfl
  · obtain ⟨a1, a2, a3, a4⟩ := k22x e s
    rw [h80] at a2 a4
    refine ⟨exec e k22.body s, ?_, a1, ?_, a3, ?_⟩
    · rcases hn with rfl | rfl
      · exact Reach.block (b := k22) rfl rfl
      · exact Reach.block (b := k27) rfl rfl
    · rw [a2, st4_eq (f := fun b => s.v 15 b) (fun i _ b _ => by rw [Nat.one_mul])]
      rfl
    · rw [a4, ok, h13]
      simp only [addVal]
      rw [out_ptr (by show _ ≤ e.size .dst; omega), out_ptr (by show _ ≤ e.size .dst; omega),
        out_ptr (by show _ ≤ e.size .dst; omega), out_ptr (by show _ ≤ e.size .dst; omega)]
      rfl

theorem narrow16 (e : Env) : Narrow e 29 2 := by
  refine ⟨fun s h42 ok ht => ?_, entry16 e, fun s o h13 h80 ok b1 => ?_, end16 e⟩
  · obtain ⟨a1, a2, a3, a4, a5, a6⟩ := k30x e s
    rw [h42] at a2 a4 a5
    rw [ok, out_ptr (by show _ ≤ e.size .tmp; omega)] at a4
    exact ⟨exec e k30.body s, Reach.block (b := k30) rfl rfl, a1, a2, a3, a4, a5, a6⟩
  · obtain ⟨a1, a2, a3, a4⟩ := k32x e s
    rw [h80] at a2 a4
    refine ⟨exec e k32.body s, Reach.block (b := k32) rfl rfl, a1, ?_, a3, ?_⟩
    · rw [a2, st4_eq (f := fun b => s.v 14 b) (fun _ _ _ _ => rfl)]
      rfl
    · rw [a4, ok, h13]
      simp only [addVal]
      rw [out_ptr (by show _ ≤ e.size .dst; omega), out_ptr (by show _ ≤ e.size .dst; omega),
        out_ptr (by show _ ≤ e.size .dst; omega), out_ptr (by show _ ≤ e.size .dst; omega)]
      rfl

theorem col_bound {j : Job} (hf : j.Fits) {p : Nat} (hp : p ≤ j.rowSteps) {i : Nat} (hi : i < rowsIn j p) :
    dstBlk j j.ty p 0 + j.ty.size * i + j.ty.size ≤ j.size .dst := by
  have := dst_bound hf hp (Nat.zero_le _) (w := 0) (cols_pos hf (Nat.zero_le _)) hi
  rwa [Nat.zero_mul, Nat.add_zero] at this

theorem stored_narrow {j : Job} (hf : j.Fits) {p n : Nat} (hp : p ≤ j.rowSteps)
    {val : Nat → Int} {s s1 : St} (hk : j.ty.size = 1 ∨ j.ty.size = 2) (hN : Narrow j.env n j.ty.size)
    (hm : Mid j j.ty p 0 s) (nx : ∀ l, (bif s1.z then n + 3 else n + 1) = l → Reach j.env kernel (n, s) (l, s1))
    (h : Headed j j.ty p val s s1) (ha : s1.x 4 = .ptr .dst (dstBlk j j.ty p 0)) :
    ∃ s', Reach j.env kernel (n, s) (41, s') ∧ Stored j j.ty p val s s' := by
  have r4 : rowsIn j p ≤ 4 := by unfold rowsIn; omega
  have hsd : ∀ i, i < rowsIn j p → dstBlk j j.ty p 0 + j.ty.size * i + j.ty.size ≤ j.env.size .dst :=
    fun i hi => col_bound hf hp hi
  by_cases hz : rowsIn j p = 4
  · have r1 := nx (n + 3) (by rw [h.size.z, decide_eq_true hz]; rfl)
    have b1 := hsd 3 (by omega)
    obtain ⟨s2, r2, f1, f2, f3, f4⟩ := hN.fast s1 _ ((h.size.same.get (by decide)).trans hm.sp)
      ((h.size.same.get (by decide)).trans hm.dp) h.size.ok (by omega)
    refine stored_end hm h hN.fin (r1.trans r2) (f1.sub (by decide)) f3 f4 (fun r hr _ => ?_) ?_
    · rw [f2, wr_other hr]
    · rw [f2, hz]
  · have r1 := nx (n + 1) (by rw [h.size.z, decide_eq_false hz]; rfl)
    have ht : 32 ≤ j.env.size .tmp := hf.tmp
    obtain ⟨s2, r2, a1, a2, a3, a4, a5, a6⟩ := hN.slow s1 ((h.size.same.get (by decide)).trans hm.tmp) h.size.ok ht
    obtain ⟨s3, r3, c1, c2, c3, c5⟩ := copied hN.copy ((a1.get (by decide)).trans h.size.x1) a5
      ((a1.get (by decide)).trans ha) a6 r4 (rows_pos hf hp) (by omega) hsd a4
    refine stored_end hm h hN.fin ((r1.trans r2).trans r3) ((a1.sub (by decide)).trans (c1.sub (by decide)))
      (c2.trans a3) c3 (fun r hr hr' => ?_) ?_
    · rw [c5, wr_other hr, a2, wr_other hr']
    · rw [c5]
      refine wr_tmp a2 ?_
      have : j.ty.size * rowsIn j p ≤ 2 * 4 := Nat.mul_le_mul (by omega) r4
      omega

theorem stored32 {j : Job} (hf : j.Fits) {p : Nat} (hp : p ≤ j.rowSteps)
    {val : Nat → Int} {s s1 : St} (hk : j.ty = .i32)
    (hm : Mid j j.ty p 0 s) (nx : ∀ l, (bif s1.z then 36 else 35) = l → Reach j.env kernel (34, s) (l, s1))
    (h : Headed j j.ty p val s s1) :
    ∃ s', Reach j.env kernel (34, s) (41, s') ∧ Stored j j.ty p val s s' := by
  have r4 : rowsIn j p ≤ 4 := by unfold rowsIn; omega
  have hs4 : j.ty.size = 4 := by rw [hk]; rfl
  have hsd : ∀ i, i < rowsIn j p → dstBlk j j.ty p 0 + 4 * i + 4 ≤ j.env.size .dst :=
    fun i hi => by have := col_bound hf hp hi; rwa [hs4] at this
  have sp1 : s1.x 13 = .int 96 := (h.size.same.get (by decide)).trans hm.sp
  have xp1 : s1.x 80 = .ptr .dst (dstBlk j j.ty p 0) := (h.size.same.get (by decide)).trans hm.dp
  have xt1 : s1.x 42 = .ptr .tmp 0 := (h.size.same.get (by decide)).trans hm.tmp
  have hE : EndOk j.env 40 j.ty.size := by rw [hs4]; exact end32 _
  have tb : tileByte j.ty.size s1 = s1.v 14 := by rw [hs4]; rfl
  have n37 : ∀ (s2 : St) l, (bif (exec j.env k37.body s2).z then 40 else 38) = l →
      Reach j.env kernel (37, s2) (l, exec j.env k37.body s2) := fun s2 l hl => Reach.block (b := k37) rfl hl
  by_cases hz : rowsIn j p = 4
  · have r1 := nx 36 (by rw [h.size.z, decide_eq_true hz]; rfl)
    have b1 := hsd 3 (by omega)
    obtain ⟨a1, a2, a3, a4, a5, a6⟩ := k36x j.env s1
    have r2 : Reach j.env kernel (36, s1) (37, exec j.env k36.body s1) := Reach.block (b := k36) rfl rfl
    generalize exec j.env k36.body s1 = s2 at *
    rw [h.size.ok, sp1] at a4
    have a4' : s2.bad = false := a4
    rw [xp1] at a6
    obtain ⟨c1, c2, c3, c4', c5⟩ := k37x j.env s2
    have r3 := n37 s2 40
    generalize exec j.env k37.body s2 = s3 at *
    rw [c4', a5, h.size.z, decide_eq_true hz] at r3
    rw [a6] at c2 c5
    rw [a4', out_ptr (by show _ ≤ j.env.size .dst; omega)] at c5
    have M : s3.m = wr s1.m .dst (dstBlk j j.ty p 0) 16 (s1.v 14) := by rw [c2, a2, a3]; rfl
    refine stored_end hm h hE ((r1.trans r2).trans (r3 rfl)) ((a1.sub (by decide)).trans (c1.sub (by decide)))
      (c3.trans a3) c5 (fun r hr _ => ?_) ?_
    · rw [M, wr_other hr]
    · rw [M, tb, hz, hs4]
  · have r1 := nx 35 (by rw [h.size.z, decide_eq_false hz]; rfl)
    have ht : 32 ≤ j.env.size .tmp := hf.tmp
    obtain ⟨a1, a2, a3, a4, a5, a6⟩ := k35x j.env s1
    have r2 : Reach j.env kernel (35, s1) (37, exec j.env k35.body s1) := Reach.block (b := k35) rfl rfl
    generalize exec j.env k35.body s1 = s2 at *
    rw [h.size.ok] at a4
    rw [xt1] at a6
    obtain ⟨c1, c2, c3, c4', c5⟩ := k37x j.env s2
    have r3 := n37 s2 38
    generalize exec j.env k37.body s2 = s3 at *
    rw [c4', a5, h.size.z, decide_eq_false hz] at r3
    rw [a6] at c2 c5
    rw [a4, out_ptr (by show _ ≤ j.env.size .tmp; omega)] at c5
    have c5' : s3.bad = false := c5
    have M : s3.m = wr s1.m .tmp 0 16 (s1.v 14) := by rw [c2, a2, a3]; rfl
    have sm : Same keepCopy s1 s3 := a1.trans c1
    obtain ⟨d1, d2, d3, d4, d5, d6, d7⟩ := k38x j.env s3
    have r4' : Reach j.env kernel (38, s3) (39, exec j.env k38.body s3) := Reach.block (b := k38) rfl rfl
    generalize exec j.env k38.body s3 = s4 at *
    rw [c5', sm.get (by decide), sp1] at d4
    rw [sm.get (by decide), xt1] at d5
    rw [sm.get (by decide), xp1] at d6
    have sm' : Same keepCopy s1 s4 := sm.trans d1
    obtain ⟨s5, r5, g1, g2, g3, g5⟩ := copied (entry32 j.env) ((sm'.get (by decide)).trans h.size.x1) d5 d6 d7
      r4 (rows_pos hf hp) (by omega) hsd d4
    refine stored_end hm h hE ((((r1.trans r2).trans (r3 rfl)).trans r4').trans r5)
      ((sm'.sub (by decide)).trans (g1.sub (by decide))) (g2.trans (d3.trans (c3.trans a3))) g3 (fun r hr hr' => ?_) ?_
    · rw [g5, wr_other hr, d2, M, wr_other hr']
    · rw [g5, tb, hs4]; exact wr_tmp (d2.trans M) (by omega)

theorem branch_eq {e : Env} {P : List Block} {i a b : Nat} {is : List Instr} {s : St}
    (h : P[i]? = some ⟨is, .br .eq a b⟩) (l : Nat) (hl : (bif (exec e is s).z then a else b) = l) :
    Reach e P (i, s) (l, exec e is s) := Reach.block (b := ⟨is, .br .eq a b⟩) h hl

theorem stored_u8 {j : Job} (hf : j.Fits) {p : Nat} (hp : p ≤ j.rowSteps) (hty : j.ty = .u8)
    {f : Nat → Int} {s : St} (hm : Mid j j.ty p 0 s) (ht : Tile f s) :
    ∃ s', Reach j.env kernel (19, s) (41, s') ∧
      Stored j j.ty p (fun u => Simd.Neon.storeU8 (f u) j.dstZp j.clampMin j.clampMax) s s' := by
  obtain ⟨h1, h2⟩ := head19 hf hp hty hm ht
  have nx : ∀ l, (bif (exec j.env k19.body s).z then 22 else 20) = l →
      Reach j.env kernel (19, s) (l, exec j.env k19.body s) := branch_eq (is := k19.body) rfl
  generalize exec j.env k19.body s = s1 at *
  exact stored_narrow hf hp (n := 19) (.inl (by rw [hty]; rfl)) (by rw [hty]; exact narrow8 _ (.inl rfl)) hm nx h1 h2

theorem stored_i8 {j : Job} (hf : j.Fits) {p : Nat} (hp : p ≤ j.rowSteps) (hty : j.ty = .i8)
    {f : Nat → Int} {s : St} (hm : Mid j j.ty p 0 s) (ht : Tile f s) :
    ∃ s', Reach j.env kernel (24, s) (41, s') ∧
      Stored j j.ty p (fun u => Simd.Neon.storeS8 (f u) j.dstZp j.clampMin j.clampMax) s s' := by
  obtain ⟨h1, h2⟩ := head24 hf hp hty hm ht
  have nx : ∀ l, (bif (exec j.env k24.body s).z then 27 else 25) = l →
      Reach j.env kernel (24, s) (l, exec j.env k24.body s) := branch_eq (is := k24.body) rfl
  generalize exec j.env k24.body s = s1 at *
  exact stored_narrow hf hp (n := 24) (.inl (by rw [hty]; rfl)) (by rw [hty]; exact narrow8 _ (.inr rfl)) hm nx h1 h2

theorem stored_i16 {j : Job} (hf : j.Fits) {p : Nat} (hp : p ≤ j.rowSteps) (hty : j.ty = .i16)
    {f : Nat → Int} {s : St} (hm : Mid j j.ty p 0 s) (ht : Tile f s) :
    ∃ s', Reach j.env kernel (29, s) (41, s') ∧
      Stored j j.ty p (fun u => Simd.Neon.storeS16 (f u) j.dstZp j.clampMin j.clampMax) s s' := by
  obtain ⟨h1, h2⟩ := head29 hf hp hty hm ht
  have nx : ∀ l, (bif (exec j.env k29.body s).z then 32 else 30) = l →
      Reach j.env kernel (29, s) (l, exec j.env k29.body s) := branch_eq (is := k29.body) rfl
  generalize exec j.env k29.body s = s1 at *
  exact stored_narrow hf hp (n := 29) (.inr (by rw [hty]; rfl)) (by rw [hty]; exact narrow16 _) hm nx h1 h2

theorem stored_i32 {j : Job} (hf : j.Fits) {p : Nat} (hp : p ≤ j.rowSteps) (hty : j.ty = .i32)
    {f : Nat → Int} {s : St} (hm : Mid j j.ty p 0 s) (ht : Tile f s) :
    ∃ s', Reach j.env kernel (34, s) (41, s') ∧ Stored j j.ty p f s s' := by
  have h1 := head34 hf hp hty hm ht
  have nx : ∀ l, (bif (exec j.env k34.body s).z then 36 else 35) = l →
      Reach j.env kernel (34, s) (l, exec j.env k34.body s) := branch_eq (is := k34.body) rfl
  generalize exec j.env k34.body s = s1 at *
  exact stored32 hf hp hty hm nx h1

/-- From the code that stores to `AFTER_STORE`. -/
theorem stored {j : Job} (hf : j.Fits) {p : Nat} (hp : p ≤ j.rowSteps)
    {f : Nat → Int} {s : St} (hm : Mid j j.ty p 0 s) (ht : Tile f s) :
    ∃ s', Reach j.env kernel (storeAt j.ty, s) (41, s') ∧ Stored j j.ty p (fun u => conv j j.ty (f u)) s s' := by
  cases hty : j.ty
  · have := stored_u8 hf hp hty hm ht
    rw [hty] at this
    exact this
  · have := stored_i8 hf hp hty hm ht
    rw [hty] at this
    exact this
  · have := stored_i16 hf hp hty hm ht
    rw [hty] at this
    exact this
  · have := stored_i32 hf hp hty hm ht
    rw [hty] at this
    exact this

end Ruy.Arm8.One

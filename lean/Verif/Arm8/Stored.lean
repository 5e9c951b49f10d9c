import Verif.Arm8.Store
/-
The ARM32 8-bit kernel: from the first block of a store to `AFTER_STORE`.
-/
namespace Ruy.Arm8
open Ruy.Neon (St Val Region Vec Byte Dt Same addVal out out_ptr wr wr_congr wr_append wr_other cols cols_other
  cols_congr st4 st4_eq byteOf)

/-- Registers that do not change before the end of a store. -/
def keepEnd : List Nat := [13, 34, 35, 42, 64, 96, 112, 128, 144]

/-! ### Parts of tiles, by way of `dst_tmp_buf` -/

theorem k27x (e : Env) (s : St) : Same (4 :: 5 :: keepCopy) s (exec e k27.body s) ∧
    (exec e k27.body s).m = wr s.m (s.x 42).region ((s.x 42).off + 0) 8 (s.v 15) ∧ (exec e k27.body s).v = s.v ∧
    (exec e k27.body s).bad = (s.bad || out e.base (s.x 42) 0 8) ∧
    (exec e k27.body s).x 3 = s.x 42 ∧ (exec e k27.body s).x 6 = .int 0 := by
  cases s; exact ⟨by keep, rfl, rfl, rfl, rfl, rfl⟩

theorem k41x (e : Env) (s : St) : Same (4 :: 5 :: keepCopy) s (exec e k41.body s) ∧
    (exec e k41.body s).m = wr s.m (s.x 42).region ((s.x 42).off + 0) 16 (s.v 14) ∧ (exec e k41.body s).v = s.v ∧
    (exec e k41.body s).bad = (s.bad || out e.base (s.x 42) 0 16) ∧
    (exec e k41.body s).x 3 = s.x 42 ∧ (exec e k41.body s).x 6 = .int 0 := by
  cases s; exact ⟨by keep, rfl, rfl, rfl, rfl, rfl⟩

theorem k48x (e : Env) (s : St) : Same keepCopy s (exec e k48.body s) ∧ (exec e k48.body s).m = s.m ∧
    (exec e k48.body s).v = s.v ∧ (exec e k48.body s).bad = s.bad ∧ (exec e k48.body s).z = s.z ∧
    (exec e k48.body s).x 3 = s.x 42 ∧ (exec e k48.body s).x 4 = .int 16 := by
  cases s; exact ⟨by keep, rfl, rfl, rfl, rfl, rfl, rfl⟩

theorem k49x (e : Env) (s : St) : Same keepCopy s (exec e k49.body s) ∧ (exec e k49.body s).m = s.m ∧
    (exec e k49.body s).v = s.v ∧ (exec e k49.body s).bad = (s.bad || Nat.blt (s.x 13).num (16 + 4)) ∧
    (exec e k49.body s).z = s.z ∧
    (exec e k49.body s).x 3 = s.x 80 ∧ (exec e k49.body s).x 4 = e.field .dstStride := by
  cases s; exact ⟨by keep, rfl, rfl, rfl, rfl, rfl, rfl⟩

theorem k50x (e : Env) (s : St) : Same keepCopy s (exec e k50.body s) ∧
    (exec e k50.body s).m = wr (wr s.m (s.x 3).region ((s.x 3).off + 0) 16 (s.v 14))
      (addVal (s.x 3) ((s.x 4).num * 2 ^ 0 % 2 ^ 32)).region
      ((addVal (s.x 3) ((s.x 4).num * 2 ^ 0 % 2 ^ 32)).off + 0) 16 (s.v 15) ∧
    (exec e k50.body s).v = s.v ∧ (exec e k50.body s).z = s.z ∧
    (exec e k50.body s).bad = (s.bad || out e.base (s.x 3) 0 16 || !(s.x 3).isPtr || (s.x 4).isPtr ||
      out e.base (addVal (s.x 3) ((s.x 4).num * 2 ^ 0 % 2 ^ 32)) 0 16) := by
  cases s; exact ⟨by keep, rfl, rfl, rfl, rfl⟩

theorem k51x (e : Env) (s : St) : Same keepCopy s (exec e k51.body s) ∧ (exec e k51.body s).m = s.m ∧
    (exec e k51.body s).v = s.v ∧ (exec e k51.body s).bad = (s.bad || Nat.blt (s.x 13).num (16 + 4)) ∧
    (exec e k51.body s).x 3 = s.x 42 ∧ (exec e k51.body s).x 4 = s.x 80 ∧ (exec e k51.body s).x 6 = .int 0 ∧
    (exec e k51.body s).x 8 = e.field .dstStride := by
  cases s; exact ⟨by keep, rfl, rfl, rfl, rfl, rfl, rfl, rfl⟩

/-! ### Whole tiles -/

/-- The address of the second column. -/
def second (s : St) : Val := addVal (s.x 80) ((s.x 5).num * 2 ^ 0 % 2 ^ 32)

theorem k31x (e : Env) (s : St) : Same keepCopy s (exec e k31.body s) ∧
    (exec e k31.body s).m = wr (wr s.m (s.x 80).region ((s.x 80).off + 0) 4 (fun b => s.v 15 (4 * 0 + b)))
      (second s).region ((second s).off + 0) 4 (fun b => s.v 15 (4 * 1 + b)) ∧
    (exec e k31.body s).v = s.v ∧
    (exec e k31.body s).bad = (s.bad || Nat.blt (s.x 13).num (16 + 4) || out e.base (s.x 80) 0 4 || !(s.x 80).isPtr ||
      (s.x 5).isPtr || out e.base (second s) 0 4) := by
  cases s; exact ⟨by keep, rfl, rfl, rfl⟩

theorem k45x (e : Env) (s : St) : Same keepCopy s (exec e k45.body s) ∧
    (exec e k45.body s).m = st4 (st4 s.m (s.x 80) 2 (fun i b => s.v 14 (2 * i + b)))
      (second s) 2 (fun i b => s.v 14 (8 + (2 * i + b))) ∧
    (exec e k45.body s).v = s.v ∧
    (exec e k45.body s).bad = (s.bad || Nat.blt (s.x 13).num (16 + 4) || false || out e.base (s.x 80) 0 2 ||
      !(s.x 80).isPtr || (s.x 5).isPtr || false || out e.base (addVal (s.x 80) 2) 0 2 ||
      false || out e.base (addVal (addVal (s.x 80) 2) 2) 0 2 ||
      false || out e.base (addVal (addVal (addVal (s.x 80) 2) 2) 2) 0 2 ||
      false || out e.base (second s) 0 2 || false || out e.base (addVal (second s) 2) 0 2 ||
      false || out e.base (addVal (addVal (second s) 2) 2) 0 2 ||
      false || out e.base (addVal (addVal (addVal (second s) 2) 2) 2) 0 2) := by
  cases s; exact ⟨by keep, rfl, rfl, rfl⟩

/-! ### The ends -/

theorem k32x (e : Env) (s : St) : Same keepEnd s (exec e k32.body s) ∧ (exec e k32.body s).m = s.m ∧
    (exec e k32.body s).bad = (s.bad || Nat.blt (s.x 13).num (16 + 4) || !(s.x 80).isPtr || Nat.blt (s.x 13).num (16 + 4)) ∧
    (exec e k32.body s).x 80 = addVal (s.x 80) 4 ∧
    (∀ i, i < 13 → (exec e k32.body s).v i = s.v i) ∧ (exec e k32.body s).v 13 = fun _ => 0 := by
  cases s
  refine ⟨by keep, rfl, rfl, rfl, ?_, rfl⟩
  intro i hi
  interval_cases i <;> rfl

theorem k46x (e : Env) (s : St) : Same keepEnd s (exec e k46.body s) ∧ (exec e k46.body s).m = s.m ∧
    (exec e k46.body s).bad = (s.bad || Nat.blt (s.x 13).num (16 + 4) || !(s.x 80).isPtr || Nat.blt (s.x 13).num (16 + 4)) ∧
    (exec e k46.body s).x 80 = addVal (s.x 80) 8 ∧
    (∀ i, i < 14 → (exec e k46.body s).v i = s.v i) := by
  cases s
  refine ⟨by keep, rfl, rfl, rfl, ?_⟩
  intro i hi
  interval_cases i <;> rfl

theorem k55x (e : Env) (s : St) : Same keepEnd s (exec e k55.body s) ∧ (exec e k55.body s).m = s.m ∧
    (exec e k55.body s).bad = (s.bad || Nat.blt (s.x 13).num (16 + 4) || !(s.x 80).isPtr || Nat.blt (s.x 13).num (16 + 4)) ∧
    (exec e k55.body s).x 80 = addVal (s.x 80) 16 ∧
    (∀ i, i < 14 → (exec e k55.body s).v i = if i = 10 ∨ i = 11 then fun _ => 0 else s.v i) := by
  cases s
  refine ⟨by keep, rfl, rfl, rfl, ?_⟩
  intro i hi
  interval_cases i <;> rfl

/-- What the last block of a store of entries of `k` bytes does. -/
structure EndOk (e : Env) (n k : Nat) : Prop where
  go : ∀ (s : St) (o : Nat), s.x 13 = .int 96 → s.x 80 = .ptr .dst o → s.bad = false →
    (∀ i, i < 7 → s.v (6 + i) = fun _ => 0) → (k ≠ 1 → s.v 13 = fun _ => 0) →
    ∃ s', Reach e kernel (n, s) (56, s') ∧ Same keepEnd s s' ∧ s'.m = s.m ∧ s'.bad = false ∧
      s'.x 80 = .ptr .dst (o + 4 * k) ∧ (∀ i, i < 6 → s'.v i = s.v i) ∧ ∀ i, i < 8 → s'.v (6 + i) = fun _ => 0

theorem end8 (e : Env) {n : Nat} (hn : n = 32 ∨ n = 39) : EndOk e n 1 := by
  refine ⟨fun s o h13 h80 ok hz _ => ?_⟩
  obtain ⟨a1, a2, a3, a4, a5, a6⟩ := k32x e s
  rw [ok, h13, h80] at a3
  rw [h80] at a4
  refine ⟨exec e k32.body s, ?_, a1, a2, a3, a4, fun i hi => a5 i (by omega), fun i hi => ?_⟩
  · rcases hn with rfl | rfl
    · exact Reach.block (b := k32) rfl rfl
    · exact Reach.block (b := k39) rfl rfl
  · rcases Nat.lt_or_ge i 7 with h | h
    · rw [a5 _ (by omega)]; exact hz i h
    · rw [show 6 + i = 13 by omega]; exact a6

theorem end16 (e : Env) : EndOk e 46 2 := by
  refine ⟨fun s o h13 h80 ok hz h13z => ?_⟩
  obtain ⟨a1, a2, a3, a4, a5⟩ := k46x e s
  rw [ok, h13, h80] at a3
  rw [h80] at a4
  refine ⟨exec e k46.body s, Reach.block (b := k46) rfl rfl, a1, a2, a3, a4, fun i hi => a5 i (by omega), fun i hi => ?_⟩
  rw [a5 _ (by omega)]
  rcases Nat.lt_or_ge i 7 with h | h
  · exact hz i h
  · rw [show 6 + i = 13 by omega]; exact h13z (by decide)

theorem end32 (e : Env) : EndOk e 55 4 := by
  refine ⟨fun s o h13 h80 ok hz h13z => ?_⟩
  obtain ⟨a1, a2, a3, a4, a5⟩ := k55x e s
  rw [ok, h13, h80] at a3
  rw [h80] at a4
  refine ⟨exec e k55.body s, Reach.block (b := k55) rfl rfl, a1, a2, a3, a4, fun i hi => ?_, fun i hi => ?_⟩
  · rw [a5 i (by omega), if_neg (by omega)]
  · rw [a5 _ (by omega)]
    split_ifs
    · rfl
    rcases Nat.lt_or_ge i 7 with h | h
    · exact hz i h
    · rw [show 6 + i = 13 by omega]; exact h13z (by decide)

/-! ### Putting them together -/

/-- What a store leaves behind. -/
structure Stored (j : Job) (ty : Dt) (p q : Nat) (val : Nat → Nat → Int) (s s' : St) : Prop where
  same : Same keepEnd s s'
  ok : s'.bad = false
  dp : s'.x 80 = .ptr .dst (dstBlk j ty p q + 4 * ty.size)
  v : ∀ i, i < 6 → s'.v i = s.v i
  zero : ∀ i, i < 8 → s'.v (6 + i) = fun _ => 0
  m : ∀ r, r ≠ .dst → r ≠ .tmp → s'.m r = s.m r
  dst : ∃ T : Nat → Byte,
    (∀ u, u < 4 → ∀ w, w < 2 → ∀ b, b < ty.size →
      T (4 * ty.size * w + (ty.size * u + b)) = byteOf (val u w) b) ∧
    s'.m .dst = cols s.m T (dstBlk j ty p q) j.dstStride (ty.size * rowsIn j p) (4 * ty.size) (colsIn j q) .dst

/-- The end, from a state where the tile is written. -/
theorem stored_end {j : Job} {ty : Dt} {p q n0 n : Nat} {val : Nat → Nat → Int} {s s1 s2 : St}
    (hm : Mid j ty p q s) (h : Headed j ty p q val s s1) (hE : EndOk j.env n ty.size)
    (r2 : Reach j.env kernel (n0, s) (n, s2)) (k2 : Same keepStore s1 s2) (v2 : s2.v = s1.v) (ok2 : s2.bad = false)
    (m2 : ∀ r, r ≠ .dst → r ≠ .tmp → s2.m r = s1.m r)
    (d2 : s2.m .dst = cols s1.m (tileByte ty.size s1) (dstBlk j ty p q) j.dstStride (ty.size * rowsIn j p)
      (4 * ty.size) (colsIn j q) .dst) :
    ∃ s', Reach j.env kernel (n0, s) (56, s') ∧ Stored j ty p q val s s' := by
  have same : Same keepStore s s2 := h.size.same.trans k2
  obtain ⟨s', r3, a1, a2, a3, a4, a5, a6⟩ := hE.go s2 _ ((same.get (by decide)).trans hm.sp)
    ((same.get (by decide)).trans hm.dp) ok2 (fun i hi => by rw [v2]; exact h.zero i hi)
    (fun hk => by rw [v2]; exact h.zero13 hk)
  refine ⟨s', r2.trans r3, (same.sub (by decide)).trans a1, a3, a4, fun i hi => by rw [a5 i hi, v2, h.v i hi], a6, ?_,
    tileByte ty.size s1, h.tile, ?_⟩
  · intro r h1 h2
    rw [a2, m2 r h1 h2, h.size.m]
  · rw [a2, d2, h.size.m]

/-- A tile copied out of `dst_tmp_buf`. -/
theorem cols_tmp {M M' : Region → Nat → Byte} {T : Nat → Byte} {k dp S w1 w2 : Nat} (hM : M' = wr M .tmp 0 (8 * k) T)
    (h1 : w1 ≤ 4) (h2 : w2 ≤ 2) :
    cols M' (M' .tmp) dp S (k * w1) (4 * k) w2 .dst = cols M T dp S (k * w1) (4 * k) w2 .dst := by
  have e : ∀ b, b < 8 * k → M' .tmp b = T b := by
    intro b hb
    rw [hM]; unfold wr
    rw [if_pos ⟨rfl, by omega, by omega⟩, Nat.sub_zero]
  rw [cols_congr (T' := T)]
  · have : ∀ w, cols M' T dp S (k * w1) (4 * k) w .dst = cols M T dp S (k * w1) (4 * k) w .dst := by
      intro w
      induction w with
      | zero => show M' .dst = M .dst; rw [hM, wr_other (by decide)]
      | succ w ih =>
        funext b
        have := congrFun ih b
        simp only [cols, wr]
        split_ifs
        · rfl
        · exact this
    exact this w2
  · intro i hi b hb
    refine e _ ?_
    have b1 : k * w1 ≤ k * 4 := Nat.mul_le_mul_left _ h1
    have b2 : 4 * k * i ≤ 4 * k * 1 := Nat.mul_le_mul_left _ (by omega)
    omega

/-- The blocks of a store of a narrow type. -/
structure Narrow (e : Env) (n k : Nat) : Prop where
  slow : ∀ s : St, s.x 42 = .ptr .tmp 0 → s.bad = false → 32 ≤ e.size .tmp →
    ∃ s', Reach e kernel (n + 1, s) (n + 2, s') ∧ Same (4 :: 5 :: keepCopy) s s' ∧
      s'.m = wr s.m .tmp 0 (8 * k) (tileByte k s) ∧ s'.v = s.v ∧ s'.bad = false ∧ s'.x 3 = .ptr .tmp 0 ∧ s'.x 6 = .int 0
  copy : CopyOk e (n + 2) k 8 5 (n + 6)
  fast : ∀ (s : St) (o S : Nat), s.x 13 = .int 96 → s.x 80 = .ptr .dst o → s.x 5 = .int S → S < 2 ^ 31 →
    s.bad = false → o + 4 * k ≤ e.size .dst → o + S + 4 * k ≤ e.size .dst →
    ∃ s', Reach e kernel (n + 5, s) (n + 6, s') ∧ Same keepCopy s s' ∧
      s'.m = cols s.m (tileByte k s) o S (k * 4) (4 * k) 2 ∧ s'.v = s.v ∧ s'.bad = false
  fin : EndOk e (n + 6) k

theorem narrow8 (e : Env) {n : Nat} (hn : n = 26 ∨ n = 33) : Narrow e n 1 := by
  refine ⟨fun s h42 ok ht => ?_, copy8 e (n := n + 2) (by omega), fun s o S h13 h80 h5 hS ok b1 b2 => ?_,
    end8 e (by omega)⟩
  · obtain ⟨a1, a2, a3, a4, a5, a6⟩ := k27x e s
    rw [h42] at a2 a4 a5
    rw [ok, out_ptr (by show _ ≤ e.size .tmp; omega)] at a4
    refine ⟨exec e k27.body s, ?_, a1, a2, a3, a4, a5, a6⟩
    rcases hn with rfl | rfl
    · exact Reach.block (b := k27) rfl rfl
    · exact Reach.block (b := k34) rfl rfl
  · obtain ⟨a1, a2, a3, a4⟩ := k31x e s
    have e2 : second s = .ptr .dst (o + S) := by unfold second; rw [h80, h5, add_stride hS]
    rw [e2, h80] at a2 a4
    rw [ok, h13, h5, out_ptr (by show _ ≤ e.size .dst; omega), out_ptr (by show _ ≤ e.size .dst; omega)] at a4
    refine ⟨exec e k31.body s, ?_, a1, ?_, a3, a4⟩
    · rcases hn with rfl | rfl
      · exact Reach.block (b := k31) rfl rfl
      · exact Reach.block (b := k38) rfl rfl
    · rw [a2]
      simp only [cols, Val.region, Val.off, Nat.add_zero, Nat.zero_mul, Nat.one_mul]
      rfl

theorem narrow16 (e : Env) : Narrow e 40 2 := by
  refine ⟨fun s h42 ok ht => ?_, copy16 e, fun s o S h13 h80 h5 hS ok b1 b2 => ?_, end16 e⟩
  · obtain ⟨a1, a2, a3, a4, a5, a6⟩ := k41x e s
    rw [h42] at a2 a4 a5
    rw [ok, out_ptr (by show _ ≤ e.size .tmp; omega)] at a4
    exact ⟨exec e k41.body s, Reach.block (b := k41) rfl rfl, a1, a2, a3, a4, a5, a6⟩
  · obtain ⟨a1, a2, a3, a4⟩ := k45x e s
    have e2 : second s = .ptr .dst (o + S) := by unfold second; rw [h80, h5, add_stride hS]
    rw [e2, h80] at a2 a4
    refine ⟨exec e k45.body s, Reach.block (b := k45) rfl rfl, a1, ?_, a3, ?_⟩
    · rw [a2, st4_eq (f := fun b => s.v 14 b) (fun _ _ _ _ => rfl), st4_eq (f := fun b => s.v 14 (8 + b)) (fun _ _ _ _ => rfl)]
      simp only [cols, Nat.add_zero, Nat.zero_mul, Nat.one_mul]
      refine (congrArg (fun M => wr M .dst (o + S) 8 _) (wr_congr (fun b hb => ?_))).trans (wr_congr (fun b hb => rfl))
      show s.v 14 b = s.v 14 (4 * 2 * 0 + b)
      exact congrArg _ (by omega)
    · rw [a4, ok, h13, h5]
      simp only [addVal]
      rw [out_ptr (by show _ ≤ e.size .dst; omega), out_ptr (by show _ ≤ e.size .dst; omega),
        out_ptr (by show _ ≤ e.size .dst; omega), out_ptr (by show _ ≤ e.size .dst; omega),
        out_ptr (by show _ ≤ e.size .dst; omega), out_ptr (by show _ ≤ e.size .dst; omega),
        out_ptr (by show _ ≤ e.size .dst; omega), out_ptr (by show _ ≤ e.size .dst; omega)]
      rfl

theorem stored_narrow {j : Job} (hf : j.Fits) {p q n : Nat} (hp : p ≤ j.rowSteps) (hq : q ≤ j.colSteps)
    {val : Nat → Nat → Int} {s s1 : St} (hk : j.ty.size = 1 ∨ j.ty.size = 2) (hN : Narrow j.env n j.ty.size)
    (hm : Mid j j.ty p q s) (nx : ∀ l, (bif s1.z then n + 5 else n + 1) = l → Reach j.env kernel (n, s) (l, s1))
    (h : Headed j j.ty p q val s s1) (ha : Aim j j.ty p q s1) :
    ∃ s', Reach j.env kernel (n, s) (56, s') ∧ Stored j j.ty p q val s s' := by
  have r4 : rowsIn j p ≤ 4 := by unfold rowsIn; omega
  have c4 : colsIn j q ≤ 2 := by unfold colsIn; omega
  have hsd : ∀ w, w < colsIn j q → ∀ i, i < rowsIn j p →
      dstBlk j j.ty p q + w * j.dstStride + j.ty.size * i + j.ty.size ≤ j.env.size .dst :=
    fun w hw i hi => dst_bound hf hp hq hw hi
  have hS := hf.dstride
  by_cases hz : rowsIn j p = 4 ∧ colsIn j q = 2
  · have r1 := nx (n + 5) (by rw [h.size.z, decide_eq_true hz]; rfl)
    have b1 := hsd 0 (by omega) 3 (by omega)
    have b2 := hsd 1 (by omega) 3 (by omega)
    obtain ⟨s2, r2, f1, f2, f3, f4⟩ := hN.fast s1 _ _ ((h.size.same.get (by decide)).trans hm.sp)
      ((h.size.same.get (by decide)).trans hm.dp) ha.2 hS h.size.ok (by omega) (by omega)
    refine stored_end hm h hN.fin (r1.trans r2) (f1.sub (by decide)) f3 f4 (fun r hr _ => ?_) ?_
    · rw [f2, cols_other hr]
    · rw [f2, hz.1, hz.2]
  · have r1 := nx (n + 1) (by rw [h.size.z, decide_eq_false hz]; rfl)
    have ht : 32 ≤ j.env.size .tmp := hf.tmp
    obtain ⟨s2, r2, a1, a2, a3, a4, a5, a6⟩ := hN.slow s1 ((h.size.same.get (by decide)).trans hm.tmp) h.size.ok ht
    obtain ⟨s3, r3, c1, c2, c3, c5⟩ := copied hN.copy (by omega) ((a1.get (by decide)).trans h.size.x1)
      ((a1.get (by decide)).trans h.size.x2) ((a1.get (by decide)).trans ha.2) hS a5 ((a1.get (by decide)).trans ha.1) a6
      r4 c4 (rows_pos hf hp) (cols_pos hf hq) (by omega) hsd a4
    refine stored_end hm h hN.fin ((r1.trans r2).trans r3) ((a1.sub (by decide)).trans (c1.sub (by decide)))
      (c2.trans a3) c3 (fun r hr hr' => ?_) ?_
    · rw [c5, cols_other hr, a2, wr_other hr']
    · rw [c5]; exact cols_tmp a2 r4 c4

theorem stored32 {j : Job} (hf : j.Fits) {p q : Nat} (hp : p ≤ j.rowSteps) (hq : q ≤ j.colSteps)
    {val : Nat → Nat → Int} {s s1 : St} (hk : j.ty = .i32)
    (hm : Mid j j.ty p q s) (nx : ∀ l, (bif s1.z then 49 else 48) = l → Reach j.env kernel (47, s) (l, s1))
    (h : Headed j j.ty p q val s s1) :
    ∃ s', Reach j.env kernel (47, s) (56, s') ∧ Stored j j.ty p q val s s' := by
  have r4 : rowsIn j p ≤ 4 := by unfold rowsIn; omega
  have c4 : colsIn j q ≤ 2 := by unfold colsIn; omega
  have hsd : ∀ w, w < colsIn j q → ∀ i, i < rowsIn j p →
      dstBlk j j.ty p q + w * j.dstStride + j.ty.size * i + j.ty.size ≤ j.env.size .dst :=
    fun w hw i hi => dst_bound hf hp hq hw hi
  have hS := hf.dstride
  have hs4 : j.ty.size = 4 := by rw [hk]; rfl
  have sp1 : s1.x 13 = .int 96 := (h.size.same.get (by decide)).trans hm.sp
  have xp1 : s1.x 80 = .ptr .dst (dstBlk j j.ty p q) := (h.size.same.get (by decide)).trans hm.dp
  have xt1 : s1.x 42 = .ptr .tmp 0 := (h.size.same.get (by decide)).trans hm.tmp
  have hE : EndOk j.env 55 j.ty.size := by rw [hs4]; exact end32 _
  have n50 : ∀ (s2 : St) l, (bif (exec j.env k50.body s2).z then 55 else 51) = l →
      Reach j.env kernel (50, s2) (l, exec j.env k50.body s2) := fun s2 l hl => Reach.block (b := k50) rfl hl
  by_cases hz : rowsIn j p = 4 ∧ colsIn j q = 2
  · have r1 := nx 49 (by rw [h.size.z, decide_eq_true hz]; rfl)
    have b1 := hsd 0 (by omega) 3 (by omega)
    have b2 := hsd 1 (by omega) 3 (by omega)
    rw [hs4] at b1 b2
    obtain ⟨a1, a2, a3, a4, a5, a6, a7⟩ := k49x j.env s1
    have r2 : Reach j.env kernel (49, s1) (50, exec j.env k49.body s1) := Reach.block (b := k49) rfl rfl
    generalize exec j.env k49.body s1 = s2 at *
    rw [h.size.ok, sp1] at a4
    have a4' : s2.bad = false := a4
    rw [xp1] at a6
    have a7' : s2.x 4 = .int j.dstStride := a7
    obtain ⟨c1, c2, c3, c4', c5⟩ := k50x j.env s2
    have r3 := n50 s2 55
    generalize exec j.env k50.body s2 = s3 at *
    rw [c4', a5, h.size.z, decide_eq_true hz] at r3
    rw [a6, a7', add_stride hS] at c2 c5
    rw [a4', out_ptr (by show _ ≤ j.env.size .dst; omega), out_ptr (by show _ ≤ j.env.size .dst; omega)] at c5
    have M : s3.m = cols s1.m (tileByte j.ty.size s1) (dstBlk j j.ty p q) j.dstStride (j.ty.size * rowsIn j p)
        (4 * j.ty.size) (colsIn j q) := by
      rw [c2, a2, a3, hz.1, hz.2, hs4]
      simp only [cols, Val.region, Val.off, Nat.add_zero, Nat.zero_mul, Nat.one_mul]
      refine (congrArg (fun M => wr M .dst (dstBlk j j.ty p q + j.dstStride) 16 _) (wr_congr (fun b hb => ?_))).trans
        (wr_congr (fun b hb => ?_))
      · show s1.v 14 b = s1.v (14 + (4 * 4 * 0 + b) / 16) ((4 * 4 * 0 + b) % 16)
        rw [show 14 + (4 * 4 * 0 + b) / 16 = 14 by omega, show (4 * 4 * 0 + b) % 16 = b by omega]
      · show s1.v 15 b = s1.v (14 + (4 * 4 * 1 + b) / 16) ((4 * 4 * 1 + b) % 16)
        rw [show 14 + (4 * 4 * 1 + b) / 16 = 15 by omega, show (4 * 4 * 1 + b) % 16 = b by omega]
    refine stored_end hm h hE ((r1.trans r2).trans (r3 rfl)) ((a1.sub (by decide)).trans (c1.sub (by decide)))
      (c3.trans a3) c5 (fun r hr _ => ?_) ?_
    · rw [M, cols_other hr]
    · rw [M]
  · have r1 := nx 48 (by rw [h.size.z, decide_eq_false hz]; rfl)
    have ht : 32 ≤ j.env.size .tmp := hf.tmp
    obtain ⟨a1, a2, a3, a4, a5, a6, a7⟩ := k48x j.env s1
    have r2 : Reach j.env kernel (48, s1) (50, exec j.env k48.body s1) := Reach.block (b := k48) rfl rfl
    generalize exec j.env k48.body s1 = s2 at *
    rw [h.size.ok] at a4
    rw [xt1] at a6
    obtain ⟨c1, c2, c3, c4', c5⟩ := k50x j.env s2
    have r3 := n50 s2 51
    generalize exec j.env k50.body s2 = s3 at *
    rw [c4', a5, h.size.z, decide_eq_false hz] at r3
    have e2 : addVal (s2.x 3) ((s2.x 4).num * 2 ^ 0 % 2 ^ 32) = .ptr .tmp 16 := by rw [a6, a7]; rfl
    rw [e2, a6] at c2 c5
    rw [a7, a4, out_ptr (by show _ ≤ j.env.size .tmp; omega), out_ptr (by show _ ≤ j.env.size .tmp; omega)] at c5
    have c5' : s3.bad = false := c5
    have M : s3.m = wr s1.m .tmp 0 (8 * 4) (tileByte 4 s1) := by
      have := wr_append s1.m .tmp 0 16 16 (tileByte 4 s1)
      rw [c2, a2, a3, ← this]
      simp only [Val.region, Val.off, Nat.add_zero, Nat.zero_add]
      refine (congrArg (fun M => wr M .tmp 16 16 _) (wr_congr (fun b hb => ?_))).trans (wr_congr (fun b hb => ?_))
      · show s1.v 14 b = s1.v (14 + b / 16) (b % 16)
        rw [show 14 + b / 16 = 14 by omega, show b % 16 = b by omega]
      · show s1.v 15 b = s1.v (14 + (16 + b) / 16) ((16 + b) % 16)
        rw [show 14 + (16 + b) / 16 = 15 by omega, show (16 + b) % 16 = b by omega]
    have sm : Same keepCopy s1 s3 := a1.trans c1
    obtain ⟨d1, d2, d3, d4, d5, d6, d7, d8⟩ := k51x j.env s3
    have r4' : Reach j.env kernel (51, s3) (52, exec j.env k51.body s3) := Reach.block (b := k51) rfl rfl
    generalize exec j.env k51.body s3 = s4 at *
    rw [c5', sm.get (by decide), sp1] at d4
    rw [sm.get (by decide), xt1] at d5
    rw [sm.get (by decide), xp1] at d6
    have sm' : Same keepCopy s1 s4 := sm.trans d1
    have hsd4 := hsd
    rw [hs4] at hsd4
    obtain ⟨s5, r5, g1, g2, g3, g5⟩ := copied (copy32 j.env) (by omega) ((sm'.get (by decide)).trans h.size.x1)
      ((sm'.get (by decide)).trans h.size.x2) d8 hS d5 d6 d7 r4 c4 (rows_pos hf hp) (cols_pos hf hq) (by omega) hsd4 d4
    refine stored_end hm h hE ((((r1.trans r2).trans (r3 rfl)).trans r4').trans r5)
      ((sm'.sub (by decide)).trans (g1.sub (by decide))) (g2.trans (d3.trans (c3.trans a3))) g3 (fun r hr hr' => ?_) ?_
    · rw [g5, cols_other hr, d2, M, wr_other hr']
    · rw [g5, hs4]; exact cols_tmp (d2.trans M) r4 c4

/-- The value that is stored, from the one that has been computed. -/
def conv (j : Job) (t : Dt) (y : Int) : Int :=
  match t with
  | .u8 => Simd.Neon.storeU8 y j.dstZp j.clampMin j.clampMax
  | .i8 => Simd.Neon.storeS8 y j.dstZp j.clampMin j.clampMax
  | .i16 => Simd.Neon.storeS16 y j.dstZp j.clampMin j.clampMax
  | .i32 => y

/-- From the code that stores to `AFTER_STORE`. -/
theorem stored {j : Job} (hf : j.Fits) {p q : Nat} (hp : p ≤ j.rowSteps) (hq : q ≤ j.colSteps)
    {f : Nat → Nat → Int} {s : St} (hm : Mid j j.ty p q s) (ht : Tile f s) :
    ∃ s', Reach j.env kernel (storeAt j.ty, s) (56, s') ∧ Stored j j.ty p q (fun u w => conv j j.ty (f u w)) s s' := by
  cases hty : j.ty
  · obtain ⟨h1, h2⟩ := head26 hf hp hq hty hm ht
    have := stored_narrow hf hp hq (n := 26) (.inl (by rw [hty]; rfl)) (by rw [hty]; exact narrow8 _ (.inl rfl)) hm
      (fun l hl => Reach.block (b := k26) rfl hl) h1 h2
    rw [hty] at this
    exact this
  · obtain ⟨h1, h2⟩ := head33 hf hp hq hty hm ht
    have := stored_narrow hf hp hq (n := 33) (.inl (by rw [hty]; rfl)) (by rw [hty]; exact narrow8 _ (.inr rfl)) hm
      (fun l hl => Reach.block (b := k33) rfl hl) h1 h2
    rw [hty] at this
    exact this
  · obtain ⟨h1, h2⟩ := head40 hf hp hq hty hm ht
    have := stored_narrow hf hp hq (n := 40) (.inr (by rw [hty]; rfl)) (by rw [hty]; exact narrow16 _) hm
      (fun l hl => Reach.block (b := k40) rfl hl) h1 h2
    rw [hty] at this
    exact this
  · have h1 := head47 hf hp hq hty hm ht
    have := stored32 hf hp hq hty hm (fun l hl => Reach.block (b := k47) rfl hl) h1
    rw [hty] at this
    exact this

end Ruy.Arm8

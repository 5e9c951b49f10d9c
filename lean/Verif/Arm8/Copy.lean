import Verif.Arm8.Quant
import Verif.Neon.Heads
/-
The ARM32 8-bit kernel: the two nested loops that copy a part of a tile from `dst_tmp_buf` (labels 50, 51).
-/
namespace Ruy.Arm8
open Ruy.Neon (St Val Region Vec Byte sgn sgn_of sgn_lt sgn_eq Same addVal out out_ptr bytes store wr wr_congr wr_append
  wr_zero wr_other cols cols_other cols_congr numByte numByte_byte numByte_le2 numByte_le4 le2 le4 sgn_lt_succ)

/-- Registers that a store leaves alone. -/
def keepStore : List Nat := [13, 34, 35, 42, 64, 80, 96, 112, 128, 144]
def keepCopy : List Nat := 1 :: 2 :: keepStore
def keepEntry : List Nat := 3 :: 4 :: 6 :: keepCopy

/-- What the loops at position `n` do: entries of `k` bytes, index in register `ix`, stride in register `st`; `fin` is
the position after them. -/
structure CopyOk (e : Env) (n k ix st fin : Nat) : Prop where
  b : ∀ s : St, ∃ s', Reach e kernel (n, s) (n + 1, s') ∧ Same keepEntry s s' ∧ s'.x st = s.x st ∧ s'.m = s.m ∧
    s'.bad = s.bad ∧ s'.v = s.v ∧ s'.x ix = .int 0
  c : ∀ (s : St) (o3 o4 i w1 : Nat), s.x 1 = .int w1 → s.x 3 = .ptr .tmp o3 → s.x 4 = .ptr .dst o4 → s.x ix = .int i →
    i < w1 → w1 ≤ 4 → o3 + k * i + k ≤ e.size .tmp → o4 + k * i + k ≤ e.size .dst → s.bad = false →
    ∃ s', Reach e kernel (n + 1, s) (bif decide (i + 1 < w1) then n + 1 else n + 2, s') ∧ Same keepEntry s s' ∧
      s'.x st = s.x st ∧ s'.m = wr s.m .dst (o4 + k * i) k (fun b => s.m .tmp (o3 + (k * i + b))) ∧
      s'.bad = false ∧ s'.v = s.v ∧ s'.x ix = .int (i + 1)
  d : ∀ (s : St) (o3 o4 w w2 S : Nat), s.x 2 = .int w2 → s.x 3 = .ptr .tmp o3 → s.x 4 = .ptr .dst o4 → s.x 6 = .int w →
    s.x st = .int S → S < 2 ^ 31 → w < 2 → w2 ≤ 2 → s.bad = false →
    ∃ s', Reach e kernel (n + 2, s) (bif decide (w + 1 < w2) then n else fin, s') ∧ Same keepCopy s s' ∧
      s'.x st = .int S ∧ s'.m = s.m ∧ s'.bad = false ∧ s'.v = s.v ∧ s'.x 6 = .int (w + 1) ∧
      s'.x 3 = .ptr .tmp (o3 + 4 * k) ∧ s'.x 4 = .ptr .dst (o4 + S)

/-- State while column `w` is copied, `i` entries of it done. -/
structure Col (k w1 dp S st : Nat) (s : St) (w i : Nat) (s' : St) : Prop where
  same : Same keepCopy s s'
  v : s'.v = s.v
  st : s'.x st = .int S
  x6 : s'.x 6 = .int w
  x3 : s'.x 3 = .ptr .tmp (4 * k * w)
  x4 : s'.x 4 = .ptr .dst (dp + w * S)
  m : s'.m = wr (cols s.m (s.m .tmp) dp S (k * w1) (4 * k) w) .dst (dp + w * S) (k * i)
    (fun b => s.m .tmp (4 * k * w + b))
  ok : s'.bad = false

theorem Col.next {k w1 dp S st : Nat} {s s' s'' : St} {w i : Nat} (hc : Col k w1 dp S st s w i s')
    (a1 : Same keepEntry s' s'') (a0 : s''.x st = s'.x st)
    (a2 : s''.m = wr s'.m .dst (dp + w * S + k * i) k (fun b => s'.m .tmp (4 * k * w + (k * i + b))))
    (a3 : s''.bad = false) (a4 : s''.v = s'.v) : Col k w1 dp S st s w (i + 1) s'' :=
  ⟨hc.same.trans (a1.sub (by decide)), a4.trans hc.v, a0.trans hc.st, (a1.get (by decide)).trans hc.x6,
    (a1.get (by decide)).trans hc.x3, (a1.get (by decide)).trans hc.x4, (by
      rw [a2, hc.m, wr_other (by decide), cols_other (by decide), Nat.mul_add, Nat.mul_one]
      exact wr_append _ _ _ _ _ (fun b => s.m .tmp (4 * k * w + b))), a3⟩

theorem inner {e : Env} {n k ix st fin : Nat} (hC : CopyOk e n k ix st fin) (hk : k = 1 ∨ k = 2 ∨ k = 4)
    {w1 dp S : Nat} {s : St} (h1 : s.x 1 = .int w1) (hw : w1 ≤ 4) {w : Nat} (hw2 : w < 2)
    (ht : 8 * k ≤ e.size .tmp) (sd : ∀ i, i < w1 → dp + w * S + k * i + k ≤ e.size .dst) :
    ∀ d i s', i + 1 + d = w1 → Col k w1 dp S st s w i s' → s'.x ix = .int i →
      ∃ s'', Reach e kernel (n + 1, s') (n + 2, s'') ∧ Col k w1 dp S st s w w1 s'' := by
  intro d
  induction d with
  | zero =>
    intro i s' hd hc h5
    have hx1 : s'.x 1 = .int w1 := (hc.same.get (by decide)).trans h1
    have ht' : 4 * k * w + k * i + k ≤ e.size .tmp := by
      rcases hk with rfl | rfl | rfl <;> omega
    obtain ⟨s2, r2, a1, a0, a2, a3, a4, a6⟩ := hC.c s' _ _ i w1 hx1 hc.x3 hc.x4 h5 (by omega) hw ht' (sd i (by omega)) hc.ok
    have h := hc.next a1 a0 a2 a3 a4
    rw [show i + 1 = w1 by omega] at h
    rw [decide_eq_false (by omega)] at r2
    exact ⟨s2, r2, h⟩
  | succ d ih =>
    intro i s' hd hc h5
    have hx1 : s'.x 1 = .int w1 := (hc.same.get (by decide)).trans h1
    have ht' : 4 * k * w + k * i + k ≤ e.size .tmp := by
      rcases hk with rfl | rfl | rfl <;> omega
    obtain ⟨s2, r2, a1, a0, a2, a3, a4, a6⟩ := hC.c s' _ _ i w1 hx1 hc.x3 hc.x4 h5 (by omega) hw ht' (sd i (by omega)) hc.ok
    obtain ⟨s'', r, hcol⟩ := ih (i + 1) s2 (by omega) (hc.next a1 a0 a2 a3 a4) a6
    rw [decide_eq_true (by omega)] at r2
    exact ⟨s'', r2.trans r, hcol⟩

/-- Both loops: `w2` columns of `w1` entries. -/
theorem copied {e : Env} {n k ix st fin : Nat} (hC : CopyOk e n k ix st fin) (hk : k = 1 ∨ k = 2 ∨ k = 4)
    {w1 w2 dp S : Nat} {s : St} (h1 : s.x 1 = .int w1) (h2 : s.x 2 = .int w2) (hs : s.x st = .int S)
    (hS : S < 2 ^ 31) (h3 : s.x 3 = .ptr .tmp 0) (h4 : s.x 4 = .ptr .dst dp) (h6 : s.x 6 = .int 0)
    (hw : w1 ≤ 4) (hw' : w2 ≤ 2) (hp1 : 0 < w1) (hp2 : 0 < w2) (ht : 8 * k ≤ e.size .tmp)
    (sd : ∀ w, w < w2 → ∀ i, i < w1 → dp + w * S + k * i + k ≤ e.size .dst) (ok : s.bad = false) :
    ∃ s', Reach e kernel (n, s) (fin, s') ∧ Same keepCopy s s' ∧ s'.v = s.v ∧ s'.bad = false ∧
      s'.m = cols s.m (s.m .tmp) dp S (k * w1) (4 * k) w2 := by
  have one : ∀ w s', w + 1 ≤ w2 → Col k w1 dp S st s w 0 s' →
      ∃ s'', Reach e kernel (n, s') (bif decide (w + 1 < w2) then n else fin, s'') ∧
        Col k w1 dp S st s (w + 1) 0 s'' := by
    intro w s' hd hc
    obtain ⟨s1, r1, a1, a0, a2, a3, a4, a5⟩ := hC.b s'
    obtain ⟨s2, r2, c2⟩ := inner hC hk h1 hw (w := w) (by omega) ht (fun i hi => sd w (by omega) i hi) (w1 - 1) 0 s1
      (by omega) ⟨hc.same.trans (a1.sub (by decide)), a4.trans hc.v, a0.trans hc.st, (a1.get (by decide)).trans hc.x6,
        (a1.get (by decide)).trans hc.x3, (a1.get (by decide)).trans hc.x4, a2.trans hc.m, a3.trans hc.ok⟩ a5
    obtain ⟨s3, r3, d1, d2, d3, d4, d5, d6, d7, d8⟩ := hC.d s2 _ _ w w2 S ((c2.same.get (by decide)).trans h2) c2.x3 c2.x4
      c2.x6 c2.st hS (by omega) hw' c2.ok
    refine ⟨s3, (r1.trans r2).trans r3, ⟨c2.same.trans d1, d5.trans c2.v, d2, d6, ?_, ?_, ?_, d4⟩⟩
    · rw [d7]; exact congrArg (Val.ptr _) (by rw [Nat.mul_add, Nat.mul_one])
    · rw [d8]; exact congrArg (Val.ptr _) (by rw [Nat.add_mul, Nat.one_mul, Nat.add_assoc])
    · rw [d3, c2.m, Nat.mul_zero, wr_zero, cols]
  have key : ∀ d w s', w + 1 + d = w2 → Col k w1 dp S st s w 0 s' →
      ∃ s'', Reach e kernel (n, s') (fin, s'') ∧ Same keepCopy s s'' ∧ s''.v = s.v ∧ s''.bad = false ∧
        s''.m = cols s.m (s.m .tmp) dp S (k * w1) (4 * k) w2 := by
    intro d
    induction d with
    | zero =>
      intro w s' hd hc
      obtain ⟨s2, r2, c2⟩ := one w s' (by omega) hc
      rw [decide_eq_false (by omega)] at r2
      refine ⟨s2, r2, c2.same, c2.v, c2.ok, ?_⟩
      rw [c2.m, Nat.mul_zero, wr_zero, show w + 1 = w2 by omega]
    | succ d ih =>
      intro w s' hd hc
      obtain ⟨s2, r2, c2⟩ := one w s' (by omega) hc
      rw [decide_eq_true (by omega)] at r2
      obtain ⟨s3, r3, h3⟩ := ih (w + 1) s2 (by omega) c2
      exact ⟨s3, r2.trans r3, h3⟩
  exact key (w2 - 1) 0 s (by omega) ⟨Same.refl _ _, rfl, hs, h6, h3, by rw [h4, Nat.zero_mul, Nat.add_zero],
    by rw [Nat.mul_zero, wr_zero]; rfl, ok⟩

/-! ### The loops of the program -/

theorem k28x (e : Env) (s : St) : Same (5 :: keepEntry) s (exec e k28.body s) ∧ (exec e k28.body s).m = s.m ∧
    (exec e k28.body s).bad = s.bad ∧ (exec e k28.body s).v = s.v ∧ (exec e k28.body s).x 8 = .int 0 := by
  cases s; exact ⟨by keep, rfl, rfl, rfl, rfl⟩

theorem k52x (e : Env) (s : St) : Same (8 :: keepEntry) s (exec e k52.body s) ∧ (exec e k52.body s).m = s.m ∧
    (exec e k52.body s).bad = s.bad ∧ (exec e k52.body s).v = s.v ∧ (exec e k52.body s).x 5 = .int 0 := by
  cases s; exact ⟨by keep, rfl, rfl, rfl, rfl⟩

theorem k29x (e : Env) (s : St) : Same (5 :: keepEntry) s (exec e k29.body s) ∧
    (exec e k29.body s).m = store s (s.x 4) (s.x 8).num 1 (numByte (s.m (s.x 3).region ((s.x 3).off + (s.x 8).num)).toNat) ∧
    (exec e k29.body s).bad = (s.bad || (s.x 8).isPtr || out e.base (s.x 3) (s.x 8).num 1 || false || (s.x 8).isPtr ||
      out e.base (s.x 4) (s.x 8).num 1 || (s.x 8).isPtr || false || (s.x 1).isPtr) ∧
    (exec e k29.body s).v = s.v ∧ (exec e k29.body s).x 8 = .int (((s.x 8).num + 1) % 2 ^ 32) ∧
    (exec e k29.body s).lt = decide (sgn (Val.int (((s.x 8).num + 1) % 2 ^ 32)).num < sgn (s.x 1).num) := by
  cases s; exact ⟨by keep, rfl, rfl, rfl, rfl, rfl⟩

theorem k43x (e : Env) (s : St) : Same (5 :: keepEntry) s (exec e k43.body s) ∧
    (exec e k43.body s).m = store s (s.x 4) ((s.x 8).num * 2 % 2 ^ 32) 2
      (numByte (le2 (bytes s (s.x 3) ((s.x 8).num * 2 % 2 ^ 32)) 0)) ∧
    (exec e k43.body s).bad = (s.bad || (s.x 8).isPtr || false || out e.base (s.x 3) ((s.x 8).num * 2 % 2 ^ 32) 2 || false ||
      false || out e.base (s.x 4) ((s.x 8).num * 2 % 2 ^ 32) 2 || false || false || false || (s.x 1).isPtr) ∧
    (exec e k43.body s).v = s.v ∧
    (exec e k43.body s).x 8 = .int (((s.x 8).num * 2 % 2 ^ 32 % 2 ^ 32 / 2 + 1) % 2 ^ 32) ∧
    (exec e k43.body s).lt =
      decide (sgn (Val.int (((s.x 8).num * 2 % 2 ^ 32 % 2 ^ 32 / 2 + 1) % 2 ^ 32)).num < sgn (s.x 1).num) := by
  cases s; exact ⟨by keep, rfl, rfl, rfl, rfl, rfl⟩

theorem k53x (e : Env) (s : St) : Same (8 :: keepEntry) s (exec e k53.body s) ∧
    (exec e k53.body s).m = store s (s.x 4) (4 * (s.x 5).num) 4 (numByte (le4 (bytes s (s.x 3) (4 * (s.x 5).num)) 0)) ∧
    (exec e k53.body s).bad = (s.bad || (s.x 5).isPtr || out e.base (s.x 3) (4 * (s.x 5).num) 4 || false || (s.x 5).isPtr ||
      out e.base (s.x 4) (4 * (s.x 5).num) 4 || (s.x 5).isPtr || false || (s.x 1).isPtr) ∧
    (exec e k53.body s).v = s.v ∧ (exec e k53.body s).x 5 = .int (((s.x 5).num + 1) % 2 ^ 32) ∧
    (exec e k53.body s).lt = decide (sgn (Val.int (((s.x 5).num + 1) % 2 ^ 32)).num < sgn (s.x 1).num) := by
  cases s; exact ⟨by keep, rfl, rfl, rfl, rfl, rfl⟩

theorem k30x (e : Env) (s : St) : Same (5 :: keepCopy) s (exec e k30.body s) ∧ (exec e k30.body s).m = s.m ∧
    (exec e k30.body s).bad = (s.bad || (s.x 6).isPtr || !(s.x 3).isPtr || !(s.x 4).isPtr || (s.x 5).isPtr || false ||
      (s.x 2).isPtr) ∧
    (exec e k30.body s).v = s.v ∧ (exec e k30.body s).x 6 = .int (((s.x 6).num + 1) % 2 ^ 32) ∧
    (exec e k30.body s).x 3 = addVal (s.x 3) 4 ∧
    (exec e k30.body s).x 4 = addVal (s.x 4) ((s.x 5).num * 2 ^ 0 % 2 ^ 32) ∧
    (exec e k30.body s).lt = decide (sgn (Val.int (((s.x 6).num + 1) % 2 ^ 32)).num < sgn (s.x 2).num) := by
  cases s; exact ⟨by keep, rfl, rfl, rfl, rfl, rfl, rfl, rfl⟩

theorem k44x (e : Env) (s : St) : Same (5 :: keepCopy) s (exec e k44.body s) ∧ (exec e k44.body s).m = s.m ∧
    (exec e k44.body s).bad = (s.bad || (s.x 6).isPtr || !(s.x 3).isPtr || !(s.x 4).isPtr || (s.x 5).isPtr || false ||
      (s.x 2).isPtr) ∧
    (exec e k44.body s).v = s.v ∧ (exec e k44.body s).x 6 = .int (((s.x 6).num + 1) % 2 ^ 32) ∧
    (exec e k44.body s).x 3 = addVal (s.x 3) 8 ∧
    (exec e k44.body s).x 4 = addVal (s.x 4) ((s.x 5).num * 2 ^ 0 % 2 ^ 32) ∧
    (exec e k44.body s).lt = decide (sgn (Val.int (((s.x 6).num + 1) % 2 ^ 32)).num < sgn (s.x 2).num) := by
  cases s; exact ⟨by keep, rfl, rfl, rfl, rfl, rfl, rfl, rfl⟩

theorem k54x (e : Env) (s : St) : Same (8 :: keepCopy) s (exec e k54.body s) ∧ (exec e k54.body s).m = s.m ∧
    (exec e k54.body s).bad = (s.bad || (s.x 6).isPtr || !(s.x 3).isPtr || !(s.x 4).isPtr || (s.x 8).isPtr || false ||
      (s.x 2).isPtr) ∧
    (exec e k54.body s).v = s.v ∧ (exec e k54.body s).x 6 = .int (((s.x 6).num + 1) % 2 ^ 32) ∧
    (exec e k54.body s).x 3 = addVal (s.x 3) 16 ∧
    (exec e k54.body s).x 4 = addVal (s.x 4) ((s.x 8).num * 2 ^ 0 % 2 ^ 32) ∧
    (exec e k54.body s).lt = decide (sgn (Val.int (((s.x 6).num + 1) % 2 ^ 32)).num < sgn (s.x 2).num) := by
  cases s; exact ⟨by keep, rfl, rfl, rfl, rfl, rfl, rfl, rfl⟩

theorem add_stride {S o : Nat} (h : S < 2 ^ 31) :
    addVal (.ptr .dst o) ((Val.int S).num * 2 ^ 0 % 2 ^ 32) = .ptr .dst (o + S) := by
  show Val.ptr .dst (o + S * 2 ^ 0 % 2 ^ 32) = _
  exact congrArg _ (by omega)

theorem copy8 (e : Env) {n : Nat} (hn : n = 28 ∨ n = 35) : CopyOk e n 1 8 5 (n + 4) := by
  refine ⟨fun s => ?_, fun s o3 o4 i w1 h1 h3 h4 h5 hi hw ht hd ok => ?_, fun s o3 o4 w w2 S h2 h3 h4 h6 hS hS' hw hw2 ok => ?_⟩
  · obtain ⟨a1, a2, a3, a4, a5⟩ := k28x e s
    exact ⟨_, Reach.block (b := ⟨k28.body, .jmp (n + 1)⟩) (by rcases hn with rfl | rfl <;> rfl) rfl, a1.sub (by decide),
      a1.get (by decide), a2, a3, a4, a5⟩
  · obtain ⟨a1, a2, a3, a4, a5, a6⟩ := k29x e s
    have r : ∀ l, (bif (exec e k29.body s).lt then n + 1 else n + 2) = l →
        Reach e kernel (n + 1, s) (l, exec e k29.body s) := fun l hl =>
      Reach.block (b := ⟨k29.body, .br .lt (n + 1) (n + 2)⟩) (by rcases hn with rfl | rfl <;> rfl) hl
    refine ⟨_, r _ ?_, a1.sub (by decide), a1.get (by decide), ?_, ?_, a4, ?_⟩
    · rw [a6, h1, h5, sgn_lt_succ (by omega) (by omega)]
    · rw [a2, h3, h4, h5, Nat.one_mul]
      refine wr_congr (fun b hb => ?_)
      obtain rfl : b = 0 := by omega
      rw [numByte_byte]; rfl
    · rw [a3, ok, h1, h3, h4, h5]
      simp only [Val.num]
      rw [out_ptr (by show _ ≤ e.size .tmp; omega), out_ptr (by show _ ≤ e.size .dst; omega)]; rfl
    · rw [a5, h5]; exact congrArg Val.int (by simp only [Val.num]; omega)
  · obtain ⟨a1, a2, a3, a4, a5, a6, a7, a8⟩ := k30x e s
    have r : ∀ l, (bif (exec e k30.body s).lt then n else n + 4) = l →
        Reach e kernel (n + 2, s) (l, exec e k30.body s) := fun l hl =>
      Reach.block (b := ⟨k30.body, .br .lt n (n + 4)⟩) (by rcases hn with rfl | rfl <;> rfl) hl
    refine ⟨_, r _ ?_, a1.sub (by decide), (a1.get (by decide)).trans hS, a2, ?_, a4, ?_, ?_, ?_⟩
    · rw [a8, h6, h2, sgn_lt_succ (by omega) (by omega)]
    · rw [a3, ok, h6, h3, h4, hS, h2]; rfl
    · rw [a5, h6]; exact congrArg Val.int (by simp only [Val.num]; omega)
    · rw [a6, h3]; rfl
    · rw [a7, h4, hS, add_stride hS']

theorem copy16 (e : Env) : CopyOk e 42 2 8 5 46 := by
  refine ⟨fun s => ?_, fun s o3 o4 i w1 h1 h3 h4 h5 hi hw ht hd ok => ?_, fun s o3 o4 w w2 S h2 h3 h4 h6 hS hS' hw hw2 ok => ?_⟩
  · obtain ⟨a1, a2, a3, a4, a5⟩ := k28x e s
    exact ⟨_, Reach.block (b := k42) rfl rfl, a1.sub (by decide), a1.get (by decide), a2, a3, a4, a5⟩
  · obtain ⟨a1, a2, a3, a4, a5, a6⟩ := k43x e s
    have r : ∀ l, (bif (exec e k43.body s).lt then 43 else 44) = l →
        Reach e kernel (43, s) (l, exec e k43.body s) := fun l hl => Reach.block (b := k43) rfl hl
    have e2 : (Val.int i).num * 2 % 2 ^ 32 = 2 * i := by simp only [Val.num]; omega
    have e3 : ((Val.int i).num * 2 % 2 ^ 32 % 2 ^ 32 / 2 + 1) % 2 ^ 32 = i + 1 := by simp only [Val.num]; omega
    refine ⟨_, r _ ?_, a1.sub (by decide), a1.get (by decide), ?_, ?_, a4, ?_⟩
    · rw [a6, h1, h5, e3, sgn_lt (by omega) (by omega)]
    · rw [a2, h3, h4, h5, e2]
      exact wr_congr (fun b hb => by rw [numByte_le2 _ _ hb, ← Nat.add_assoc]; rfl)
    · rw [a3, ok, h1, h3, h4, h5, e2]
      rw [out_ptr (by show _ ≤ e.size .tmp; omega), out_ptr (by show _ ≤ e.size .dst; omega)]; rfl
    · rw [a5, h5, e3]
  · obtain ⟨a1, a2, a3, a4, a5, a6, a7, a8⟩ := k44x e s
    have r : ∀ l, (bif (exec e k44.body s).lt then 42 else 46) = l →
        Reach e kernel (44, s) (l, exec e k44.body s) := fun l hl => Reach.block (b := k44) rfl hl
    refine ⟨_, r _ ?_, a1.sub (by decide), (a1.get (by decide)).trans hS, a2, ?_, a4, ?_, ?_, ?_⟩
    · rw [a8, h6, h2, sgn_lt_succ (by omega) (by omega)]
    · rw [a3, ok, h6, h3, h4, hS, h2]; rfl
    · rw [a5, h6]; exact congrArg Val.int (by simp only [Val.num]; omega)
    · rw [a6, h3]; rfl
    · rw [a7, h4, hS, add_stride hS']

theorem copy32 (e : Env) : CopyOk e 52 4 5 8 55 := by
  refine ⟨fun s => ?_, fun s o3 o4 i w1 h1 h3 h4 h5 hi hw ht hd ok => ?_, fun s o3 o4 w w2 S h2 h3 h4 h6 hS hS' hw hw2 ok => ?_⟩
  · obtain ⟨a1, a2, a3, a4, a5⟩ := k52x e s
    exact ⟨_, Reach.block (b := k52) rfl rfl, a1.sub (by decide), a1.get (by decide), a2, a3, a4, a5⟩
  · obtain ⟨a1, a2, a3, a4, a5, a6⟩ := k53x e s
    have r : ∀ l, (bif (exec e k53.body s).lt then 53 else 54) = l →
        Reach e kernel (53, s) (l, exec e k53.body s) := fun l hl => Reach.block (b := k53) rfl hl
    refine ⟨_, r _ ?_, a1.sub (by decide), a1.get (by decide), ?_, ?_, a4, ?_⟩
    · rw [a6, h1, h5, sgn_lt_succ (by omega) (by omega)]
    · rw [a2, h3, h4, h5]
      exact wr_congr (fun b hb => by rw [numByte_le4 _ _ hb, ← Nat.add_assoc]; rfl)
    · rw [a3, ok, h1, h3, h4, h5]
      simp only [Val.num]
      rw [out_ptr (by show _ ≤ e.size .tmp; omega), out_ptr (by show _ ≤ e.size .dst; omega)]; rfl
    · rw [a5, h5]; exact congrArg Val.int (by simp only [Val.num]; omega)
  · obtain ⟨a1, a2, a3, a4, a5, a6, a7, a8⟩ := k54x e s
    have r : ∀ l, (bif (exec e k54.body s).lt then 52 else 55) = l →
        Reach e kernel (54, s) (l, exec e k54.body s) := fun l hl => Reach.block (b := k54) rfl hl
    refine ⟨_, r _ ?_, a1.sub (by decide), (a1.get (by decide)).trans hS, a2, ?_, a4, ?_, ?_, ?_⟩
    · rw [a8, h6, h2, sgn_lt_succ (by omega) (by omega)]
    · rw [a3, ok, h6, h3, h4, hS, h2]; rfl
    · rw [a5, h6]; exact congrArg Val.int (by simp only [Val.num]; omega)
    · rw [a6, h3]; rfl
    · rw [a7, h4, hS, add_stride hS']

end Ruy.Arm8

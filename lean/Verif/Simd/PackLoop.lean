import Verif.Simd.PackIsa
/-
What the x86 packers for eight columns do to the packed buffer, the trailing buffer and the sums.
-/
namespace Ruy.Simd.Pack
open Ruy.Mat Ruy.Mul

theorem storeu_of {n : Nat} {b : Buf Int} {off : Nat} {r : Reg} (h : off + n ≤ b.size) :
    ∃ b', storeu n b off r = .ok b' ∧ b'.size = b.size ∧ (∀ i, i < n → b'.val (off + i) = r i) ∧
      ∀ o, (o < off ∨ off + n ≤ o) → b'.val o = b.val o := by
  unfold storeu
  rw [if_pos h]
  refine ⟨_, rfl, rfl, fun i hi => ?_, fun o ho => ?_⟩
  · dsimp only
    rw [if_pos ⟨by omega, by omega⟩, Nat.add_sub_cancel_left]
  · dsimp only
    rw [if_neg (by omega)]

theorem loadu_of {n : Nat} {b : Buf Int} {off : Nat} (h : off + n ≤ b.size) :
    loadu n b off = .ok (fun i => b.val (off + i)) := by
  unfold loadu; rw [if_pos h]

theorem loadCols_of {f : Col → C Reg} {cols : Nat → Col} {P : Nat → Reg → Prop}
    (h : ∀ c, c < 8 → ∃ t, f (cols c) = .ok t ∧ P c t) :
    ∃ u, loadCols f cols = .ok u ∧ ∀ c, c < 8 → P c (u c) := by
  obtain ⟨t0, e0, p0⟩ := h 0 (by omega)
  obtain ⟨t1, e1, p1⟩ := h 1 (by omega)
  obtain ⟨t2, e2, p2⟩ := h 2 (by omega)
  obtain ⟨t3, e3, p3⟩ := h 3 (by omega)
  obtain ⟨t4, e4, p4⟩ := h 4 (by omega)
  obtain ⟨t5, e5, p5⟩ := h 5 (by omega)
  obtain ⟨t6, e6, p6⟩ := h 6 (by omega)
  obtain ⟨t7, e7, p7⟩ := h 7 (by omega)
  unfold loadCols
  rw [e0, C.ok_bind, e4, C.ok_bind, e1, C.ok_bind, e5, C.ok_bind, e2, C.ok_bind, e6, C.ok_bind,
    e3, C.ok_bind, e7, C.ok_bind]
  refine ⟨_, rfl, fun c hc => ?_⟩
  interval_cases c <;> assumption

/-- The value read for row `r` of column `c` (with padding). -/
def colVal (a : Args) (cols : Nat → Col) (c r : Nat) : Int :=
  match cols c with
  | .zerobuf => a.zp
  | .src off => if r < a.rows then wrap8 (a.src.val (off + r)) else a.zp

/-- The value packed for it. -/
def pv (a : Args) (cols : Nat → Col) (c r : Nat) : Int := xor8 (colVal a cols c r) a.xor

theorem pv_range (a : Args) (cols : Nat → Col) (c r : Nat) :
    -128 ≤ pv a cols c r ∧ pv a cols c r ≤ 127 := wrap8_range _

theorem pv_pad {a : Args} {cols : Nat → Col} {c r : Nat} (h : a.rows ≤ r) :
    pv a cols c r = xor8 a.zp a.xor := by
  unfold pv colVal
  cases cols c with
  | zerobuf => rfl
  | src off => dsimp only; rw [if_neg (by omega)]

/-- The source columns are in the source buffer. -/
def LoadsOk (a : Args) (cols : Nat → Col) : Prop :=
  0 < a.rows → ∀ c off, c < 8 → cols c = .src off → off + a.rows ≤ a.src.size

theorem loadFull_of {a : Args} {cols : Nat → Col} (h : LoadsOk a cols) {it c : Nat} (hc : c < 8)
    (hit : 32 * it + 32 ≤ a.rows) :
    ∃ t, loadFull a.src a.zp (32 * it) (cols c) = .ok t ∧
      ∀ i, i < 32 → t i = colVal a cols c (32 * it + i) := by
  unfold colVal
  cases hcol : cols c with
  | zerobuf => exact ⟨_, rfl, fun _ _ => rfl⟩
  | src off =>
    have := h (by omega) c off hc hcol
    unfold loadFull
    dsimp only
    rw [loadu_of (by omega), C.ok_bind]
    refine ⟨_, rfl, fun i hi => ?_⟩
    dsimp only
    rw [if_pos (by omega), Nat.add_assoc]

theorem loadMasked_of {isa : Isa} (ok : IsaOk isa) {a : Args} {cols : Nat → Col}
    (h : LoadsOk a cols) {it c : Nat} (hc : c < 8)
    (hit : 32 * it < a.rows) (hit' : a.rows < 32 * it + 32) :
    ∃ t, loadMasked isa a.src a.zp (a.rows - 32 * it) (32 * it) (cols c) = .ok t ∧
      ∀ i, i < 32 → t i = colVal a cols c (32 * it + i) := by
  unfold colVal
  cases hcol : cols c with
  | zerobuf => exact ⟨_, rfl, fun _ _ => rfl⟩
  | src off =>
    have := h (by omega) c off hc hcol
    show ∃ t, isa.mload a.src a.zp (a.rows - 32 * it) (off + 32 * it) = .ok t ∧ ∀ i, i < 32 →
      t i = if 32 * it + i < a.rows then wrap8 (a.src.val (off + (32 * it + i))) else a.zp
    rw [ok.mload _ _ _ _ (by omega), if_pos (by omega)]
    refine ⟨_, rfl, fun i hi => ?_⟩
    by_cases hi' : i < a.rows - 32 * it
    · rw [if_pos hi', if_pos (by omega), Nat.add_assoc]
    · rw [if_neg hi', if_neg (by omega)]

/-! ### Stores -/

theorem storeList_of (bs off : Nat) (blk : Nat → Reg) (hbs : bs = 32 ∨ bs = 64) :
    ∀ (l : List Nat) (b : Buf Int), l.Nodup → (∀ j ∈ l, j < 8) → off + 7 * bs + 32 ≤ b.size →
    ∃ b', l.foldlM (fun b j => storeu 32 b (off + j * bs) (blk j)) b = (.ok b' : C (Buf Int)) ∧
      b'.size = b.size ∧ (∀ j i, j ∈ l → i < 32 → b'.val (off + j * bs + i) = blk j i) ∧
      ∀ o, (∀ j i, j ∈ l → i < 32 → o ≠ off + j * bs + i) → b'.val o = b.val o := by
  intro l
  induction l with
  | nil => intro b _ _ _; exact ⟨b, rfl, rfl, fun j i hj => (by cases hj), fun _ _ => rfl⟩
  | cons k l ih =>
    intro b hn hl hb
    have hk := hl k (List.mem_cons_self)
    obtain ⟨hkl, hn⟩ := List.nodup_cons.1 hn
    obtain ⟨b1, e1, s1, v1, f1⟩ := storeu_of (n := 32) (b := b) (off := off + k * bs) (r := blk k)
      (by rcases hbs with rfl | rfl <;> omega)
    obtain ⟨b2, e2, s2, v2, f2⟩ := ih b1 hn (fun j hj => hl j (List.mem_cons_of_mem _ hj))
      (by rw [s1]; exact hb)
    refine ⟨b2, ?_, s2.trans s1, ?_, ?_⟩
    · rw [List.foldlM_cons, e1]; exact e2
    · intro j i hj hi
      by_cases hjl : j ∈ l
      · exact v2 j i hjl hi
      · have hjk : j = k := by
          rcases List.mem_cons.1 hj with h | h
          · exact h
          · exact absurd h hjl
        subst hjk
        rw [f2 _ (fun j' i' hj' hi' => ?_), v1 i hi]
        have : j' ≠ j := fun h => hjl (h ▸ hj')
        rcases hbs with rfl | rfl <;> omega
    · intro o ho
      rw [f2 o (fun j i hj hi => ho j i (List.mem_cons_of_mem _ hj) hi), f1 o ?_]
      by_contra hcon
      have := ho k (o - (off + k * bs)) List.mem_cons_self (by omega)
      omega

theorem storeBlocks_of {bs off : Nat} {b : Buf Int} {blk : Nat → Reg} (hbs : bs = 32 ∨ bs = 64)
    (hb : off + 7 * bs + 32 ≤ b.size) :
    ∃ b', storeBlocks bs b off blk = .ok b' ∧
      b'.size = b.size ∧ (∀ j i, j < 8 → i < 32 → b'.val (off + j * bs + i) = blk j i) ∧
      ∀ o, (∀ j i, j < 8 → i < 32 → o ≠ off + j * bs + i) → b'.val o = b.val o := by
  obtain ⟨b', e, s, v, f⟩ := storeList_of bs off blk hbs [0, 2, 4, 6, 1, 3, 5, 7] b (by decide)
    (by decide) hb
  have hmem : ∀ j, j < 8 → j ∈ [0, 2, 4, 6, 1, 3, 5, 7] := by decide
  have hlt : ∀ j, j ∈ [0, 2, 4, 6, 1, 3, 5, 7] → j < 8 := by decide
  exact ⟨b', e, s, fun j i hj hi => v j i (hmem j hj) hi,
    fun o ho => f o (fun j i hj hi => ho j i (hlt j hj) hi)⟩

/-! ### The loop over chunks -/

theorem sum32 {M : Type} [AddCommMonoid M] (f : Nat → M) :
    (∑ j ∈ Finset.range 8, ∑ r ∈ Finset.range 4, f (4 * j + r)) = ∑ r ∈ Finset.range 32, f r := by
  have h : ∀ n, (∑ j ∈ Finset.range n, ∑ r ∈ Finset.range 4, f (4 * j + r)) =
      ∑ r ∈ Finset.range (4 * n), f r := by
    intro n
    induction n with
    | zero => rfl
    | succ n ih => rw [Finset.sum_range_succ, ih, Nat.mul_succ, Finset.sum_range_add]
  exact h 8

/-- The state after `n` chunks. -/
structure Inv {isa : Isa} (ok : IsaOk isa) (a : Args) (cols : Nat → Col) (sums : Bool)
    (d tr : Buf Int) (n : Nat) (st : St isa) : Prop where
  dsize : st.data.size = d.size
  tsize : st.trailing.size = tr.size
  data : ∀ blk i, blk < 8 * n → blk < 8 * (a.rows / 32) → i < 32 →
    st.data.val (a.poff + blk * a.bs + i) = pv a cols (i / 4) (4 * blk + i % 4)
  dframe : ∀ o, (∀ blk i, blk < 8 * (a.rows / 32) → i < 32 → o ≠ a.poff + blk * a.bs + i) →
    st.data.val o = d.val o
  trail : a.rows / 32 < n → ∀ j i, j < 8 → i < 32 →
    st.trailing.val (a.toff + j * a.bs + i) = pv a cols (i / 4) (32 * (a.rows / 32) + 4 * j + i % 4)
  tframe : ∀ o, (∀ j i, j < 8 → i < 32 → o ≠ a.toff + j * a.bs + i) →
    st.trailing.val o = tr.val o
  adj : st.adj = if a.rows / 32 < n then
    -(xor8 a.zp a.xor) * 4 * (8 - ((a.rows - 32 * (a.rows / 32) + 3) / 4 : Nat)) else 0
  total : sums = true → ∀ c, c < 8 →
    ok.total st.acc c = ∑ r ∈ Finset.range (32 * n), ((pv a cols c r : Int) : Z32)

/-- The buffers are large enough for the stores. -/
structure Room (a : Args) (d tr : Buf Int) : Prop where
  bs : a.bs = 32 ∨ a.bs = 64
  data : 0 < a.rows / 32 → a.poff + (8 * (a.rows / 32) - 1) * a.bs + 32 ≤ d.size
  trail : a.toff + 7 * a.bs + 32 ≤ tr.size

theorem sum_chunk {M : Type} [AddCommMonoid M] (f : Nat → M) (n : Nat) :
    (∑ r ∈ Finset.range (32 * n), f r) +
      (∑ j ∈ Finset.range 8, ∑ r ∈ Finset.range 4, f (32 * n + (4 * j + r))) =
      ∑ r ∈ Finset.range (32 * (n + 1)), f r := by
  rw [Nat.mul_succ, Finset.sum_range_add, sum32 (fun r => f (32 * n + r))]

theorem chunk_sum {a : Args} {cols : Nat → Col} {b : Nat → Reg} {n c : Nat}
    (hblk : ∀ j i, j < 8 → i < 32 → b j i = pv a cols (i / 4) (32 * n + (4 * j + i % 4)))
    (hc : c < 8) :
    (∑ j ∈ Finset.range 8, ∑ r ∈ Finset.range 4, ((b j (4 * c + r) : Int) : Z32)) =
      ∑ j ∈ Finset.range 8, ∑ r ∈ Finset.range 4, ((pv a cols c (32 * n + (4 * j + r)) : Int) : Z32) := by
  refine Finset.sum_congr rfl (fun j hj => Finset.sum_congr rfl (fun r hr => ?_))
  rw [Finset.mem_range] at hj hr
  rw [hblk j (4 * c + r) hj (by omega)]
  rw [show (4 * c + r) / 4 = c by omega, show (4 * c + r) % 4 = r by omega]

theorem adj_bound {z : Int} {k : Nat} (h1 : -128 ≤ z) (h2 : z ≤ 127) (hk : k ≤ 8) :
    -4096 ≤ -z * 4 * (8 - (k : Int)) ∧ -z * 4 * (8 - (k : Int)) ≤ 4096 := by
  interval_cases k <;> constructor <;> push_cast <;> omega

theorem chunk_step {isa : Isa} {ok : IsaOk isa} {a : Args} {cols : Nat → Col} {sums : Bool}
    {d tr : Buf Int} (hl : LoadsOk a cols) (hr : Room a d tr) {n : Nat} (hn : 32 * n < a.rows)
    {st : St isa} (h : Inv ok a cols sums d tr n st) :
    ∃ st', chunk isa a cols sums n st = .ok st' ∧ Inv ok a cols sums d tr (n + 1) st' := by
  have hz := wrap8_range (((a.zp % 256).toNat ^^^ (a.xor % 256).toNat : Nat) : Int)
  change -128 ≤ xor8 a.zp a.xor ∧ xor8 a.zp a.xor ≤ 127 at hz
  unfold chunk
  by_cases hfull : 32 * n + 32 ≤ a.rows
  · -- complete chunk
    have hnF : n < a.rows / 32 := by omega
    have hd := hr.data (by omega)
    rw [if_pos hfull]
    obtain ⟨t, et, ht⟩ := loadCols_of (fun c hc => loadFull_of hl hc hfull)
    rw [et, C.ok_bind]
    obtain ⟨d', ed, sd, vd, fd⟩ := storeBlocks_of (b := st.data) (bs := a.bs)
      (off := a.poff + n * (8 * a.bs)) (blk := isa.blocks a.xor t) hr.bs
      (by rw [h.dsize]; rcases hr.bs with e | e <;> rw [e] at hd ⊢ <;> omega)
    have hblk : ∀ j i, j < 8 → i < 32 →
        isa.blocks a.xor t j i = pv a cols (i / 4) (32 * n + (4 * j + i % 4)) := by
      intro j i hj hi
      rw [ok.blocks _ _ _ _ hj hi, ht (i / 4) (by omega) _ (by omega)]
      rfl
    dsimp only
    rw [ed, C.ok_bind]
    refine ⟨_, rfl, ⟨sd.trans h.dsize, h.tsize, ?_, ?_, ?_, h.tframe, ?_, ?_⟩⟩
    · intro blk i hb hbF hi
      by_cases hnew : 8 * n ≤ blk
      · have e := vd (blk - 8 * n) i (by omega) hi
        rw [hblk _ _ (by omega) hi] at e
        rw [show 32 * n + (4 * (blk - 8 * n) + i % 4) = 4 * blk + i % 4 by omega] at e
        rw [← e]
        congr 1
        rcases hr.bs with e | e <;> rw [e] <;> omega
      · rw [fd, h.data blk i (by omega) hbF hi]
        intro j i' hj hi'
        rcases hr.bs with e | e <;> rw [e] <;> omega
    · intro o ho
      rw [fd o, h.dframe o ho]
      intro j i hj hi he
      refine ho (8 * n + j) i (by omega) hi ?_
      rw [he]
      rcases hr.bs with e | e <;> rw [e] <;> omega
    · intro hF; omega
    · dsimp only
      rw [h.adj, if_neg (by omega), if_neg (by omega)]
    · intro hs c hc
      dsimp only
      rw [if_pos hs, ok.acc _ _ _ hc (fun j i => ok.range _ _ _ _), h.total hs c hc,
        chunk_sum hblk hc, sum_chunk]
  · -- incomplete chunk
    have hnF : n = a.rows / 32 := by omega
    rw [if_neg hfull, if_pos hn]
    obtain ⟨t, et, ht⟩ := loadCols_of (fun c hc => loadMasked_of ok hl hc hn (by omega))
    dsimp only
    have ha : st.adj = 0 := by rw [h.adj, if_neg (by omega)]
    have hk : ((a.rows - 32 * n + 3) / 4 : Nat) ≤ 8 := by omega
    obtain ⟨k, hkd⟩ : ∃ k : Nat, k = (a.rows - 32 * n + 3) / 4 := ⟨_, rfl⟩
    rw [← hkd] at hk ⊢
    have hb1 : -4096 ≤ -(xor8 a.zp a.xor) * 4 * (8 - (k : Int)) ∧
        -(xor8 a.zp a.xor) * 4 * (8 - (k : Int)) ≤ 4096 := adj_bound hz.1 hz.2 hk
    rw [ha, C.i32_of (by omega) (by omega), C.ok_bind, et, C.ok_bind]
    obtain ⟨b', eb, sb, vb, fb⟩ := storeBlocks_of (b := st.trailing) (bs := a.bs)
      (off := a.toff) (blk := isa.blocks a.xor t) hr.bs (by rw [h.tsize]; exact hr.trail)
    have hblk : ∀ j i, j < 8 → i < 32 →
        isa.blocks a.xor t j i = pv a cols (i / 4) (32 * n + (4 * j + i % 4)) := by
      intro j i hj hi
      rw [ok.blocks _ _ _ _ hj hi, ht (i / 4) (by omega) _ (by omega)]
      rfl
    rw [eb, C.ok_bind]
    refine ⟨_, rfl, ⟨h.dsize, sb.trans h.tsize, ?_, h.dframe, ?_, ?_, ?_, ?_⟩⟩
    · intro blk i hb hbF hi
      exact h.data blk i (by omega) hbF hi
    · intro _ j i hj hi
      dsimp only
      rw [vb j i hj hi, hblk j i hj hi, ← hnF, Nat.add_assoc]
    · intro o ho
      dsimp only
      rw [fb o ho, h.tframe o ho]
    · dsimp only
      rw [if_pos (by omega), zero_add, hkd, ← hnF]
    · intro hs c hc
      dsimp only
      rw [ok.acc _ _ _ hc (fun j i => ok.range _ _ _ _), h.total hs c hc,
        chunk_sum hblk hc, sum_chunk]

theorem chunk_skip {isa : Isa} {a : Args} {cols : Nat → Col} {sums : Bool} {n : Nat} {st : St isa}
    (hn : a.rows ≤ 32 * n) : chunk isa a cols sums n st = .ok st := by
  unfold chunk
  rw [if_neg (by omega), if_neg (by omega)]

theorem inv_zero {isa : Isa} (ok : IsaOk isa) (a : Args) (cols : Nat → Col) (sums : Bool)
    (d tr : Buf Int) : Inv ok a cols sums d tr 0 ⟨d, tr, isa.zero, 0⟩ :=
  ⟨rfl, rfl, fun _ _ h => absurd h (by omega), fun _ _ => rfl, fun h => absurd h (by omega),
    fun _ _ => rfl, by rw [if_neg (by omega)], fun _ c hc => by rw [ok.zero c hc]; rfl⟩

theorem flat_loop {isa : Isa} (ok : IsaOk isa) {a : Args} {cols : Nat → Col} (sums : Bool)
    {d tr : Buf Int} (hl : LoadsOk a cols) (hr : Room a d tr) (hi : a.rows + 31 < 2 ^ 31) :
    ∃ st, forUpTo ((a.rows + 31) / 32) (fun k st => do
        let _ ← C.int (32 * k + 32)
        chunk isa a cols sums k st) ⟨d, tr, isa.zero, 0⟩ = .ok st ∧
      Inv ok a cols sums d tr ((a.rows + 31) / 32) st := by
  refine forUpTo_total (fun n st => Inv ok a cols sums d tr n st) (inv_zero ok a cols sums d tr) ?_
  intro n st hn h
  rw [C.int_of (by omega), C.ok_bind]
  exact chunk_step hl hr (by omega) h

theorem half_loop {isa : Isa} (ok : IsaOk isa) {a : Args} {cols : Nat → Col} (sums : Bool)
    {d tr : Buf Int} (hl : LoadsOk a cols) (hr : Room a d tr) (hi : a.rows + 63 < 2 ^ 31) :
    ∃ st, forUpTo ((a.rows + 63) / 64) (fun k st => do
        let _ ← C.int (64 * k + 64)
        forUpTo 2 (fun m => chunk isa a cols sums (2 * k + m)) st) ⟨d, tr, isa.zero, 0⟩ = .ok st ∧
      Inv ok a cols sums d tr ((a.rows + 31) / 32) st := by
  obtain ⟨st, e, h⟩ := forUpTo_total (n := (a.rows + 63) / 64) (body := fun k st => do
        let _ ← C.int (64 * k + 64)
        forUpTo 2 (fun m => chunk isa a cols sums (2 * k + m)) st) (s := ⟨d, tr, isa.zero, 0⟩)
    (fun k st => Inv ok a cols sums d tr (min (2 * k) ((a.rows + 31) / 32)) st)
    (by rw [show min (2 * 0) ((a.rows + 31) / 32) = 0 by omega]; exact inv_zero ok a cols sums d tr)
    (by
      intro k st hk h
      rw [C.int_of (by omega), C.ok_bind]
      obtain ⟨st', e', h'⟩ := forUpTo_total (n := 2)
        (body := fun m => chunk isa a cols sums (2 * k + m)) (s := st)
        (fun m st => Inv ok a cols sums d tr (min (2 * k + m) ((a.rows + 31) / 32)) st) h
        (by
          intro m st hm h
          by_cases hlt : 32 * (2 * k + m) < a.rows
          · rw [show min (2 * k + m) ((a.rows + 31) / 32) = 2 * k + m by omega] at h
            rw [show min (2 * k + (m + 1)) ((a.rows + 31) / 32) = 2 * k + m + 1 by omega]
            exact chunk_step hl hr hlt h
          · rw [show min (2 * k + m) ((a.rows + 31) / 32) =
              min (2 * k + (m + 1)) ((a.rows + 31) / 32) by omega] at h
            exact ⟨st, chunk_skip (by omega), h⟩)
      exact ⟨st', e', h'⟩)
  refine ⟨st, e, ?_⟩
  rw [show min (2 * ((a.rows + 63) / 64)) ((a.rows + 31) / 32) = (a.rows + 31) / 32 by omega] at h
  exact h

/-! ### Sums -/

/-- Where the sums of the eight columns end up. -/
def SumsDone (a : Args) (cols : Nat → Col) (b : Buf Int) (off : Nat) (b' : Buf Int) : Prop :=
  b'.size = b.size ∧
  (∀ c, c < 8 → Front.InI32 (b'.val (off + c)) ∧ ((b'.val (off + c) : Int) : Z32) =
    ∑ r ∈ Finset.range ((a.rows + 3) / 4 * 4), ((pv a cols c r : Int) : Z32)) ∧
  ∀ o, (o < off ∨ off + 8 ≤ o) → b'.val o = b.val o

/-- The adjustment removes the padding rows of the last chunk from the sums. -/
theorem sums_adjusted (a : Args) (cols : Nat → Col) (c : Nat) (adj : Int)
    (hadj : adj = if a.rows / 32 < (a.rows + 31) / 32 then
      -(xor8 a.zp a.xor) * 4 * (8 - ((a.rows - 32 * (a.rows / 32) + 3) / 4 : Nat)) else 0) :
    (adj : Z32) + ∑ r ∈ Finset.range (32 * ((a.rows + 31) / 32)), ((pv a cols c r : Int) : Z32) =
      ∑ r ∈ Finset.range ((a.rows + 3) / 4 * 4), ((pv a cols c r : Int) : Z32) := by
  by_cases h : a.rows / 32 < (a.rows + 31) / 32
  · rw [if_pos h] at hadj
    obtain ⟨k, hk⟩ : ∃ k : Nat, k = (a.rows - 32 * (a.rows / 32) + 3) / 4 := ⟨_, rfl⟩
    rw [← hk] at hadj
    rw [show 32 * ((a.rows + 31) / 32) = (a.rows + 3) / 4 * 4 + 4 * (8 - k) by omega,
      Finset.sum_range_add, ← add_assoc, add_comm (adj : Z32), add_assoc]
    refine add_eq_left.2 ?_
    rw [Finset.sum_congr rfl (fun r _ => by
      rw [pv_pad (show a.rows ≤ (a.rows + 3) / 4 * 4 + r by omega)] :
      ∀ r ∈ Finset.range (4 * (8 - k)), ((pv a cols c ((a.rows + 3) / 4 * 4 + r) : Int) : Z32) =
        ((xor8 a.zp a.xor : Int) : Z32))]
    rw [Finset.sum_const, Finset.card_range, hadj, nsmul_eq_mul]
    have hk8 : k ≤ 8 := by omega
    push_cast [Nat.cast_sub hk8]
    ring
  · rw [if_neg h] at hadj
    rw [hadj, show 32 * ((a.rows + 31) / 32) = (a.rows + 3) / 4 * 4 by omega]
    simp

theorem finishSums_of {isa : Isa} (ok : IsaOk isa) {a : Args} {cols : Nat → Col}
    {d tr : Buf Int} {st : St isa} {b b0 : Buf Int} {off : Nat}
    (hinv : Inv ok a cols true d tr ((a.rows + 31) / 32) st) (hoff : off + 8 ≤ b.size)
    (hb0 : b0.size = b.size) (hz : ∀ i, i < 8 → b0.val (off + i) = 0)
    (hf : ∀ o, (o < off ∨ off + 8 ≤ o) → b0.val o = b.val o) :
    ∃ b', finishSums isa st.acc st.adj (some (b0, off)) = .ok (some (b', off)) ∧
      SumsDone a cols b off b' := by
  unfold finishSums
  dsimp only
  rw [loadu_of (by omega), C.ok_bind]
  obtain ⟨b', e, s, v, f⟩ := storeu_of (n := 8) (b := b0) (off := off)
    (r := isa.final st.acc st.adj (fun i => b0.val (off + i))) (by omega)
  rw [e, C.ok_bind]
  refine ⟨b', rfl, s.trans hb0, fun c hc => ?_, fun o ho => by rw [f o ho, hf o ho]⟩
  obtain ⟨r1, r2⟩ := ok.final st.acc st.adj (fun i => b0.val (off + i)) c hc
  rw [v c hc]
  refine ⟨r1, ?_⟩
  rw [r2, hz c hc, hinv.total rfl c hc]
  rw [← sums_adjusted a cols c st.adj hinv.adj]
  simp

/-- What a packer of eight columns does. -/
structure Packed8 (a : Args) (cols : Nat → Col) (d tr : Buf Int) (sums : Option (Buf Int × Nat))
    (r : Buf Int × Buf Int × Option (Buf Int × Nat)) : Prop where
  dsize : r.1.size = d.size
  tsize : r.2.1.size = tr.size
  data : ∀ blk i, blk < 8 * (a.rows / 32) → i < 32 →
    r.1.val (a.poff + blk * a.bs + i) = pv a cols (i / 4) (4 * blk + i % 4)
  dframe : ∀ o, (∀ blk i, blk < 8 * (a.rows / 32) → i < 32 → o ≠ a.poff + blk * a.bs + i) →
    r.1.val o = d.val o
  trail : 0 < a.rows % 32 → ∀ j i, j < 8 → i < 32 →
    r.2.1.val (a.toff + j * a.bs + i) = pv a cols (i / 4) (32 * (a.rows / 32) + 4 * j + i % 4)
  tframe : ∀ o, (∀ j i, j < 8 → i < 32 → o ≠ a.toff + j * a.bs + i) → r.2.1.val o = tr.val o
  nosums : sums = none → r.2.2 = none
  sums : ∀ b off, sums = some (b, off) → ∃ b', r.2.2 = some (b', off) ∧ SumsDone a cols b off b'

/-- The sums buffer is large enough. -/
def SumsRoom (sums : Option (Buf Int × Nat)) : Prop :=
  ∀ b off, sums = some (b, off) → off + 8 ≤ b.size

theorem packed8_of {isa : Isa} (ok : IsaOk isa) {a : Args} {cols : Nat → Col}
    {d tr : Buf Int} {sums : Option (Buf Int × Nat)} (hs : SumsRoom sums)
    {loop : C (St isa)}
    (hloop : ∃ st, loop = .ok st ∧ Inv ok a cols sums.isSome d tr ((a.rows + 31) / 32) st) :
    ∃ r, (do
      let s ← zeroSums sums
      let st ← loop
      let s ← finishSums isa st.acc st.adj s
      .ok (st.data, st.trailing, s)) = (.ok r : C _) ∧ Packed8 a cols d tr sums r := by
  obtain ⟨st, e, h⟩ := hloop
  have main : ∀ s : Option (Buf Int × Nat), (sums = none → s = none) →
      (∀ b off, sums = some (b, off) → ∃ b', s = some (b', off) ∧ SumsDone a cols b off b') →
      Packed8 a cols d tr sums (st.data, st.trailing, s) := by
    intro s h1 h2
    exact ⟨h.dsize, h.tsize, fun blk i hb hi => h.data blk i (by omega) hb hi, h.dframe,
      fun h0 => h.trail (by omega), h.tframe, h1, h2⟩
  cases hsum : sums with
  | none =>
    refine ⟨_, ?_, hsum ▸ main none (fun _ => rfl) (fun b off hb => by rw [hsum] at hb; cases hb)⟩
    rw [show zeroSums none = .ok none from rfl, C.ok_bind, e, C.ok_bind]
    rfl
  | some bo =>
    obtain ⟨b, off⟩ := bo
    have hoff := hs b off hsum
    obtain ⟨b0, e0, s0, v0, f0⟩ := storeu_of (n := 8) (b := b) (off := off) (r := set1 0) hoff
    rw [hsum] at h
    obtain ⟨b', e', h'⟩ := finishSums_of ok (b := b) (b0 := b0) (off := off) h hoff s0 v0 f0
    refine ⟨_, ?_, hsum ▸ main (some (b', off)) (fun hn => by rw [hsum] at hn; cases hn)
      (fun b1 off1 hb => ?_)⟩
    · unfold zeroSums
      dsimp only
      rw [e0, C.ok_bind, C.ok_bind, e, C.ok_bind, e', C.ok_bind]
    · rw [hsum] at hb
      cases hb
      exact ⟨b', rfl, h'⟩

theorem packer_of {isa : Isa} (ok : IsaOk isa) {a : Args} {cols : Nat → Col} {d tr : Buf Int}
    {sums : Option (Buf Int × Nat)} (hl : LoadsOk a cols) (hr : Room a d tr) (hs : SumsRoom sums)
    (hi : a.rows + 31 < 2 ^ 31) :
    ∃ r, packer isa a cols d tr sums = .ok r ∧ Packed8 a cols d tr sums r :=
  packed8_of ok hs (flat_loop ok sums.isSome hl hr hi)

theorem halfPacker_of {isa : Isa} (ok : IsaOk isa) {a : Args} {cols : Nat → Col} {d tr : Buf Int}
    {sums : Option (Buf Int × Nat)} (hl : LoadsOk a cols) (hr : Room a d tr) (hs : SumsRoom sums)
    (hi : a.rows + 63 < 2 ^ 31) :
    ∃ r, halfPacker isa a cols d tr sums = .ok r ∧ Packed8 a cols d tr sums r :=
  packed8_of ok hs (half_loop ok sums.isSome hl hr hi)

end Ruy.Simd.Pack

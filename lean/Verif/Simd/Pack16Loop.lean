import Verif.Simd.Pack16
/-
What HalfPack16bitAvx512 does to the packed buffer, the trailing buffer and the sums.
-/
namespace Ruy.Simd.Pack16
open Ruy.Mat Ruy.Mul
open Ruy.Simd.Pack (Col colOf loadCols zeroSums fillSums shiftSums Z32 storeu_of loadu_of loadCols_of SumsRoom total5
  acc_lane sum4)

theorem wrap16_range (x : Int) : -32768 ≤ wrap16 x ∧ wrap16 x ≤ 32767 := by unfold wrap16; omega

theorem transpose_eq (t : Nat → Reg) (j i : Nat) (hj : j < 4) (hi : i < 32) :
    transpose t j i = t (i / 4) (4 * j + i % 4) := by
  interval_cases j <;> interval_cases i <;> rfl

theorem acc_total (s : Reg) (b : Nat → Reg) (c : Nat) :
    total5 (acc s b) c = total5 s c +
      ∑ j ∈ Finset.range 4, ∑ r ∈ Finset.range 4, ((b j (4 * c + r) : Int) : Z32) := by
  unfold total5 acc
  simp only [List.foldl_cons, List.foldl_nil, acc_lane, sum4]
  rw [show 2 * (2 * c) = 4 * c + 0 by omega, show 2 * (2 * c + 1) = 4 * c + 2 by omega]
  ring_nf

/-- The value read, and packed, for row `r` of column `c` (with padding). -/
def pv (a : Args) (cols : Nat → Col) (c r : Nat) : Int :=
  match cols c with
  | .zerobuf => a.zp
  | .src off => if r < a.rows then wrap16 (a.src.val (off + r)) else a.zp

theorem pv_pad {a : Args} {cols : Nat → Col} {c r : Nat} (h : a.rows ≤ r) :
    pv a cols c r = a.zp := by
  unfold pv
  cases cols c with
  | zerobuf => rfl
  | src off => dsimp only; rw [if_neg (by omega)]

/-- The source columns are in the source buffer. -/
def LoadsOk (a : Args) (cols : Nat → Col) : Prop :=
  0 < a.rows → ∀ c off, c < 8 → cols c = .src off → off + a.rows ≤ a.src.size

theorem loadFull_of {a : Args} {cols : Nat → Col} (h : LoadsOk a cols) {it c : Nat} (hc : c < 8)
    (hit : 16 * it + 16 ≤ a.rows) :
    ∃ t, loadFull a.src a.zp (16 * it) (cols c) = .ok t ∧
      ∀ i, i < 16 → t i = pv a cols c (16 * it + i) := by
  unfold pv
  cases hcol : cols c with
  | zerobuf => exact ⟨_, rfl, fun _ _ => rfl⟩
  | src off =>
    have := h (by omega) c off hc hcol
    unfold loadFull
    dsimp only
    rw [loadu_of (by omega), C.ok_bind]
    refine ⟨_, rfl, fun i hi => ?_⟩
    dsimp only
    rw [if_pos (by omega), Nat.add_assoc]

theorem loadMasked_of {a : Args} {cols : Nat → Col}
    (h : LoadsOk a cols) {it c : Nat} (hc : c < 8) (hit : 16 * it < a.rows) :
    ∃ t, loadMasked a.src a.zp (a.rows - 16 * it) (16 * it) (cols c) = .ok t ∧
      ∀ i, i < 16 → t i = pv a cols c (16 * it + i) := by
  unfold pv
  cases hcol : cols c with
  | zerobuf => exact ⟨_, rfl, fun _ _ => rfl⟩
  | src off =>
    have := h (by omega) c off hc hcol
    unfold loadMasked
    dsimp only
    rw [loadu_of (by omega), C.ok_bind]
    refine ⟨_, rfl, fun i hi => ?_⟩
    dsimp only
    by_cases hi' : i < a.rows - 16 * it
    · rw [if_pos hi', if_pos (by omega), Nat.add_assoc]
    · rw [if_neg hi', if_neg (by omega)]

/-! ### Stores -/

theorem storeList_of (off : Nat) (blk : Nat → Reg) :
    ∀ (l : List Nat) (b : Buf Int), l.Nodup → (∀ j ∈ l, j < 4) → off + 3 * 64 + 32 ≤ b.size →
    ∃ b', l.foldlM (fun b j => storeu 32 b (off + j * 64) (blk j)) b = (.ok b' : C (Buf Int)) ∧
      b'.size = b.size ∧ (∀ j i, j ∈ l → i < 32 → b'.val (off + j * 64 + i) = blk j i) ∧
      ∀ o, (∀ j i, j ∈ l → i < 32 → o ≠ off + j * 64 + i) → b'.val o = b.val o := by
  intro l
  induction l with
  | nil => intro b _ _ _; exact ⟨b, rfl, rfl, fun j i hj => (by cases hj), fun _ _ => rfl⟩
  | cons k l ih =>
    intro b hn hl hb
    have hk := hl k (List.mem_cons_self)
    obtain ⟨hkl, hn⟩ := List.nodup_cons.1 hn
    obtain ⟨b1, e1, s1, v1, f1⟩ := storeu_of (n := 32) (b := b) (off := off + k * 64) (r := blk k)
      (by omega)
    obtain ⟨b2, e2, s2, v2, f2⟩ := ih b1 hn (fun j hj => hl j (List.mem_cons_of_mem _ hj))
      (by rw [s1]; exact hb)
    refine ⟨b2, ?_, s2.trans s1, ?_, ?_⟩
    · rw [List.foldlM_cons, e1]; exact e2
    · intro j i hj hi
      by_cases hjl : j ∈ l
      · exact v2 j i hjl hi
      · have hjk : j = k := by
          rcases List.mem_cons.1 hj with h | h
          · exact h
          · exact absurd h hjl
        subst hjk
        rw [f2 _ (fun j' i' hj' hi' => ?_), v1 i hi]
        have : j' ≠ j := fun h => hjl (h ▸ hj')
        omega
    · intro o ho
      rw [f2 o (fun j i hj hi => ho j i (List.mem_cons_of_mem _ hj) hi), f1 o ?_]
      by_contra hcon
      have := ho k (o - (off + k * 64)) List.mem_cons_self (by omega)
      omega

theorem storeBlocks_of {off : Nat} {b : Buf Int} {blk : Nat → Reg}
    (hb : off + 3 * 64 + 32 ≤ b.size) :
    ∃ b', storeBlocks b off blk = .ok b' ∧
      b'.size = b.size ∧ (∀ j i, j < 4 → i < 32 → b'.val (off + j * 64 + i) = blk j i) ∧
      ∀ o, (∀ j i, j < 4 → i < 32 → o ≠ off + j * 64 + i) → b'.val o = b.val o := by
  obtain ⟨b', e, s, v, f⟩ := storeList_of off blk [0, 2, 1, 3] b (by decide) (by decide) hb
  have hmem : ∀ j, j < 4 → j ∈ [0, 2, 1, 3] := by decide
  have hlt : ∀ j, j ∈ [0, 2, 1, 3] → j < 4 := by decide
  exact ⟨b', e, s, fun j i hj hi => v j i (hmem j hj) hi,
    fun o ho => f o (fun j i hj hi => ho j i (hlt j hj) hi)⟩

/-! ### The loop over chunks -/

theorem sum16 {M : Type} [AddCommMonoid M] (f : Nat → M) :
    (∑ j ∈ Finset.range 4, ∑ r ∈ Finset.range 4, f (4 * j + r)) = ∑ r ∈ Finset.range 16, f r := by
  have h : ∀ n, (∑ j ∈ Finset.range n, ∑ r ∈ Finset.range 4, f (4 * j + r)) =
      ∑ r ∈ Finset.range (4 * n), f r := by
    intro n
    induction n with
    | zero => rfl
    | succ n ih => rw [Finset.sum_range_succ, ih, Nat.mul_succ, Finset.sum_range_add]
  exact h 4

/-- The state after `n` chunks. -/
structure Inv (a : Args) (cols : Nat → Col) (sums : Bool)
    (d tr : Buf Int) (n : Nat) (st : St) : Prop where
  dsize : st.data.size = d.size
  tsize : st.trailing.size = tr.size
  data : ∀ blk i, blk < 4 * n → blk < 4 * (a.rows / 16) → i < 32 →
    st.data.val (a.poff + blk * 64 + i) = pv a cols (i / 4) (4 * blk + i % 4)
  dframe : ∀ o, (∀ blk i, blk < 4 * (a.rows / 16) → i < 32 → o ≠ a.poff + blk * 64 + i) →
    st.data.val o = d.val o
  trail : a.rows / 16 < n → ∀ j i, j < 4 → i < 32 →
    st.trailing.val (a.toff + j * 64 + i) = pv a cols (i / 4) (16 * (a.rows / 16) + 4 * j + i % 4)
  tframe : ∀ o, (∀ j i, j < 4 → i < 32 → o ≠ a.toff + j * 64 + i) →
    st.trailing.val o = tr.val o
  adj : st.adj = if a.rows / 16 < n then
    -a.zp * 4 * (4 - ((a.rows - 16 * (a.rows / 16) + 3) / 4 : Nat)) else 0
  total : sums = true → ∀ c, c < 8 →
    total5 st.acc c = ∑ r ∈ Finset.range (16 * n), ((pv a cols c r : Int) : Z32)

/-- The buffers are large enough for the stores, and the zero point is a 16-bit number. -/
structure Room (a : Args) (d tr : Buf Int) : Prop where
  data : 0 < a.rows / 16 → a.poff + (4 * (a.rows / 16) - 1) * 64 + 32 ≤ d.size
  trail : a.toff + 3 * 64 + 32 ≤ tr.size
  zp : -32768 ≤ a.zp ∧ a.zp ≤ 32767

theorem sum_chunk {M : Type} [AddCommMonoid M] (f : Nat → M) (n : Nat) :
    (∑ r ∈ Finset.range (16 * n), f r) +
      (∑ j ∈ Finset.range 4, ∑ r ∈ Finset.range 4, f (16 * n + (4 * j + r))) =
      ∑ r ∈ Finset.range (16 * (n + 1)), f r := by
  rw [Nat.mul_succ, Finset.sum_range_add, sum16 (fun r => f (16 * n + r))]

theorem chunk_sum {a : Args} {cols : Nat → Col} {b : Nat → Reg} {n c : Nat}
    (hblk : ∀ j i, j < 4 → i < 32 → b j i = pv a cols (i / 4) (16 * n + (4 * j + i % 4)))
    (hc : c < 8) :
    (∑ j ∈ Finset.range 4, ∑ r ∈ Finset.range 4, ((b j (4 * c + r) : Int) : Z32)) =
      ∑ j ∈ Finset.range 4, ∑ r ∈ Finset.range 4, ((pv a cols c (16 * n + (4 * j + r)) : Int) : Z32) := by
  refine Finset.sum_congr rfl (fun j hj => Finset.sum_congr rfl (fun r hr => ?_))
  rw [Finset.mem_range] at hj hr
  rw [hblk j (4 * c + r) hj (by omega)]
  rw [show (4 * c + r) / 4 = c by omega, show (4 * c + r) % 4 = r by omega]

theorem adj_bound {z : Int} {k : Nat} (h1 : -32768 ≤ z) (h2 : z ≤ 32767) (hk : k ≤ 4) :
    -524288 ≤ -z * 4 * (4 - (k : Int)) ∧ -z * 4 * (4 - (k : Int)) ≤ 524288 := by
  interval_cases k <;> constructor <;> push_cast <;> omega

theorem chunk_step {a : Args} {cols : Nat → Col} {sums : Bool}
    {d tr : Buf Int} (hl : LoadsOk a cols) (hr : Room a d tr) {n : Nat} (hn : 16 * n < a.rows)
    {st : St} (h : Inv a cols sums d tr n st) :
    ∃ st', chunk a cols sums n st = .ok st' ∧ Inv a cols sums d tr (n + 1) st' := by
  unfold chunk
  rw [if_pos hn]
  dsimp only
  by_cases hfull : 16 ≤ a.rows - 16 * n
  · -- complete chunk
    have hnF : n < a.rows / 16 := by omega
    have hd := hr.data (by omega)
    rw [if_pos hfull]
    obtain ⟨t, et, ht⟩ := loadCols_of (fun c hc => loadFull_of hl hc (show 16 * n + 16 ≤ a.rows by omega))
    rw [et, C.ok_bind]
    obtain ⟨d', ed, sd, vd, fd⟩ := storeBlocks_of (b := st.data)
      (off := a.poff + n * 256) (blk := transpose t) (by rw [h.dsize]; omega)
    have hblk : ∀ j i, j < 4 → i < 32 →
        transpose t j i = pv a cols (i / 4) (16 * n + (4 * j + i % 4)) := by
      intro j i hj hi
      rw [transpose_eq _ _ _ hj hi, ht (i / 4) (by omega) _ (by omega)]
    rw [ed, C.ok_bind]
    refine ⟨_, rfl, ⟨sd.trans h.dsize, h.tsize, ?_, ?_, ?_, h.tframe, ?_, ?_⟩⟩
    · intro blk i hb hbF hi
      by_cases hnew : 4 * n ≤ blk
      · have e := vd (blk - 4 * n) i (by omega) hi
        rw [hblk _ _ (by omega) hi] at e
        rw [show 16 * n + (4 * (blk - 4 * n) + i % 4) = 4 * blk + i % 4 by omega] at e
        rw [← e]
        congr 1
        omega
      · rw [fd, h.data blk i (by omega) hbF hi]
        intro j i' hj hi'
        omega
    · intro o ho
      rw [fd o, h.dframe o ho]
      intro j i hj hi he
      refine ho (4 * n + j) i (by omega) hi ?_
      rw [he]
      omega
    · intro hF; omega
    · dsimp only
      rw [h.adj, if_neg (by omega), if_neg (by omega)]
    · intro hs c hc
      dsimp only
      rw [if_pos hs, acc_total, h.total hs c hc, chunk_sum hblk hc, sum_chunk]
  · -- incomplete chunk
    have hnF : n = a.rows / 16 := by omega
    rw [if_neg hfull, C.check_of (by omega), C.ok_bind]
    obtain ⟨t, et, ht⟩ := loadCols_of (fun c hc => loadMasked_of hl hc hn)
    have ha : st.adj = 0 := by rw [h.adj, if_neg (by omega)]
    have hk : ((a.rows - 16 * n + 3) / 4 : Nat) ≤ 4 := by omega
    obtain ⟨k, hkd⟩ : ∃ k : Nat, k = (a.rows - 16 * n + 3) / 4 := ⟨_, rfl⟩
    rw [← hkd] at hk ⊢
    have hb1 := adj_bound hr.zp.1 hr.zp.2 hk
    rw [ha, C.i32_of (by omega) (by omega), C.ok_bind, et, C.ok_bind]
    obtain ⟨b', eb, sb, vb, fb⟩ := storeBlocks_of (b := st.trailing)
      (off := a.toff) (blk := transpose t) (by rw [h.tsize]; exact hr.trail)
    have hblk : ∀ j i, j < 4 → i < 32 →
        transpose t j i = pv a cols (i / 4) (16 * n + (4 * j + i % 4)) := by
      intro j i hj hi
      rw [transpose_eq _ _ _ hj hi, ht (i / 4) (by omega) _ (by omega)]
    rw [eb, C.ok_bind]
    refine ⟨_, rfl, ⟨h.dsize, sb.trans h.tsize, ?_, h.dframe, ?_, ?_, ?_, ?_⟩⟩
    · intro blk i hb hbF hi
      exact h.data blk i (by omega) hbF hi
    · intro _ j i hj hi
      dsimp only
      rw [vb j i hj hi, hblk j i hj hi, ← hnF, Nat.add_assoc]
    · intro o ho
      dsimp only
      rw [fb o ho, h.tframe o ho]
    · dsimp only
      rw [if_pos (by omega), zero_add, hkd, ← hnF]
    · intro hs c hc
      dsimp only
      rw [if_pos hs, acc_total, h.total hs c hc, chunk_sum hblk hc, sum_chunk]

theorem chunk_skip {a : Args} {cols : Nat → Col} {sums : Bool} {n : Nat} {st : St}
    (hn : a.rows ≤ 16 * n) : chunk a cols sums n st = .ok st := by
  unfold chunk
  rw [if_neg (by omega)]

theorem inv_zero (a : Args) (cols : Nat → Col) (sums : Bool)
    (d tr : Buf Int) : Inv a cols sums d tr 0 ⟨d, tr, set1 0, 0⟩ :=
  ⟨rfl, rfl, fun _ _ h => absurd h (by omega), fun _ _ => rfl, fun h => absurd h (by omega),
    fun _ _ => rfl, by rw [if_neg (by omega)], fun _ c hc => by
      show total5 (set1 0) c = _
      unfold total5 set1; simp⟩

theorem half_loop {a : Args} {cols : Nat → Col} (sums : Bool)
    {d tr : Buf Int} (hl : LoadsOk a cols) (hr : Room a d tr) (hi : a.rows + 31 < 2 ^ 31) :
    ∃ st, forUpTo ((a.rows + 31) / 32) (fun k st => do
        let _ ← C.int (32 * k + 32)
        forUpTo 2 (fun m => chunk a cols sums (2 * k + m)) st) ⟨d, tr, set1 0, 0⟩ = .ok st ∧
      Inv a cols sums d tr ((a.rows + 15) / 16) st := by
  obtain ⟨st, e, h⟩ := forUpTo_total (n := (a.rows + 31) / 32) (body := fun k st => do
        let _ ← C.int (32 * k + 32)
        forUpTo 2 (fun m => chunk a cols sums (2 * k + m)) st) (s := ⟨d, tr, set1 0, 0⟩)
    (fun k st => Inv a cols sums d tr (min (2 * k) ((a.rows + 15) / 16)) st)
    (by rw [show min (2 * 0) ((a.rows + 15) / 16) = 0 by omega]; exact inv_zero a cols sums d tr)
    (by
      intro k st hk h
      rw [C.int_of (by omega), C.ok_bind]
      obtain ⟨st', e', h'⟩ := forUpTo_total (n := 2)
        (body := fun m => chunk a cols sums (2 * k + m)) (s := st)
        (fun m st => Inv a cols sums d tr (min (2 * k + m) ((a.rows + 15) / 16)) st) h
        (by
          intro m st hm h
          by_cases hlt : 16 * (2 * k + m) < a.rows
          · rw [show min (2 * k + m) ((a.rows + 15) / 16) = 2 * k + m by omega] at h
            rw [show min (2 * k + (m + 1)) ((a.rows + 15) / 16) = 2 * k + m + 1 by omega]
            exact chunk_step hl hr hlt h
          · rw [show min (2 * k + m) ((a.rows + 15) / 16) =
              min (2 * k + (m + 1)) ((a.rows + 15) / 16) by omega] at h
            exact ⟨st, chunk_skip (by omega), h⟩)
      exact ⟨st', e', h'⟩)
  refine ⟨st, e, ?_⟩
  rw [show min (2 * ((a.rows + 31) / 32)) ((a.rows + 15) / 16) = (a.rows + 15) / 16 by omega] at h
  exact h

/-! ### Sums -/

/-- Where the sums of the eight columns end up. -/
def SumsDone (a : Args) (cols : Nat → Col) (b : Buf Int) (off : Nat) (b' : Buf Int) : Prop :=
  b'.size = b.size ∧
  (∀ c, c < 8 → Front.InI32 (b'.val (off + c)) ∧ ((b'.val (off + c) : Int) : Z32) =
    ∑ r ∈ Finset.range ((a.rows + 3) / 4 * 4), ((pv a cols c r : Int) : Z32)) ∧
  ∀ o, (o < off ∨ off + 8 ≤ o) → b'.val o = b.val o

/-- The adjustment removes the padding rows of the last chunk from the sums. -/
theorem sums_adjusted (a : Args) (cols : Nat → Col) (c : Nat) (adj : Int)
    (hadj : adj = if a.rows / 16 < (a.rows + 15) / 16 then
      -a.zp * 4 * (4 - ((a.rows - 16 * (a.rows / 16) + 3) / 4 : Nat)) else 0) :
    (adj : Z32) + ∑ r ∈ Finset.range (16 * ((a.rows + 15) / 16)), ((pv a cols c r : Int) : Z32) =
      ∑ r ∈ Finset.range ((a.rows + 3) / 4 * 4), ((pv a cols c r : Int) : Z32) := by
  by_cases h : a.rows / 16 < (a.rows + 15) / 16
  · rw [if_pos h] at hadj
    obtain ⟨k, hk⟩ : ∃ k : Nat, k = (a.rows - 16 * (a.rows / 16) + 3) / 4 := ⟨_, rfl⟩
    rw [← hk] at hadj
    rw [show 16 * ((a.rows + 15) / 16) = (a.rows + 3) / 4 * 4 + 4 * (4 - k) by omega,
      Finset.sum_range_add, ← add_assoc, add_comm (adj : Z32), add_assoc]
    refine add_eq_left.2 ?_
    rw [Finset.sum_congr rfl (fun r _ => by
      rw [pv_pad (show a.rows ≤ (a.rows + 3) / 4 * 4 + r by omega)] :
      ∀ r ∈ Finset.range (4 * (4 - k)), ((pv a cols c ((a.rows + 3) / 4 * 4 + r) : Int) : Z32) =
        ((a.zp : Int) : Z32))]
    rw [Finset.sum_const, Finset.card_range, hadj, nsmul_eq_mul]
    have hk8 : k ≤ 4 := by omega
    push_cast [Nat.cast_sub hk8]
    ring
  · rw [if_neg h] at hadj
    rw [hadj, show 16 * ((a.rows + 15) / 16) = (a.rows + 3) / 4 * 4 by omega]
    simp

theorem finishSums_of {a : Args} {cols : Nat → Col}
    {d tr : Buf Int} {st : St} {b b0 : Buf Int} {off : Nat}
    (hinv : Inv a cols true d tr ((a.rows + 15) / 16) st) (hoff : off + 8 ≤ b.size)
    (hb0 : b0.size = b.size) (hz : ∀ i, i < 8 → b0.val (off + i) = 0)
    (hf : ∀ o, (o < off ∨ off + 8 ≤ o) → b0.val o = b.val o) :
    ∃ b', Pack.finishSums Pack.Avx512.isa st.acc st.adj (some (b0, off)) = .ok (some (b', off)) ∧
      SumsDone a cols b off b' := by
  unfold Pack.finishSums
  dsimp only
  rw [loadu_of (by omega), C.ok_bind]
  obtain ⟨b', e, s, v, f⟩ := storeu_of (n := 8) (b := b0) (off := off)
    (r := Pack.Avx512.isa.final st.acc st.adj (fun i => b0.val (off + i))) (by omega)
  rw [e, C.ok_bind]
  refine ⟨b', rfl, s.trans hb0, fun c hc => ?_, fun o ho => by rw [f o ho, hf o ho]⟩
  obtain ⟨r1, r2⟩ := Pack.avx512_final st.acc st.adj (fun i => b0.val (off + i)) c hc
  rw [v c hc]
  refine ⟨r1, ?_⟩
  refine r2.trans ?_
  rw [hz c hc, hinv.total rfl c hc]
  rw [← sums_adjusted a cols c st.adj hinv.adj]
  simp

/-- What a packer of eight columns does. -/
structure Packed8 (a : Args) (cols : Nat → Col) (d tr : Buf Int) (sums : Option (Buf Int × Nat))
    (r : Buf Int × Buf Int × Option (Buf Int × Nat)) : Prop where
  dsize : r.1.size = d.size
  tsize : r.2.1.size = tr.size
  data : ∀ blk i, blk < 4 * (a.rows / 16) → i < 32 →
    r.1.val (a.poff + blk * 64 + i) = pv a cols (i / 4) (4 * blk + i % 4)
  dframe : ∀ o, (∀ blk i, blk < 4 * (a.rows / 16) → i < 32 → o ≠ a.poff + blk * 64 + i) →
    r.1.val o = d.val o
  trail : 0 < a.rows % 16 → ∀ j i, j < 4 → i < 32 →
    r.2.1.val (a.toff + j * 64 + i) = pv a cols (i / 4) (16 * (a.rows / 16) + 4 * j + i % 4)
  tframe : ∀ o, (∀ j i, j < 4 → i < 32 → o ≠ a.toff + j * 64 + i) → r.2.1.val o = tr.val o
  nosums : sums = none → r.2.2 = none
  sums : ∀ b off, sums = some (b, off) → ∃ b', r.2.2 = some (b', off) ∧ SumsDone a cols b off b'

theorem halfPacker_of {a : Args} {cols : Nat → Col} {d tr : Buf Int}
    {sums : Option (Buf Int × Nat)} (hl : LoadsOk a cols) (hr : Room a d tr) (hs : SumsRoom sums)
    (hi : a.rows + 31 < 2 ^ 31) :
    ∃ r, halfPacker a cols d tr sums = .ok r ∧ Packed8 a cols d tr sums r := by
  obtain ⟨st, e, h⟩ := half_loop sums.isSome hl hr hi
  have main : ∀ s : Option (Buf Int × Nat), (sums = none → s = none) →
      (∀ b off, sums = some (b, off) → ∃ b', s = some (b', off) ∧ SumsDone a cols b off b') →
      Packed8 a cols d tr sums (st.data, st.trailing, s) := by
    intro s h1 h2
    exact ⟨h.dsize, h.tsize, fun blk i hb hi => h.data blk i (by omega) hb hi, h.dframe,
      fun h0 => h.trail (by omega), h.tframe, h1, h2⟩
  unfold halfPacker
  cases hsum : sums with
  | none =>
    rw [hsum] at e
    refine ⟨_, ?_, hsum ▸ main none (fun _ => rfl) (fun b off hb => by rw [hsum] at hb; cases hb)⟩
    rw [show zeroSums none = .ok none from rfl, C.ok_bind, e, C.ok_bind]
    rfl
  | some bo =>
    obtain ⟨b, off⟩ := bo
    have hoff := hs b off hsum
    obtain ⟨b0, e0, s0, v0, f0⟩ := storeu_of (n := 8) (b := b) (off := off) (r := set1 0) hoff
    rw [hsum] at h e
    obtain ⟨b', e', h'⟩ := finishSums_of (b := b) (b0 := b0) (off := off) h hoff s0 v0 f0
    refine ⟨_, ?_, hsum ▸ main (some (b', off)) (fun hn => by rw [hsum] at hn; cases hn)
      (fun b1 off1 hb => ?_)⟩
    · unfold zeroSums
      dsimp only
      rw [e0, C.ok_bind, C.ok_bind, e, C.ok_bind, e', C.ok_bind]
    · rw [hsum] at hb
      cases hb
      exact ⟨b', rfl, h'⟩

end Ruy.Simd.Pack16

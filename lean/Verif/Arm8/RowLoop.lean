import Verif.Arm8.RowCall
import Verif.Neon.RowLoop
/-
The loops of `Pack8bitRowMajorForNeon` for two kernel columns: an invariant over 16 rows at a time and, within these,
from left to right.
-/
namespace Ruy.Arm8.Row
open Ruy.Neon (RowCall Memory Region Vec Byte getS getH getS_ofS ofS byteOf byteOf_getS wr wr_other wr_zero wr_append wr_congr)
open Ruy.Neon.RowCall (sums16 vaddw transposed combine wanted element inputXor loadRow loadRows scalarVal byteAt upto upto_same combine_transposed sums16_lane vaddw_at
  getS_shift wr_in wr_out ld_of st_of getS_of byteOf_wrap32 wrap32_add wrap32_id sum_range forRange_total toInt_range xor_value)
open Simd (wrap8 wrap16 wrap32)

variable {a : RowCall} {lo hi : Nat} {m0 m m' : Memory}

theorem byteAt_toInt (hf : Fits a lo hi) (k c : Nat) : (a.byteAt m k c).toInt = a.wanted m k c := by
  unfold byteAt wanted element inputXor
  split
  · split
    · cases a.unsigned
      · simp only [Bool.false_eq_true, if_false]
        rw [show BitVec.ofNat 8 0 = 0#8 from rfl, (xor_value _).2]
        omega
      · simp only [if_true]
        exact (xor_value _).1
    · have h := hf.zp
      rw [BitVec.toInt_ofInt]
      unfold Int.bmod
      norm_num
      split <;> omega
  · rfl

theorem place_eq (n k c : Nat) (hk : k < 16) :
    place a (16 * n + k) c = a.packedStride * (2 * (c / 2)) + 32 * n + 16 * (c % 2) + k := by
  unfold place
  rw [show (16 * n + k) / 16 = n by omega, show (16 * n + k) % 16 = k by omega]

/-- Different entries are in different places. -/
theorem place_inj (hf : Fits a lo hi) {k k' c c' : Nat} (hk : k < a.packedRows) (hk' : k' < a.packedRows)
    (h : place a k c = place a k' c') : k = k' ∧ c = c' := by
  have hs := hf.stride
  have hd := hf.depth.1
  unfold place at h
  have q : c / 2 = c' / 2 := by
    rcases Nat.lt_trichotomy (c / 2) (c' / 2) with hlt | he | hgt
    · have := Nat.mul_le_mul_left a.packedStride (show 2 * (c / 2) + 2 ≤ 2 * (c' / 2) by omega)
      rw [Nat.mul_add] at this
      omega
    · exact he
    · have := Nat.mul_le_mul_left a.packedStride (show 2 * (c' / 2) + 2 ≤ 2 * (c / 2) by omega)
      rw [Nat.mul_add] at this
      omega
  rw [q] at h
  omega

/-- Entries are inside the packed matrix. -/
theorem place_lt (hf : Fits a lo hi) {n c : Nat} (hn : 16 * n + 16 ≤ a.packedRows) (hc : c < hi) :
    a.packedStride * (2 * (c / 2)) + 32 * n + 32 ≤ a.packedStride * hi := by
  have hs := hf.stride
  have ha := hf.aligned.2
  have := Nat.mul_le_mul_left a.packedStride (show 2 * (c / 2) + 2 ≤ hi by omega)
  rw [Nat.mul_add] at this
  omega

/-- All columns have `n` blocks of 16 rows, those before `col` one more. -/
structure Inv (a : RowCall) (lo hi : Nat) (m0 : Memory) (n col : Nat) (m : Memory) : Prop where
  entry : ∀ c, lo ≤ c → c < hi → ∀ k, k < upto n col c → m .packed (place a k c) = a.byteAt m0 k c
  sum : ∀ c, lo ≤ c → c < hi → ∀ b, b < 4 → m .sums (4 * c + b) =
    byteOf (∑ k ∈ Finset.range (upto n col c), (a.byteAt m0 k c).toInt) b
  restPacked : ∀ o, (∀ c, lo ≤ c → c < hi → ∀ k, k < a.packedRows → o ≠ place a k c) → m .packed o = m0 .packed o
  restSums : ∀ o, o < 4 * lo ∨ 4 * hi ≤ o → m .sums o = m0 .sums o
  rest : ∀ r, r ≠ .packed → r ≠ .sums → m r = m0 r

theorem Inv.src {n col : Nat} (h : Inv a lo hi m0 n col m) : m .src = m0 .src := h.rest _ (by decide) (by decide)

/-- The next `w` columns. -/
theorem Inv.more {n col w : Nat} (hf : Fits a lo hi) (hn : 16 * n + 16 ≤ a.packedRows) (h1 : lo ≤ col) (h2 : col + w ≤ hi)
    (h : Inv a lo hi m0 n col m)
    (hp1 : ∀ c, col ≤ c → c < col + w → ∀ k, k < 16 → m' .packed (place a (16 * n + k) c) = a.byteAt m0 (16 * n + k) c)
    (hp2 : ∀ o, (∀ c, col ≤ c → c < col + w → ∀ k, k < 16 → o ≠ place a (16 * n + k) c) → m' .packed o = m .packed o)
    (hs1 : ∀ c, col ≤ c → c < col + w → ∀ b, b < 4 → m' .sums (4 * c + b) =
      byteOf (getS (fun b => m .sums (4 * c + b)) 0 + ∑ k ∈ Finset.range 16, (a.byteAt m0 (16 * n + k) c).toInt) b)
    (hs2 : ∀ o, o < 4 * col ∨ 4 * (col + w) ≤ o → m' .sums o = m .sums o)
    (hr : ∀ r, r ≠ .packed → r ≠ .sums → m' r = m r) : Inv a lo hi m0 n (col + w) m' := by
  refine ⟨fun c c1 c2 k hk => ?_, fun c c1 c2 b hb => ?_, fun o ho => ?_, fun o ho => ?_, fun r r1 r2 => ?_⟩
  · by_cases hc : col ≤ c ∧ c < col + w
    · by_cases hkn : 16 * n ≤ k
      · have e : k = 16 * n + (k - 16 * n) := by omega
        have hk' : k - 16 * n < 16 := by
          unfold upto at hk
          split at hk <;> omega
        rw [e]
        exact hp1 c hc.1 hc.2 _ hk'
      · rw [hp2 _ (fun c' _ _ k' hk' he => by
          have := (place_inj hf (by omega) (by omega) he).1
          omega)]
        exact h.entry c c1 c2 k (by unfold upto; omega)
    · rw [upto_same (col' := col) (by omega)] at hk
      have hkp : k < a.packedRows := by
        unfold upto at hk
        split at hk <;> omega
      rw [hp2 _ (fun c' c1' c2' k' hk' he => by
          have := (place_inj hf hkp (by omega) he).2
          omega)]
      exact h.entry c c1 c2 k hk
  · by_cases hc : col ≤ c ∧ c < col + w
    · rw [hs1 c hc.1 hc.2 b hb]
      have e := getS_of (f := fun b => m .sums (4 * c + b)) (h.sum c c1 c2)
      rw [e]
      have u1 : upto n col c = 16 * n := by unfold upto; rw [if_neg (by omega), Nat.add_zero]
      have u2 : upto n (col + w) c = 16 * n + 16 := by unfold upto; rw [if_pos (by omega)]
      rw [u1, u2, Finset.sum_range_add, ← byteOf_wrap32 _ hb, ← byteOf_wrap32 (_ + _) hb]
      rw [wrap32_add]
    · rw [hs2 _ (by omega), h.sum c c1 c2 b hb, upto_same (n := n) (c := c) (col := col) (col' := col + w) (by omega)]
  · rw [hp2 o (fun c c1 c2 k hk => ho c (by omega) (by omega) _ (by omega))]
    exact h.restPacked o ho
  · rw [hs2 o (by omega)]
    exact h.restSums o ho
  · rw [hr r r1 r2, h.rest r r1 r2]

/-! ### Eight columns -/

theorem loadRow_ok {n col r : Nat} (hf : Fits a lo hi) (hn : 16 * n + 16 ≤ a.packedRows) (hs : m .src = m0 .src)
    (hc : col + 8 ≤ a.cols) (hr : r < 16) :
    ∃ v, a.loadRow m (16 * n) (16 * n * a.stride + col) r = .ok v ∧
      ∀ i, i < 8 → v i = a.byteAt m0 (16 * n + r) (col + i) := by
  unfold loadRow
  by_cases hk : 16 * n + r < a.rows
  · have ho : r * a.stride < 2 ^ 31 := by
      have := hf.offsets.1 (16 * n + r) (by omega)
      rw [Nat.mul_add, Nat.mul_comm a.stride r] at this
      omega
    have e : 16 * n * a.stride + col + r * a.stride = a.stride * (16 * n + r) + col := by ring
    have hb := hf.src (16 * n + r) hk (col + 7) (by omega)
    rw [if_pos (Or.inr hk), C.int_of ho, C.ok_bind, ld_of (by omega), C.ok_bind]
    refine ⟨_, rfl, fun i hi => ?_⟩
    unfold byteAt
    rw [if_pos (by omega), if_pos hk, e, hs, BitVec.xor_comm, ← Nat.add_assoc]
  · rw [if_neg (by omega)]
    refine ⟨_, rfl, fun i hi => ?_⟩
    unfold byteAt
    rw [if_pos (by omega), if_neg hk]

theorem loadRows_ok {n col : Nat} (hf : Fits a lo hi) (hn : 16 * n + 16 ≤ a.packedRows) (hs : m .src = m0 .src)
    (hc : col + 8 ≤ a.cols) :
    ∃ t, a.loadRows m (16 * n) (16 * n * a.stride + col) = .ok t ∧
      ∀ r, r < 16 → ∀ i, i < 8 → t r i = a.byteAt m0 (16 * n + r) (col + i) := by
  unfold loadRows
  refine forUpTo_total (fun j (t : Nat → Vec) => ∀ r, r < j → ∀ i, i < 8 → t r i = a.byteAt m0 (16 * n + r) (col + i))
    (fun r hr => by omega) (fun j t hj ht => ?_)
  obtain ⟨v, e, hv⟩ := loadRow_ok hf hn hs hc hj
  rw [e, C.ok_bind]
  refine ⟨_, rfl, fun r hr i hi => ?_⟩
  split
  · rename_i h; subst h; exact hv i hi
  · exact ht r (by omega) i hi

/-- The state between columns. -/
def At (a : RowCall) (lo hi : Nat) (m0 : Memory) (n col : Nat) (s : Memory × Nat) : Prop :=
  Inv a lo hi m0 n col s.1 ∧ s.2 = a.packedStride * (2 * (col / 2)) + 32 * n

theorem step_int (hf : Fits a lo hi) {n : Nat} (h : n ≤ hi) : C.int (n * a.packedStride) = .ok (n * a.packedStride) := by
  have := Nat.mul_le_mul_left a.packedStride h
  rw [Nat.mul_comm _ n] at this
  have := hf.offsets.2
  exact C.int_of (by omega)

/-- Two vectors stored one after the other. -/
theorem store2_ok {p : Nat} (w : Nat → Vec) (i : Nat) (h : p + 32 ≤ a.size .packed) :
    store2 a m p w i = .ok (wr m .packed p 32 (fun b => combine (w (i + b / 16)) (w (i + b / 16 + 8)) (b % 16))) := by
  unfold store2
  obtain ⟨s, e, hs⟩ := forUpTo_total (n := 2) (s := m)
    (body := fun k m => a.st m .packed (p + 16 * k) 16 (combine (w (i + k)) (w (i + k + 8))))
    (fun k t => t = wr m .packed p (16 * k) (fun b => combine (w (i + b / 16)) (w (i + b / 16 + 8)) (b % 16)))
    (by rw [Nat.mul_zero, wr_zero])
    (fun k t hk ht => by
      refine ⟨_, st_of (by omega), ?_⟩
      rw [ht, Nat.mul_succ, ← wr_append]
      refine wr_congr (fun b hb => ?_)
      rw [show (16 * k + b) / 16 = k by omega, show (16 * k + b) % 16 = b by omega])
  rw [e, hs]

theorem vec_ok {n v : Nat} {s : Memory × Nat} (hf : Fits a lo hi) (hn : 16 * n + 16 ≤ a.packedRows)
    (hc : lo + 8 * v + 8 ≤ a.cols) (hh : lo + 8 * v + 8 ≤ hi) (h : At a lo hi m0 n (lo + 8 * v) s) :
    ∃ s', vecStep 2 a (16 * n) (16 * n * a.stride + lo) lo v s = .ok s' ∧ At a lo hi m0 n (lo + 8 * (v + 1)) s' := by
  obtain ⟨hi1, hp⟩ := h
  have ha := hf.aligned.1
  have hsz := hf.sums.2
  have hpk := hf.packed
  obtain ⟨t, et, ht⟩ := loadRows_ok (m0 := m0) hf hn hi1.src hc
  have l1 := place_lt hf hn (show lo + 8 * v + 6 < hi by omega)
  rw [show 2 * ((lo + 8 * v + 6) / 2) = lo + 8 * v + 6 by omega, Nat.mul_add, Nat.mul_comm _ 6] at l1
  rw [show 2 * ((lo + 8 * v) / 2) = lo + 8 * v by omega] at hp
  unfold vecStep
  dsimp only
  rw [ld_of (by omega), C.ok_bind, ld_of (by omega), C.ok_bind, Nat.add_assoc, et, C.ok_bind, st_of (by omega), C.ok_bind,
    st_of (by omega), C.ok_bind, step_int hf (by omega), C.ok_bind, if_pos rfl, step_int hf (by omega), C.ok_bind,
    store2_ok _ _ (by omega), C.ok_bind, store2_ok _ _ (by omega), C.ok_bind, store2_ok _ _ (by omega), C.ok_bind,
    store2_ok _ _ (by omega), C.ok_bind]
  refine ⟨_, rfl, ?_, ?_⟩
  · generalize hcol : lo + 8 * v = col at *
    rw [show lo + 8 * (v + 1) = col + 8 by omega]
    have hca : col % 2 = 0 := by omega
    have pl : ∀ i k, k < 16 → place a (16 * n + k) (col + i) = s.2 + a.packedStride * (2 * (i / 2)) + 16 * (i % 2) + k := by
      intro i k hk
      rw [place_eq _ _ _ hk, hp, show 2 * ((col + i) / 2) = col + 2 * (i / 2) by omega, Nat.mul_add,
        show (col + i) % 2 = i % 2 by omega]
      omega
    have ps := hf.stride
    refine Inv.more hf hn (by omega) (by omega) hi1 (fun c c1 c2 k hk => ?_) (fun o ho => ?_) (fun c c1 c2 b hb => ?_)
      (fun o ho => ?_) (fun r r1 r2 => ?_)
    · obtain ⟨i, hi, rfl⟩ : ∃ i, i < 8 ∧ c = col + i := ⟨c - col, by omega, by omega⟩
      rw [pl i k hk, ← ht k hk i hi, ← combine_transposed t hi hk]
      dsimp only
      have e1 : ∀ x, x / 16 = i % 2 → ∀ y, y + i % 2 = i → combine (transposed t (y + x / 16)) (transposed t (y + x / 16 + 8)) k =
          combine (transposed t i) (transposed t (i + 8)) k := fun x hx y hy => by rw [hx, hy]
      rcases (show i / 2 = 0 ∨ i / 2 = 1 ∨ i / 2 = 2 ∨ i / 2 = 3 by omega) with h2 | h2 | h2 | h2 <;> rw [h2]
      · rw [wr_out (by omega), wr_out (by omega), wr_out (by omega), wr_in (by omega) (by omega),
          show (s.2 + a.packedStride * (2 * 0) + 16 * (i % 2) + k - s.2) % 16 = k by omega]
        exact e1 _ (by omega) 0 (by omega)
      · rw [wr_out (by omega), wr_out (by omega), wr_in (by omega) (by omega),
          show (s.2 + a.packedStride * (2 * 1) + 16 * (i % 2) + k - (s.2 + 2 * a.packedStride)) % 16 = k by omega]
        exact e1 _ (by omega) 2 (by omega)
      · rw [wr_out (by omega), wr_in (by omega) (by omega),
          show (s.2 + a.packedStride * (2 * 2) + 16 * (i % 2) + k - (s.2 + 4 * a.packedStride)) % 16 = k by omega]
        exact e1 _ (by omega) 4 (by omega)
      · rw [wr_in (by omega) (by omega),
          show (s.2 + a.packedStride * (2 * 3) + 16 * (i % 2) + k - (s.2 + 4 * a.packedStride + 2 * a.packedStride)) % 16 = k
            by omega]
        exact e1 _ (by omega) 6 (by omega)
    · have no : ∀ q, q < 4 → ¬ (s.2 + a.packedStride * (2 * q) ≤ o ∧ o < s.2 + a.packedStride * (2 * q) + 32) := fun q hq hx => by
        refine ho (col + (2 * q + (o - (s.2 + a.packedStride * (2 * q))) / 16)) (by omega) (by omega)
          ((o - (s.2 + a.packedStride * (2 * q))) % 16) (by omega) ?_
        rw [pl _ _ (by omega), show (2 * q + (o - (s.2 + a.packedStride * (2 * q))) / 16) / 2 = q by omega]
        omega
      have n0 := no 0 (by omega)
      have n1 := no 1 (by omega)
      have n2 := no 2 (by omega)
      have n3 := no 3 (by omega)
      dsimp only
      rw [wr_out (by omega), wr_out (by omega), wr_out (by omega), wr_out (by omega), wr_other (by decide), wr_other (by decide)]
    · obtain ⟨i, hi, rfl⟩ : ∃ i, i < 8 ∧ c = col + i := ⟨c - col, by omega, by omega⟩
      have es : ∑ k ∈ Finset.range 16, (a.byteAt m0 (16 * n + k) (col + i)).toInt = getH (sums16 t) i := by
        rw [sums16_lane]
        exact Finset.sum_congr rfl (fun k hk => by rw [ht k (Finset.mem_range.1 hk) i hi])
      rw [es]
      dsimp only
      rw [wr_other (by decide), wr_other (by decide), wr_other (by decide), wr_other (by decide)]
      by_cases hc4 : i < 4
      · rw [wr_out (by omega), wr_in (by omega) (by omega), show 4 * (col + i) + b - 4 * col = 4 * i + b by omega,
          vaddw_at _ _ _ hb, getS_shift, show 4 * col + 4 * i = 4 * (col + i) by omega, show 4 * 0 + i = i by omega]
      · rw [wr_in (by omega) (by omega), show 4 * (col + i) + b - 4 * (col + 4) = 4 * (i - 4) + b by omega,
          vaddw_at _ _ _ hb, getS_shift, show 4 * (col + 4) + 4 * (i - 4) = 4 * (col + i) by omega,
          show 4 * 1 + (i - 4) = i by omega]
    · dsimp only
      rw [wr_other (by decide), wr_other (by decide), wr_other (by decide), wr_other (by decide), wr_out (by omega),
        wr_out (by omega)]
    · dsimp only
      rw [wr_other r1, wr_other r1, wr_other r1, wr_other r1, wr_other r2, wr_other r2]
  · dsimp only
    rw [hp, show 2 * ((lo + 8 * (v + 1)) / 2) = (lo + 8 * v) + 8 by omega, Nat.mul_add _ _ 8]
    omega

/-! ### One column -/

theorem advance_ok {n col p : Nat} (hf : Fits a lo hi) (h : lo < hi) (hp : p = a.packedStride * (2 * (col / 2)) + 32 * n) :
    advance 2 a col p = .ok (a.packedStride * (2 * ((col + 1) / 2)) + 32 * n) := by
  unfold advance
  split
  · rw [step_int hf (show 2 ≤ hi by have := hf.aligned.2; omega), C.ok_bind, hp, show 2 * ((col + 1) / 2) = 2 * (col / 2) + 2 by omega, Nat.mul_add _ _ 2]
    exact congrArg _ (by omega)
  · rw [hp, show (col + 1) / 2 = col / 2 by omega]

theorem scalarVal_ok {n col r : Nat} (hf : Fits a lo hi) (hn : 16 * n + 16 ≤ a.packedRows) (hs : m .src = m0 .src)
    (hc : col < a.cols) (hr : r < 16) :
    a.scalarVal m (16 * n) (16 * n * a.stride + col) r = .ok (a.byteAt m0 (16 * n + r) col) := by
  unfold scalarVal byteAt
  rw [if_pos hc]
  by_cases hk : 16 * n + r < a.rows
  · have ho : r * a.stride < 2 ^ 31 := by
      have := hf.offsets.1 (16 * n + r) (by omega)
      rw [Nat.mul_add, Nat.mul_comm a.stride r] at this
      omega
    have e : 16 * n * a.stride + col + r * a.stride = a.stride * (16 * n + r) + col := by ring
    have hb := hf.src (16 * n + r) hk col hc
    rw [if_pos hk, if_pos hk, C.int_of ho, C.ok_bind, ld_of (by omega), C.ok_bind, e, hs]
    rfl
  · rw [if_neg hk, if_neg hk]

theorem scalar_ok {n col : Nat} {s : Memory × Nat} (hf : Fits a lo hi) (hn : 16 * n + 16 ≤ a.packedRows)
    (hl : lo ≤ col) (hc : col < a.cols) (hh : col < hi) (h : At a lo hi m0 n col s) :
    ∃ s', scalarStep 2 a (16 * n) (16 * n * a.stride + lo) lo col s = .ok s' ∧ At a lo hi m0 n (col + 1) s' := by
  obtain ⟨hi1, hp⟩ := h
  have hsz := hf.sums.2
  have hpk := hf.packed
  have hd := hf.depth.2
  have l1 := place_lt hf hn hh
  let q := s.2 + col % 2 * 16
  obtain ⟨⟨m1, acc⟩, e1, rfl, rfl⟩ := forUpTo_total (n := 16) (s := ((s.1, 0) : Memory × Int))
    (body := fun r (t : Memory × Int) => do
      let v ← a.scalarVal t.1 (16 * n) (16 * n * a.stride + lo + (col - lo)) r
      let acc ← C.i32 (t.2 + v.toInt)
      let m ← a.st t.1 .packed (s.2 + col % 2 * 16 + r) 1 (fun _ => v)
      .ok (m, acc))
    (fun r t => t.1 = wr s.1 .packed q r (fun k => a.byteAt m0 (16 * n + k) col) ∧
      t.2 = ∑ k ∈ Finset.range r, (a.byteAt m0 (16 * n + k) col).toInt)
    ⟨by rw [wr_zero], by simp⟩
    (fun r t hr ht => by
      obtain ⟨t1, t2⟩ := t
      obtain ⟨rfl, rfl⟩ := ht
      rw [show 16 * n * a.stride + lo + (col - lo) = 16 * n * a.stride + col by omega]
      dsimp only
      have hsum := sum_range (fun k => a.byteAt m0 (16 * n + k) col) (r + 1)
      rw [Finset.sum_range_succ] at hsum
      rw [scalarVal_ok (m0 := m0) hf hn (by rw [wr_other (by decide)]; exact hi1.src) hc hr, C.ok_bind,
        C.i32_of (by push_cast at hsum; omega) (by push_cast at hsum; omega), C.ok_bind, st_of (by omega), C.ok_bind]
      refine ⟨_, rfl, ?_, ?_⟩
      · dsimp only
        rw [← wr_append s.1 .packed q r 1]
        exact wr_congr (fun b hb => by rw [show b = 0 by omega, Nat.add_zero])
      · rw [Finset.sum_range_succ])
  have hsum := sum_range (fun k => a.byteAt m0 (16 * n + k) col) 16
  have hw : getS (fun b => wr s.1 .packed q 16 (fun k => a.byteAt m0 (16 * n + k) col) .sums (4 * col + b)) 0 =
      ∑ k ∈ Finset.range (16 * n), (a.byteAt m0 k col).toInt := by
    have u : upto n col col = 16 * n := by unfold upto; rw [if_neg (by omega), Nat.add_zero]
    have hs := sum_range (fun k => a.byteAt m0 k col) (16 * n)
    rw [getS_of (fun b hb => by rw [wr_other (by decide)]; exact hi1.sum col hl hh b hb), u]
    exact wrap32_id (by push_cast at hs; omega)
  have hall := sum_range (fun k => a.byteAt m0 k col) (16 * n + 16)
  rw [Finset.sum_range_add] at hall
  unfold scalarStep
  rw [e1, C.ok_bind]
  dsimp only
  rw [ld_of (by omega), C.ok_bind, hw, C.i32_of (by push_cast at hall; omega) (by push_cast at hall; omega), C.ok_bind, st_of (by omega), C.ok_bind,
    advance_ok hf (by omega) hp, C.ok_bind]
  refine ⟨_, rfl, ?_, rfl⟩
  have pl : ∀ k, k < 16 → place a (16 * n + k) col = q + k := by
    intro k hk
    rw [place_eq _ _ _ hk]
    show _ = s.2 + col % 2 * 16 + k
    omega
  dsimp only
  refine Inv.more hf hn hl (by omega) hi1 (fun c c1 c2 k hk => ?_) (fun o ho => ?_) (fun c c1 c2 b hb => ?_)
    (fun o ho => ?_) (fun r r1 r2 => ?_)
  · obtain rfl : c = col := by omega
    rw [pl k hk, wr_other (by decide), wr_in (by omega) (by omega), show q + k - q = k by omega]
  · rw [wr_other (by decide), wr_out]
    by_contra hx
    exact ho col le_rfl (by omega) (o - q) (by omega) (by rw [pl _ (by omega)]; omega)
  · obtain rfl : c = col := by omega
    rw [wr_in (by omega) (by omega)]
    have e : getS (fun b => s.1 .sums (4 * c + b)) 0 = ∑ k ∈ Finset.range (16 * n), (a.byteAt m0 k c).toInt := by
      rw [← hw, wr_other (by decide)]
    rw [e]
    unfold ofS
    rw [show (4 * c + b - 4 * c) % 4 = b by omega]
  · rw [wr_out (by omega), wr_other (by decide)]
  · rw [wr_other r2, wr_other r1]

theorem zero_ok {n col : Nat} {s : Memory × Nat} (hf : Fits a lo hi) (hn : 16 * n + 16 ≤ a.packedRows)
    (hl : lo ≤ col) (hc : a.cols ≤ col) (hh : col < hi) (h : At a lo hi m0 n col s) :
    ∃ s', zeroStep 2 a col s = .ok s' ∧ At a lo hi m0 n (col + 1) s' := by
  obtain ⟨hi1, hp⟩ := h
  have hpk := hf.packed
  have l1 := place_lt hf hn hh
  have z : ∀ k, a.byteAt m0 k col = 0 := fun k => by unfold byteAt; rw [if_neg (by omega)]
  have pl : ∀ k, k < 16 → place a (16 * n + k) col = s.2 + col % 2 * 16 + k := by
    intro k hk
    rw [place_eq _ _ _ hk]
    omega
  unfold zeroStep
  rw [st_of (by omega), C.ok_bind, advance_ok hf (by omega) hp, C.ok_bind]
  refine ⟨_, rfl, ?_, rfl⟩
  dsimp only
  refine Inv.more hf hn hl (by omega) hi1 (fun c c1 c2 k hk => ?_) (fun o ho => ?_) (fun c c1 c2 b hb => ?_)
    (fun o ho => ?_) (fun r r1 r2 => ?_)
  · obtain rfl : c = col := by omega
    rw [pl k hk, wr_in (by omega) (by omega), z]
  · rw [wr_out]
    by_contra hx
    exact ho col le_rfl (by omega) (o - (s.2 + col % 2 * 16)) (by omega) (by rw [pl _ (by omega)]; omega)
  · obtain rfl : c = col := by omega
    rw [wr_other (by decide), Finset.sum_congr rfl (fun k _ => by rw [z])]
    rw [show (∑ k ∈ Finset.range 16, BitVec.toInt (0 : Byte)) = 0 from rfl, Int.add_zero, byteOf_getS _ _ _ hb]
    simp only [Nat.mul_zero, Nat.zero_add]
  · rw [wr_other (by decide)]
  · rw [wr_other r1]

/-! ### 16 rows, all rows -/

theorem blockRow_ok {n : Nat} (hf : Fits a lo hi) (hn : 16 * n + 16 ≤ a.packedRows) (h : Inv a lo hi m0 n lo m) :
    ∃ m', blockRow 2 a lo hi (16 * n) m = .ok m' ∧ Inv a lo hi m0 n hi m' := by
  have ha := hf.aligned
  have ho := hf.order
  have hoff := hf.offsets
  have o1 : 16 * n * a.stride < 2 ^ 31 := by
    rw [Nat.mul_comm]; exact hoff.1 _ (by omega)
  have o2 : lo * a.packedStride < 2 ^ 31 := by
    have := Nat.mul_le_mul_left a.packedStride ho
    rw [Nat.mul_comm]
    omega
  have o3 : 16 * n * 2 < 2 ^ 31 := by
    have := hf.depth.2
    omega
  unfold blockRow
  dsimp only
  rw [C.int_of o1, C.ok_bind, C.int_of o2, C.ok_bind, C.int_of o3, C.ok_bind]
  obtain ⟨s1, e1, h1⟩ := forUpTo_total (n := (min hi a.cols - lo) / 8) (s := (m, lo * a.packedStride + 16 * n * 2))
    (body := vecStep 2 a (16 * n) (16 * n * a.stride + lo) lo) (fun v s => At a lo hi m0 n (lo + 8 * v) s)
    ⟨h, by dsimp only; rw [Nat.mul_zero, Nat.add_zero, show 2 * (lo / 2) = lo by omega, Nat.mul_comm]; omega⟩
    (fun v s hv hs => vec_ok hf hn (by omega) (by omega) hs)
  rw [e1, C.ok_bind]
  by_cases hlc : lo ≤ min hi a.cols
  · obtain ⟨s2, e2, h2⟩ := forRange_total (body := scalarStep 2 a (16 * n) (16 * n * a.stride + lo) lo)
      (lo := lo + 8 * ((min hi a.cols - lo) / 8)) (hi := min hi a.cols)
      (fun c s => At a lo hi m0 n c s) (by omega) h1 (fun c s c1 c2 hs => scalar_ok hf hn (by omega) (by omega) (by omega) hs)
    rw [e2, C.ok_bind, show max lo (min hi a.cols) = min hi a.cols by omega]
    obtain ⟨s3, e3, h3⟩ := forRange_total (body := zeroStep 2 a) (lo := min hi a.cols) (hi := hi)
      (fun c s => At a lo hi m0 n c s) (by omega) h2 (fun c s c1 c2 hs => zero_ok hf hn (by omega) (by omega) c2 hs)
    rw [e3, C.ok_bind]
    exact ⟨_, rfl, h3.1⟩
  · have e : (min hi a.cols - lo) / 8 = 0 := by omega
    rw [e] at h1 ⊢
    have e2 : forRange (lo + 8 * 0) (min hi a.cols) (scalarStep 2 a (16 * n) (16 * n * a.stride + lo) lo) s1 = .ok s1 := by
      unfold forRange
      rw [show min hi a.cols - (lo + 8 * 0) = 0 by omega]
      rfl
    rw [e2, C.ok_bind, show max lo (min hi a.cols) = lo by omega]
    obtain ⟨s3, e3, h3⟩ := forRange_total (body := zeroStep 2 a) (lo := lo) (hi := hi)
      (fun c s => At a lo hi m0 n c s) ho h1 (fun c s c1 c2 hs => zero_ok hf hn (by omega) (by omega) c2 hs)
    rw [e3, C.ok_bind]
    exact ⟨_, rfl, h3.1⟩

theorem Inv.next {n : Nat} (h : Inv a lo hi m0 n hi m) : Inv a lo hi m0 (n + 1) lo m := by
  have u : ∀ c, lo ≤ c → c < hi → upto n hi c = upto (n + 1) lo c := fun c h1 h2 => by
    unfold upto; rw [if_pos h2, if_neg (by omega)]; omega
  exact ⟨fun c h1 h2 => u c h1 h2 ▸ h.entry c h1 h2, fun c h1 h2 => u c h1 h2 ▸ h.sum c h1 h2, h.restPacked, h.restSums, h.rest⟩

theorem run_ok (hf : Fits a lo hi) : ∃ m', run 2 a lo hi m0 = .ok m' ∧
    Inv a lo hi m0 (a.packedRows / 16) lo m' := by
  have ha := hf.aligned
  have hd := hf.depth.1
  have hs := hf.sums
  have hle := hf.order
  unfold run
  rw [C.check_of (by omega), C.ok_bind, if_pos hs.1, st_of (by omega), C.ok_bind,
    show (a.packedRows + 15) / 16 = a.packedRows / 16 by omega]
  refine forUpTo_total (fun n m => Inv a lo hi m0 n lo m) ?_ (fun n m hn hm => ?_)
  · refine ⟨fun c h1 h2 k hk => ?_, fun c h1 h2 b hb => ?_, fun o _ => ?_, fun o ho => ?_, fun r r1 r2 => ?_⟩
    · unfold upto at hk
      rw [if_neg (by omega)] at hk
      omega
    · rw [wr_in (by omega) (by omega)]
      unfold upto
      rw [if_neg (by omega), Nat.mul_zero, Nat.add_zero, Finset.sum_range_zero]
      interval_cases b <;> rfl
    · rw [wr_other (by decide)]
    · rw [wr_out (by omega)]
    · rw [wr_other r2]
  · obtain ⟨m', e, h⟩ := blockRow_ok hf (by omega) hm
    exact ⟨m', e, h.next⟩

end Ruy.Arm8.Row

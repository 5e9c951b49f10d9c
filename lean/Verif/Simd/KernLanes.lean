import Verif.Simd.Kern
import Verif.Simd.MultLemmas
import Mathlib.Tactic.IntervalCases
/-
What the registers of the three kernels hold, lane by lane.
-/
namespace Ruy.Simd.Kern
open Ruy.Front (ScalarType)

theorem wrap32_add_left (a b : Int) : wrap32 (wrap32 a + b) = wrap32 (a + b) := by
  unfold wrap32; omega
theorem wrap32_add_right (a b : Int) : wrap32 (a + wrap32 b) = wrap32 (a + b) := by
  unfold wrap32; omega
theorem wrap32_sub_left (a b : Int) : wrap32 (wrap32 a - b) = wrap32 (a - b) := by
  unfold wrap32; omega
theorem wrap32_sub_right (a b : Int) : wrap32 (a - wrap32 b) = wrap32 (a - b) := by
  unfold wrap32; omega

/-- The effect of storing `n` rows. -/
def StoreOk (st : Buf Int → Nat → Nat → Reg → C (Buf Int)) (f : Int → Int) (rows : Nat) : Prop :=
  ∀ (b : Buf Int) (off : Nat) (v : Reg), off + rows ≤ b.size →
    st b off rows v = .ok ⟨b.size, fun o => if off ≤ o ∧ o < off + rows then f (v (o - off)) else b.val o⟩

/-- Conversion to the destination type on storing. -/
def conv (t : ScalarType) (x : Int) : Int :=
  match t with
  | .int8 | .uint8 => byteAs t (wrap8 x)
  | .int16 => wrap16 x
  | _ => x

/-- The kernel `isa` works lane by lane, with the multiplier `ml`. -/
structure IsaOk (isa : Isa) (ml : Int → Int → Int → Int) : Prop where
  kc : isa.kc = 8 ∨ isa.kc = 16
  add : ∀ a b i, i < isa.kc → isa.add a b i = wrap32 (a i + b i)
  sub : ∀ a b i, i < isa.kc → isa.sub a b i = wrap32 (a i - b i)
  mullo : ∀ a b i, i < isa.kc → isa.mullo a b i = wrap32 (a i * b i)
  min : ∀ a b i, i < isa.kc → isa.min a b i = Min.min (a i) (b i)
  max : ∀ a b i, i < isa.kc → isa.max a b i = Max.max (a i) (b i)
  bcast : ∀ b j i, i < isa.kc → j < isa.kc → isa.bcast b j i = b j
  expand : ∀ r i, i < 4 * isa.kc → isa.expand r i = r i
  mac : ∀ acc l r i j, i < isa.kc → j < isa.kc →
    isa.mac acc (isa.lhsLow l) (isa.lhsHigh l) (isa.dupLow r j) (isa.dupHigh r j) i =
      wrap32 (acc i + (l (4 * i) * r (4 * j) + l (4 * i + 1) * r (4 * j + 1) +
        l (4 * i + 2) * r (4 * j + 2) + l (4 * i + 3) * r (4 * j + 3)))
  mult : ∀ col m e z acc i j, i < isa.kc → j < isa.kc →
    isa.mult col m e z acc j i =
      wrap32 (ml (acc j i) (m (if col = true then j else i)) (e (if col = true then j else i)) + z)
  store : ∀ t full rows, t ≠ .float → rows ≤ isa.kc → (full = true → rows = isa.kc) →
    StoreOk (isa.store t full) (conv t) rows

/-! ### AVX2 and AVX -/

theorem mac_eq (acc l h dl dh : Reg) (i : Nat) :
    map2 add32 (map2 add32 acc (madd16 l dl)) (madd16 h dh) i =
      wrap32 (acc i + (l (2 * i) * dl (2 * i) + l (2 * i + 1) * dl (2 * i + 1) +
        h (2 * i) * dh (2 * i) + h (2 * i + 1) * dh (2 * i + 1))) := by
  unfold map2 add32 madd16
  have : ∀ a b c : Int, wrap32 (wrap32 (a + wrap32 b) + wrap32 c) = wrap32 (a + (b + c)) := by
    intro a b c; unfold wrap32; omega
  rw [this]
  congr 2; ring

theorem splitLow_at (l : Reg) (i : Nat) (hi : i < 8) :
    splitLow shuffle8 id l (2 * i) = l (4 * i) ∧
    splitLow shuffle8 id l (2 * i + 1) = l (4 * i + 1) := by
  interval_cases i <;> exact ⟨rfl, rfl⟩

theorem splitHigh_at (l : Reg) (i : Nat) (hi : i < 8) :
    splitHigh shuffle8 id l (2 * i) = l (4 * i + 2) ∧
    splitHigh shuffle8 id l (2 * i + 1) = l (4 * i + 3) := by
  interval_cases i <;> exact ⟨rfl, rfl⟩

theorem dupLow8_at (r : Reg) (i j : Nat) (hi : i < 8) (hj : j < 8) :
    dupLow8 r j (2 * i) = r (4 * j) ∧ dupLow8 r j (2 * i + 1) = r (4 * j + 1) := by
  interval_cases j <;> interval_cases i <;> exact ⟨rfl, rfl⟩

theorem dupHigh8_at (r : Reg) (i j : Nat) (hi : i < 8) (hj : j < 8) :
    dupHigh8 r j (2 * i) = r (4 * j + 2) ∧ dupHigh8 r j (2 * i + 1) = r (4 * j + 3) := by
  interval_cases j <;> interval_cases i <;> exact ⟨rfl, rfl⟩

theorem splitLowAvx_at (l : Reg) (i : Nat) (hi : i < 8) :
    splitLow (Avx.halves 16 shuffle8) cvtAvx l (2 * i) = l (4 * i) ∧
    splitLow (Avx.halves 16 shuffle8) cvtAvx l (2 * i + 1) = l (4 * i + 1) := by
  interval_cases i <;> exact ⟨rfl, rfl⟩

theorem splitHighAvx_at (l : Reg) (i : Nat) (hi : i < 8) :
    splitHigh (Avx.halves 16 shuffle8) cvtAvx l (2 * i) = l (4 * i + 2) ∧
    splitHigh (Avx.halves 16 shuffle8) cvtAvx l (2 * i + 1) = l (4 * i + 3) := by
  interval_cases i <;> exact ⟨rfl, rfl⟩

theorem dupLowAvx_at (r : Reg) (i j : Nat) (hi : i < 8) (hj : j < 8) :
    dupLowAvx r j (2 * i) = r (4 * j) ∧ dupLowAvx r j (2 * i + 1) = r (4 * j + 1) := by
  interval_cases j <;> interval_cases i <;> exact ⟨rfl, rfl⟩

theorem dupHighAvx_at (r : Reg) (i j : Nat) (hi : i < 8) (hj : j < 8) :
    dupHighAvx r j (2 * i) = r (4 * j + 2) ∧ dupHighAvx r j (2 * i + 1) = r (4 * j + 3) := by
  interval_cases j <;> interval_cases i <;> exact ⟨rfl, rfl⟩

theorem macAvx_eq (acc l h dl dh : Reg) (i : Nat) (hi : i < 8) :
    macAvx acc l h dl dh i = map2 add32 (map2 add32 acc (madd16 l dl)) (madd16 h dh) i := by
  interval_cases i <;> rfl

theorem transpose8_at (v : Nat → Reg) (i j : Nat) (hi : i < 8) (hj : j < 8) :
    transpose8 v j i = v i j := by
  interval_cases j <;> interval_cases i <;> rfl

theorem mult8_at {apply : Reg → Reg → Reg → Int → Reg} {ml : Int → Int → Int → Int}
    (h : ∀ a m e z i, i < 8 → apply a m e z i = add32 (ml (a i) (m i) (e i)) z)
    (col : Bool) (m e : Reg) (z : Int) (acc : Nat → Reg) (i j : Nat) (hi : i < 8) (hj : j < 8) :
    mult8 apply col m e z acc j i =
      wrap32 (ml (acc j i) (m (if col = true then j else i)) (e (if col = true then j else i)) + z) := by
  unfold mult8
  cases col with
  | true =>
    rw [if_pos rfl, transpose8_at _ _ _ hi hj, h _ _ _ _ _ hj, transpose8_at _ _ _ hj hi]
    rfl
  | false =>
    simp only [Bool.false_eq_true, if_false]
    rw [h _ _ _ _ _ hi]
    rfl

/-! Stores. -/

theorem put_ok {cv : Int → Int} {off n o : Nat} {r : Reg} {b : Buf Int} (h : off + o + n ≤ b.size) :
    put cv off n o r b = .ok ⟨b.size, fun x =>
      if off + o ≤ x ∧ x < off + o + n then cv (r (x - (off + o))) else b.val x⟩ := by
  unfold put storeu
  rw [if_pos h]

/-- Two stores one after the other. -/
theorem put_seq {cv : Int → Int} {off n o : Nat} {r : Reg} {b : Buf Int} {f : Nat → Int} {m : Nat}
    (ho : o = m) (h : off + (m + n) ≤ b.size)
    (hv : ∀ i, i < n → cv (r i) = f (m + i)) :
    put cv off n o r ⟨b.size, fun x => if off ≤ x ∧ x < off + m then f (x - off) else b.val x⟩ =
      .ok ⟨b.size, fun x => if off ≤ x ∧ x < off + (m + n) then f (x - off) else b.val x⟩ := by
  subst ho
  rw [put_ok (by dsimp only; omega)]
  congr 2
  funext x
  by_cases h1 : off + o ≤ x ∧ x < off + o + n
  · rw [if_pos h1, if_pos (by omega), hv _ (by omega)]
    congr 1; omega
  · rw [if_neg h1]
    dsimp only
    by_cases h2 : off ≤ x ∧ x < off + o
    · rw [if_pos h2, if_pos (by omega)]
    · rw [if_neg h2, if_neg (by omega)]

theorem put_first {cv : Int → Int} {off n : Nat} {r : Reg} {b : Buf Int} {f : Nat → Int}
    (h : off + n ≤ b.size) (hv : ∀ i, i < n → cv (r i) = f i) :
    put cv off n 0 r b =
      .ok ⟨b.size, fun x => if off ≤ x ∧ x < off + n then f (x - off) else b.val x⟩ := by
  rw [put_ok (by omega)]
  congr 2
  funext x
  rw [Nat.add_zero]
  by_cases h1 : off ≤ x ∧ x < off + n
  · rw [if_pos h1, if_pos h1, hv _ (by omega)]
  · rw [if_neg h1, if_neg h1]

theorem bytes_at (v : Reg) (i : Nat) (hi : i < 4) :
    shuffle8 (bytes32 v) (bytes32 (set1 0x0c080400)) i = wrap8 (v i) ∧
    shuffle8 (bytes32 v) (bytes32 (set1 0x0c080400)) (16 + i) = wrap8 (v (4 + i)) := by
  have key : ∀ k, wrap8 (v k / 256 ^ 0) = wrap8 (v k) := fun k => by simp
  interval_cases i <;> exact ⟨key _, key _⟩

theorem bytesAvx_at (v : Reg) (i : Nat) (hi : i < 4) :
    Avx.halves 16 shuffle8 (bytes32 v) (bytes32 (set1 0x0c080400)) i = wrap8 (v i) ∧
    Avx.halves 16 shuffle8 (bytes32 v) (bytes32 (set1 0x0c080400)) (16 + i) = wrap8 (v (4 + i)) := by
  have key : ∀ k, wrap8 (v k / 256 ^ 0) = wrap8 (v k) := fun k => by simp
  interval_cases i <;> exact ⟨key _, key _⟩

theorem word_of_bytes (x : Int) :
    wrap16 (wrap8 (x / 256 ^ 0) % 256 + 256 * wrap8 (x / 256 ^ 1)) = wrap16 x := by
  unfold wrap16 wrap8
  omega

theorem words_at (v : Reg) (i : Nat) (hi : i < 4) :
    words8 (shuffle8 (bytes32 v) (bytes64 (set1 0x0d0c090805040100))) i = wrap16 (v i) ∧
    words8 (shuffle8 (bytes32 v) (bytes64 (set1 0x0d0c090805040100))) (8 + i) = wrap16 (v (4 + i)) := by
  interval_cases i <;> exact ⟨word_of_bytes _, word_of_bytes _⟩

theorem wordsAvx_at (v : Reg) (i : Nat) (hi : i < 4) :
    words8 (Avx.halves 16 shuffle8 (bytes32 v) (bytes64 (set1 0x0d0c090805040100))) i =
      wrap16 (v i) ∧
    words8 (Avx.halves 16 shuffle8 (bytes32 v) (bytes64 (set1 0x0d0c090805040100))) (8 + i) =
      wrap16 (v (4 + i)) := by
  interval_cases i <;> exact ⟨word_of_bytes _, word_of_bytes _⟩

/-- Stores of bytes. -/
theorem nStore8_ok {sh : Reg → Reg → Reg} {cv : Int → Int} (rows : Nat) (hr : rows ≤ 8)
    (h : ∀ v : Reg, ∀ i, i < 4 → sh (bytes32 v) (bytes32 (set1 0x0c080400)) i = wrap8 (v i) ∧
      sh (bytes32 v) (bytes32 (set1 0x0c080400)) (16 + i) = wrap8 (v (4 + i))) :
    StoreOk (nStore8 sh cv) (fun x => cv (wrap8 x)) rows := by
  intro b off v hb
  have h0 : ∀ i, i < 4 → cv (ext 16 (sh (bytes32 v) (bytes32 (set1 0x0c080400))) 0 i) =
      (fun i => cv (wrap8 (v i))) i := by
    intro i hi
    dsimp only
    rw [← (h v i hi).1]; unfold ext; rw [Nat.mul_zero, Nat.zero_add]
  have h1 : ∀ i, i < 4 → cv (ext 16 (sh (bytes32 v) (bytes32 (set1 0x0c080400))) 1 i) =
      (fun i => cv (wrap8 (v i))) (4 + i) := by
    intro i hi
    dsimp only
    rw [← (h v i hi).2]; unfold ext; rw [Nat.mul_one]
  have hl : ∀ k, (∀ i, i < k → i < 4) → off + k ≤ b.size →
      put cv off k 0 (ext 16 (sh (bytes32 v) (bytes32 (set1 0x0c080400))) 0) b = _ :=
    fun k hk hs => put_first (f := fun i => cv (wrap8 (v i))) hs (fun i hi => h0 i (hk i hi))
  have hq : ∀ m n (r : Reg), off + (m + n) ≤ b.size → (∀ i, i < n → cv (r i) = cv (wrap8 (v (m + i)))) →
      put cv off n m r ⟨b.size, fun x => if off ≤ x ∧ x < off + m then cv (wrap8 (v (x - off))) else b.val x⟩ = _ :=
    fun m n r h1 h2 => put_seq (f := fun i => cv (wrap8 (v i))) rfl h1 h2
  have hrows : rows = 0 ∨ rows = 1 ∨ rows = 2 ∨ rows = 3 ∨ rows = 4 ∨ rows = 5 ∨ rows = 6 ∨ rows = 7 ∨
      rows = 8 := by omega
  rcases hrows with rfl | rfl | rfl | rfl | rfl | rfl | rfl | rfl | rfl
  · simp only [nStore8]
    congr 1
    cases b
    congr 1
    funext o
    rw [if_neg (by omega)]
  · exact put_first (f := fun i => cv (wrap8 (v i))) hb (fun i hi => by
      obtain rfl : i = 0 := by omega
      show cv (wrap8 (v 0 / 256 ^ 0)) = _
      simp)
  · exact hl 2 (by omega) hb
  · simp only [nStore8]
    rw [hl 2 (by omega) (by omega), C.ok_bind]
    exact hq 2 1 _ (by omega) (fun i hi => by
      obtain rfl : i = 0 := by omega
      exact h0 2 (by omega))
  · exact hl 4 (by omega) hb
  · simp only [nStore8]
    rw [hl 4 (by omega) (by omega), C.ok_bind]
    exact hq 4 1 _ (by omega) (fun i hi => by
      obtain rfl : i = 0 := by omega
      exact h1 0 (by omega))
  · simp only [nStore8]
    rw [hl 4 (by omega) (by omega), C.ok_bind]
    exact hq 4 2 _ (by omega) (fun i hi => h1 i (by omega))
  · simp only [nStore8]
    rw [hl 4 (by omega) (by omega), C.ok_bind,
      hq 4 2 _ (by omega) (fun i hi => h1 i (by omega)), C.ok_bind]
    exact hq 6 1 _ (by omega) (fun i hi => by
      obtain rfl : i = 0 := by omega
      exact h1 2 (by omega))
  · simp only [nStore8]
    rw [hl 4 (by omega) (by omega), C.ok_bind]
    exact hq 4 4 _ (by omega) (fun i hi => h1 i (by omega))

/-- Stores of 16-bit words. -/
theorem nStore16_ok {sh : Reg → Reg → Reg} (rows : Nat) (hr : rows ≤ 8)
    (h : ∀ v : Reg, ∀ i, i < 4 →
      words8 (sh (bytes32 v) (bytes64 (set1 0x0d0c090805040100))) i = wrap16 (v i) ∧
      words8 (sh (bytes32 v) (bytes64 (set1 0x0d0c090805040100))) (8 + i) = wrap16 (v (4 + i))) :
    StoreOk (nStore16 sh) wrap16 rows := by
  intro b off v hb
  have h0 : ∀ i, i < 4 → id (ext 8 (words8 (sh (bytes32 v) (bytes64 (set1 0x0d0c090805040100)))) 0 i) =
      (fun i => wrap16 (v i)) i := by
    intro i hi
    dsimp only [id]
    rw [← (h v i hi).1]; unfold ext; rw [Nat.mul_zero, Nat.zero_add]
  have h1 : ∀ i, i < 4 → id (ext 8 (words8 (sh (bytes32 v) (bytes64 (set1 0x0d0c090805040100)))) 1 i) =
      (fun i => wrap16 (v i)) (4 + i) := by
    intro i hi
    dsimp only [id]
    rw [← (h v i hi).2]; unfold ext; rw [Nat.mul_one]
  have hl : ∀ k, (∀ i, i < k → i < 4) → off + k ≤ b.size →
      put id off k 0 (ext 8 (words8 (sh (bytes32 v) (bytes64 (set1 0x0d0c090805040100)))) 0) b = _ :=
    fun k hk hs => put_first (f := fun i => wrap16 (v i)) hs (fun i hi => h0 i (hk i hi))
  have hq : ∀ m n (r : Reg), off + (m + n) ≤ b.size → (∀ i, i < n → id (r i) = wrap16 (v (m + i))) →
      put id off n m r ⟨b.size, fun x => if off ≤ x ∧ x < off + m then wrap16 (v (x - off)) else b.val x⟩ = _ :=
    fun m n r h1 h2 => put_seq (f := fun i => wrap16 (v i)) rfl h1 h2
  have hrows : rows = 0 ∨ rows = 1 ∨ rows = 2 ∨ rows = 3 ∨ rows = 4 ∨ rows = 5 ∨ rows = 6 ∨ rows = 7 ∨
      rows = 8 := by omega
  rcases hrows with rfl | rfl | rfl | rfl | rfl | rfl | rfl | rfl | rfl
  · simp only [nStore16]
    congr 1
    cases b
    congr 1
    funext o
    rw [if_neg (by omega)]
  · exact put_first (f := fun i => wrap16 (v i)) hb (fun i hi => by
      obtain rfl : i = 0 := by omega
      show wrap16 (v 0 / 65536 ^ 0) = _
      simp)
  · exact hl 2 (by omega) hb
  · simp only [nStore16]
    rw [hl 2 (by omega) (by omega), C.ok_bind]
    exact hq 2 1 _ (by omega) (fun i hi => by
      obtain rfl : i = 0 := by omega
      exact h0 2 (by omega))
  · exact hl 4 (by omega) hb
  · simp only [nStore16]
    rw [hl 4 (by omega) (by omega), C.ok_bind]
    exact hq 4 1 _ (by omega) (fun i hi => by
      obtain rfl : i = 0 := by omega
      exact h1 0 (by omega))
  · simp only [nStore16]
    rw [hl 4 (by omega) (by omega), C.ok_bind]
    exact hq 4 2 _ (by omega) (fun i hi => h1 i (by omega))
  · simp only [nStore16]
    rw [hl 4 (by omega) (by omega), C.ok_bind,
      hq 4 2 _ (by omega) (fun i hi => h1 i (by omega)), C.ok_bind]
    exact hq 6 1 _ (by omega) (fun i hi => by
      obtain rfl : i = 0 := by omega
      exact h1 2 (by omega))
  · simp only [nStore16]
    rw [hl 4 (by omega) (by omega), C.ok_bind]
    exact hq 4 4 _ (by omega) (fun i hi => h1 i (by omega))

/-- Stores of 32-bit lanes. -/
theorem nStore32_ok (rows : Nat) (hr : rows ≤ 8) : StoreOk nStore32 (fun x => x) rows := by
  intro b off v hb
  have h0 : ∀ i, id (ext 4 v 0 i) = v i := by
    intro i
    show v (4 * 0 + i) = v i
    rw [Nat.mul_zero, Nat.zero_add]
  have h1 : ∀ i, id (ext 4 v 1 i) = v (4 + i) := fun i => rfl
  have hl : ∀ k, off + k ≤ b.size → put id off k 0 (ext 4 v 0) b = _ :=
    fun k hs => put_first (f := v) hs (fun i _ => h0 i)
  have hq : ∀ m n (r : Reg), off + (m + n) ≤ b.size → (∀ i, i < n → id (r i) = v (m + i)) →
      put id off n m r ⟨b.size, fun x => if off ≤ x ∧ x < off + m then v (x - off) else b.val x⟩ = _ :=
    fun m n r h1 h2 => put_seq (f := v) rfl h1 h2
  have hrows : rows = 0 ∨ rows = 1 ∨ rows = 2 ∨ rows = 3 ∨ rows = 4 ∨ rows = 5 ∨ rows = 6 ∨ rows = 7 ∨
      rows = 8 := by omega
  rcases hrows with rfl | rfl | rfl | rfl | rfl | rfl | rfl | rfl | rfl
  · simp only [nStore32]
    congr 1
    cases b
    congr 1
    funext o
    rw [if_neg (by omega)]
  · exact hl 1 hb
  · exact hl 2 hb
  · simp only [nStore32]
    rw [hl 2 (by omega), C.ok_bind]
    exact hq 2 1 _ (by omega) (fun i hi => by
      obtain rfl : i = 0 := by omega
      exact h0 2)
  · exact hl 4 hb
  · simp only [nStore32]
    rw [hl 4 (by omega), C.ok_bind]
    exact hq 4 1 _ (by omega) (fun i hi => by
      obtain rfl : i = 0 := by omega
      exact h1 0)
  · simp only [nStore32]
    rw [hl 4 (by omega), C.ok_bind]
    exact hq 4 2 _ (by omega) (fun i hi => h1 i)
  · simp only [nStore32]
    rw [hl 4 (by omega), C.ok_bind,
      hq 4 2 _ (by omega) (fun i hi => h1 i), C.ok_bind]
    exact hq 6 1 _ (by omega) (fun i hi => by
      obtain rfl : i = 0 := by omega
      exact h1 2)
  · exact put_first (f := v) hb (fun i _ => rfl)

theorem store256_ok {sh : Reg → Reg → Reg}
    (h8 : ∀ v : Reg, ∀ i, i < 4 → sh (bytes32 v) (bytes32 (set1 0x0c080400)) i = wrap8 (v i) ∧
      sh (bytes32 v) (bytes32 (set1 0x0c080400)) (16 + i) = wrap8 (v (4 + i)))
    (h16 : ∀ v : Reg, ∀ i, i < 4 →
      words8 (sh (bytes32 v) (bytes64 (set1 0x0d0c090805040100))) i = wrap16 (v i) ∧
      words8 (sh (bytes32 v) (bytes64 (set1 0x0d0c090805040100))) (8 + i) = wrap16 (v (4 + i)))
    (t : ScalarType) (full : Bool) (rows : Nat) (ht : t ≠ .float) (hr : rows ≤ 8)
    (hf : full = true → rows = 8) : StoreOk (store256 sh t full) (conv t) rows := by
  intro b off v hb
  have full_eq : full = true → store256 sh t true b off rows v = store256 sh t false b off rows v := by
    intro hfull
    obtain rfl := hf hfull
    cases t <;> rfl
  have : store256 sh t full b off rows v = store256 sh t false b off rows v := by
    cases full with
    | true => exact full_eq rfl
    | false => rfl
  rw [this]
  cases t with
  | float => exact absurd rfl ht
  | int8 => exact nStore8_ok rows hr h8 b off v hb
  | uint8 => exact nStore8_ok rows hr h8 b off v hb
  | int16 => exact nStore16_ok rows hr h16 b off v hb
  | int32 => exact nStore32_ok rows hr b off v hb

theorem avx2_ok : IsaOk avx2 lane where
  kc := Or.inl rfl
  add _ _ _ _ := rfl
  sub _ _ _ _ := rfl
  mullo _ _ _ _ := rfl
  min _ _ _ _ := rfl
  max _ _ _ _ := rfl
  bcast b j i _ hj := by
    show b ((j : Int) % 8).toNat = b j
    have : j < 8 := hj
    congr 1; omega
  expand r i hi := by
    show (if i < 16 then r (16 * 0 + i) else r (16 * 1 + (i - 16))) = r i
    split
    · congr 1; omega
    · congr 1; omega
  mac acc l r i j hi hj := by
    show map2 add32 (map2 add32 acc (madd16 _ _)) (madd16 _ _) i = _
    rw [mac_eq]
    show wrap32 (acc i + (splitLow shuffle8 id l (2 * i) * dupLow8 r j (2 * i) + splitLow shuffle8 id l (2 * i + 1) * dupLow8 r j (2 * i + 1) + splitHigh shuffle8 id l (2 * i) * dupHigh8 r j (2 * i) + splitHigh shuffle8 id l (2 * i + 1) * dupHigh8 r j (2 * i + 1))) = _
    rw [(splitLow_at l i hi).1, (splitLow_at l i hi).2, (splitHigh_at l i hi).1,
      (splitHigh_at l i hi).2, (dupLow8_at r i j hi hj).1, (dupLow8_at r i j hi hj).2,
      (dupHigh8_at r i j hi hj).1, (dupHigh8_at r i j hi hj).2]
  mult col m e z acc i j hi hj := mult8_at avx2_lane col m e z acc i j hi hj
  store t full rows ht hr hf := store256_ok bytes_at words_at t full rows ht hr hf

theorem avx_ok : IsaOk avx lane where
  kc := Or.inl rfl
  add a b i hi := halves_map2 4 add32 a b i hi
  sub a b i hi := halves_map2 4 sub32 a b i hi
  mullo a b i hi := halves_map2 4 mullo32 a b i hi
  min a b i hi := halves_map2 4 Min.min a b i hi
  max a b i hi := halves_map2 4 Max.max a b i hi
  bcast _ _ _ _ _ := rfl
  expand r i hi := by
    have : i < 32 := hi
    show join 16 (cvtAvx (ext 16 r 1)) (cvtAvx (ext 16 r 0)) i = r i
    interval_cases i <;> rfl
  mac acc l r i j hi hj := by
    show macAvx acc _ _ _ _ i = _
    rw [macAvx_eq _ _ _ _ _ _ hi, mac_eq]
    show wrap32 (acc i + (splitLow (Avx.halves 16 shuffle8) cvtAvx l (2 * i) * dupLowAvx r j (2 * i) +
      splitLow (Avx.halves 16 shuffle8) cvtAvx l (2 * i + 1) * dupLowAvx r j (2 * i + 1) +
      splitHigh (Avx.halves 16 shuffle8) cvtAvx l (2 * i) * dupHighAvx r j (2 * i) +
      splitHigh (Avx.halves 16 shuffle8) cvtAvx l (2 * i + 1) * dupHighAvx r j (2 * i + 1))) = _
    rw [(splitLowAvx_at l i hi).1, (splitLowAvx_at l i hi).2, (splitHighAvx_at l i hi).1,
      (splitHighAvx_at l i hi).2, (dupLowAvx_at r i j hi hj).1, (dupLowAvx_at r i j hi hj).2,
      (dupHighAvx_at r i j hi hj).1, (dupHighAvx_at r i j hi hj).2]
  mult col m e z acc i j hi hj := mult8_at avx_lane col m e z acc i j hi hj
  store t full rows ht hr hf := store256_ok bytesAvx_at wordsAvx_at t full rows ht hr hf

/-! ### AVX-512 -/

theorem narrow_conv {t : ScalarType} (v : Reg) (i : Nat) : narrow t v i = conv t (v i) := by
  cases t <;> rfl

theorem store512_ok (t : ScalarType) (full : Bool) (rows : Nat) (ht : t ≠ .float) (hr : rows ≤ 16)
    (hf : full = true → rows = 16) : StoreOk (store512 t full) (conv t) rows := by
  intro b off v hb
  unfold store512
  rw [if_neg ht]
  cases full with
  | true =>
    obtain rfl := hf rfl
    rw [if_pos rfl]
    unfold storeu
    rw [if_pos hb]
    congr 2
  | false =>
    simp only [Bool.false_eq_true, if_false]
    unfold maskStore
    rw [if_pos (by
      intro i _ hi2
      rw [Nat.testBit_two_pow_sub_one] at hi2
      have := of_decide_eq_true hi2
      omega)]
    congr 2
    funext o
    rw [Nat.testBit_two_pow_sub_one]
    by_cases h : off ≤ o ∧ o < off + rows
    · rw [if_pos h, if_pos ⟨h.1, by omega, decide_eq_true (by omega)⟩]
      exact narrow_conv _ _
    · rw [if_neg h, if_neg (fun ⟨h1, _, h3⟩ => h ⟨h1, by have := of_decide_eq_true h3; omega⟩)]

theorem avx512_ok : IsaOk avx512 lane512 where
  kc := Or.inr rfl
  add _ _ _ _ := rfl
  sub _ _ _ _ := rfl
  mullo _ _ _ _ := rfl
  min _ _ _ _ := rfl
  max _ _ _ _ := rfl
  bcast b j i _ hj := by
    show b ((j : Int) % 16).toNat = b j
    have : j < 16 := hj
    congr 1; omega
  expand r i hi := by
    show (if i < 32 then r (32 * 0 + i) else r (32 * 1 + (i - 32))) = r i
    split
    · congr 1; omega
    · congr 1; omega
  mac acc l r i j hi hj := by
    show map2 add32 (map2 add32 acc (madd16 _ _)) (madd16 _ _) i = _
    rw [mac_eq]
    show wrap32 (acc i + (l (2 * i / 2 * 4 + 2 * i % 2) * r (2 * (2 * j) + 2 * i % 2) +
      l ((2 * i + 1) / 2 * 4 + (2 * i + 1) % 2) * r (2 * (2 * j) + (2 * i + 1) % 2) +
      srl16 l (2 * i / 2 * 4 + 2 * i % 2) * r (2 * (2 * j + 1) + 2 * i % 2) +
      srl16 l ((2 * i + 1) / 2 * 4 + (2 * i + 1) % 2) * r (2 * (2 * j + 1) + (2 * i + 1) % 2))) = _
    unfold srl16
    rw [if_pos (by omega), if_pos (by omega)]
    rw [show 2 * i / 2 * 4 + 2 * i % 2 = 4 * i by omega,
      show (2 * i + 1) / 2 * 4 + (2 * i + 1) % 2 = 4 * i + 1 by omega,
      show 2 * (2 * j) + 2 * i % 2 = 4 * j by omega,
      show 2 * (2 * j) + (2 * i + 1) % 2 = 4 * j + 1 by omega,
      show 2 * (2 * j + 1) + 2 * i % 2 = 4 * j + 2 by omega,
      show 2 * (2 * j + 1) + (2 * i + 1) % 2 = 4 * j + 3 by omega]
  mult col m e z acc i j hi hj := by
    show (if col = true then Avx512.applyCol (acc j) m e z j else Avx512.apply (acc j) m e z) i = _
    cases col with
    | true => exact avx512_col _ _ _ _ _ _ hj hi
    | false => exact avx512_lane _ _ _ _ _ hi
  store t full rows ht hr hf := store512_ok t full rows ht hr hf

end Ruy.Simd.Kern

import Verif.XFloat.Model
/-
Loads and stores of the float path, and buffers that a sequence of stores has filled in part.
-/
namespace Ruy.XFloat

variable {A : Type}

theorem load_of {n : Nat} {b : Buf A} {off : Int} {o : Nat} (he : off = o) (h : o + n ≤ b.size) :
    load n b off = .ok (fun i => b.val (o + i)) := by
  subst he
  unfold load
  rw [if_pos (by omega)]
  simp only [Int.toNat_natCast]

/-- A buffer seen as rows of `st` floats from `base`: the places (i, j) in `S` (lane i of row j) now hold `V i j`,
everything else is as before. -/
structure Part (base st : Nat) (V : Nat → Nat → A) (S : Nat → Nat → Prop) (b b' : Buf A) : Prop where
  size : b'.size = b.size
  inn : ∀ i j, i < st → S i j → b'.val (base + j * st + i) = V i j
  out : ∀ o, (∀ i j, i < st → S i j → o ≠ base + j * st + i) → b'.val o = b.val o

section
variable {base st : Nat} {V : Nat → Nat → A} {S T : Nat → Nat → Prop} {b b' b'' : Buf A}

theorem radix_inj {st i j i' j' : Nat} (hi : i < st) (hi' : i' < st) (h : j * st + i = j' * st + i') :
    i = i' ∧ j = j' := by
  have h0 : 0 < st := by omega
  have e1 : (j * st + i) / st = j := by
    rw [Nat.mul_comm, Nat.mul_add_div h0, Nat.div_eq_of_lt hi, Nat.add_zero]
  have e2 : (j' * st + i') / st = j' := by
    rw [Nat.mul_comm, Nat.mul_add_div h0, Nat.div_eq_of_lt hi', Nat.add_zero]
  have hj : j = j' := by rw [← e1, ← e2, h]
  subst hj
  omega

theorem Part.refl (b : Buf A) : Part base st V (fun _ _ => False) b b := ⟨rfl, fun _ _ _ h => h.elim, fun _ _ => rfl⟩

theorem Part.trans (h : Part base st V S b b') (h' : Part base st V T b' b'') :
    Part base st V (fun i j => S i j ∨ T i j) b b'' := by
  refine ⟨h'.size.trans h.size, fun i j hi hs => ?_, fun o ho => ?_⟩
  · by_cases ht : T i j
    · exact h'.inn i j hi ht
    · rw [h'.out _ (fun i' j' hi' ht' he => ht ?_), h.inn i j hi (hs.resolve_right ht)]
      obtain ⟨e1, e2⟩ := radix_inj (j := j) (j' := j') hi hi' (by omega)
      rw [e1, e2]; exact ht'
  · rw [h'.out o (fun i j hi ht => ho i j hi (Or.inr ht)), h.out o (fun i j hi hs => ho i j hi (Or.inl hs))]

theorem Part.iff (h : Part base st V S b b') (hST : ∀ i j, i < st → (S i j ↔ T i j)) : Part base st V T b b' :=
  ⟨h.size, fun i j hi ht => h.inn i j hi ((hST i j hi).2 ht),
    fun o ho => h.out o (fun i j hi hs => ho i j hi ((hST i j hi).1 hs))⟩

theorem Part.congr {W : Nat → Nat → A} (h : Part base st V S b b') (hVW : ∀ i j, i < st → S i j → V i j = W i j) :
    Part base st W S b b' :=
  ⟨h.size, fun i j hi hs => by rw [h.inn i j hi hs, hVW i j hi hs], h.out⟩

/-- A store within a row. -/
theorem store_part {n i0 j0 : Nat} {off : Int} {r : FReg A} (he : off = (base + j0 * st + i0 : Nat)) (hn : i0 + n ≤ st)
    (hb : base + j0 * st + i0 + n ≤ b.size) (hr : ∀ i, i < n → r i = V (i0 + i) j0) :
    ∃ b', store n b off r = .ok b' ∧ Part base st V (fun i j => i0 ≤ i ∧ i < i0 + n ∧ j = j0) b b' := by
  subst he
  unfold store
  rw [if_pos (by omega), Int.toNat_natCast]
  refine ⟨_, rfl, rfl, ?_, fun o ho => ?_⟩
  · rintro i j hi ⟨h1, h2, rfl⟩
    dsimp only
    rw [if_pos (by omega), show base + j * st + i - (base + j * st + i0) = i - i0 by omega, hr _ (by omega)]
    congr 1; omega
  · dsimp only
    refine if_neg (fun h => ho (o - (base + j0 * st)) j0 (by omega) ⟨by omega, by omega, rfl⟩ (by omega))

/-- A store of whole rows. -/
theorem store_rows {n j0 : Nat} {off : Int} {r : FReg A} (h0 : 0 < st) (he : off = (base + j0 * st : Nat))
    (hb : base + j0 * st + st * n ≤ b.size) (hr : ∀ i j, i < st → j < n → r (j * st + i) = V i (j0 + j)) :
    ∃ b', store (st * n) b off r = .ok b' ∧ Part base st V (fun _ j => j0 ≤ j ∧ j < j0 + n) b b' := by
  subst he
  unfold store
  rw [if_pos (by push_cast at hb ⊢; omega), Int.toNat_natCast]
  refine ⟨_, rfl, rfl, ?_, fun o ho => ?_⟩
  · rintro i j hi ⟨h1, h2⟩
    obtain ⟨d, rfl⟩ := Nat.exists_eq_add_of_le h1
    have e : (j0 + d) * st = j0 * st + d * st := Nat.add_mul _ _ _
    have l : d * st + st ≤ st * n := by
      rw [← Nat.succ_mul, Nat.mul_comm st]; exact Nat.mul_le_mul_right _ (by omega)
    dsimp only
    rw [if_pos (by omega), show base + (j0 + d) * st + i - (base + j0 * st) = d * st + i by omega]
    exact hr i d hi (by omega)
  · dsimp only
    refine if_neg (fun h => ?_)
    obtain ⟨x, rfl⟩ := Nat.exists_eq_add_of_le h.1
    have e := Nat.div_add_mod x st
    have l := Nat.mod_lt x h0
    have hq : x / st < n := Nat.div_lt_of_lt_mul (by omega)
    refine ho (x % st) (j0 + x / st) l ⟨Nat.le_add_right _ _, by omega⟩ ?_
    rw [Nat.add_mul, Nat.mul_comm (x / st) st]
    omega

/-- A loop that fills a part in each iteration. -/
theorem part_loop {n : Nat} {body : Nat → Buf A → C (Buf A)} {S : Nat → Nat → Nat → Prop}
    (h : ∀ k t, k < n → t.size = b.size → ∃ t', body k t = .ok t' ∧ Part base st V (S k) t t') :
    ∃ b', forUpTo n body b = .ok b' ∧ Part base st V (fun i j => ∃ k, k < n ∧ S k i j) b b' := by
  obtain ⟨b', e, hp⟩ := forUpTo_total (n := n) (s := b) (body := body)
    (fun m t => Part base st V (fun i j => ∃ k, k < m ∧ S k i j) b t)
    ((Part.refl b).iff (fun i j _ => ⟨False.elim, fun ⟨_, hk, _⟩ => by omega⟩))
    (by
      intro k t hk ht
      obtain ⟨t', e, hp⟩ := h k t hk ht.size
      refine ⟨t', e, (ht.trans hp).iff (fun i j _ => ⟨?_, ?_⟩)⟩
      · rintro (⟨m, h1, h2⟩ | h2)
        · exact ⟨m, by omega, h2⟩
        · exact ⟨k, by omega, h2⟩
      · rintro ⟨m, h1, h2⟩
        by_cases hm : m = k
        · subst hm; exact Or.inr h2
        · exact Or.inl ⟨m, by omega, h2⟩)
  exact ⟨b', e, hp⟩

end

end Ruy.XFloat

import Verif.Neon.Reorder
import Verif.Neon.A55Code
import Verif.Neon.Accum
/-
`Kernel8bitNeonA55ish` computes the same as `Kernel8bitNeon`, block by block.  It loads operands in
halves, later, and uses more general-purpose registers for this.
-/
namespace Ruy.Neon

/-! ### Loading a register in halves -/

theorem numByte_le8 (f : Nat → Byte) {k : Nat} (hk : k < 8) : numByte (le8 f 0) k = f k := by
  unfold numByte le8 le4 le2
  have h : ∀ i, (f i).toNat < 256 := fun i => (f i).isLt
  have h0 := h 0; have h1 := h 1; have h2 := h 2; have h3 := h 3
  have h4 := h 4; have h5 := h 5; have h6 := h 6; have h7 := h 7
  apply BitVec.eq_of_toNat_eq
  rw [BitVec.toNat_ofNat]
  simp only [Nat.zero_add, Nat.reduceAdd]
  interval_cases k <;> norm_num <;> omega

/-- `ldr d, ldr x, ins d[1]`: all sixteen bytes. -/
theorem ins_veq (f : Nat → Byte) {g h : Nat → Byte} (hg : ∀ b, g b = f b) (hh : ∀ b, h b = f (8 + b)) :
    Veq (fun b => if b / 8 = 1 then numByte (Val.int (le8 h 0)).num (b % 8) else lower g b) f := by
  intro b hb
  show (if b / 8 = 1 then numByte (le8 h 0) (b % 8) else lower g b) = f b
  split
  · rw [numByte_le8 h (by omega), hh]
    exact congrArg f (by omega)
  · unfold lower
    rw [if_pos (by omega), hg]

theorem out_inv {e : Env} {p : Val} {o n : Nat} (h : out e p o n = false) :
    ∃ r a, p = .ptr r a ∧ a + o + n ≤ e.size r := by
  unfold out at h
  rw [Bool.or_eq_false_iff] at h
  cases p with
  | int a => exact absurd h.1 (by show ¬ true = false; decide)
  | ptr r a =>
    refine ⟨r, a, rfl, ?_⟩
    have := h.2
    rw [Bool.eq_false_iff, Ne, Nat.blt_eq] at this
    exact Nat.le_of_not_lt this

theorem outN_ptr {e : Env} {r : Region} {a o n : Nat} (ho : o ≤ a) (h : a - o + n ≤ e.size r) :
    outN e (.ptr r a) o n = false := by
  unfold outN
  have h1 : Nat.blt a o = false := by
    rw [Bool.eq_false_iff]; intro hb; rw [Nat.blt_eq] at hb; omega
  have : Nat.blt (e.size r) (a - o + n) = false := by
    rw [Bool.eq_false_iff]; intro hb; rw [Nat.blt_eq] at hb; omega
  simp only [Val.isPtr, Val.region, Val.off, this, h1, Bool.not_true, Bool.or_self]

/-! ### The loads -/

/-- `Kernel8bitNeon` loads the next eight registers at once. -/
def loadAll : List Instr := [.ldq 0 lhsPtr 0 16, .ldq 1 lhsPtr 0 16, .ldq 2 lhsPtr 0 16, .ldq 3 lhsPtr 0 16,
  .ldq 4 rhsPtr 0 16, .ldq 5 rhsPtr 0 16, .ldq 6 rhsPtr 0 16, .ldq 7 rhsPtr 0 16]

/-- `Kernel8bitNeonA55ish` in the loop over depth. -/
def loadLoop : List Instr := [.ldd 4 rhsPtr 0 0, .ldx 7 rhsPtr 8, .ldd 5 rhsPtr 16 0, .ldx 8 rhsPtr 24,
  .addXI lhsPtr lhsPtr 64, .addXI rhsPtr rhsPtr 64, .ldxN 3 lhsPtr 56, .ldxN 4 lhsPtr 40, .ldxN 5 lhsPtr 24,
  .ldxN 6 lhsPtr 8, .ldxN 9 rhsPtr 24, .lddN 6 rhsPtr 32, .lddN 0 lhsPtr 64, .lddN 1 lhsPtr 48, .insD 4 1 7,
  .insD 5 1 8, .lddN 2 lhsPtr 32, .insD 0 1 3, .lddN 3 lhsPtr 16, .insD 1 1 4, .insD 2 1 5, .insD 3 1 6,
  .lddN 7 rhsPtr 16, .ldxN 10 rhsPtr 8, .insD 6 1 9, .insD 7 1 10]

/-- `Kernel8bitNeonA55ish` for the next block: before adding the bias, while adding it, before the
multiplication, during the multiplication, before storing. -/
def load1 : List Instr := [.ldd 0 lhsPtr 0 0]
def load2 : List Instr := [.ldd 1 lhsPtr 16 0, .ldd 2 lhsPtr 32 0, .ldd 3 lhsPtr 48 0, .ldd 4 rhsPtr 0 0,
  .ldd 5 rhsPtr 16 0, .ldd 6 rhsPtr 32 0, .ldd 7 rhsPtr 48 0]
def load3 : List Instr := [.ldx 1 lhsPtr 8]
def load4 : List Instr := [.ldx 2 lhsPtr 24, .ldx 3 lhsPtr 40, .ldx 4 lhsPtr 56, .insD 0 1 1, .ldx 1 rhsPtr 8,
  .insD 1 1 2, .ldx 2 rhsPtr 24, .insD 2 1 3, .ldx 3 rhsPtr 40, .insD 3 1 4, .ldx 4 rhsPtr 56]
def load5 : List Instr := [.insD 4 1 1, .insD 5 1 2, .insD 6 1 3, .insD 7 1 4, .addXI lhsPtr lhsPtr 64,
  .addXI rhsPtr rhsPtr 64]

theorem loadAll_inv {e : Env} {u : St} (h : (exec e loadAll u).bad = false) :
    ∃ r a q b, u.x lhsPtr = .ptr r a ∧ u.x rhsPtr = .ptr q b ∧ a + 64 ≤ e.size r ∧ b + 64 ≤ e.size q ∧
      u.bad = false := by
  have h' : (u.bad || out e (u.x lhsPtr) 0 16 || out e (addVal (u.x lhsPtr) 16) 0 16 ||
    out e (addVal (addVal (u.x lhsPtr) 16) 16) 0 16 || out e (addVal (addVal (addVal (u.x lhsPtr) 16) 16) 16) 0 16 ||
    out e (u.x rhsPtr) 0 16 || out e (addVal (u.x rhsPtr) 16) 0 16 ||
    out e (addVal (addVal (u.x rhsPtr) 16) 16) 0 16 ||
    out e (addVal (addVal (addVal (u.x rhsPtr) 16) 16) 16) 0 16) = false := h
  simp only [Bool.or_eq_false_iff] at h'
  obtain ⟨⟨⟨⟨⟨⟨⟨⟨hb, h0⟩, _⟩, _⟩, h3⟩, k0⟩, _⟩, _⟩, k3⟩ := h'
  obtain ⟨r, a, hl, _⟩ := out_inv h0
  obtain ⟨q, b, hr, _⟩ := out_inv k0
  rw [hl] at h3
  rw [hr] at k3
  obtain ⟨r', a', e1, h4⟩ := out_inv h3
  obtain ⟨q', b', e2, k4⟩ := out_inv k3
  cases e1
  cases e2
  exact ⟨r, a, q, b, hl, hr, by omega, by omega, hb⟩

/-- The state with both pointers written out. -/
def atPtr (u : St) (r : Region) (a : Nat) (q : Region) (b : Nat) : St :=
  { u with x := put (put u.x 34 (.ptr r a)) 35 (.ptr q b) }

theorem atPtr_eq {u : St} {r q : Region} {a b : Nat} (hl : u.x lhsPtr = .ptr r a) (hr : u.x rhsPtr = .ptr q b) :
    u = atPtr u r a q b := by
  refine st_ext (fun k => ?_) (fun _ => rfl) rfl rfl rfl rfl
  show u.x k = put (put u.x 34 (.ptr r a)) 35 (.ptr q b) k
  by_cases h : k = 35
  · subst h; rw [put_self]; exact hr
  rw [put_ne _ _ h]
  by_cases h : k = 34
  · subst h; rw [put_self]; exact hl
  rw [put_ne _ _ h]

/-- The same registers are loaded. -/
theorem loads_agree {e : Env} {u : St} {b : List Instr} {d : List Nat} (h : (exec e loadAll u).bad = false)
    (hm : b.any Instr.wm = false) (hx : ∀ k ∈ wxs b, k ∈ d ∨ k = 34 ∨ k = 35) (hv : ∀ k ∈ wvs b, k < 8)
    (hz : ∀ u, (exec e b u).z = u.z ∧ (exec e b u).lt = u.lt)
    (hp : ∀ r a q c, (exec e b (atPtr u r a q c)).x 34 = .ptr r (a + 64) ∧
      (exec e b (atPtr u r a q c)).x 35 = .ptr q (c + 64))
    (hl : ∀ r a q c, ∀ i, i < 4 →
      Veq ((exec e b (atPtr u r a q c)).v i) (fun k => u.m r (a + 16 * i + k)) ∧
      Veq ((exec e b (atPtr u r a q c)).v (4 + i)) (fun k => u.m q (c + 16 * i + k)))
    (hb : ∀ r a q c, a + 64 ≤ e.size r → c + 64 ≤ e.size q → u.bad = false →
      (exec e b (atPtr u r a q c)).bad = false) :
    Agree d [] (exec e loadAll u) (exec e b u) := by
  obtain ⟨r, a, q, c, h1, h2, h3, h4, h5⟩ := loadAll_inv h
  have hu := atPtr_eq h1 h2
  have hm1 : (exec e loadAll u).m = u.m := exec_m (by decide)
  have hm2 : (exec e b u).m = u.m := exec_m hm
  refine ⟨?_, ?_, hm2.trans hm1.symm, ?_, ?_, ?_⟩
  · intro k hk hd
    by_cases h34 : k = 34
    · subst h34
      rw [hu, (hp r a q c).1]; rfl
    by_cases h35 : k = 35
    · subst h35
      rw [hu, (hp r a q c).2]; rfl
    rw [exec_x (b := loadAll), exec_x (b := b)]
    · intro hm
      rcases hx k hm with h | h | h
      · exact hd h
      · exact h34 h
      · exact h35 h
    · intro hm
      have : ∀ k ∈ wxs loadAll, k = 34 ∨ k = 35 := by decide
      rcases this k hm with h | h
      · exact h34 h
      · exact h35 h
  · intro k hk _
    rcases Nat.lt_or_ge k 8 with h8 | h8
    · have ha : ∀ i, i < 4 → Veq (fun k => u.m r (a + 16 * i + k)) ((exec e loadAll u).v i) ∧
          Veq (fun k => u.m q (c + 16 * i + k)) ((exec e loadAll u).v (4 + i)) := by
        intro i hi
        rw [hu]
        interval_cases i <;> exact ⟨fun _ _ => rfl, fun _ _ => rfl⟩
      have hl' := hl r a q c
      rw [← hu] at hl'
      rcases Nat.lt_or_ge k 4 with h4 | h4
      · exact (hl' k h4).1.trans (ha k h4).1
      · obtain ⟨i, rfl⟩ := Nat.exists_eq_add_of_le h4
        exact (hl' i (by omega)).2.trans (ha i (by omega)).2
    · rw [exec_v (b := loadAll), exec_v (b := b)]
      · exact Veq.refl _
      · exact fun hm => absurd (hv k hm) (by omega)
      · intro hm
        have : ∀ k ∈ wvs loadAll, k < 8 := by decide
        exact absurd (this k hm) (by omega)
  · rw [(hz u).1]; rfl
  · rw [(hz u).2]; rfl
  · rw [h, hu]; exact hb r a q c h3 h4 h5

theorem loadLoop_agree {e : Env} {u : St} (h : (exec e loadAll u).bad = false) :
    Agree [3, 4, 5, 6, 7, 8, 9, 10] [] (exec e loadAll u) (exec e loadLoop u) := by
  refine loads_agree h (by decide) (by decide) (by decide) (fun _ => ⟨rfl, rfl⟩) (fun r a q c => ⟨rfl, rfl⟩)
    (fun r a q c i hi => ?_) (fun r a q c h1 h2 h3 => ?_)
  · interval_cases i
    · exact ⟨ins_veq _ (fun b => congrArg (u.m r) (by show a + 64 - 64 + b = _; omega))
        (fun b => congrArg (u.m r) (by show a + 64 - 56 + b = _; omega)),
        ins_veq _ (fun b => congrArg (u.m q) (by show c + 0 + b = _; omega))
        (fun b => congrArg (u.m q) (by show c + 8 + b = _; omega))⟩
    · exact ⟨ins_veq _ (fun b => congrArg (u.m r) (by show a + 64 - 48 + b = _; omega))
        (fun b => congrArg (u.m r) (by show a + 64 - 40 + b = _; omega)),
        ins_veq _ (fun b => congrArg (u.m q) (by show c + 16 + b = _; omega))
        (fun b => congrArg (u.m q) (by show c + 24 + b = _; omega))⟩
    · exact ⟨ins_veq _ (fun b => congrArg (u.m r) (by show a + 64 - 32 + b = _; omega))
        (fun b => congrArg (u.m r) (by show a + 64 - 24 + b = _; omega)),
        ins_veq _ (fun b => congrArg (u.m q) (by show c + 64 - 32 + b = _; omega))
        (fun b => congrArg (u.m q) (by show c + 64 - 24 + b = _; omega))⟩
    · exact ⟨ins_veq _ (fun b => congrArg (u.m r) (by show a + 64 - 16 + b = _; omega))
        (fun b => congrArg (u.m r) (by show a + 64 - 8 + b = _; omega)),
        ins_veq _ (fun b => congrArg (u.m q) (by show c + 64 - 16 + b = _; omega))
        (fun b => congrArg (u.m q) (by show c + 64 - 8 + b = _; omega))⟩
  · show (u.bad || out e (.ptr q c) 0 8 || out e (.ptr q c) 8 8 || out e (.ptr q c) 16 8 || out e (.ptr q c) 24 8 ||
      outN e (.ptr r (a + 64)) 56 8 || outN e (.ptr r (a + 64)) 40 8 || outN e (.ptr r (a + 64)) 24 8 ||
      outN e (.ptr r (a + 64)) 8 8 || outN e (.ptr q (c + 64)) 24 8 || outN e (.ptr q (c + 64)) 32 8 ||
      outN e (.ptr r (a + 64)) 64 8 || outN e (.ptr r (a + 64)) 48 8 || false || false ||
      outN e (.ptr r (a + 64)) 32 8 || false || outN e (.ptr r (a + 64)) 16 8 || false || false || false ||
      outN e (.ptr q (c + 64)) 16 8 || outN e (.ptr q (c + 64)) 8 8 || false || false) = false
    rw [h3]
    repeat' first
      | rw [out_ptr (by omega)]
      | rw [outN_ptr (by omega) (by omega)]
    rfl

/-- The loads for the next block. -/
theorem loadNext_agree {e : Env} {u : St} (h : (exec e loadAll u).bad = false) :
    Agree [1, 2, 3, 4] [] (exec e loadAll u) (exec e (load1 ++ load2 ++ load3 ++ load4 ++ load5) u) := by
  refine loads_agree h (by decide) (by decide) (by decide) (fun _ => ⟨rfl, rfl⟩) (fun r a q c => ⟨rfl, rfl⟩)
    (fun r a q c i hi => ?_) (fun r a q c h1 h2 h3 => ?_)
  · interval_cases i
    · exact ⟨ins_veq _ (fun b => congrArg (u.m r) (by show a + 0 + b = _; omega))
        (fun b => congrArg (u.m r) (by show a + 8 + b = _; omega)),
        ins_veq _ (fun b => congrArg (u.m q) (by show c + 0 + b = _; omega))
        (fun b => congrArg (u.m q) (by show c + 8 + b = _; omega))⟩
    · exact ⟨ins_veq _ (fun b => congrArg (u.m r) (by show a + 16 + b = _; omega))
        (fun b => congrArg (u.m r) (by show a + 24 + b = _; omega)),
        ins_veq _ (fun b => congrArg (u.m q) (by show c + 16 + b = _; omega))
        (fun b => congrArg (u.m q) (by show c + 24 + b = _; omega))⟩
    · exact ⟨ins_veq _ (fun b => congrArg (u.m r) (by show a + 32 + b = _; omega))
        (fun b => congrArg (u.m r) (by show a + 40 + b = _; omega)),
        ins_veq _ (fun b => congrArg (u.m q) (by show c + 32 + b = _; omega))
        (fun b => congrArg (u.m q) (by show c + 40 + b = _; omega))⟩
    · exact ⟨ins_veq _ (fun b => congrArg (u.m r) (by show a + 48 + b = _; omega))
        (fun b => congrArg (u.m r) (by show a + 56 + b = _; omega)),
        ins_veq _ (fun b => congrArg (u.m q) (by show c + 48 + b = _; omega))
        (fun b => congrArg (u.m q) (by show c + 56 + b = _; omega))⟩
  · show (u.bad || out e (.ptr r a) 0 8 || out e (.ptr r a) 16 8 || out e (.ptr r a) 32 8 || out e (.ptr r a) 48 8 ||
      out e (.ptr q c) 0 8 || out e (.ptr q c) 16 8 || out e (.ptr q c) 32 8 || out e (.ptr q c) 48 8 ||
      out e (.ptr r a) 8 8 || out e (.ptr r a) 24 8 || out e (.ptr r a) 40 8 || out e (.ptr r a) 56 8 || false ||
      out e (.ptr q c) 8 8 || false || out e (.ptr q c) 24 8 || false || out e (.ptr q c) 40 8 || false ||
      out e (.ptr q c) 56 8 || false || false || false || false) = false
    rw [h3]
    repeat' first
      | rw [out_ptr (by omega)]
    rfl

end Ruy.Neon

import Verif.NeonF.Job
import Verif.Neon.Block
import Verif.Neon.Final
/-
Facts about runs, registers and memory of the machine of `NeonF/Isa.lean`.
-/
namespace Ruy.NeonF
open Ruy.Neon (sgn sgn_of)
variable {A : Type}

/-! ### Runs -/

def Reach (e : Env A) (P : List Block) (c c' : Nat × St A) : Prop := ∃ n, run e P n c = c'

theorem run_add (e : Env A) (P : List Block) (a b : Nat) (c : Nat × St A) :
    run e P (a + b) c = run e P b (run e P a c) := by
  induction a generalizing c with
  | zero => simp [run]
  | succ a ih => rw [Nat.succ_add]; exact ih _

theorem Reach.trans {e : Env A} {P : List Block} {a b c : Nat × St A} (h : Reach e P a b)
    (h' : Reach e P b c) : Reach e P a c := by
  obtain ⟨n, hn⟩ := h
  obtain ⟨k, hk⟩ := h'
  exact ⟨n + k, by rw [run_add, hn, hk]⟩

theorem Reach.block {e : Env A} {P : List Block} {i : Nat} {b : Block} {s : St A} {l : Nat}
    (h : P[i]? = some b) (hl : next (exec e b.body s) b.term = l) :
    Reach e P (i, s) (l, exec e b.body s) := by
  refine ⟨1, ?_⟩
  show bstep e P (i, s) = _
  unfold bstep
  simp only [h]
  rw [hl]

theorem stops_of {e : Env A} {P : List Block} {s s' : St A} (h : Reach e P (0, s) (P.length, s')) : Stops e P s s' := by
  obtain ⟨N, hN⟩ := h
  refine ⟨N, fun n hn => ?_⟩
  obtain ⟨k, rfl⟩ := Nat.exists_eq_add_of_le hn
  rw [run_add, hN]
  induction k with
  | zero => rfl
  | succ k ih =>
    show run e P k (bstep e P (P.length, s')) = _
    have : bstep e P (P.length, s') = (P.length, s') := by
      unfold bstep
      simp
    rw [this]
    exact ih (by omega)

theorem stops_unique {e : Env A} {P : List Block} {s a b : St A} (ha : Stops e P s a) (hb : Stops e P s b) : a = b := by
  obtain ⟨n, hn⟩ := ha
  obtain ⟨k, hk⟩ := hb
  have h1 := hn (n + k) (by omega)
  rw [hk (n + k) (by omega)] at h1
  exact (Prod.mk.inj h1).2.symm

/-! ### Registers that a part of the program leaves alone -/

def Same : List Nat → St A → St A → Prop
  | [], _, _ => True
  | r :: l, s, s' => s'.x r = s.x r ∧ Same l s s'

theorem Same.get {l : List Nat} {s s' : St A} (h : Same l s s') {r : Nat} (hr : r ∈ l) :
    s'.x r = s.x r := by
  induction l with
  | nil => simp at hr
  | cons a l ih =>
    rcases List.mem_cons.1 hr with rfl | hr
    · exact h.1
    · exact ih h.2 hr

theorem same_of_x {l : List Nat} {s s' : St A} (h : s'.x = s.x) : Same l s s' := by
  induction l with
  | nil => trivial
  | cons a l ih => exact ⟨by rw [h], ih⟩

theorem Same.refl (l : List Nat) (s : St A) : Same l s s := same_of_x rfl

theorem Same.trans {l : List Nat} {a b c : St A} (h : Same l a b) (h' : Same l b c) : Same l a c := by
  induction l with
  | nil => trivial
  | cons r l ih => exact ⟨h'.1.trans h.1, ih h.2 h'.2⟩

theorem Same.sub {l k : List Nat} {a b : St A} (h : Same l a b) (hk : ∀ r ∈ k, r ∈ l) : Same k a b := by
  induction k with
  | nil => trivial
  | cons r k ih =>
    exact ⟨h.get (hk r (by simp)), ih (fun r' hr' => hk r' (by simp [hr']))⟩

/-- Everything but the registers of the depth loops. -/
def keepLoop : List Nat := [6, 7, 8, 9, 10, 11, 12, 32, 33, 36, 37, 38, 39, 40, 41, 42]
/-- What is needed until a block is stored. -/
def midRegs : List Nat := [8, 9, 10, 11, 12, 36, 37, 38, 39, 40, 41, 42]
def keepStore : List Nat := [8, 9, 10, 11, 12, 32, 33, 34, 35, 36, 38, 39, 40, 41, 42]
def keepCopy : List Nat := [1, 2, 8, 9, 10, 11, 12, 32, 33, 34, 35, 36, 37, 38, 39, 40, 41, 42]

macro "keep" : tactic => `(tactic| repeat' (first | exact trivial | refine ⟨rfl, ?_⟩))

/-! ### Accesses -/

theorem out_ptr {e : Env A} {r : Region} {a o n : Nat} (ho : o % 4 = 0) (h : a + o / 4 + n ≤ e.size r) :
    out e (.ptr r (4 * a)) o n = false := by
  unfold out
  have h1 : (4 * a + o) / 4 = a + o / 4 := by omega
  have h2 : (4 * a + o) % 4 = 0 := by omega
  have : Nat.blt (e.size r) (a + o / 4 + n) = false := by
    rw [Bool.eq_false_iff]; intro hb; rw [Nat.blt_eq] at hb; omega
  simp only [Val.isPtr, Val.region, Val.off, h1, h2, this]; rfl

theorem outN_ptr {e : Env A} {r : Region} {a o n : Nat} (ho : o % 4 = 0) (h1 : o ≤ 4 * a)
    (h : a - o / 4 + n ≤ e.size r) : outN e (.ptr r (4 * a)) o n = false := by
  unfold outN
  have h1' : (4 * a - o) / 4 = a - o / 4 := by omega
  have h2 : (4 * a - o) % 4 = 0 := by omega
  have h3 : Nat.blt (e.size r) (a - o / 4 + n) = false := by
    rw [Bool.eq_false_iff]; intro hb; rw [Nat.blt_eq] at hb; omega
  have h4 : Nat.blt (4 * a) o = false := by
    rw [Bool.eq_false_iff]; intro hb; rw [Nat.blt_eq] at hb; omega
  simp only [Val.isPtr, Val.region, Val.off, h1', h2, h3, h4]; rfl

/-- Words of the memory at the start of the call. -/
def Job.vec (j : Job A) (r : Region) (o : Nat) : Vec A := fun i => j.m r (o + i)

theorem words_eq {j : Job A} {s : St A} {r : Region} {a o b : Nat} (h : s.m r = j.m r) (ho : 4 * a + o = 4 * b) :
    words s (.ptr r (4 * a)) o = j.vec r b := by
  unfold words Job.vec
  simp only [Val.region, Val.off, h]
  rw [ho, Nat.mul_div_cancel_left _ (by omega)]

theorem wordsN_eq {j : Job A} {s : St A} {r : Region} {a o b : Nat} (h : s.m r = j.m r) (ho : 4 * a - o = 4 * b) :
    wordsN s (.ptr r (4 * a)) o = j.vec r b := by
  unfold wordsN Job.vec
  simp only [Val.region, Val.off, h]
  rw [ho, Nat.mul_div_cancel_left _ (by omega)]

/-- `n` times `ldq` with post-increment. -/
def addN (p : Val A) : Nat → Val A
  | 0 => p
  | n + 1 => addVal (addN p n) 16

theorem addN_ptr (r : Region) (o n : Nat) : addN (.ptr r (4 * o) : Val A) n = .ptr r (4 * (o + 4 * n)) := by
  induction n with
  | zero => rfl
  | succ n ih => rw [addN, ih, addVal]; exact congrArg _ (by omega)

theorem sgn_lt {a b : Nat} (ha : a < 2 ^ 31) (hb : b < 2 ^ 31) :
    decide (sgn (Val.int a : Val A).num < sgn (Val.int b : Val A).num) = decide (a < b) := by
  rw [decide_eq_decide]
  show sgn a < sgn b ↔ _
  rw [sgn_of ha, sgn_of hb]
  omega

theorem sgn_eq {a b : Nat} (ha : a < 2 ^ 31) (hb : b < 2 ^ 31) :
    decide (sgn (Val.int a : Val A).num = sgn (Val.int b : Val A).num) = decide (a = b) := by
  rw [decide_eq_decide]
  show sgn a = sgn b ↔ _
  rw [sgn_of ha, sgn_of hb]
  omega

/-! ### Writes -/

theorem wr_congr {m : Region → Nat → A} {r : Region} {o n : Nat} {f g : Nat → A}
    (h : ∀ b, b < n → f b = g b) : wr m r o n f = wr m r o n g := by
  funext r' b
  unfold wr
  split_ifs with hb
  · exact h _ (by omega)
  · rfl

theorem wr_append (m : Region → Nat → A) (r : Region) (o a b : Nat) (f : Nat → A) :
    wr (wr m r o a f) r (o + a) b (fun i => f (a + i)) = wr m r o (a + b) f := by
  funext r' c
  unfold wr
  by_cases hr : r' = r
  · by_cases h1 : o + a ≤ c ∧ c < o + a + b
    · rw [if_pos ⟨hr, h1.1, h1.2⟩, if_pos ⟨hr, by omega, by omega⟩]
      exact congrArg f (by omega)
    · by_cases h2 : o ≤ c ∧ c < o + a
      · rw [if_neg (fun h => h1 h.2), if_pos ⟨hr, h2.1, h2.2⟩, if_pos ⟨hr, h2.1, by omega⟩]
      · rw [if_neg (fun h => h1 h.2), if_neg (fun h => h2 h.2), if_neg (fun h => by omega)]
  · rw [if_neg (fun h => hr h.1), if_neg (fun h => hr h.1), if_neg (fun h => hr h.1)]

theorem wr_zero (m : Region → Nat → A) (r : Region) (o : Nat) (f : Nat → A) : wr m r o 0 f = m := by
  funext r' b
  unfold wr
  rw [if_neg (by omega)]

theorem wr_other {m : Region → Nat → A} {r r' : Region} {o n : Nat} {f : Nat → A} (h : r' ≠ r) :
    wr m r o n f r' = m r' := by
  funext b
  unfold wr
  rw [if_neg (fun hh => h hh.1)]

/-- Memory after writing `w` columns of `n` words; column `i` is found at `8 * i` of `T`. -/
def cols (M : Region → Nat → A) (T : Nat → A) (dp stride n : Nat) : Nat → Region → Nat → A
  | 0 => M
  | w + 1 => wr (cols M T dp stride n w) .dst (dp + w * stride) n (fun b => T (8 * w + b))

theorem cols_other {M : Region → Nat → A} {T : Nat → A} {dp stride n w : Nat} {r : Region}
    (h : r ≠ .dst) : cols M T dp stride n w r = M r := by
  induction w with
  | zero => rfl
  | succ w ih => rw [cols, wr_other h, ih]

theorem cols_dst {M M' : Region → Nat → A} {T : Nat → A} {dp stride n w : Nat} (h : M .dst = M' .dst) :
    cols M T dp stride n w .dst = cols M' T dp stride n w .dst := by
  induction w with
  | zero => exact h
  | succ w ih =>
    funext o
    simp only [cols, wr]
    rw [ih]

theorem cols_congr {M : Region → Nat → A} {T T' : Nat → A} {dp stride n w : Nat}
    (h : ∀ i, i < w → ∀ b, b < n → T (8 * i + b) = T' (8 * i + b)) :
    cols M T dp stride n w = cols M T' dp stride n w := by
  induction w with
  | zero => rfl
  | succ w ih =>
    rw [cols, cols, ih (fun i hi b hb => h i (by omega) b hb)]
    exact wr_congr (fun b hb => h w (by omega) b hb)

/-- What is written. -/
theorem cols_at {M : Region → Nat → A} {T : Nat → A} {dp stride n w : Nat} (hn : n ≤ stride)
    {i : Nat} (hi : i < w) {b : Nat} (hb : b < n) :
    cols M T dp stride n w .dst (dp + i * stride + b) = T (8 * i + b) := by
  induction w with
  | zero => omega
  | succ w ih =>
    rw [cols]
    unfold wr
    rcases Nat.lt_or_ge i w with h | h
    · have : (i + 1) * stride ≤ w * stride := Nat.mul_le_mul_right _ h
      rw [Nat.add_mul, Nat.one_mul] at this
      rw [if_neg (by omega)]
      exact ih h
    · obtain rfl : i = w := by omega
      rw [if_pos ⟨rfl, by omega, by omega⟩]
      exact congrArg T (by omega)

/-- What is left alone. -/
theorem cols_not {M : Region → Nat → A} {T : Nat → A} {dp stride n w : Nat} {o : Nat}
    (h : ∀ i, i < w → ∀ b, b < n → o ≠ dp + i * stride + b) :
    cols M T dp stride n w .dst o = M .dst o := by
  induction w with
  | zero => rfl
  | succ w ih =>
    rw [cols]
    unfold wr
    rw [if_neg (fun hh => h w (by omega) (o - (dp + w * stride)) (by omega) (by omega))]
    exact ih (fun i hi b hb => h i (by omega) b hb)

end Ruy.NeonF

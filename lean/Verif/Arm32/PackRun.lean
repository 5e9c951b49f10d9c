import Verif.Arm32.PackJob
import Verif.Arm32.Block
import Verif.NeonF.PackRun
/-
Running the ARM32 pack function for floats.
-/
namespace Ruy.Arm32.Pack
open Ruy.Neon (sgn sgn_of)
open Ruy.NeonF (St Val Region Ops Vec Same same_of_x addVal out out_ptr words store wr sgn_eq)
open Ruy.NeonF.FPack (beq_dec and_high and_low)
open PJob
variable {A : Type}

/-! ### Memory -/

/-- Full blocks of 4 rows. -/
def full (j : PJob A) : Nat := j.rows / 4
/-- Where block `t` of column `c` is read. -/
def pos (j : PJob A) (t c : Nat) : Nat := j.off c + j.adv c * t

theorem pos_succ (j : PJob A) (t c : Nat) : pos j (t + 1) c = pos j t c + j.adv c := by
  unfold pos; ring

/-- Memory after `n` rows. -/
def stored (j : PJob A) (n : Nat) : Region → Nat → A := fun r o =>
  if r = .packed ∧ j.packedBase ≤ o ∧ o < j.packedBase + j.width * n ∧ (o - j.packedBase) % j.width < 4 then
    j.raw ((o - j.packedBase) % j.width) ((o - j.packedBase) / j.width)
  else j.m r o

theorem stored_zero (j : PJob A) : stored j 0 = j.m := by
  funext r o
  unfold stored
  rw [if_neg (by omega)]

theorem stored_other (j : PJob A) {r : Region} (hr : r ≠ .packed) (n : Nat) : stored j n r = j.m r := by
  funext o
  unfold stored
  rw [if_neg (fun h => hr h.1)]

theorem stored_succ {j : PJob A} (hw : j.width = 4 ∨ j.width = 8) {n a : Nat} {q : Vec A}
    (ha : a = j.packedBase + j.width * n)
    (hq : ∀ b, b < 4 → q b = j.raw b n) : wr (stored j n) .packed a 4 q = stored j (n + 1) := by
  subst ha
  funext r o
  unfold wr
  by_cases hr : r = .packed
  · subst hr
    simp only [true_and]
    generalize hW : j.width = W at *
    by_cases h : j.packedBase + W * n ≤ o ∧ o < j.packedBase + W * n + 4
    · rw [if_pos h, hq _ (by omega)]
      unfold stored
      rw [hW]
      rw [if_pos ⟨rfl, by rcases hw with rfl | rfl <;> omega, by rcases hw with rfl | rfl <;> omega,
        by rcases hw with rfl | rfl <;> omega⟩]
      congr 1 <;> rcases hw with rfl | rfl <;> omega
    · rw [if_neg h]
      unfold stored
      rw [hW]
      by_cases h' : j.packedBase ≤ o ∧ o < j.packedBase + W * n ∧ (o - j.packedBase) % W < 4
      · rw [if_pos ⟨rfl, h'⟩, if_pos ⟨rfl, by omega, by rcases hw with rfl | rfl <;> omega, by omega⟩]
      · rw [if_neg (fun hh => h' hh.2), if_neg (fun hh => by rcases hw with rfl | rfl <;> omega)]
  · simp only [hr, false_and, if_false]
    unfold stored
    simp only [hr, false_and, if_false]

/-- `n` rows are stored, column `c` is read from offset `p c` next. -/
structure At (j : PJob A) (n : Nat) (p : Nat → Nat) (s : St A) : Prop where
  src : ∀ c, c < 4 → s.x (48 + c) = .ptr (j.reg c) (4 * p c)
  packed : s.x 52 = .ptr .packed (4 * (j.packedBase + j.width * n))
  inc : s.x 54 = .int j.srcInc
  rows : s.x 58 = .int j.rows
  stride : s.x 59 = .int (4 * j.width)
  mem : s.m = stored j n
  ok : s.bad = false

def keepA : List Nat := [48, 49, 50, 51, 52, 54, 58, 59]

/-- Only registers that do not matter have changed. -/
theorem At.of {j : PJob A} {n : Nat} {p : Nat → Nat} {s s' : St A} (h : At j n p s) (h1 : Same keepA s s')
    (h2 : s'.m = s.m) (h3 : s'.bad = false) : At j n p s' := by
  refine ⟨fun c hc => ?_, ?_, ?_, ?_, ?_, ?_, h3⟩
  · rw [h1.get (by interval_cases c <;> decide)]; exact h.src c hc
  · rw [h1.get (by decide)]; exact h.packed
  · rw [h1.get (by decide)]; exact h.inc
  · rw [h1.get (by decide)]; exact h.rows
  · rw [h1.get (by decide)]; exact h.stride
  · rw [h2]; exact h.mem

/-! ### Pieces of the program -/

/-- The registers with the transposed rows. -/
def rowReg : Nat → Nat
  | 0 => 8 | 1 => 10 | 2 => 9 | _ => 11

theorem trans_eq (e : Env A) (s : St A) :
    (∀ u, u < 4 → ∀ b, b < 4 → (exec e trans4 s).v (rowReg u) b = s.v b u) ∧ (exec e trans4 s).x = s.x ∧
    (exec e trans4 s).m = s.m ∧ (exec e trans4 s).bad = s.bad ∧ (exec e trans4 s).z = s.z := by
  cases s
  exact ⟨fun u hu b hb => by interval_cases u <;> interval_cases b <;> rfl, rfl, rfl, rfl, rfl⟩

/-- The step of `src_ptr` number `c`. -/
def stepOf (i c : Nat) : Nat := (i % 2 ^ 32 &&& 2 ^ c) * 2 ^ (4 - c) % 2 ^ 32

theorem load_eq (e : Env A) (s : St A) :
    (∀ c, c < 4 → (exec e load4 s).v c = words s (s.x (48 + c)) 0) ∧
    (∀ c, c < 4 → (exec e load4 s).x (48 + c) = addVal (addVal (s.x (48 + c)) 0) (stepOf (s.x 54).num c)) ∧
    (∀ u, u < 4 → (exec e load4 s).v (rowReg u) = s.v (rowReg u)) ∧
    Same [1, 2, 52, 54, 58, 59] s (exec e load4 s) ∧ (exec e load4 s).m = s.m ∧
    (exec e load4 s).bad = (s.bad || out e.base (s.x 48) 0 4 || !(s.x 54).isInt || !(addVal (s.x 48) 0).isPtr || !true ||
      out e.base (s.x 49) 0 4 || !(s.x 54).isInt || !(addVal (s.x 49) 0).isPtr || !true ||
      out e.base (s.x 50) 0 4 || !(s.x 54).isInt || !(addVal (s.x 50) 0).isPtr || !true ||
      out e.base (s.x 51) 0 4 || !(s.x 54).isInt || !(addVal (s.x 51) 0).isPtr || !true) := by
  cases s
  exact ⟨fun c hc => by interval_cases c <;> rfl, fun c hc => by interval_cases c <;> rfl,
    fun u hu => by interval_cases u <;> rfl, by keep, rfl, rfl⟩

/-- Storing row `u` of a block. -/
def st (q : Nat) (s : St A) : Region → Nat → A := store s (s.x 52) 0 4 (s.v q)

theorem out_eq (e : Env A) (q : Nat) (s : St A) :
    (exec e (out1 q) s).m = wr s.m (s.x 52).region (((s.x 52).off + 0) / 4) 4 (s.v q) ∧ (exec e (out1 q) s).v = s.v ∧
    (exec e (out1 q) s).x 52 = addVal (s.x 52) ((s.x 59).num * 2 ^ 0 % 2 ^ 32) ∧
    Same [1, 2, 48, 49, 50, 51, 54, 58, 59] s (exec e (out1 q) s) ∧
    (exec e (out1 q) s).bad = (s.bad || out e.base (s.x 52) 0 4 || !(s.x 52).isPtr || !(s.x 59).isInt) ∧
    (exec e (out1 q) s).z = s.z := by
  cases s
  exact ⟨rfl, rfl, rfl, by keep, rfl, rfl⟩

theorem exec_append (e : Env A) (a b : List Instr) (s : St A) : exec e (a ++ b) s = exec e b (exec e a s) := by
  induction a generalizing s with
  | nil => rfl
  | cons i a ih => exact ih _

theorem row_eq (e : Env A) (k : Nat) (s : St A) :
    (∀ c, c < 4 → (exec e (row k) s).x (48 + c) = addVal (s.x (48 + c)) 4) ∧
    (∀ c, c < 4 → ∀ b, (exec e (row k) s).v c b = bif Nat.beq b k then words s (s.x (48 + c)) 0 0 else s.v c b) ∧
    Same [2, 52, 54, 58, 59] s (exec e (row k) s) ∧ (exec e (row k) s).m = s.m ∧
    (exec e (row k) s).bad = (s.bad || out e.base (s.x 48) 0 1 || out e.base (s.x 49) 0 1 ||
      out e.base (s.x 50) 0 1 || out e.base (s.x 51) 0 1) := by
  cases s
  exact ⟨fun c hc => by interval_cases c <;> rfl, fun c hc b => by interval_cases c <;> rfl, by keep, rfl, rfl⟩

theorem cmp_eq (e : Env A) (k : Nat) (s : St A) : (exec e [.cmpI 2 k] s).x = s.x ∧ (exec e [.cmpI 2 k] s).v = s.v ∧
    (exec e [.cmpI 2 k] s).m = s.m ∧ (exec e [.cmpI 2 k] s).z = decide (sgn (s.x 2).num = sgn k) ∧
    (exec e [.cmpI 2 k] s).bad = (s.bad || !(s.x 2).isInt) := by
  cases s; exact ⟨rfl, rfl, rfl, rfl, rfl⟩

theorem cmp12_eq (e : Env A) (s : St A) : (exec e [.cmp 1 2] s).x = s.x ∧ (exec e [.cmp 1 2] s).v = s.v ∧
    (exec e [.cmp 1 2] s).m = s.m ∧ (exec e [.cmp 1 2] s).z = decide (sgn (s.x 1).num = sgn (s.x 2).num) ∧
    (exec e [.cmp 1 2] s).bad = (s.bad || !(s.x 1).isInt || !(s.x 2).isInt) := by
  cases s; exact ⟨rfl, rfl, rfl, rfl, rfl⟩

theorem add_eq (e : Env A) (s : St A) : (exec e [.addI 1 1 4] s).x 1 = .int (((s.x 1).num + 4) % 2 ^ 32) ∧
    (exec e [.addI 1 1 4] s).v = s.v ∧ (exec e [.addI 1 1 4] s).m = s.m ∧
    Same (2 :: keepA) s (exec e [.addI 1 1 4] s) ∧ (exec e [.addI 1 1 4] s).bad = (s.bad || !(s.x 1).isInt) := by
  cases s; exact ⟨rfl, rfl, rfl, by keep, rfl⟩

theorem mov_eq (e : Env A) (k : Nat) (s : St A) : (exec e [.movI 1 k] s).v = s.v ∧ (exec e [.movI 1 k] s).m = s.m ∧
    Same (2 :: keepA) s (exec e [.movI 1 k] s) ∧ (exec e [.movI 1 k] s).bad = s.bad := by
  cases s; exact ⟨rfl, rfl, by keep, rfl⟩

/-! ### Full blocks -/

theorem stepOf_eq (j : PJob A) {c : Nat} (hc : c < 4) : stepOf j.srcInc c = 4 * j.adv c := by
  unfold srcInc adv
  interval_cases c <;> cases j.inc 0 <;> cases j.inc 1 <;> cases j.inc 2 <;> cases j.inc 3 <;> rfl

theorem in_src {j : PJob A} (hf : Fits j) {c t : Nat} (hc : c < 4) (ht : t < full j) :
    pos j t c + 4 ≤ j.size (j.reg c) := by
  unfold full at ht
  have := hf.src c hc (4 * t + 3) (by omega)
  rw [show (4 * t + 3) / 4 = t by omega, show (4 * t + 3) % 4 = 3 by omega] at this
  unfold pos
  omega

/-- Block `t` of 4 rows of the source is in registers 0, …, 3. -/
def Blk (j : PJob A) (t : Nat) (v : Nat → Vec A) : Prop := ∀ c, c < 4 → ∀ b, b < 4 → v c b = j.raw c (4 * t + b)

/-- The transposed block `t` is in registers 8, …, 11. -/
def Rows (j : PJob A) (t : Nat) (v : Nat → Vec A) : Prop :=
  ∀ u, u < 4 → ∀ b, b < 4 → v (rowReg u) b = j.raw b (4 * t + u)

theorem loaded {j : PJob A} (hf : Fits j) {n t : Nat} (ht : t < full j) {s : St A} (h : At j n (pos j t) s) :
    At j n (pos j (t + 1)) (exec j.env load4 s) ∧ Blk j t (exec j.env load4 s).v ∧
    (∀ u, u < 4 → (exec j.env load4 s).v (rowReg u) = s.v (rowReg u)) ∧ Same [1, 2] s (exec j.env load4 s) := by
  obtain ⟨h1, h2, h3, h4, h5, h6⟩ := load_eq j.env s
  generalize exec j.env load4 s = s' at *
  have hin : ∀ c, c < 4 → out j.env.base (s.x (48 + c)) 0 4 = false := fun c hc => by
    rw [h.src c hc]
    exact out_ptr rfl (by have := in_src hf hc ht; show pos j t c + 0 / 4 + 4 ≤ j.size _; omega)
  refine ⟨⟨fun c hc => ?_, ?_, ?_, ?_, ?_, ?_, ?_⟩, fun c hc b hb => ?_, h3, h4.sub (by decide)⟩
  · rw [h2 c hc, h.src c hc, h.inc]
    show Val.ptr _ (4 * pos j t c + 0 + stepOf j.srcInc c) = _
    rw [stepOf_eq j hc, pos_succ]
    exact congrArg _ (by ring)
  · rw [h4.get (by decide)]; exact h.packed
  · rw [h4.get (by decide)]; exact h.inc
  · rw [h4.get (by decide)]; exact h.rows
  · rw [h4.get (by decide)]; exact h.stride
  · rw [h5]; exact h.mem
  · rw [h6, h.ok, show out _ (s.x 48) 0 4 = false from hin 0 (by omega), show out _ (s.x 49) 0 4 = false from hin 1 (by omega),
      show out _ (s.x 50) 0 4 = false from hin 2 (by omega), show out _ (s.x 51) 0 4 = false from hin 3 (by omega),
      show s.x 48 = _ from h.src 0 (by omega), show s.x 49 = _ from h.src 1 (by omega),
      show s.x 50 = _ from h.src 2 (by omega), show s.x 51 = _ from h.src 3 (by omega), h.inc]
    rfl
  · rw [h1 c hc]
    unfold words
    rw [h.src c hc, h.mem]
    show stored j n (j.reg c) ((4 * _ + 0) / 4 + b) = _
    rw [stored_other j (hf.reg c hc), show (4 * pos j t c + 0) / 4 = pos j t c by omega]
    unfold PJob.raw pos
    rw [show (4 * t + b) / 4 = t by omega, show (4 * t + b) % 4 = b by omega]

/-- One row is stored. -/
theorem stored1 {j : PJob A} (hf : Fits j) {n : Nat} (hn : n < j.rows) {p : Nat → Nat} {s : St A} {q : Nat}
    (h : At j n p s) (hq : ∀ b, b < 4 → s.v q b = j.raw b n) :
    At j (n + 1) p (exec j.env (out1 q) s) ∧ (exec j.env (out1 q) s).v = s.v ∧ Same [1, 2] s (exec j.env (out1 q) s) ∧
    (exec j.env (out1 q) s).z = s.z := by
  obtain ⟨h1, h2, h3, h4, h5, h6⟩ := out_eq j.env q s
  generalize exec j.env (out1 q) s = s' at *
  have hp := hf.packed n hn
  refine ⟨⟨fun c hc => ?_, ?_, ?_, ?_, ?_, ?_, ?_⟩, h2, h4.sub (by decide), h6⟩
  · rw [h4.get (by interval_cases c <;> decide)]; exact h.src c hc
  · rw [h3, h.packed, h.stride]
    show Val.ptr _ (4 * (j.packedBase + j.width * n) + 4 * j.width * 2 ^ 0 % 2 ^ 32) = _
    rw [Nat.mod_eq_of_lt (by rcases hf.width with e | e <;> rw [e] <;> decide)]
    exact congrArg _ (by ring)
  · rw [h4.get (by decide)]; exact h.inc
  · rw [h4.get (by decide)]; exact h.rows
  · rw [h4.get (by decide)]; exact h.stride
  · rw [h1, h.mem, h.packed]
    exact stored_succ hf.width (by show (4 * _ + 0) / 4 = _; omega) hq
  · rw [h5, h.ok, h.packed, h.stride, out_ptr rfl (by show _ + 0 / 4 + 4 ≤ j.size .packed; omega)]; rfl

theorem store4_eq : store4 = out1 8 ++ (out1 10 ++ (out1 9 ++ out1 11)) := rfl

/-- A block is stored. -/
theorem storedBlk {j : PJob A} (hf : Fits j) {t : Nat} (ht : t < full j) {p : Nat → Nat} {s : St A}
    (h : At j (4 * t) p s) (hr : Rows j t s.v) :
    At j (4 * (t + 1)) p (exec j.env store4 s) ∧ (exec j.env store4 s).v = s.v ∧ Same [1, 2] s (exec j.env store4 s) := by
  rw [store4_eq, exec_append, exec_append, exec_append]
  unfold full at ht
  obtain ⟨a1, v1, x1, -⟩ := stored1 hf (by omega) h (q := 8) (fun b hb => hr 0 (by omega) b hb)
  generalize exec j.env (out1 8) s = s1 at *
  obtain ⟨a2, v2, x2, -⟩ := stored1 hf (by omega) a1 (q := 10) (fun b hb => by rw [v1]; exact hr 1 (by omega) b hb)
  generalize exec j.env (out1 10) s1 = s2 at *
  obtain ⟨a3, v3, x3, -⟩ := stored1 hf (by omega) a2 (q := 9) (fun b hb => by rw [v2, v1]; exact hr 2 (by omega) b hb)
  generalize exec j.env (out1 9) s2 = s3 at *
  obtain ⟨a4, v4, x4, -⟩ := stored1 hf (by omega) a3 (q := 11) (fun b hb => by rw [v3, v2, v1]; exact hr 3 (by omega) b hb)
  exact ⟨by rw [show 4 * (t + 1) = 4 * t + 1 + 1 + 1 + 1 by ring]; exact a4, by rw [v4, v3, v2, v1],
    x1.trans (x2.trans (x3.trans x4))⟩

/-- A block is transposed. -/
theorem turned {j : PJob A} {n t : Nat} {p : Nat → Nat} {s : St A} (h : At j n p s) (hb : Blk j t s.v) :
    At j n p (exec j.env trans4 s) ∧ Rows j t (exec j.env trans4 s).v ∧ (exec j.env trans4 s).x = s.x := by
  obtain ⟨h1, h2, h3, h4, -⟩ := trans_eq j.env s
  generalize exec j.env trans4 s = s' at *
  exact ⟨h.of (same_of_x h2) h3 (by rw [h4]; exact h.ok), fun u hu b hb' => by rw [h1 u hu b hb']; exact hb b hb' u hu, h2⟩

/-- Block `t` is loaded, the ones before are stored. -/
structure Mid (j : PJob A) (t : Nat) (s : St A) : Prop where
  inv : At j (4 * t) (pos j (t + 1)) s
  blk : Blk j t s.v
  one : s.x 1 = .int (4 * (t + 1))
  two : s.x 2 = .int (4 * full j)

theorem compared {j : PJob A} (hf : Fits j) {n t : Nat} {p : Nat → Nat} {s : St A} (h : At j n p s) (ht : t ≤ full j)
    (h1 : s.x 1 = .int (4 * t)) (h2 : s.x 2 = .int (4 * full j)) :
    At j n p (exec j.env [.cmp 1 2] s) ∧ (exec j.env [.cmp 1 2] s).v = s.v ∧ (exec j.env [.cmp 1 2] s).x = s.x ∧
      (exec j.env [.cmp 1 2] s).z = decide (t = full j) := by
  obtain ⟨a1, a2, a3, a4, a5⟩ := cmp12_eq j.env s
  generalize exec j.env [.cmp 1 2] s = s' at *
  have := hf.rows
  refine ⟨h.of (same_of_x a1) a3 (by rw [a5, h.ok, h1, h2]; rfl), a2, a1, ?_⟩
  rw [a4, h1, h2]
  unfold full at *
  refine (sgn_eq (A := A) (by omega) (by omega)).trans ?_
  rw [decide_eq_decide]
  omega

theorem added {j : PJob A} (hf : Fits j) {n t : Nat} {p : Nat → Nat} {s : St A} (h : At j n p s) (ht : t < full j)
    (h1 : s.x 1 = .int (4 * t)) : At j n p (exec j.env [.addI 1 1 4] s) ∧ (exec j.env [.addI 1 1 4] s).v = s.v ∧
      (exec j.env [.addI 1 1 4] s).x 1 = .int (4 * (t + 1)) ∧ (exec j.env [.addI 1 1 4] s).x 2 = s.x 2 := by
  obtain ⟨a1, a2, a3, a4, a5⟩ := add_eq j.env s
  generalize exec j.env [.addI 1 1 4] s = s' at *
  have := hf.rows
  refine ⟨h.of (a4.sub (by decide)) a3 (by rw [a5, h.ok, h1]; rfl), a2, ?_, a4.get (by decide)⟩
  rw [a1, h1]
  unfold full at *
  show Val.int ((4 * t + 4) % 2 ^ 32) = _
  exact congrArg _ (by omega)

theorem first_step {j : PJob A} (hf : Fits j) (h0 : 0 < full j) {s : St A} (h : At j 0 (pos j 0) s)
    (h1 : s.x 1 = .int 0) (h2 : s.x 2 = .int (4 * full j)) :
    Mid j 0 (exec j.env p1.body s) ∧ (exec j.env p1.body s).z = decide (0 + 1 = full j) := by
  have e : p1.body = load4 ++ ([.addI 1 1 4] ++ [.cmp 1 2]) := rfl
  rw [e, exec_append, exec_append]
  obtain ⟨a1, a2, -, a4⟩ := loaded hf h0 h
  generalize exec j.env load4 s = s1 at *
  obtain ⟨b1, b2, b3, b4⟩ := added hf (t := 0) a1 h0 ((a4.get (by decide)).trans h1)
  generalize exec j.env [.addI 1 1 4] s1 = s2 at *
  have e2 : s2.x 2 = .int (4 * full j) := b4.trans ((a4.get (by decide)).trans h2)
  obtain ⟨c1, c2, c3, c4⟩ := compared hf (t := 1) b1 (by omega) b3 e2
  generalize exec j.env [.cmp 1 2] s2 = s3 at *
  exact ⟨⟨c1, by rw [c2, b2]; exact a2, by rw [c3]; exact b3, by rw [c3]; exact e2⟩, c4⟩

theorem body_step {j : PJob A} (hf : Fits j) {t : Nat} (ht : t + 1 < full j) {s : St A} (h : Mid j t s) :
    Mid j (t + 1) (exec j.env p2.body s) ∧ (exec j.env p2.body s).z = decide (t + 2 = full j) := by
  show Mid j (t + 1) (exec j.env ([.addI 1 1 4] ++ (trans4 ++ (load4 ++ (store4 ++ [.cmp 1 2])))) s) ∧
    (exec j.env ([.addI 1 1 4] ++ (trans4 ++ (load4 ++ (store4 ++ [.cmp 1 2])))) s).z = _
  rw [exec_append, exec_append, exec_append, exec_append]
  obtain ⟨b1, b2, b3, b4⟩ := added hf h.inv ht h.one
  generalize exec j.env [.addI 1 1 4] s = s1 at *
  obtain ⟨c1, c2, c3⟩ := turned b1 (t := t) (by rw [b2]; exact h.blk)
  generalize exec j.env trans4 s1 = s2 at *
  obtain ⟨d1, d2, d3, d4⟩ := loaded hf ht c1
  generalize exec j.env load4 s2 = s3 at *
  obtain ⟨f1, f2, f3⟩ := storedBlk hf (by omega) d1 (fun u hu b hb => by rw [d3 u hu]; exact c2 u hu b hb)
  generalize exec j.env store4 s3 = s4 at *
  have e1 : s4.x 1 = .int (4 * (t + 1 + 1)) := by
    rw [f3.get (by decide), d4.get (by decide), c3]; exact b3
  have e2 : s4.x 2 = .int (4 * full j) := by
    rw [f3.get (by decide), d4.get (by decide), c3, b4]; exact h.two
  obtain ⟨g1, g2, g3, g4⟩ := compared hf (t := t + 2) f1 (by omega) e1 e2
  generalize exec j.env [.cmp 1 2] s4 = s5 at *
  exact ⟨⟨g1, by rw [g2, f2]; exact d2, by rw [g3]; exact e1, by rw [g3]; exact e2⟩, g4⟩

theorem loop {j : PJob A} (hf : Fits j) : ∀ n t s, t + n + 2 = full j → Mid j t s →
    ∃ s', Reach j.env code (2, s) (3, s') ∧ Mid j (full j - 1) s' := by
  intro n
  induction n with
  | zero =>
    intro t s hn h
    obtain ⟨h', hz⟩ := body_step hf (by omega) h
    refine ⟨_, Reach.block (b := p2) rfl ?_, by rw [show full j - 1 = t + 1 by omega]; exact h'⟩
    show (bif !(exec j.env p2.body s).z then 2 else 3) = 3
    rw [hz, decide_eq_true (by omega)]; rfl
  | succ n ih =>
    intro t s hn h
    obtain ⟨h', hz⟩ := body_step hf (by omega) h
    obtain ⟨s', r, hs'⟩ := ih (t + 1) _ (by omega) h'
    refine ⟨s', Reach.trans (Reach.block (b := p2) rfl ?_) r, hs'⟩
    show (bif !(exec j.env p2.body s).z then 2 else 3) = 2
    rw [hz, decide_eq_false (by omega)]; rfl

theorem last_step {j : PJob A} (hf : Fits j) (h0 : 0 < full j) {s : St A} (h : Mid j (full j - 1) s) :
    At j (4 * full j) (pos j (full j)) (exec j.env p3.body s) := by
  show At j _ _ (exec j.env (trans4 ++ store4) s)
  rw [exec_append]
  have h1 := h.inv
  rw [show full j - 1 + 1 = full j by omega] at h1
  obtain ⟨c1, c2, -⟩ := turned h1 h.blk
  generalize exec j.env trans4 s = s2 at *
  have := (storedBlk hf (by omega) c1 c2).1
  rw [show full j - 1 + 1 = full j by omega] at this
  exact this

theorem k0_eq (e : Env A) (s : St A) : (exec e p0.body s).x 1 = .int 0 ∧
    (exec e p0.body s).x 2 = .int ((s.x 58).num % 2 ^ 32 &&& 4294967292) ∧
    (exec e p0.body s).z = decide (sgn 0 = sgn ((s.x 58).num % 2 ^ 32 &&& 4294967292)) ∧
    Same keepA s (exec e p0.body s) ∧ (exec e p0.body s).m = s.m ∧
    (exec e p0.body s).bad = (s.bad || !(s.x 58).isInt || !true || !true) := by
  cases s; exact ⟨rfl, rfl, rfl, by keep, rfl, rfl⟩

/-- All full blocks: label 3 is reached. -/
theorem blocks {j : PJob A} (hf : Fits j) {s : St A} (h : At j 0 (pos j 0) s) :
    ∃ s', Reach j.env code (0, s) (4, s') ∧ At j (4 * full j) (pos j (full j)) s' := by
  obtain ⟨h1, h2, h3, h4, h5, h6⟩ := k0_eq j.env s
  have nx : ∀ l, (bif (exec j.env p0.body s).z then 4 else 1) = l → Reach j.env code (0, s) (l, exec j.env p0.body s) :=
    fun l hl => Reach.block (b := p0) rfl hl
  generalize exec j.env p0.body s = s1 at *
  have hr := hf.rows
  have hn : (s.x 58).num % 2 ^ 32 &&& 4294967292 = 4 * full j := by
    rw [h.rows]; exact and_high j.rows hr
  rw [hn] at h2 h3
  have hfull : full j = j.rows / 4 := rfl
  have h3 : s1.z = decide (full j = 0) := by
    rw [h3, decide_eq_decide, show sgn 0 = 0 from rfl, sgn_of (by omega)]
    omega
  have hat : At j 0 (pos j 0) s1 := h.of h4 h5 (by rw [h6, h.ok, h.rows]; rfl)
  rcases Nat.eq_zero_or_pos (full j) with h0 | h0
  · refine ⟨s1, nx 4 (by rw [h3, decide_eq_true (by omega)]; rfl), ?_⟩
    rw [h0]; exact hat
  · have r1 := nx 1 (by rw [h3, decide_eq_false (by omega)]; rfl)
    obtain ⟨m1, z1⟩ := first_step hf h0 hat h1 h2
    have nx1 : ∀ l, (bif (exec j.env p1.body s1).z then 3 else 2) = l →
        Reach j.env code (1, s1) (l, exec j.env p1.body s1) := fun l hl => Reach.block (b := p1) rfl hl
    generalize exec j.env p1.body s1 = s2 at *
    have fin : ∀ s3, Mid j (full j - 1) s3 → Reach j.env code (0, s) (3, s3) →
        ∃ s', Reach j.env code (0, s) (4, s') ∧ At j (4 * full j) (pos j (full j)) s' := fun s3 h3 r3 =>
      ⟨_, r3.trans (Reach.block (b := p3) rfl rfl), last_step hf h0 h3⟩
    rcases (by omega : full j = 1 ∨ 1 < full j) with hone | hmore
    · exact fin s2 (by rw [hone]; exact m1) (r1.trans (nx1 3 (by rw [z1, decide_eq_true (by omega)]; rfl)))
    · obtain ⟨s3, r3, m3⟩ := loop hf (full j - 2) 0 s2 (by omega) m1
      exact fin s3 m3 ((r1.trans (nx1 2 (by rw [z1, decide_eq_false (by omega)]; rfl))).trans r3)

/-! ### The last rows -/

/-- `k` of the remaining rows are loaded. -/
structure Tail (j : PJob A) (k : Nat) (s : St A) : Prop where
  inv : At j (4 * full j) (fun c => pos j (full j) c + k) s
  left : s.x 2 = .int (j.rows % 4)
  v : ∀ c, c < 4 → ∀ b, b < k → s.v c b = j.raw c (4 * full j + b)

theorem Tail.step {j : PJob A} (hf : Fits j) {k : Nat} {s : St A} (h : Tail j k s) (hk : k < j.rows % 4) :
    Tail j (k + 1) (exec j.env (row k) s) := by
  obtain ⟨h1, h2, h3, h4, h5⟩ := row_eq j.env k s
  generalize exec j.env (row k) s = s' at *
  have hfull : full j = j.rows / 4 := rfl
  have e1 : (4 * full j + k) / 4 = full j := by omega
  have e2 : (4 * full j + k) % 4 = k := by omega
  have hin : ∀ c, c < 4 → out j.env.base (s.x (48 + c)) 0 1 = false := by
    intro c hc
    have := hf.src c hc (4 * full j + k) (by omega)
    rw [e1, e2] at this
    rw [h.inv.src c hc]
    exact out_ptr (by omega) (by show pos j _ c + k + 0 / 4 + 1 ≤ j.size _; unfold pos; omega)
  refine ⟨⟨fun c hc => ?_, ?_, ?_, ?_, ?_, ?_, ?_⟩, ?_, fun c hc b hb => ?_⟩
  · rw [h1 c hc, h.inv.src c hc]
    exact congrArg (Val.ptr _) (by ring)
  · rw [h3.get (by decide)]; exact h.inv.packed
  · rw [h3.get (by decide)]; exact h.inv.inc
  · rw [h3.get (by decide)]; exact h.inv.rows
  · rw [h3.get (by decide)]; exact h.inv.stride
  · rw [h4]; exact h.inv.mem
  · rw [h5, h.inv.ok, show out _ (s.x 48) 0 1 = false from hin 0 (by omega), show out _ (s.x 49) 0 1 = false from hin 1 (by omega),
      show out _ (s.x 50) 0 1 = false from hin 2 (by omega), show out _ (s.x 51) 0 1 = false from hin 3 (by omega)]
    rfl
  · rw [h3.get (by decide)]; exact h.left
  · rw [h2 c hc b]
    by_cases hbk : b = k
    · subst hbk
      rw [show Nat.beq b b = true by simp]
      show words s _ 0 0 = _
      unfold words
      rw [h.inv.src c hc, h.inv.mem]
      show stored j _ (j.reg c) ((4 * (pos j _ c + b) + 0) / 4 + 0) = _
      rw [stored_other j (hf.reg c hc), show (4 * (pos j (full j) c + b) + 0) / 4 + 0 = pos j (full j) c + b by omega]
      unfold PJob.raw pos
      rw [e1, e2]
    · have : Nat.beq b k = false := by
        rw [Bool.eq_false_iff]; intro hh; rw [Nat.beq_eq] at hh; exact hbk hh
      rw [this]
      exact h.v c hc b (by omega)

theorem Tail.cmp {j : PJob A} {k : Nat} {s : St A} (h : Tail j k s) (i : Nat) (hi : i < 2 ^ 31) :
    Tail j k (exec j.env [.cmpI 2 i] s) ∧ (exec j.env [.cmpI 2 i] s).z = decide (j.rows % 4 = i) := by
  obtain ⟨h1, h2, h3, h4, h5⟩ := cmp_eq j.env i s
  generalize exec j.env [.cmpI 2 i] s = s' at *
  refine ⟨⟨h.inv.of (same_of_x h1) h3 ?_, by rw [h1]; exact h.left, ?_⟩, ?_⟩
  · rw [h5, h.inv.ok, h.left]; rfl
  · rw [h2]; exact h.v
  · rw [h4, h.left]
    exact sgn_eq (A := A) (by omega) hi

theorem row_block {k : Nat} (hk : k < 3) : code[6 + k]? = some ⟨row k ++ [.cmpI 2 (k + 1)], .br .eq 10 (7 + k)⟩ := by
  interval_cases k <;> rfl

/-- The loads of the remaining rows: label 5 is reached. -/
theorem rowsLoop {j : PJob A} (hf : Fits j) : ∀ n k s, k + n + 1 = j.rows % 4 →
    Tail j k s → ∃ s', Reach j.env code (6 + k, s) (10, s') ∧ Tail j (j.rows % 4) s' := by
  intro n
  induction n with
  | zero =>
    intro k s hn h
    have h' := h.step hf (by omega)
    obtain ⟨c1, c2⟩ := h'.cmp (k + 1) (by omega)
    rw [← exec_append] at c1 c2
    refine ⟨_, Reach.block (row_block (k := k) (by omega)) ?_, by rw [← hn]; exact c1⟩
    show (bif (exec j.env _ s).z then 10 else 7 + k) = 10
    rw [c2, decide_eq_true (by omega)]; rfl
  | succ n ih =>
    intro k s hn h
    have h' := h.step hf (by omega)
    obtain ⟨c1, c2⟩ := h'.cmp (k + 1) (by omega)
    rw [← exec_append] at c1 c2
    obtain ⟨s', r, hs'⟩ := ih (k + 1) _ (by omega) c1
    refine ⟨s', Reach.trans (Reach.block (row_block (k := k) (by omega)) ?_) r, hs'⟩
    show (bif (exec j.env _ s).z then 10 else 7 + k) = 6 + (k + 1)
    rw [c2, decide_eq_false (by omega)]
    show 7 + k = _
    omega

/-- `u` of the remaining rows are stored. -/
structure Out (j : PJob A) (u : Nat) (s : St A) : Prop where
  inv : At j (4 * full j + u) (fun c => pos j (full j) c + j.rows % 4) s
  left : s.x 2 = .int (j.rows % 4)
  v : ∀ u, u < j.rows % 4 → ∀ c, c < 4 → s.v (rowReg u) c = j.raw c (4 * full j + u)

theorem Out.cmp {j : PJob A} {k : Nat} {s : St A} (h : Out j k s) (i : Nat) (hi : i < 2 ^ 31) :
    Out j k (exec j.env [.cmpI 2 i] s) ∧ (exec j.env [.cmpI 2 i] s).z = decide (j.rows % 4 = i) := by
  obtain ⟨h1, h2, h3, h4, h5⟩ := cmp_eq j.env i s
  generalize exec j.env [.cmpI 2 i] s = s' at *
  refine ⟨⟨h.inv.of (same_of_x h1) h3 ?_, by rw [h1]; exact h.left, ?_⟩, ?_⟩
  · rw [h5, h.inv.ok, h.left]; rfl
  · rw [h2]; exact h.v
  · rw [h4, h.left]
    exact sgn_eq (A := A) (by omega) hi

theorem Tail.trans {j : PJob A} {s : St A} (h : Tail j (j.rows % 4) s) :
    Out j 0 (exec j.env [.movI 1 32] (exec j.env trans4 s)) := by
  obtain ⟨h1, h2, h3, h4, -⟩ := trans_eq j.env s
  generalize exec j.env trans4 s = s1 at *
  obtain ⟨g1, g2, g3, g4⟩ := mov_eq j.env 32 s1
  generalize exec j.env [.movI 1 32] s1 = s2 at *
  have sm : Same (2 :: keepA) s s2 := (same_of_x h2).trans g3
  refine ⟨h.inv.of (sm.sub (by decide)) (by rw [g2, h3]) (by rw [g4, h4]; exact h.inv.ok),
    by rw [sm.get (by decide)]; exact h.left, fun u hu c hc => ?_⟩
  rw [g1, h1 u (by omega) c hc]
  exact h.v c hc u hu

theorem Out.step {j : PJob A} (hf : Fits j) {u : Nat} (hu : u < j.rows % 4) {s : St A} (h : Out j u s) :
    Out j (u + 1) (exec j.env (out1 (rowReg u)) s) := by
  have hfull : full j = j.rows / 4 := rfl
  obtain ⟨a1, a2, a3, -⟩ := stored1 hf (n := 4 * full j + u) (by omega) h.inv (h.v u hu)
  generalize exec j.env (out1 (rowReg u)) s = s' at *
  exact ⟨a1, by rw [a3.get (by decide)]; exact h.left, by rw [a2]; exact h.v⟩

theorem out_block {u : Nat} (hu : u < 3) :
    code[11 + u]? = some ⟨out1 (rowReg u) ++ [.cmpI 2 (u + 1)], .br .eq 15 (12 + u)⟩ := by
  interval_cases u <;> rfl

theorem storesLoop {j : PJob A} (hf : Fits j) : ∀ n u s, u + n + 1 = j.rows % 4 →
    Out j u s → ∃ s', Reach j.env code (11 + u, s) (15, s') ∧ Out j (j.rows % 4) s' := by
  intro n
  induction n with
  | zero =>
    intro u s hn h
    obtain ⟨c1, c2⟩ := (h.step hf (by omega)).cmp (u + 1) (by omega)
    rw [← exec_append] at c1 c2
    refine ⟨_, Reach.block (out_block (u := u) (by omega)) ?_, by rw [← hn]; exact c1⟩
    show (bif (exec j.env _ s).z then 15 else 12 + u) = 15
    rw [c2, decide_eq_true (by omega)]; rfl
  | succ n ih =>
    intro u s hn h
    obtain ⟨c1, c2⟩ := (h.step hf (by omega)).cmp (u + 1) (by omega)
    rw [← exec_append] at c1 c2
    obtain ⟨s', r, hs'⟩ := ih (u + 1) _ (by omega) c1
    refine ⟨s', Reach.trans (Reach.block (out_block (u := u) (by omega)) ?_) r, hs'⟩
    show (bif (exec j.env _ s).z then 15 else 12 + u) = 11 + (u + 1)
    rw [c2, decide_eq_false (by omega)]
    show 12 + u = _
    omega

theorem ands_eq (e : Env A) (s : St A) : (exec e p4.body s).v = s.v ∧ (exec e p4.body s).m = s.m ∧
    (exec e p4.body s).x 2 = .int ((s.x 58).num % 2 ^ 32 &&& 3) ∧
    (exec e p4.body s).z = Nat.beq ((s.x 58).num % 2 ^ 32 &&& 3) 0 ∧
    Same keepA s (exec e p4.body s) ∧ (exec e p4.body s).bad = (s.bad || !(s.x 58).isInt) := by
  cases s; exact ⟨rfl, rfl, rfl, rfl, by keep, rfl⟩

def clear4 : List Instr := [.movI 0 0, .dupZ 0 0, .dupZ 1 0, .dupZ 2 0, .dupZ 3 0]

theorem clear_eq (e : Env A) (s : St A) : Same (2 :: keepA) s (exec e clear4 s) ∧ (exec e clear4 s).m = s.m ∧
    (exec e clear4 s).bad = (s.bad || !true || !true || !true || !true || !true || !true || !true || !true) := by
  cases s; exact ⟨by keep, rfl, rfl⟩

/-- A whole call. -/
theorem whole {j : PJob A} (hf : Fits j) {s : St A} (h : Start j s) :
    ∃ s', Stops j.env code s s' ∧ s'.m = stored j j.rows ∧ s'.bad = false := by
  have hat : At j 0 (pos j 0) s := ⟨fun c hc => by rw [h.src c hc]; unfold pos; rw [Nat.mul_zero, Nat.add_zero],
    by rw [h.packed, Nat.mul_zero, Nat.add_zero], h.inc, h.rows, h.stride, by rw [h.mem, stored_zero], h.ok⟩
  obtain ⟨s1, r1, a1⟩ := blocks hf hat
  have hfull : full j = j.rows / 4 := rfl
  suffices hs : ∃ s', Reach j.env code (0, s) (15, s') ∧ s'.m = stored j j.rows ∧ s'.bad = false by
    obtain ⟨s', r, hm, hb⟩ := hs
    exact ⟨s', stops_of r, hm, hb⟩
  obtain ⟨h1, h2, h3, h4, h5, h6⟩ := ands_eq j.env s1
  have nx : ∀ l, (bif (exec j.env p4.body s1).z then 15 else 5) = l →
      Reach j.env code (4, s1) (l, exec j.env p4.body s1) := fun l hl => Reach.block (b := p4) rfl hl
  generalize exec j.env p4.body s1 = s2 at *
  have hn : (s1.x 58).num % 2 ^ 32 &&& 3 = j.rows % 4 := by
    rw [a1.rows]; exact and_low j.rows hf.rows
  rw [hn] at h3 h4
  have hb2 : s2.bad = false := by rw [h6, a1.ok, a1.rows]; rfl
  rcases Nat.eq_zero_or_pos (j.rows % 4) with h0 | h0
  · refine ⟨s2, r1.trans (nx _ (by rw [h4, h0]; rfl)), ?_, hb2⟩
    rw [h2, a1.mem, show 4 * full j = j.rows by omega]
  · have r2 := nx 5 (by rw [h4, beq_dec, decide_eq_false (by omega)]; rfl)
    obtain ⟨g1, g2, g3⟩ := clear_eq j.env s2
    have g4 : Tail j 0 (exec j.env clear4 s2) := by
      generalize exec j.env clear4 s2 = s3 at *
      exact ⟨a1.of (h5.trans (g1.sub (by decide))) (by rw [g2, h2]) (by rw [g3, hb2]; rfl),
        by rw [g1.get (by decide)]; exact h3, fun c hc b hb => absurd hb (by omega)⟩
    obtain ⟨c1, c2⟩ := g4.cmp 0 (by omega)
    rw [← exec_append] at c1 c2
    have r3 : Reach j.env code (5, s2) (6 + 0, _) := Reach.block (b := ⟨clear4 ++ [.cmpI 2 0], .br .eq 10 6⟩) rfl (by
      show (bif (exec j.env (clear4 ++ [.cmpI 2 0]) s2).z then 10 else 6) = 6
      rw [c2, decide_eq_false (by omega)]; rfl)
    obtain ⟨s4, r4, t4⟩ := rowsLoop hf (j.rows % 4 - 1) 0 _ (by omega) c1
    obtain ⟨d1, d2⟩ := t4.trans.cmp 0 (by omega)
    rw [← exec_append, ← exec_append] at d1 d2
    have r5 : Reach j.env code (10, s4) (11 + 0, _) := Reach.block (b := p10) rfl (by
      show (bif (exec j.env (trans4 ++ ([.movI 1 32] ++ [.cmpI 2 0])) s4).z then 15 else 11) = 11 + 0
      rw [d2, decide_eq_false (by omega)]; rfl)
    obtain ⟨s6, r6, t6⟩ := storesLoop hf (j.rows % 4 - 1) 0 _ (by omega) d1
    refine ⟨s6, ((((r1.trans r2).trans r3).trans r4).trans r5).trans r6, ?_, t6.inv.ok⟩
    rw [t6.inv.mem, show 4 * full j + j.rows % 4 = j.rows by omega]

/-- What is in memory then. -/
theorem result {j : PJob A} (hw : j.width = 4 ∨ j.width = 8) {s : St A} (hm : s.m = stored j j.rows)
    (hb : s.bad = false) : Result j s := by
  refine ⟨hb, fun c hc k hk => ?_, fun o ho => ?_, fun r hr => ?_⟩
  · rw [hm]
    unfold stored
    generalize j.width = W at *
    rw [if_pos ⟨rfl, by rcases hw with rfl | rfl <;> omega, by rcases hw with rfl | rfl <;> omega,
      by rcases hw with rfl | rfl <;> omega⟩]
    congr 1 <;> rcases hw with rfl | rfl <;> omega
  · rw [hm]
    unfold stored
    generalize j.width = W at *
    rw [if_neg (fun h => ho ((o - j.packedBase) / W) (by rcases hw with rfl | rfl <;> omega)
      ((o - j.packedBase) % W) (by omega) (by rcases hw with rfl | rfl <;> omega))]
  · rw [hm]; exact stored_other j hr _

theorem pack_ok {j : PJob A} (hf : Fits j) {s : St A} (h : Start j s) : ∃ s', Stops j.env code s s' ∧ Result j s' := by
  obtain ⟨s', r, hm, hb⟩ := whole hf h
  exact ⟨s', r, result hf.width hm hb⟩

end Ruy.Arm32.Pack

import Verif.NeonF.PackJob
import Verif.Neon.PackVariants
/-
Running the pack functions for floats: transposition and stores.
-/
namespace Ruy.NeonF.FPack
open Ruy.Neon (packedPtr rRows srcPtr0 srcPtr1 srcPtr2 srcPtr3 srcInc0 srcInc1 srcInc2 srcInc3 sgn sgn_of)
open PJob
variable {A : Type}

/-! ### Data flow -/

/-- The four vectors that are stored for the columns `x 0`, …, `x 3`. -/
def tq (o : Ops A) (x : Nat → Vec A) : Nat → Vec A
  | 0 => vop o .trn1D (vop o .trn1S (x 0) (x 1)) (vop o .trn1S (x 2) (x 3))
  | 1 => vop o .trn1D (vop o .trn2S (x 0) (x 1)) (vop o .trn2S (x 2) (x 3))
  | 2 => vop o .trn2D (vop o .trn1S (x 0) (x 1)) (vop o .trn1S (x 2) (x 3))
  | _ => vop o .trn2D (vop o .trn2S (x 0) (x 1)) (vop o .trn2S (x 2) (x 3))

/-- Vector `u` has row `u` of all columns. -/
theorem tq_eq (o : Ops A) (x : Nat → Vec A) {u : Nat} (hu : u < 4) {b : Nat} (hb : b < 4) : tq o x u b = x b u := by
  have key : ∀ b < 4, ∀ u < 4, ∀ x : Nat → Vec A, tq o x u b = x b u := by
    intro b hb u hu x
    rcases (show u = 0 ∨ u = 1 ∨ u = 2 ∨ u = 3 by omega) with rfl | rfl | rfl | rfl <;> interval_cases b <;> rfl
  exact key b hb u hu x

/-- Four stores of four words, 32 bytes apart. -/
def st4 (m : Region → Nat → A) (p : Val A) (q : Nat → Vec A) : Region → Nat → A :=
  wr (wr (wr (wr m p.region ((p.off + 0) / 4) 4 (q 0)) p.region ((p.off + 32) / 4) 4 (q 1))
    p.region ((p.off + 64) / 4) 4 (q 2)) p.region ((p.off + 96) / 4) 4 (q 3)

/-- Full blocks of 4 rows. -/
def full (j : PJob A) : Nat := j.rows / 4
/-- Where block `t` of column `c` is read. -/
def pos (j : PJob A) (t c : Nat) : Nat := j.off c + j.inc c * t

theorem pos_succ (j : PJob A) (t c : Nat) : pos j (t + 1) c = pos j t c + j.inc c := by
  unfold pos; ring

/-- Memory after `n` rows. -/
def stored (j : PJob A) (n : Nat) : Region → Nat → A := fun r o =>
  if r = .packed ∧ j.packedBase ≤ o ∧ o < j.packedBase + 8 * n ∧ (o - j.packedBase) % 8 < 4 then
    j.raw ((o - j.packedBase) % 8) ((o - j.packedBase) / 8)
  else j.m r o

theorem stored_zero (j : PJob A) : stored j 0 = j.m := by
  funext r o
  unfold stored
  rw [if_neg (by omega)]

theorem stored_other (j : PJob A) {r : Region} (hr : r ≠ .packed) (n : Nat) : stored j n r = j.m r := by
  funext o
  unfold stored
  rw [if_neg (fun h => hr h.1)]

theorem stored_succ {j : PJob A} {n a : Nat} {q : Vec A} (ha : a = j.packedBase + 8 * n)
    (hq : ∀ b, b < 4 → q b = j.raw b n) : wr (stored j n) .packed a 4 q = stored j (n + 1) := by
  subst ha
  funext r o
  unfold wr
  by_cases hr : r = .packed
  · subst hr
    simp only [true_and]
    by_cases h : j.packedBase + 8 * n ≤ o ∧ o < j.packedBase + 8 * n + 4
    · rw [if_pos h, hq _ (by omega)]
      unfold stored
      rw [if_pos ⟨rfl, by omega, by omega, by omega⟩]
      congr 1 <;> omega
    · rw [if_neg h]
      unfold stored
      by_cases h' : j.packedBase ≤ o ∧ o < j.packedBase + 8 * n ∧ (o - j.packedBase) % 8 < 4
      · rw [if_pos ⟨rfl, h'⟩, if_pos ⟨rfl, by omega, by omega, by omega⟩]
      · rw [if_neg (fun hh => h' hh.2), if_neg (fun hh => by omega)]
  · simp only [hr, false_and, if_false]
    unfold stored
    simp only [hr, false_and, if_false]

/-- `n` rows are stored, column `c` is read from offset `p c` next. -/
structure At (j : PJob A) (n : Nat) (p : Nat → Nat) (s : St A) : Prop where
  src : ∀ c, c < 4 → s.x (48 + c) = .ptr (j.reg c) (4 * p c)
  packed : s.x 52 = .ptr .packed (4 * (j.packedBase + 8 * n))
  inc : ∀ c, c < 4 → s.x (54 + c) = .int (4 * j.inc c)
  rows : s.x 58 = .int j.rows
  mem : s.m = stored j n
  ok : s.bad = false

def keepA : List Nat := [54, 55, 56, 57, 58]

/-- `s'` is `s` after a block of 4 rows has been transposed and stored; `x c` is column `c`. -/
structure Proc (o : Ops A) (x : Nat → Vec A) (s s' : St A) : Prop where
  m : s'.m = st4 s.m (s.x 52) (tq o x)
  x52 : s'.x 52 = addVal (s.x 52) 128

theorem Proc.at {j : PJob A} {o : Ops A} {t : Nat} {p p' : Nat → Nat} {x : Nat → Vec A} {s s' : St A} (h : At j (4 * t) p s)
    (hx : ∀ c, c < 4 → ∀ b, b < 4 → x c b = j.raw c (4 * t + b)) (h1 : Proc o x s s') (h2 : Same keepA s s')
    (h3 : ∀ c, c < 4 → s'.x (48 + c) = .ptr (j.reg c) (4 * p' c)) (h4 : s'.bad = false) : At j (4 * (t + 1)) p' s' := by
  have q : ∀ u, u < 4 → ∀ b, b < 4 → tq o x u b = j.raw b (4 * t + u) := fun u hu b hb => by
    rw [tq_eq o x hu hb, hx b hb u hu]
  refine ⟨h3, ?_, fun c hc => ?_, ?_, ?_, h4⟩
  · rw [h1.x52, h.packed]
    show Val.ptr _ _ = _
    exact congrArg _ (by ring)
  · rw [h2.get (by interval_cases c <;> decide)]; exact h.inc c hc
  · rw [h2.get (by decide)]; exact h.rows
  · rw [h1.m, h.mem, h.packed]
    unfold st4
    dsimp only [Val.region, Val.off]
    rw [stored_succ (n := 4 * t) (by omega) (q 0 (by omega)), stored_succ (n := 4 * t + 1) (by omega) (q 1 (by omega)),
      stored_succ (n := 4 * t + 1 + 1) (by omega) (q 2 (by omega)), stored_succ (n := 4 * t + 1 + 1 + 1) (by omega) (q 3 (by omega))]
    rw [show 4 * (t + 1) = 4 * t + 1 + 1 + 1 + 1 by ring]

/-- Only registers that do not matter have changed. -/
theorem At.of {j : PJob A} {n : Nat} {p p' : Nat → Nat} {s s' : St A} (h : At j n p s) (h1 : Same (52 :: keepA) s s')
    (h2 : s'.m = s.m) (h6 : ∀ c, c < 4 → s'.x (48 + c) = .ptr (j.reg c) (4 * p' c)) (h7 : s'.bad = false) : At j n p' s' := by
  refine ⟨h6, ?_, fun c hc => ?_, ?_, ?_, h7⟩
  · rw [h1.get (by decide)]; exact h.packed
  · rw [h1.get (by interval_cases c <;> decide)]; exact h.inc c hc
  · rw [h1.get (by decide)]; exact h.rows
  · rw [h2]; exact h.mem

/-- Block `t` of 4 rows of the source is in registers 0, …, 3. -/
def Blk (j : PJob A) (t : Nat) (s : St A) : Prop := ∀ c, c < 4 → ∀ b, b < 4 → s.v c b = j.m (j.reg c) (pos j t c + b)

theorem Blk.raw {j : PJob A} {t : Nat} {s : St A} (h : Blk j t s) : ∀ c, c < 4 → ∀ b, b < 4 → s.v c b = j.raw c (4 * t + b) := by
  intro c hc b hb
  rw [h c hc b hb]
  unfold PJob.raw pos
  rw [show (4 * t + b) / 4 = t by omega, show (4 * t + b) % 4 = b by omega]

/-! ### Blocks of the programs -/

/-- A loaded block is transposed and stored (label 2). -/
def procL : List Instr := [
    .v3 .trn1S 16 0 1, .v3 .trn2S 17 0 1, .v3 .trn1S 18 2 3, .v3 .trn2S 19 2 3,
    .v3 .trn1D 20 16 18, .v3 .trn2D 22 16 18, .v3 .trn1D 21 17 19, .v3 .trn2D 23 17 19,
    .stq 20 packedPtr 0, .stq 21 packedPtr 32, .stq 22 packedPtr 64, .stq 23 packedPtr 96,
    .addXI packedPtr packedPtr 128]

theorem procL_eq (e : Env A) (s : St A) : Proc e.ops s.v s (exec e procL s) ∧
    Same [1, 2, 48, 49, 50, 51, 54, 55, 56, 57, 58] s (exec e procL s) ∧
    (exec e procL s).bad = ((((s.bad || out e (s.x 52) 0 4) || out e (s.x 52) 32 4) || out e (s.x 52) 64 4 ||
      out e (s.x 52) 96 4) || (s.x 52).isData) := by
  cases s
  exact ⟨⟨rfl, rfl⟩, by keep, rfl⟩

/-- The first block is loaded, or the next one while this one is stored. -/
structure Lds (s s' : St A) : Prop where
  v : ∀ c, c < 4 → (s.x (48 + c)).off % 4 = 0 → ∀ b, b < 4 → s'.v c b = words s (s.x (48 + c)) 0 b
  x : ∀ c, c < 4 → s'.x (48 + c) = addVal (s.x (48 + c)) (s.x (54 + c)).num
  n : s'.x 1 = .int (((s.x 1).num + 4) % 2 ^ 32)
  z : s'.z = decide (sgn (((s.x 1).num + 4) % 2 ^ 32) = sgn (s.x 2).num)

/-- What the loads need. -/
structure Can (e : Env A) (s : St A) : Prop where
  ok : s.bad = false
  one : (s.x 1).isInt = true
  two : (s.x 2).isInt = true
  inc : ∀ c, c < 4 → (s.x (54 + c)).isInt = true
  src : ∀ c, c < 4 → out e (s.x (48 + c)) 0 4 = false ∧ out e (s.x (48 + c)) 0 2 = false ∧ out e (s.x (48 + c)) 8 2 = false

/-- What the stores need. -/
structure CanSt (e : Env A) (s : St A) : Prop where
  st : ∀ u, u < 4 → out e (s.x 52) (32 * u) 4 = false
  ptr : (s.x 52).isData = false

theorem procL_ok {e : Env A} {s : St A} (hb : s.bad = false) (hs : CanSt e s) : (exec e procL s).bad = false := by
  rw [(procL_eq e s).2.2, hb, show out e (s.x 52) 0 4 = false from hs.st 0 (by omega),
    show out e (s.x 52) 32 4 = false from hs.st 1 (by omega), show out e (s.x 52) 64 4 = false from hs.st 2 (by omega),
    show out e (s.x 52) 96 4 = false from hs.st 3 (by omega), hs.ptr]
  rfl

def keepF : List Nat := [2, 54, 55, 56, 57, 58]

/-- A block that loads 4 rows. -/
structure First (e : Env A) (body : List Instr) : Prop where
  lds : ∀ s, Lds s (exec e body s)
  same : ∀ s, Same (52 :: keepF) s (exec e body s)
  m : ∀ s, (exec e body s).m = s.m
  ok : ∀ s, Can e s → (exec e body s).bad = false

/-- A block that loads 4 rows and stores those loaded before. -/
structure Body (e : Env A) (body : List Instr) : Prop where
  lds : ∀ s, Lds s (exec e body s)
  proc : ∀ s, Proc e.ops s.v s (exec e body s)
  same : ∀ s, Same keepF s (exec e body s)
  ok : ∀ s, Can e s → CanSt e s → (exec e body s).bad = false

theorem first_fpack (e : Env A) : First e fpack1.body := by
  refine ⟨fun s => ?_, fun s => ?_, fun s => ?_, fun s h => ?_⟩
  · cases s
    exact ⟨fun c hc _ b hb => by interval_cases c <;> rfl, fun c hc => by interval_cases c <;> rfl, rfl, rfl⟩
  · cases s; keep
  · cases s; rfl
  · have : (exec e fpack1.body s).bad = ((((s.bad || !(s.x 1).isInt) || !(s.x 54).isInt || out e (s.x 48) 0 4) || !(s.x 55).isInt ||
        out e (s.x 49) 0 4) || false || !(s.x 2).isInt || !(s.x 56).isInt || out e (s.x 50) 0 4 || !(s.x 57).isInt ||
        out e (s.x 51) 0 4) := by cases s; rfl
    rw [this, h.ok, h.one, h.two, show (s.x 54).isInt = true from h.inc 0 (by omega), show (s.x 55).isInt = true from h.inc 1 (by omega),
      show (s.x 56).isInt = true from h.inc 2 (by omega), show (s.x 57).isInt = true from h.inc 3 (by omega),
      show out e (s.x 48) 0 4 = false from (h.src 0 (by omega)).1, show out e (s.x 49) 0 4 = false from (h.src 1 (by omega)).1,
      show out e (s.x 50) 0 4 = false from (h.src 2 (by omega)).1, show out e (s.x 51) 0 4 = false from (h.src 3 (by omega)).1]
    rfl

theorem first_fpackA (e : Env A) : First e fpackA1.body := by
  refine ⟨fun s => ?_, fun s => ?_, fun s => ?_, fun s h => ?_⟩
  · cases s
    exact ⟨fun c hc _ b hb => by interval_cases c <;> rfl, fun c hc => by interval_cases c <;> rfl, rfl, rfl⟩
  · cases s; keep
  · cases s; rfl
  · have : (exec e fpackA1.body s).bad = ((((s.bad || !(s.x 54).isInt || out e (s.x 48) 0 4) || !(s.x 55).isInt ||
        out e (s.x 49) 0 4) || !(s.x 56).isInt || out e (s.x 50) 0 4 || !(s.x 57).isInt ||
        out e (s.x 51) 0 4) || !(s.x 1).isInt || false || !(s.x 2).isInt) := by cases s; rfl
    rw [this, h.ok, h.one, h.two, show (s.x 54).isInt = true from h.inc 0 (by omega), show (s.x 55).isInt = true from h.inc 1 (by omega),
      show (s.x 56).isInt = true from h.inc 2 (by omega), show (s.x 57).isInt = true from h.inc 3 (by omega),
      show out e (s.x 48) 0 4 = false from (h.src 0 (by omega)).1, show out e (s.x 49) 0 4 = false from (h.src 1 (by omega)).1,
      show out e (s.x 50) 0 4 = false from (h.src 2 (by omega)).1, show out e (s.x 51) 0 4 = false from (h.src 3 (by omega)).1]
    rfl

set_option maxRecDepth 8000 in
theorem body_fpack (e : Env A) : Body e fpack2.body := by
  refine ⟨fun s => ?_, fun s => ?_, fun s => ?_, fun s h hs => ?_⟩
  · cases s
    exact ⟨fun c hc _ b hb => by interval_cases c <;> rfl, fun c hc => by interval_cases c <;> rfl, rfl, rfl⟩
  · cases s; exact ⟨rfl, rfl⟩
  · cases s; keep
  · have : (exec e fpack2.body s).bad = ((((s.bad || !(s.x 1).isInt) || !(s.x 54).isInt || out e (s.x 48) 0 4) || !(s.x 55).isInt ||
        out e (s.x 49) 0 4) || !(s.x 56).isInt || out e (s.x 50) 0 4 || !(s.x 57).isInt ||
        out e (s.x 51) 0 4 || false || !(s.x 2).isInt || out e (s.x 52) 0 4 || out e (s.x 52) 32 4 || out e (s.x 52) 64 4 ||
        out e (s.x 52) 96 4 || (s.x 52).isData) := by cases s; rfl
    rw [this, h.ok, h.one, h.two, show (s.x 54).isInt = true from h.inc 0 (by omega), show (s.x 55).isInt = true from h.inc 1 (by omega),
      show (s.x 56).isInt = true from h.inc 2 (by omega), show (s.x 57).isInt = true from h.inc 3 (by omega),
      show out e (s.x 48) 0 4 = false from (h.src 0 (by omega)).1, show out e (s.x 49) 0 4 = false from (h.src 1 (by omega)).1,
      show out e (s.x 50) 0 4 = false from (h.src 2 (by omega)).1, show out e (s.x 51) 0 4 = false from (h.src 3 (by omega)).1,
      show out e (s.x 52) 0 4 = false from hs.st 0 (by omega), show out e (s.x 52) 32 4 = false from hs.st 1 (by omega),
      show out e (s.x 52) 64 4 = false from hs.st 2 (by omega), show out e (s.x 52) 96 4 = false from hs.st 3 (by omega), hs.ptr]
    rfl

theorem words_high {s : St A} {p : Val A} (h : p.off % 4 = 0) (b : Nat) : words s p 8 b = words s p 0 (2 + b) := by
  unfold words
  rw [show (p.off + 8) / 4 + b = (p.off + 0) / 4 + (2 + b) by omega]

set_option maxRecDepth 8000 in
theorem body_fpackA (e : Env A) : Body e fpackA2.body := by
  refine ⟨fun s => ?_, fun s => ?_, fun s => ?_, fun s h hs => ?_⟩
  · obtain ⟨x, v, m, z, lt, bad⟩ := s
    refine ⟨fun c hc ha b hb => ?_, fun c hc => by interval_cases c <;> rfl, rfl, rfl⟩
    have h0 := words_high (s := ⟨x, v, m, z, lt, bad⟩) ha 0
    have h1 := words_high (s := ⟨x, v, m, z, lt, bad⟩) ha 1
    interval_cases b
    · interval_cases c <;> rfl
    · interval_cases c <;> rfl
    · refine Eq.trans ?_ h0
      interval_cases c <;> rfl
    · refine Eq.trans ?_ h1
      interval_cases c <;> rfl
  · cases s; exact ⟨rfl, rfl⟩
  · cases s; keep
  · have : (exec e fpackA2.body s).bad = ((((((((s.bad || !(s.x 1).isInt) || out e (s.x 48) 8 2) || out e (s.x 49) 8 2) || out e (s.x 50) 8 2) ||
        out e (s.x 51) 8 2) || !(s.x 54).isInt || out e (s.x 48) 0 2) || !(s.x 55).isInt ||
        out e (s.x 49) 0 2) || !(s.x 56).isInt || out e (s.x 50) 0 2 || !(s.x 57).isInt ||
        out e (s.x 51) 0 2 || false || !(s.x 2).isInt || false || out e (s.x 52) 0 4 || false || out e (s.x 52) 32 4 || false ||
        out e (s.x 52) 64 4 || false || out e (s.x 52) 96 4 || (s.x 52).isData) := by cases s; rfl
    rw [this, h.ok, h.one, h.two, show (s.x 54).isInt = true from h.inc 0 (by omega), show (s.x 55).isInt = true from h.inc 1 (by omega),
      show (s.x 56).isInt = true from h.inc 2 (by omega), show (s.x 57).isInt = true from h.inc 3 (by omega),
      show out e (s.x 48) 0 2 = false from (h.src 0 (by omega)).2.1, show out e (s.x 49) 0 2 = false from (h.src 1 (by omega)).2.1,
      show out e (s.x 50) 0 2 = false from (h.src 2 (by omega)).2.1, show out e (s.x 51) 0 2 = false from (h.src 3 (by omega)).2.1,
      show out e (s.x 48) 8 2 = false from (h.src 0 (by omega)).2.2, show out e (s.x 49) 8 2 = false from (h.src 1 (by omega)).2.2,
      show out e (s.x 50) 8 2 = false from (h.src 2 (by omega)).2.2, show out e (s.x 51) 8 2 = false from (h.src 3 (by omega)).2.2,
      show out e (s.x 52) 0 4 = false from hs.st 0 (by omega), show out e (s.x 52) 32 4 = false from hs.st 1 (by omega),
      show out e (s.x 52) 64 4 = false from hs.st 2 (by omega), show out e (s.x 52) 96 4 = false from hs.st 3 (by omega), hs.ptr]
    rfl

/-! ### The last rows -/

/-- RUY_LOAD_ONE_ROW without the comparison. -/
def rowLoads (k : Nat) : List Instr := [.ldS 0 k srcPtr0, .ldS 1 k srcPtr1, .ldS 2 k srcPtr2, .ldS 3 k srcPtr3]

theorem row_eq (e : Env A) (k : Nat) (s : St A) : (∀ c, c < 4 → (exec e (rowLoads k) s).x (48 + c) = addVal (s.x (48 + c)) 4) ∧
    (∀ c, c < 4 → ∀ b, (exec e (rowLoads k) s).v c b = bif Nat.beq b k then words s (s.x (48 + c)) 0 0 else s.v c b) ∧
    Same [2, 52, 54, 55, 56, 57, 58] s (exec e (rowLoads k) s) ∧ (exec e (rowLoads k) s).m = s.m ∧
    (exec e (rowLoads k) s).bad = ((((s.bad || out e (s.x 48) 0 1) || out e (s.x 49) 0 1) || out e (s.x 50) 0 1) || out e (s.x 51) 0 1) := by
  cases s
  exact ⟨fun c hc => by interval_cases c <;> rfl, fun c hc b => by interval_cases c <;> rfl, by keep, rfl, rfl⟩

/-- The transposition of the last rows. -/
def trans : List Instr := [
    .v3 .trn1S 16 0 1, .v3 .trn2S 17 0 1, .v3 .trn1S 18 2 3, .v3 .trn2S 19 2 3,
    .v3 .trn1D 20 16 18, .v3 .trn2D 22 16 18, .v3 .trn1D 21 17 19, .v3 .trn2D 23 17 19, .movI 1 32]

theorem trans_eq (e : Env A) (s : St A) : (∀ u, u < 4 → (exec e trans s).v (20 + u) = tq e.ops s.v u) ∧
    Same [2, 48, 49, 50, 51, 52, 54, 55, 56, 57, 58] s (exec e trans s) ∧ (exec e trans s).x 1 = .int 32 ∧
    (exec e trans s).m = s.m ∧ (exec e trans s).bad = s.bad := by
  cases s
  exact ⟨fun u hu => by interval_cases u <;> rfl, by keep, rfl, rfl, rfl⟩

theorem cmp_eq (e : Env A) (k : Nat) (s : St A) : (exec e [.cmpI 2 k] s).x = s.x ∧ (exec e [.cmpI 2 k] s).v = s.v ∧
    (exec e [.cmpI 2 k] s).m = s.m ∧ (exec e [.cmpI 2 k] s).z = decide (sgn (s.x 2).num = sgn k) ∧
    (exec e [.cmpI 2 k] s).bad = (s.bad || !(s.x 2).isInt) := by
  cases s; exact ⟨rfl, rfl, rfl, rfl, rfl⟩

theorem st_eq (e : Env A) (u : Nat) (s : St A) :
    (exec e [.stqR (20 + u) packedPtr 1] s).m = wr s.m (s.x 52).region (((s.x 52).off + 0) / 4) 4 (s.v (20 + u)) ∧
    (exec e [.stqR (20 + u) packedPtr 1] s).v = s.v ∧
    (exec e [.stqR (20 + u) packedPtr 1] s).x 52 = addVal (s.x 52) (s.x 1).num ∧
    Same [1, 2, 48, 49, 50, 51, 54, 55, 56, 57, 58] s (exec e [.stqR (20 + u) packedPtr 1] s) ∧
    (exec e [.stqR (20 + u) packedPtr 1] s).bad = (s.bad || !(s.x 1).isInt || out e (s.x 52) 0 4) := by
  cases s; exact ⟨rfl, rfl, rfl, by keep, rfl⟩

theorem exec_append (e : Env A) (a b : List Instr) (s : St A) : exec e (a ++ b) s = exec e b (exec e a s) := by
  induction a generalizing s with
  | nil => rfl
  | cons i a ih => exact ih _

end Ruy.NeonF.FPack

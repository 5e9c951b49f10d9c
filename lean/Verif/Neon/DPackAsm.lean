import Verif.Neon.DPackJob
import Verif.Neon.PackVariants
/-
Running the pack functions for dot products: transposition, sums and stores.
-/
namespace Ruy.Neon.DPack
open Simd (wrap8 wrap16 wrap32)
open PJob

/-! ### Data flow -/

def trn1S (a b : Vec) : Vec := fun k => if k / 4 % 2 = 0 then a k else b (k - 4)
def trn2S (a b : Vec) : Vec := fun k => if k / 4 % 2 = 0 then a (k + 4) else b k
def trn1D (a b : Vec) : Vec := fun k => if k / 8 % 2 = 0 then a k else b (k - 8)
def trn2D (a b : Vec) : Vec := fun k => if k / 8 % 2 = 0 then a (k + 8) else b k

/-- The four vectors that are stored for the columns `x 0`, …, `x 3`. -/
def tq (x : Nat → Vec) : Nat → Vec
  | 0 => trn1D (trn1S (x 0) (x 1)) (trn1S (x 2) (x 3))
  | 1 => trn1D (trn2S (x 0) (x 1)) (trn2S (x 2) (x 3))
  | 2 => trn2D (trn1S (x 0) (x 1)) (trn1S (x 2) (x 3))
  | _ => trn2D (trn2S (x 0) (x 1)) (trn2S (x 2) (x 3))

/-- Vector `u` has rows 4u, …, 4u + 3 of all columns. -/
theorem tq_eq (x : Nat → Vec) {u : Nat} (hu : u < 4) {b : Nat} (hb : b < 16) :
    tq x u b = x (b / 4) (4 * u + b % 4) := by
  have key : ∀ b < 16, ∀ u < 4, ∀ x : Nat → Vec, tq x u b = x (b / 4) (4 * u + b % 4) := by
    intro b hb u hu x
    rcases (show u = 0 ∨ u = 1 ∨ u = 2 ∨ u = 3 by omega) with rfl | rfl | rfl | rfl <;> interval_cases b <;> rfl
  exact key b hb u hu x

/-- SDOT of `x` and `o`, added to `d`. -/
def dotV (d x o : Vec) : Vec := ofS fun i => getS d i +
  (getB x (4 * i) * getB o (4 * i) + getB x (4 * i + 1) * getB o (4 * i + 1) +
    getB x (4 * i + 2) * getB o (4 * i + 2) + getB x (4 * i + 3) * getB o (4 * i + 3))

/-- Four stores of 16 bytes, 32 bytes apart. -/
def st4 (m : Region → Nat → Byte) (p : Val) (q : Nat → Vec) : Region → Nat → Byte :=
  wr (wr (wr (wr m p.region (p.off + 0) 16 (q 0)) p.region (p.off + 32) 16 (q 1))
    p.region (p.off + 64) 16 (q 2)) p.region (p.off + 96) 16 (q 3)

/-- The sum of rows 4n, …, 4n + 3 of column `c`. -/
def quadSum (j : PJob) (c n : Nat) : Int :=
  wrap8 (j.entry c (4 * n)).toNat + wrap8 (j.entry c (4 * n + 1)).toNat +
    wrap8 (j.entry c (4 * n + 2)).toNat + wrap8 (j.entry c (4 * n + 3)).toNat

/-- The sum of the rows of `n` groups. -/
def sumTo (j : PJob) (c n : Nat) : Int := ∑ u ∈ Finset.range n, quadSum j c u

theorem sumTo_eq (j : PJob) (c n : Nat) : sumTo j c n = ∑ k ∈ Finset.range (4 * n), wrap8 (j.entry c k).toNat := by
  unfold sumTo
  induction n with
  | zero => rfl
  | succ n ih =>
    rw [Finset.sum_range_succ, ih, show 4 * (n + 1) = 4 * n + 1 + 1 + 1 + 1 by ring, Finset.sum_range_succ, Finset.sum_range_succ,
      Finset.sum_range_succ, Finset.sum_range_succ]
    unfold quadSum
    ring

/-- Memory after `n` groups of four rows. -/
def stored (j : PJob) (n : Nat) : Region → Nat → Byte := fun r o =>
  if r = .packed ∧ j.packedBase ≤ o ∧ o < j.packedBase + 32 * n ∧ (o - j.packedBase) % 32 < 16 then
    j.entry ((o - j.packedBase) % 32 / 4) (4 * ((o - j.packedBase) / 32) + (o - j.packedBase) % 4)
  else j.m r o

theorem stored_zero (j : PJob) : stored j 0 = j.m := by
  funext r o
  unfold stored
  rw [if_neg (by omega)]

theorem stored_src {j : PJob} (hf : Fits j) {c : Nat} (hc : c < 4) (t : Nat) : stored j t (j.reg c) = j.m (j.reg c) := by
  funext o
  unfold stored
  rw [if_neg (fun h => (hf.reg c hc).1 h.1)]

theorem stored_succ {j : PJob} {n a : Nat} {q : Vec} (ha : a = j.packedBase + 32 * n)
    (hq : ∀ b, b < 16 → q b = j.entry (b / 4) (4 * n + b % 4)) :
    wr (stored j n) .packed a 16 q = stored j (n + 1) := by
  subst ha
  funext r o
  unfold wr
  by_cases hr : r = .packed
  · subst hr
    simp only [true_and]
    by_cases h : j.packedBase + 32 * n ≤ o ∧ o < j.packedBase + 32 * n + 16
    · rw [if_pos h, hq _ (by omega)]
      unfold stored
      rw [if_pos ⟨rfl, by omega, by omega, by omega⟩]
      congr 1 <;> omega
    · rw [if_neg h]
      unfold stored
      by_cases h' : j.packedBase ≤ o ∧ o < j.packedBase + 32 * n ∧ (o - j.packedBase) % 32 < 16
      · rw [if_pos ⟨rfl, h'⟩, if_pos ⟨rfl, by omega, by omega, by omega⟩]
      · rw [if_neg (fun hh => h' hh.2), if_neg (fun hh => by omega)]
  · simp only [hr, false_and, if_false]
    unfold stored
    simp only [hr, false_and, if_false]

/-- The total of the four accumulators, for column `c`. -/
def total (s : St) (c : Nat) : Int := getS (s.v 28) c + getS (s.v 29) c + getS (s.v 30) c + getS (s.v 31) c

/-- The accumulators hold the sums of `n` groups. -/
def Sums (j : PJob) (n : Nat) (s : St) : Prop := ∀ c, c < 4 → total s c % 4294967296 = sumTo j c n % 4294967296

theorem ones_getB {v : Vec} (h : ∀ b, b < 16 → v b = 1) {b : Nat} (hb : b < 16) : getB v b = 1 := by
  unfold getB
  rw [h b hb]
  rfl

theorem getS_dotV {j : PJob} {n c : Nat} (hc : c < 4) {d q o : Vec} (ho : ∀ b, b < 16 → o b = 1)
    (hq : ∀ b, b < 16 → q b = j.entry (b / 4) (4 * n + b % 4)) : getS (dotV d q o) c = wrap32 (getS d c + quadSum j c n) := by
  unfold dotV
  rw [getS_ofS, ones_getB ho (by omega), ones_getB ho (by omega), ones_getB ho (by omega), ones_getB ho (by omega)]
  unfold getB quadSum
  rw [hq _ (by omega), hq _ (by omega), hq _ (by omega), hq _ (by omega), mul_one, mul_one, mul_one, mul_one]
  rw [show (4 * c) / 4 = c by omega, show (4 * c + 1) / 4 = c by omega, show (4 * c + 2) / 4 = c by omega,
    show (4 * c + 3) / 4 = c by omega, show (4 * c) % 4 = 0 by omega, show (4 * c + 1) % 4 = 1 by omega,
    show (4 * c + 2) % 4 = 2 by omega, show (4 * c + 3) % 4 = 3 by omega]
  rfl

theorem sumTo_succ (j : PJob) (c n : Nat) : sumTo j c (n + 1) = sumTo j c n + quadSum j c n := by
  unfold sumTo
  rw [Finset.sum_range_succ]

theorem total_step (a b c d t q0 q1 q2 q3 : Int) (h : (a + b + c + d) % 4294967296 = t % 4294967296) :
    (wrap32 (a + q0) + wrap32 (b + q2) + wrap32 (c + q1) + wrap32 (d + q3)) % 4294967296 =
      (t + q0 + q1 + q2 + q3) % 4294967296 := by
  unfold wrap32; omega

/-- Between blocks of 16 rows: `n` groups of four rows are stored, column `c` is read from offset `p c` next. -/
structure At (j : PJob) (n : Nat) (p : Nat → Nat) (s : St) : Prop where
  src : ∀ c, c < 4 → s.x (48 + c) = .ptr (j.reg c) (p c)
  packed : s.x packedPtr = .ptr .packed (j.packedBase + 32 * n)
  sums : s.x sumsPtr = (match j.sumsAt with | some o => .ptr .sums o | none => .int 0)
  inc : ∀ c, c < 4 → s.x (54 + c) = .int (j.inc c)
  rows : s.x rRows = .int j.rows
  zp : s.x rZeroPoint = .int (Job.u32 j.zp)
  mem : s.m = stored j n
  acc : Sums j n s
  x26 : ∀ b, b < 16 → s.v 26 b = BitVec.ofNat 8 j.xor
  x27 : ∀ b, b < 16 → s.v 27 b = 1
  ok : s.bad = false

/-- `s'` is `s` after a block of 16 rows has been transposed, stored and summed; `x c` is column `c`. -/
structure Proc (x : Nat → Vec) (s s' : St) : Prop where
  m : s'.m = st4 s.m (s.x 52) (tq x)
  x52 : s'.x 52 = addVal (s.x 52) 128
  v28 : s'.v 28 = dotV (s.v 28) (tq x 0) (s.v 27)
  v29 : s'.v 29 = dotV (s.v 29) (tq x 2) (s.v 27)
  v30 : s'.v 30 = dotV (s.v 30) (tq x 1) (s.v 27)
  v31 : s'.v 31 = dotV (s.v 31) (tq x 3) (s.v 27)
  v26 : s'.v 26 = s.v 26
  v27 : s'.v 27 = s.v 27

def keepA : List Nat := [53, 54, 55, 56, 57, 58, 59, 60]

theorem tq_entry {j : PJob} {t : Nat} {x : Nat → Vec} (hx : ∀ c, c < 4 → ∀ b, b < 16 → x c b = j.entry c (16 * t + b))
    {u : Nat} (hu : u < 4) : ∀ b, b < 16 → tq x u b = j.entry (b / 4) (4 * (4 * t + u) + b % 4) := by
  intro b hb
  rw [tq_eq x hu hb, hx _ (by omega) _ (by omega)]
  congr 1
  omega

theorem Proc.at {j : PJob} {t : Nat} {p p' : Nat → Nat} {x : Nat → Vec} {s s' : St} (h : At j (4 * t) p s)
    (hx : ∀ c, c < 4 → ∀ b, b < 16 → x c b = j.entry c (16 * t + b)) (h1 : Proc x s s') (h2 : Same keepA s s')
    (h3 : ∀ c, c < 4 → s'.x (48 + c) = .ptr (j.reg c) (p' c)) (h4 : s'.bad = false) : At j (4 * (t + 1)) p' s' := by
  have q0 : ∀ b, b < 16 → tq x 0 b = j.entry (b / 4) (4 * (4 * t) + b % 4) := tq_entry hx (u := 0) (by omega)
  have q1 := tq_entry hx (u := 1) (by omega)
  have q2 := tq_entry hx (u := 2) (by omega)
  have q3 := tq_entry hx (u := 3) (by omega)
  refine ⟨h3, ?_, ?_, fun c hc => ?_, ?_, ?_, ?_, fun c hc => ?_, fun b hb => ?_, fun b hb => ?_, h4⟩
  · rw [show packedPtr = 52 from rfl, h1.x52, h.packed]
    show Val.ptr _ _ = _
    rw [show j.packedBase + 32 * (4 * t) + 128 = j.packedBase + 32 * (4 * (t + 1)) by ring]
  · rw [h2.get (by decide)]; exact h.sums
  · rw [h2.get (by interval_cases c <;> decide)]; exact h.inc c hc
  · rw [h2.get (by decide)]; exact h.rows
  · rw [h2.get (by decide)]; exact h.zp
  · rw [h1.m, h.mem, h.packed]
    unfold st4
    dsimp only [Val.region, Val.off]
    rw [stored_succ (n := 4 * t) (by ring) q0, stored_succ (n := 4 * t + 1) (by ring) q1, stored_succ (n := 4 * t + 1 + 1) (by ring) q2,
      stored_succ (n := 4 * t + 1 + 1 + 1) (by ring) q3]
    rw [show 4 * (t + 1) = 4 * t + 1 + 1 + 1 + 1 by ring]
  · have := h.acc c hc
    rw [show 4 * (t + 1) = 4 * t + 1 + 1 + 1 + 1 by ring, sumTo_succ, sumTo_succ, sumTo_succ, sumTo_succ]
    unfold total at this ⊢
    rw [h1.v28, h1.v29, h1.v30, h1.v31, getS_dotV (n := 4 * t) hc h.x27 q0, getS_dotV (n := 4 * t + 1) hc h.x27 q1,
      getS_dotV (n := 4 * t + 2) hc h.x27 q2, getS_dotV (n := 4 * t + 3) hc h.x27 q3]
    exact total_step _ _ _ _ _ _ _ _ _ this
  · rw [h1.v26]; exact h.x26 b hb
  · rw [h1.v27]; exact h.x27 b hb

/-- Only registers that do not matter have changed. -/
theorem At.of {j : PJob} {n : Nat} {p p' : Nat → Nat} {s s' : St} (h : At j n p s) (h1 : Same (52 :: keepA) s s')
    (h2 : s'.m = s.m) (h3 : ∀ c, c < 4 → s'.v (28 + c) = s.v (28 + c)) (h4 : s'.v 26 = s.v 26) (h5 : s'.v 27 = s.v 27)
    (h6 : ∀ c, c < 4 → s'.x (48 + c) = .ptr (j.reg c) (p' c)) (h7 : s'.bad = false) : At j n p' s' := by
  refine ⟨h6, ?_, ?_, fun c hc => ?_, ?_, ?_, ?_, fun c hc => ?_, fun b hb => ?_, fun b hb => ?_, h7⟩
  · rw [h1.get (by decide)]; exact h.packed
  · rw [h1.get (by decide)]; exact h.sums
  · rw [h1.get (by interval_cases c <;> decide)]; exact h.inc c hc
  · rw [h1.get (by decide)]; exact h.rows
  · rw [h1.get (by decide)]; exact h.zp
  · rw [h2]; exact h.mem
  · have := h.acc c hc
    unfold total at this ⊢
    rw [show s'.v 28 = s.v 28 from h3 0 (by omega), show s'.v 29 = s.v 29 from h3 1 (by omega),
      show s'.v 30 = s.v 30 from h3 2 (by omega), show s'.v 31 = s.v 31 from h3 3 (by omega)]
    exact this
  · rw [h4]; exact h.x26 b hb
  · rw [h5]; exact h.x27 b hb

/-! ### Parts of the programs -/

/-- Block `t` of 16 rows of the source is in registers 4u, …, 4u + 3. -/
def Blk (j : PJob) (t u : Nat) (s : St) : Prop :=
  ∀ c, c < 4 → ∀ b, b < 16 → s.v (4 * u + c) b = j.m (j.reg c) (j.pos t c + b)

/-- A loaded block is processed. -/
def procL (r : Nat) : List Instr := [
    .v3 .eor r r 26, .v3 .eor (r + 1) (r + 1) 26, .v3 .eor (r + 2) (r + 2) 26, .v3 .eor (r + 3) (r + 3) 26,
    .v3 .trn1S 16 r (r + 1), .v3 .trn2S 17 r (r + 1), .v3 .trn1S 18 (r + 2) (r + 3), .v3 .trn2S 19 (r + 2) (r + 3),
    .v3 .trn1D 20 16 18, .v3 .trn2D 22 16 18, .v3 .trn1D 21 17 19, .v3 .trn2D 23 17 19,
    .v3 .sdot 28 20 27, .v3 .sdot 29 22 27, .v3 .sdot 30 21 27, .v3 .sdot 31 23 27,
    .stq 20 packedPtr 0, .stq 21 packedPtr 32, .stq 22 packedPtr 64, .stq 23 packedPtr 96,
    .addXI packedPtr packedPtr 128]

/-- A loaded block is processed and another one is loaded, up to the sums. -/
def procA (r : Nat) : List Instr := [
    .v3 .eor r r 26, .v3 .eor (r + 1) (r + 1) 26, .v3 .eor (r + 2) (r + 2) 26, .v3 .eor (r + 3) (r + 3) 26,
    .v3 .trn1S 16 r (r + 1), .v3 .trn2S 17 r (r + 1), .v3 .trn1S 18 (r + 2) (r + 3), .v3 .trn2S 19 (r + 2) (r + 3),
    .ldqR r srcPtr0 srcInc0, .ldqR (r + 1) srcPtr1 srcInc1, .ldqR (r + 2) srcPtr2 srcInc2, .ldqR (r + 3) srcPtr3 srcInc3,
    .addWI 1 1 16,
    .v3 .trn1D 20 16 18, .v3 .trn2D 22 16 18, .v3 .trn1D 21 17 19, .v3 .trn2D 23 17 19,
    .v3 .sdot 28 20 27, .v3 .sdot 29 22 27, .v3 .sdot 30 21 27, .v3 .sdot 31 23 27]

def procLd (r : Nat) : List Instr := procA r ++ [
    .stq 20 packedPtr 0, .stq 21 packedPtr 32, .stq 22 packedPtr 64, .stq 23 packedPtr 96, .addXI packedPtr packedPtr 128]

def procLdC (r : Nat) : List Instr := procA r ++ [.cmpW 1 2,
    .stq 20 packedPtr 0, .stq 21 packedPtr 32, .stq 22 packedPtr 64, .stq 23 packedPtr 96, .addXI packedPtr packedPtr 128]

theorem dpack2_eq : dpack2.body = procLd 0 ++ (procLd 4 ++ (procLd 8 ++ procLdC 12)) := rfl
theorem dpack3_eq : dpack3.body = procL 0 ++ (procL 4 ++ (procL 8 ++ procL 12)) := rfl
theorem dpack7_eq : dpack7.body = procL 0 := rfl

def keepL : List Nat := [1, 2, 48, 49, 50, 51, 53, 54, 55, 56, 57, 58, 59, 60]

/-- `procL`. -/
structure Stored (e : Env) (u : Nat) (s s' : St) : Prop where
  same : Same keepL s s'
  proc : Proc (fun c => eorV (s.v (4 * u + c)) (s.v 26)) s s'
  other : ∀ i, i < 16 → i / 4 ≠ u → s'.v i = s.v i
  bad : s'.bad = (s.bad || out e (s.x 52) 0 16 || out e (s.x 52) 32 16 || out e (s.x 52) 64 16 || out e (s.x 52) 96 16)

set_option maxHeartbeats 1000000 in
theorem pL (e : Env) (s : St) {u : Nat} (hu : u < 4) : Stored e u s (exec e (procL (4 * u)) s) := by
  cases s
  rcases (show u = 0 ∨ u = 1 ∨ u = 2 ∨ u = 3 by omega) with rfl | rfl | rfl | rfl <;>
  exact ⟨by keep, ⟨rfl, rfl, rfl, rfl, rfl, rfl, rfl, rfl⟩,
    by intro i hi hn; interval_cases i <;> first | exact absurd rfl hn | rfl, rfl⟩

/-- `procLd` and the like. -/
structure Moved (e : Env) (u : Nat) (s s' : St) : Prop where
  same : Same (2 :: keepA) s s'
  proc : Proc (fun c => eorV (s.v (4 * u + c)) (s.v 26)) s s'
  src : ∀ c, c < 4 → s'.x (48 + c) = addVal (s.x (48 + c)) (s.x (54 + c)).num
  v : ∀ c, c < 4 → s'.v (4 * u + c) = bytes s (s.x (48 + c)) 0
  other : ∀ i, i < 16 → i / 4 ≠ u → s'.v i = s.v i
  x1 : s'.x 1 = .int (((s.x 1).num + 16) % 2 ^ 32)

set_option maxHeartbeats 1000000 in
theorem pLd (e : Env) (s : St) {u : Nat} (hu : u < 3) : Moved e u s (exec e (procLd (4 * u)) s) ∧
    (exec e (procLd (4 * u)) s).bad = (s.bad || (s.x 54).isPtr || out e (s.x 48) 0 16 || (s.x 55).isPtr || out e (s.x 49) 0 16 ||
      (s.x 56).isPtr || out e (s.x 50) 0 16 || (s.x 57).isPtr || out e (s.x 51) 0 16 || (s.x 1).isPtr ||
      out e (s.x 52) 0 16 || out e (s.x 52) 32 16 || out e (s.x 52) 64 16 || out e (s.x 52) 96 16) := by
  cases s
  rcases (show u = 0 ∨ u = 1 ∨ u = 2 by omega) with rfl | rfl | rfl <;>
  exact ⟨⟨by keep, ⟨rfl, rfl, rfl, rfl, rfl, rfl, rfl, rfl⟩, by intro c hc; interval_cases c <;> rfl,
    by intro c hc; interval_cases c <;> rfl,
    by intro i hi hn; interval_cases i <;> first | exact absurd rfl hn | rfl, rfl⟩, rfl⟩

theorem pLdC (e : Env) (s : St) : Moved e 3 s (exec e (procLdC 12) s) ∧
    (exec e (procLdC 12) s).z = decide (sgn (((s.x 1).num + 16) % 2 ^ 32) = sgn (s.x 2).num) ∧
    (exec e (procLdC 12) s).bad = (s.bad || (s.x 54).isPtr || out e (s.x 48) 0 16 || (s.x 55).isPtr || out e (s.x 49) 0 16 ||
      (s.x 56).isPtr || out e (s.x 50) 0 16 || (s.x 57).isPtr || out e (s.x 51) 0 16 || (s.x 1).isPtr || false || (s.x 2).isPtr ||
      out e (s.x 52) 0 16 || out e (s.x 52) 32 16 || out e (s.x 52) 64 16 || out e (s.x 52) 96 16) := by
  cases s
  exact ⟨⟨by keep, ⟨rfl, rfl, rfl, rfl, rfl, rfl, rfl, rfl⟩, by intro c hc; interval_cases c <;> rfl,
    by intro c hc; interval_cases c <;> rfl,
    by intro i hi hn; interval_cases i <;> first | exact absurd rfl hn | rfl, rfl⟩, rfl, rfl⟩

theorem p6 (e : Env) (s : St) : Moved e 0 s (exec e dpack6.body s) ∧
    (exec e dpack6.body s).z = decide (sgn (((s.x 1).num + 16) % 2 ^ 32) = sgn (s.x 2).num) ∧
    (exec e dpack6.body s).bad = (s.bad || (s.x 54).isPtr || out e (s.x 48) 0 16 || (s.x 55).isPtr || out e (s.x 49) 0 16 ||
      (s.x 56).isPtr || out e (s.x 50) 0 16 || (s.x 57).isPtr || out e (s.x 51) 0 16 || (s.x 1).isPtr ||
      out e (s.x 52) 0 16 || out e (s.x 52) 32 16 || false || (s.x 2).isPtr || out e (s.x 52) 64 16 || out e (s.x 52) 96 16) := by
  cases s
  exact ⟨⟨by keep, ⟨rfl, rfl, rfl, rfl, rfl, rfl, rfl, rfl⟩, by intro c hc; interval_cases c <;> rfl,
    by intro c hc; interval_cases c <;> rfl,
    by intro i hi hn; interval_cases i <;> first | exact absurd rfl hn | rfl, rfl⟩, rfl, rfl⟩

/-- Four loads. -/
def ldL (r : Nat) : List Instr := [.ldqR r srcPtr0 srcInc0, .ldqR (r + 1) srcPtr1 srcInc1, .ldqR (r + 2) srcPtr2 srcInc2,
  .ldqR (r + 3) srcPtr3 srcInc3]
def ldC (r : Nat) : List Instr := [.ldqR r srcPtr0 srcInc0, .ldqR (r + 1) srcPtr1 srcInc1, .cmpW 1 2,
  .ldqR (r + 2) srcPtr2 srcInc2, .ldqR (r + 3) srcPtr3 srcInc3]

theorem dpack1_eq : dpack1.body = [.addWI 1 1 64] ++ (ldL 0 ++ (ldL 4 ++ (ldL 8 ++ ldC 12))) := rfl
theorem dpack5_eq : dpack5.body = [.addWI 1 1 16] ++ ldC 0 := rfl

structure Loads (u : Nat) (s s' : St) : Prop where
  same : Same (1 :: 2 :: 52 :: keepA) s s'
  m : s'.m = s.m
  src : ∀ c, c < 4 → s'.x (48 + c) = addVal (s.x (48 + c)) (s.x (54 + c)).num
  v : ∀ c, c < 4 → s'.v (4 * u + c) = bytes s (s.x (48 + c)) 0
  other : ∀ i, i < 16 → i / 4 ≠ u → s'.v i = s.v i
  acc : ∀ c, c < 4 → s'.v (28 + c) = s.v (28 + c)
  v26 : s'.v 26 = s.v 26
  v27 : s'.v 27 = s.v 27

theorem pld (e : Env) (s : St) {u : Nat} (hu : u < 3) : Loads u s (exec e (ldL (4 * u)) s) ∧
    (exec e (ldL (4 * u)) s).bad = (s.bad || (s.x 54).isPtr || out e (s.x 48) 0 16 || (s.x 55).isPtr || out e (s.x 49) 0 16 ||
      (s.x 56).isPtr || out e (s.x 50) 0 16 || (s.x 57).isPtr || out e (s.x 51) 0 16) := by
  cases s
  rcases (show u = 0 ∨ u = 1 ∨ u = 2 by omega) with rfl | rfl | rfl <;>
  exact ⟨⟨by keep, rfl, by intro c hc; interval_cases c <;> rfl, by intro c hc; interval_cases c <;> rfl,
    by intro i hi hn; interval_cases i <;> first | exact absurd rfl hn | rfl,
    by intro c hc; interval_cases c <;> rfl, rfl, rfl⟩, rfl⟩

theorem pldC (e : Env) (s : St) {u : Nat} (hu : u = 0 ∨ u = 3) : Loads u s (exec e (ldC (4 * u)) s) ∧
    (exec e (ldC (4 * u)) s).z = decide (sgn (s.x 1).num = sgn (s.x 2).num) ∧
    (exec e (ldC (4 * u)) s).bad = (s.bad || (s.x 54).isPtr || out e (s.x 48) 0 16 || (s.x 55).isPtr || out e (s.x 49) 0 16 ||
      (s.x 1).isPtr || (s.x 2).isPtr || (s.x 56).isPtr || out e (s.x 50) 0 16 || (s.x 57).isPtr || out e (s.x 51) 0 16) := by
  cases s
  rcases hu with rfl | rfl <;>
  exact ⟨⟨by keep, rfl, by intro c hc; interval_cases c <;> rfl, by intro c hc; interval_cases c <;> rfl,
    by intro i hi hn; interval_cases i <;> first | exact absurd rfl hn | rfl,
    by intro c hc; interval_cases c <;> rfl, rfl, rfl⟩, rfl, rfl⟩

theorem pAdd (e : Env) (k : Nat) (s : St) : Same (2 :: 48 :: 49 :: 50 :: 51 :: 52 :: keepA) s (exec e [.addWI 1 1 k] s) ∧
    (exec e [.addWI 1 1 k] s).m = s.m ∧ (exec e [.addWI 1 1 k] s).v = s.v ∧
    (exec e [.addWI 1 1 k] s).x 1 = .int (((s.x 1).num + k) % 2 ^ 32) ∧
    (exec e [.addWI 1 1 k] s).bad = (s.bad || (s.x 1).isPtr) := by
  cases s
  exact ⟨by keep, rfl, rfl, rfl, rfl⟩

theorem p0 (e : Env) (s : St) (k : Nat) {l : List Instr} (hl : l = [.dupB 26 rInputXor, .movI 1 1, .dupB 27 1, .movI 1 0,
      .movi 28, .movi 29, .movi 30, .movi 31, .andsI 2 rRows k]) : Same keepP s (exec e l s) ∧ (exec e l s).m = s.m ∧
    (exec e l s).x 1 = .int 0 ∧
    (exec e l s).x 2 = .int ((s.x 58).num % 2 ^ 32 &&& k) ∧
    (exec e l s).z = Nat.beq ((s.x 58).num % 2 ^ 32 &&& k) 0 ∧
    (exec e l s).v 26 = ofB (fun _ => (s.x 60).num) ∧ (exec e l s).v 27 = ofB (fun _ => 1) ∧
    (∀ c, c < 4 → (exec e l s).v (28 + c) = fun _ => 0) ∧
    (exec e l s).bad = (s.bad || (s.x 60).isPtr || false || (s.x 58).isPtr) := by
  subst hl
  cases s
  exact ⟨by keep, rfl, rfl, rfl, rfl, rfl, rfl, by intro c hc; interval_cases c <;> rfl, rfl⟩

theorem p4 (e : Env) (s : St) : Same (1 :: keepP) s (exec e dpack4.body s) ∧ (exec e dpack4.body s).m = s.m ∧
    (exec e dpack4.body s).x 2 = .int ((s.x 58).num % 2 ^ 32 &&& 4294967280) ∧
    (exec e dpack4.body s).z = decide (sgn (s.x 1).num = sgn ((s.x 58).num % 2 ^ 32 &&& 4294967280)) ∧
    (exec e dpack4.body s).v = s.v ∧
    (exec e dpack4.body s).bad = (s.bad || (s.x 58).isPtr || (s.x 1).isPtr || false) := by
  cases s
  exact ⟨by keep, rfl, rfl, rfl, rfl, rfl⟩

/-! ### The last rows and the sums -/

def r0 : List Instr := [.andsI 2 rRows 15]
def r1 : List Instr := [.dupB 0 rZeroPoint, .dupB 1 rZeroPoint, .dupB 2 rZeroPoint, .dupB 3 rZeroPoint, .cmpI 2 0]
def r17 : List Instr := [
    .v3 .eor 0 0 26, .v3 .eor 1 1 26, .v3 .eor 2 2 26, .v3 .eor 3 3 26, .v3 .trn1S 16 0 1,
    .v3 .trn2S 17 0 1, .v3 .trn1S 18 2 3, .v3 .trn2S 19 2 3, .v3 .trn1D 20 16 18,
    .v3 .trn2D 22 16 18, .v3 .trn1D 21 17 19, .v3 .trn2D 23 17 19, .v3 .sdot 28 20 27,
    .stq 20 packedPtr 0, .cmpI 2 4]
def r18 : List Instr := [.v3 .sdot 30 21 27, .stq 21 packedPtr 32, .cmpI 2 8]
def r19 : List Instr := [.v3 .sdot 29 22 27, .stq 22 packedPtr 64, .cmpI 2 12]
def r20 : List Instr := [.v3 .sdot 31 23 27, .stq 23 packedPtr 96, .addXI packedPtr packedPtr 128]
def r21 : List Instr := [.v3 .add 28 28 29, .v3 .add 30 30 31, .v3 .add 28 28 30, .cmpP sumsPtr]
def r22 : List Instr := [.stqP 28 sumsPtr]

/-- The last part of both programs, from label 3 on. -/
structure Rest (P : List Block) (o : Nat) : Prop where
  b0 : P[o]? = some ⟨r0, .br .eq (o + 21) (o + 1)⟩
  b1 : P[o + 1]? = some ⟨r1, .br .eq (o + 17) (o + 2)⟩
  row : ∀ k, k < 14 → P[o + 2 + k]? = some ⟨rowLoads k ++ [.cmpI 2 (k + 1)], .br .eq (o + 17) (o + 3 + k)⟩
  b16 : P[o + 16]? = some ⟨rowLoads 14, .jmp (o + 17)⟩
  b17 : P[o + 17]? = some ⟨r17, .br .le (o + 21) (o + 18)⟩
  b18 : P[o + 18]? = some ⟨r18, .br .le (o + 21) (o + 19)⟩
  b19 : P[o + 19]? = some ⟨r19, .br .le (o + 21) (o + 20)⟩
  b20 : P[o + 20]? = some ⟨r20, .jmp (o + 21)⟩
  b21 : P[o + 21]? = some ⟨r21, .br .eq (o + 23) (o + 22)⟩
  b22 : P[o + 22]? = some ⟨r22, .jmp (o + 23)⟩
  len : P.length = o + 23

theorem restD : Rest dpackCode 8 :=
  ⟨rfl, rfl, by intro k hk; interval_cases k <;> rfl, rfl, rfl, rfl, rfl, rfl, rfl, rfl, rfl⟩
theorem restA : Rest dpackACode 4 :=
  ⟨rfl, rfl, by intro k hk; interval_cases k <;> rfl, rfl, rfl, rfl, rfl, rfl, rfl, rfl, rfl⟩

theorem e0 (e : Env) (s : St) : Same keepP s (exec e r0 s) ∧ (exec e r0 s).m = s.m ∧
    (exec e r0 s).x 2 = .int ((s.x 58).num % 2 ^ 32 &&& 15) ∧ (exec e r0 s).z = Nat.beq ((s.x 58).num % 2 ^ 32 &&& 15) 0 ∧
    (exec e r0 s).v = s.v ∧ (exec e r0 s).bad = (s.bad || (s.x 58).isPtr) := by
  cases s
  exact ⟨by keep, rfl, rfl, rfl, rfl, rfl⟩

theorem e1 (e : Env) (s : St) : Same (2 :: keepP) s (exec e r1 s) ∧ (exec e r1 s).m = s.m ∧
    (exec e r1 s).z = decide (sgn (s.x 2).num = sgn 0) ∧
    (∀ c, c < 4 → (exec e r1 s).v c = ofB (fun _ => (s.x 59).num)) ∧
    (∀ c, c < 4 → (exec e r1 s).v (28 + c) = s.v (28 + c)) ∧
    (exec e r1 s).v 26 = s.v 26 ∧ (exec e r1 s).v 27 = s.v 27 ∧
    (exec e r1 s).bad = (s.bad || (s.x 59).isPtr || (s.x 59).isPtr || (s.x 59).isPtr || (s.x 59).isPtr ||
      (s.x 2).isPtr) := by
  cases s
  exact ⟨by keep, rfl, rfl, by intro c hc; interval_cases c <;> rfl, by intro c hc; interval_cases c <;> rfl, rfl, rfl, rfl⟩

theorem eRow (e : Env) (k : Nat) (s : St) : (exec e (rowLoads k) s).v 27 = s.v 27 := by cases s; rfl

/-- One group of the last rows: `d` is the accumulator, `q` the four vectors. -/
structure Part (e : Env) (q : Nat → Vec) (u d : Nat) (s s' : St) : Prop where
  x2 : s'.x 2 = s.x 2
  x53 : s'.x 53 = s.x 53
  x52 : u < 3 → s'.x 52 = s.x 52
  m : s'.m = wr s.m (s.x 52).region ((s.x 52).off + 32 * u) 16 (q u)
  v : s'.v d = dotV (s.v d) (q u) (s.v 27)
  other : ∀ i, 27 ≤ i → i < 32 → i ≠ d → s'.v i = s.v i
  q : ∀ i, i < 4 → s'.v (20 + i) = q i
  flag : u < 3 → (s'.z || s'.lt) = (decide (sgn (s.x 2).num = sgn (4 * (u + 1))) || decide (sgn (s.x 2).num < sgn (4 * (u + 1))))
  bad : s'.bad = (s.bad || out e (s.x 52) (32 * u) 16 || if u < 3 then (s.x 2).isPtr else false)

theorem e17 (e : Env) (s : St) : Part e (tq fun c => eorV (s.v c) (s.v 26)) 0 28 s (exec e r17 s) := by
  cases s
  exact ⟨rfl, rfl, fun _ => rfl, rfl, rfl, by intro i h1 h2 h3; interval_cases i <;> first | exact absurd rfl h3 | rfl,
    by intro i hi; interval_cases i <;> rfl, fun _ => rfl, rfl⟩

theorem e18 (e : Env) (s : St) : Part e (fun i => s.v (20 + i)) 1 30 s (exec e r18 s) := by
  cases s
  exact ⟨rfl, rfl, fun _ => rfl, rfl, rfl, by intro i h1 h2 h3; interval_cases i <;> first | exact absurd rfl h3 | rfl,
    by intro i hi; interval_cases i <;> rfl, fun _ => rfl, rfl⟩

theorem e19 (e : Env) (s : St) : Part e (fun i => s.v (20 + i)) 2 29 s (exec e r19 s) := by
  cases s
  exact ⟨rfl, rfl, fun _ => rfl, rfl, rfl, by intro i h1 h2 h3; interval_cases i <;> first | exact absurd rfl h3 | rfl,
    by intro i hi; interval_cases i <;> rfl, fun _ => rfl, rfl⟩

theorem e20 (e : Env) (s : St) : Part e (fun i => s.v (20 + i)) 3 31 s (exec e r20 s) := by
  cases s
  refine ⟨rfl, rfl, fun h => absurd h (by decide), rfl, rfl,
    by intro i h1 h2 h3; interval_cases i <;> first | exact absurd rfl h3 | rfl,
    by intro i hi; interval_cases i <;> rfl, fun h => absurd h (by decide), ?_⟩
  rw [if_neg (by decide), Bool.or_false]
  rfl

def addV (a b : Vec) : Vec := ofS fun i => getS a i + getS b i

theorem e21 (e : Env) (s : St) : (exec e r21 s).x = s.x ∧ (exec e r21 s).m = s.m ∧
    (exec e r21 s).z = (!(s.x 53).isPtr && Nat.beq (s.x 53).num 0) ∧
    (exec e r21 s).v 28 = addV (addV (s.v 28) (s.v 29)) (addV (s.v 30) (s.v 31)) ∧
    (exec e r21 s).bad = s.bad := by
  cases s
  exact ⟨rfl, rfl, rfl, rfl, rfl⟩

theorem e22 (e : Env) (s : St) :
    (exec e r22 s).m = wr s.m (s.x 53).region ((s.x 53).off + 0) 16 (s.v 28) ∧
    (exec e r22 s).bad = (s.bad || out e (s.x 53) 0 16) := by
  cases s
  exact ⟨rfl, rfl⟩

end Ruy.Neon.DPack

import Verif.Arm8.PackRun
/-
The ARM32 8-bit pack functions: the last rows, the sums, and the whole statements.
-/
namespace Ruy.Arm8.Pack
open Ruy.Neon (PJob St Val Region Vec Byte byteOf vop put addVal out out_ptr bytes wr Same eorV sumV sgn sgn_of sgn_eq
  getB getS ofB byteOf_getS getS_zero)
open Ruy.Neon.PJob (and_high and_low beq_zero beq_ne u32_byte nat_byte acc_succ sum_quads)
open Simd (wrap8 wrap32)

section
variable {wide : Bool} {j : PJob}

theorem rowx (e : Env) {p k : Nat} (hp : p < 2) (hk : k < 16) (s : St) :
    Same [2, 3, 52, 54, 55, 56, 57] s (exec e (rowLoads p k) s) ∧ (exec e (rowLoads p k) s).m = s.m ∧
    (∀ c, c < 4 → (exec e (rowLoads p k) s).x (48 + c) = if c / 2 = p then addVal (s.x (48 + c)) 1 else s.x (48 + c)) ∧
    (∀ i, i < 2 → (exec e (rowLoads p k) s).v i = fun b =>
      bif Nat.beq b k then s.m (s.x (48 + 2 * p + i)).region (s.x (48 + 2 * p + i)).off else s.v i b) ∧
    (∀ c, c < 4 → (exec e (rowLoads p k) s).v (12 + c) = s.v (12 + c)) ∧
    (exec e (rowLoads p k) s).v 11 = s.v 11 ∧
    (exec e (rowLoads p k) s).bad =
      (s.bad || out e.base (s.x (48 + 2 * p)) 0 1 || out e.base (s.x (48 + 2 * p + 1)) 0 1) := by
  cases s
  interval_cases p <;> interval_cases k <;> exact ⟨by keep, rfl, by intro c hc; interval_cases c <;> rfl,
    by intro c hc; interval_cases c <;> rfl, by intro c hc; interval_cases c <;> rfl, rfl, rfl⟩

theorem cmpIx (e : Env) (k : Nat) (s : St) : exec e [.cmpI 2 k] s = { s with
    z := decide (sgn (s.x 2).num = sgn k)
    lt := decide (sgn (s.x 2).num < sgn k)
    bad := s.bad || (s.x 2).isPtr } := rfl

/-- `k` of the remaining rows of pair `p` are loaded. -/
structure Tail (wide : Bool) (j : PJob) (p : Nat) (T P : Nat → Nat) (k : Nat) (s : St) : Prop where
  inv : At wide j (width wide * fulls j + 2 * p) T (fun c => if c / 2 = p then pos j (fulls j) c + k else P c) s
  left : s.x 2 = .int (j.rows % 16)
  zp : s.x 3 = .int (Neon.Job.u32 j.zp)
  v : ∀ i, i < 2 → ∀ b, b < 16 → s.v i b = if b < k then j.raw (2 * p + i) (16 * fulls j + b) else BitVec.ofInt 8 j.zp

theorem Tail.step (hf : Fits wide j) {p k : Nat} {T P : Nat → Nat} {s : St} (h : Tail wide j p T P k s)
    (hp : 2 * p + 2 ≤ width wide) (hk : k < j.rows % 16) : Tail wide j p T P (k + 1) (exec (env j) (rowLoads p k) s) := by
  have hw := width_cases wide
  obtain ⟨h1, h2, h3, h4, h5, h6, h7⟩ := rowx (env j) (p := p) (k := k) (by omega) (by omega) s
  generalize exec (env j) (rowLoads p k) s = s' at *
  have hfull : fulls j = j.rows / 16 := rfl
  have e1 : (16 * fulls j + k) / 16 = fulls j := by omega
  have e2 : (16 * fulls j + k) % 16 = k := by omega
  have hsrc : ∀ i, i < 2 → s.x (48 + 2 * p + i) = .ptr (j.reg (2 * p + i)) (pos j (fulls j) (2 * p + i) + k) := by
    intro i hi
    have := h.inv.src (2 * p + i) (by omega)
    rw [if_pos (by omega)] at this
    rw [Nat.add_assoc]; exact this
  have hin : ∀ i, i < 2 → pos j (fulls j) (2 * p + i) + k + 0 + 1 ≤ (env j).base.size (j.reg (2 * p + i)) := by
    intro i hi
    have := hf.src (2 * p + i) (by omega) (16 * fulls j + k) (by omega)
    rw [e1, e2] at this
    exact this
  refine ⟨⟨fun c hc => ?_, ?_, fun c hc => ?_, by rw [h2]; exact h.inv.mem, fun c hc i hi => ?_, by rw [h6]; exact h.inv.x11, ?_⟩,
    ?_, ?_, fun i hi b hb => ?_⟩
  · rw [h3 c (by omega), h.inv.src c hc]
    by_cases hcp : c / 2 = p
    · rw [if_pos hcp, if_pos hcp, if_pos hcp]; rfl
    · rw [if_neg hcp, if_neg hcp, if_neg hcp]
  · rw [h1.get (by decide)]; exact h.inv.packed
  · have : c < 4 := by omega
    rw [h1.get (by interval_cases c <;> decide)]; exact h.inv.inc c hc
  · rw [h5 c (by omega)]; exact h.inv.acc c hc i hi
  · have s0 := hsrc 0 (by omega)
    have i0 := hin 0 (by omega)
    rw [show 48 + 2 * p + 0 = 48 + 2 * p from rfl, show 2 * p + 0 = 2 * p from rfl] at s0
    rw [show 2 * p + 0 = 2 * p from rfl] at i0
    rw [h7, h.inv.ok, s0, hsrc 1 (by omega), out_ptr i0, out_ptr (hin 1 (by omega))]
    rfl
  · rw [h1.get (by decide)]; exact h.left
  · rw [h1.get (by decide)]; exact h.zp
  · rw [h4 i hi, hsrc i hi]
    dsimp only [Val.region, Val.off]
    by_cases hbk : b = k
    · subst hbk
      rw [show Nat.beq b b = true by simp, if_pos (by omega), h.inv.mem, cells_other _ _ (hf.reg (2 * p + i) (by omega)).1]
      show j.m _ _ = j.m _ _
      rw [e1, e2]; rfl
    · rw [beq_ne hbk]
      show s.v i b = _
      rw [h.v i hi b hb]
      by_cases hb' : b < k
      · rw [if_pos hb', if_pos (by omega)]
      · rw [if_neg hb', if_neg (by omega)]

theorem Tail.loaded {p : Nat} {T P : Nat → Nat} {s : St} (h : Tail wide j p T P (j.rows % 16) s) :
    Loaded j p (fulls j) s := by
  intro i hi b hb
  rw [h.v i hi b hb]
  unfold PJob.entry
  have hfull : fulls j = j.rows / 16 := rfl
  congr 1
  by_cases hr : b < j.rows % 16
  · rw [if_pos hr, if_pos (by omega)]
  · rw [if_neg hr, if_neg (by omega)]

theorem Tail.cmp {p k : Nat} {T P : Nat → Nat} {s : St} (h : Tail wide j p T P k s) (i : Nat) (hi : i < 2 ^ 31) :
    Tail wide j p T P k (exec (env j) [.cmpI 2 i] s) ∧ (exec (env j) [.cmpI 2 i] s).z = decide (j.rows % 16 = i) := by
  rw [cmpIx]
  refine ⟨⟨h.inv.keep (by keep) rfl (fun _ _ => rfl) rfl ?_, h.left, h.zp, h.v⟩, ?_⟩
  · show (s.bad || (s.x 2).isPtr) = false
    rw [h.inv.ok, h.left]; rfl
  · show decide (sgn (s.x 2).num = sgn i) = _
    rw [h.left]
    exact sgn_eq (by omega) hi

/-- The remaining rows of a pair one by one. -/
theorem rows_run (hf : Fits wide j) {p base : Nat} {T P : Nat → Nat} (hp : 2 * p + 2 ≤ width wide)
    (hC : ∀ k, k < 15 → (code wide)[base + k]? = some (rowBlk p base k)) : ∀ n k s, k + n + 1 = j.rows % 16 →
    Tail wide j p T P k s → ∃ s', Reach (env j) (code wide) (base + k, s) (base + 16, s') ∧
      Tail wide j p T P (j.rows % 16) s' := by
  intro n
  induction n with
  | zero =>
    intro k s hn h
    have h' := h.step hf hp (by omega)
    obtain ⟨c1, c2⟩ := h'.cmp (k + 1) (by omega)
    rw [← exec_append] at *
    refine ⟨exec (env j) (rowLoads p k ++ [.cmpI 2 (k + 1)]) s, Reach.block (b := rowBlk p base k) (hC k (by omega)) ?_,
      by rw [← hn]; exact c1⟩
    show (bif (exec (env j) (rowLoads p k ++ [.cmpI 2 (k + 1)]) s).z then base + 16 else base + k + 1) = base + 16
    rw [c2, decide_eq_true (by omega)]; rfl
  | succ n ih =>
    intro k s hn h
    have h' := h.step hf hp (by omega)
    obtain ⟨c1, c2⟩ := h'.cmp (k + 1) (by omega)
    obtain ⟨s', r, hs'⟩ := ih (k + 1) _ (by omega) c1
    refine ⟨s', Reach.trans ?_ r, hs'⟩
    rw [← exec_append] at *
    refine Reach.block (b := rowBlk p base k) (hC k (by omega)) ?_
    show (bif (exec (env j) (rowLoads p k ++ [.cmpI 2 (k + 1)]) s).z then base + 16 else base + k + 1) = base + (k + 1)
    rw [c2, decide_eq_false (by omega)]; rfl

theorem first_at (wide : Bool) : ∀ k, k < 15 → (code wide)[4 + k]? = some (rowBlk 0 4 k) := by
  intro k hk
  cases wide <;> interval_cases k <;> rfl
theorem second_at : ∀ k, k < 15 → (code true)[21 + k]? = some (rowBlk 1 21 k) := by
  intro k hk
  interval_cases k <;> rfl

theorem restx (e : Env) (wide : Bool) (s : St) :
    Same [48, 49, 50, 51, 52, 54, 55, 56, 57] s (exec e (rest wide).body s) ∧ (exec e (rest wide).body s).m = s.m ∧
    (exec e (rest wide).body s).x 2 = .int ((e.field .packRows).num % 2 ^ 32 &&& 15) ∧
    (exec e (rest wide).body s).z = Nat.beq ((e.field .packRows).num % 2 ^ 32 &&& 15) 0 ∧
    (exec e (rest wide).body s).v = s.v ∧
    (exec e (rest wide).body s).bad = (s.bad || (e.field .packRows).isPtr) := by
  cases s
  exact ⟨by keep, rfl, rfl, rfl, rfl, rfl⟩

/-- q0 and q1 are filled with the zero point; `fill` without the load of r3, and the end of `second`. -/
def refill : List Instr := [.dupB 0 3, .dupB 1 3, .cmpI 2 0]

theorem refillx (e : Env) (s : St) : Same [2, 3, 48, 49, 50, 51, 52, 54, 55, 56, 57] s (exec e refill s) ∧
    (exec e refill s).m = s.m ∧
    (exec e refill s).z = decide (sgn (s.x 2).num = sgn 0) ∧
    (∀ i, i < 2 → (exec e refill s).v i = ofB (fun _ => (s.x 3).num)) ∧
    (∀ c, c < 4 → (exec e refill s).v (12 + c) = s.v (12 + c)) ∧
    (exec e refill s).v 11 = s.v 11 ∧
    (exec e refill s).bad = (s.bad || (s.x 3).isPtr || (s.x 3).isPtr || (s.x 2).isPtr) := by
  cases s
  exact ⟨by keep, rfl, rfl, by intro c hc; interval_cases c <;> rfl, by intro c hc; interval_cases c <;> rfl, rfl, rfl⟩

theorem refilled {p : Nat} {T P : Nat → Nat} {s : St} (h : At wide j (width wide * fulls j + 2 * p) T P s)
    (hP : ∀ c, c < width wide → c / 2 = p → P c = pos j (fulls j) c) (h2 : s.x 2 = .int (j.rows % 16))
    (h3 : s.x 3 = .int (Neon.Job.u32 j.zp)) : Tail wide j p T P 0 (exec (env j) refill s) ∧
      (exec (env j) refill s).z = decide (j.rows % 16 = 0) := by
  obtain ⟨g1, g2, g3, g4, g5, g6, g7⟩ := refillx (env j) s
  generalize exec (env j) refill s = s' at *
  have a : At wide j (width wide * fulls j + 2 * p) T P s' := by
    refine h.keep ?_ g2 g5 g6 ?_
    · exact ⟨g1.get (by decide), g1.get (by decide), g1.get (by decide), g1.get (by decide), g1.get (by decide),
        g1.get (by decide), g1.get (by decide), g1.get (by decide), g1.get (by decide), trivial⟩
    · rw [g7, h.ok, h2, h3]; rfl
  refine ⟨⟨a.congr rfl (fun _ _ => rfl) (fun c hc => ?_), ?_, ?_, fun i hi b hb => ?_⟩, ?_⟩
  · by_cases hcp : c / 2 = p
    · rw [if_pos hcp]; exact hP c hc hcp
    · rw [if_neg hcp]
  · rw [g1.get (by decide)]; exact h2
  · rw [g1.get (by decide)]; exact h3
  · rw [g4 i hi, h3, if_neg (by omega)]
    exact u32_byte _
  · rw [g3, h2]
    exact sgn_eq (by omega) (by omega)

/-- Where the sums are computed. -/
def fin (wide : Bool) : Nat := if wide then 38 else 21

theorem Processed.keep' {e : Env} {p : Nat} {s s' : St} (h : Processed e p s s') : s'.x 2 = s.x 2 ∧ s'.x 3 = s.x 3 :=
  ⟨h.keep.get (by decide), h.keep.get (by decide)⟩

theorem third (e : Env) (s : St) : exec e fill.body s = exec e refill (exec e [.ldp 3 .packZeroPoint] s) := rfl

/-- From label 3 to label 4: all rows are stored. -/
theorem tail (hf : Fits wide j) {s : St} (h : At wide j (width wide * fulls j) (fun _ => fulls j) (pos j (fulls j)) s) :
    ∃ s' P, Reach (env j) (code wide) (2, s) (fin wide, s') ∧
      At wide j (width wide * j.chunks) (fun _ => j.chunks) P s' := by
  have hfull : fulls j = j.rows / 16 := rfl
  have hch : j.chunks = (j.rows + 15) / 16 := rfl
  have hr := hf.rows
  obtain ⟨h1, h2, h3, h4, h5, h6⟩ := restx (env j) wide s
  have nx : ∀ l, (bif (exec (env j) (rest wide).body s).z then fin wide else 3) = l →
      Reach (env j) (code wide) (2, s) (l, exec (env j) (rest wide).body s) :=
    fun l hl => Reach.block (rest_at wide) hl
  generalize exec (env j) (rest wide).body s = s1 at *
  change s1.x 2 = .int (j.rows % 2 ^ 32 &&& 15) at h3
  change s1.z = Nat.beq (j.rows % 2 ^ 32 &&& 15) 0 at h4
  rw [and_low hr] at h3 h4
  have inv : At wide j (width wide * fulls j) (fun _ => fulls j) (pos j (fulls j)) s1 :=
    h.keep h1 h2 (fun c _ => by rw [h5]) (by rw [h5]) (by rw [h6, h.ok]; rfl)
  by_cases h0 : j.rows % 16 = 0
  · refine ⟨s1, pos j (fulls j), nx _ ?_, ?_⟩
    · rw [h4, h0]; rfl
    · rw [show j.chunks = fulls j by omega]; exact inv
  have r1 := nx 3 (by rw [h4, beq_zero, decide_eq_false h0]; rfl)
  -- the first pair
  have r2 : Reach (env j) (code wide) (3, s1) ((bif (exec (env j) fill.body s1).z then 20 else 4), exec (env j) fill.body s1) :=
    Reach.block (fill_at wide) rfl
  rw [third] at r2
  have i2 : At wide j (width wide * fulls j + 2 * 0) (fun _ => fulls j) (pos j (fulls j))
      (exec (env j) [.ldp 3 .packZeroPoint] s1) := inv.keep (by keep) rfl (fun _ _ => rfl) rfl inv.ok
  obtain ⟨t0, z0⟩ := refilled i2 (fun _ _ _ => rfl) h3 rfl
  rw [z0, decide_eq_false h0] at r2
  change Reach (env j) (code wide) (3, s1) (4 + 0, _) at r2
  generalize exec (env j) refill (exec (env j) [.ldp 3 .packZeroPoint] s1) = s2 at *
  obtain ⟨s3, r3, t3⟩ := rows_run hf (by cases wide <;> decide) (first_at wide) (j.rows % 16 - 1) 0 s2 (by omega) t0
  have pr := tailx (env j) (p := 0) (by omega) s3
  have a4 := t3.inv.processed hf (p := 0) (by cases wide <;> decide) (by omega) (fun _ _ => rfl) t3.loaded pr
  have r4 := (r1.trans r2).trans r3
  cases wide
  · refine ⟨exec (env j) (processTail 0) s3, _, r4.trans (Reach.block (b := ⟨processTail 0, .jmp 21⟩) rfl rfl),
      a4.congr ?_ (fun c hc => ?_) (fun _ _ => rfl)⟩
    · show 2 * fulls j + 2 * 0 + 2 = 2 * j.chunks
      omega
    · have hc : c < 2 := hc
      show (if c / 2 = 0 then _ else _) = _
      rw [if_pos (by omega)]; omega
  -- the second pair
  have k4 := pr.keep'
  rw [t3.left, t3.zp] at k4
  have r5 : Reach (env j) (code true) (20, s3)
      ((bif (exec (env j) (processTail 0 ++ refill) s3).z then 37 else 21), exec (env j) (processTail 0 ++ refill) s3) :=
    Reach.block (b := second) rfl rfl
  rw [exec_append] at r5
  generalize exec (env j) (processTail 0) s3 = s4 at *
  obtain ⟨t5, z5⟩ := refilled (p := 1) (a4.congr (N' := width true * fulls j + 2 * 1) (by ring) (fun _ _ => rfl) (fun _ _ => rfl))
    (fun c hc hcp => if_neg (by omega)) k4.1 k4.2
  rw [z5, decide_eq_false h0] at r5
  change Reach (env j) (code true) (20, s3) (21 + 0, _) at r5
  generalize exec (env j) refill s4 = s5 at *
  obtain ⟨s6, r6, t6⟩ := rows_run hf (by decide) second_at (j.rows % 16 - 1) 0 s5 (by omega) t5
  have pr6 := tailx (env j) (p := 1) (by omega) s6
  have a7 := t6.inv.processed hf (p := 1) (by decide) (by omega) (fun i hi => if_neg (by omega)) t6.loaded pr6
  refine ⟨exec (env j) (processTail 1) s6, _,
    ((r4.trans r5).trans r6).trans (Reach.block (b := ⟨processTail 1, .jmp 38⟩) rfl rfl), a7.congr ?_ (fun c hc => ?_) (fun _ _ => rfl)⟩
  · show 4 * fulls j + 2 * 1 + 2 = 4 * j.chunks
    omega
  · have hc : c < 4 := hc
    by_cases h1 : c / 2 = 1
    · rw [if_pos h1]; omega
    · rw [if_neg h1, if_pos (by omega)]; omega

/-! ### The sums -/

/-- The pairwise sums of `d24, d25, d26, d27`, or of `d28 … d31`, in the end. -/
def two (a b : Vec) : Vec :=
  paddV (half 0 (setLo a (paddV (half 0 a) (half 1 a)))) (half 0 (setLo b (paddV (half 0 b) (half 1 b))))

theorem four (x y z w : Int) : wrap32 (wrap32 (wrap32 x + wrap32 y) + wrap32 (wrap32 z + wrap32 w)) = wrap32 (x + y + (z + w)) := by
  unfold wrap32; omega

theorem getS_two {a b : Vec} {q r : Nat → Int} (ha : ∀ i, i < 4 → getS a i = wrap32 (q i))
    (hb : ∀ i, i < 4 → getS b i = wrap32 (r i)) {i : Nat} (hi : i < 2) :
    getS (two a b) i = if i = 0 then wrap32 (q 0 + q 1 + (q 2 + q 3)) else wrap32 (r 0 + r 1 + (r 2 + r 3)) := by
  have side : ∀ (a : Vec) (q : Nat → Int), (∀ i, i < 4 → getS a i = wrap32 (q i)) →
      wrap32 (getS (half 0 (setLo a (paddV (half 0 a) (half 1 a)))) 0 + getS (half 0 (setLo a (paddV (half 0 a) (half 1 a)))) 1) =
        wrap32 (q 0 + q 1 + (q 2 + q 3)) := by
    intro a q ha
    rw [getS_half_lo, getS_half_lo, getS_setLo_lo _ _ (by omega), getS_setLo_lo _ _ (by omega), getS_paddV0, getS_paddV1,
      getS_half_lo, getS_half_lo, getS_half_hi _ (by omega), getS_half_hi _ (by omega), ha 0 (by omega), ha 1 (by omega),
      ha (2 + 0) (by omega), ha (2 + 1) (by omega)]
    exact four _ _ _ _
  unfold two
  interval_cases i
  · rw [getS_paddV0, if_pos rfl]; exact side a q ha
  · rw [getS_paddV1, if_neg (by decide)]; exact side b r hb

def sumB (wide : Bool) : Block := if wide then sum4 else sum2
def storeB (wide : Bool) : Block := if wide then ⟨[.stdP 25 3, .stdP 27 3], .jmp 40⟩ else ⟨[.stdP 25 3], .jmp 23⟩

theorem sumx (e : Env) (wide : Bool) (s : St) : Same [52] s (exec e (sumB wide).body s) ∧
    (exec e (sumB wide).body s).m = s.m ∧
    (exec e (sumB wide).body s).x 3 = e.field .packSums ∧
    (exec e (sumB wide).body s).z = (!(e.field .packSums).isPtr && Nat.beq (e.field .packSums).num 0) ∧
    (∃ w, (exec e (sumB wide).body s).v 12 = setHi w (two (s.v 12) (s.v 13))) ∧
    (wide = true → ∃ w, (exec e (sumB wide).body s).v 13 = setHi w (two (s.v 14) (s.v 15))) ∧
    (exec e (sumB wide).body s).bad = s.bad := by
  cases s
  cases wide
  · exact ⟨by keep, rfl, rfl, rfl, ⟨_, rfl⟩, (fun h => Bool.noConfusion h), rfl⟩
  · exact ⟨by keep, rfl, rfl, rfl, ⟨_, rfl⟩, fun _ => ⟨_, rfl⟩, rfl⟩

theorem storex (e : Env) (s : St) {o : Nat} (h : s.x 3 = .ptr .sums o) :
    (exec e (storeB false).body s).x 52 = s.x 52 ∧ (exec e (storeB true).body s).x 52 = s.x 52 ∧
    (exec e (storeB false).body s).m = wr s.m .sums o 8 (half 1 (s.v 12)) ∧
    (exec e (storeB true).body s).m = wr (wr s.m .sums o 8 (half 1 (s.v 12))) .sums (o + 8) 8 (half 1 (s.v 13)) ∧
    (exec e (storeB false).body s).bad = (s.bad || out e.base (.ptr .sums o) 0 8) ∧
    (exec e (storeB true).body s).bad =
      (s.bad || out e.base (.ptr .sums o) 0 8 || out e.base (.ptr .sums (o + 8)) 0 8) := by
  rw [← h, show Val.ptr .sums (o + 8) = addVal (s.x 3) 8 by rw [h]; rfl]
  have e1 : s.m = s.m := rfl
  cases s with
  | mk x v m z lt bad =>
  simp only at h
  refine ⟨rfl, rfl, ?_, ?_, rfl, rfl⟩
  · show Neon.wr m (x 3).region ((x 3).off + 0) 8 _ = _
    rw [h]; rfl
  · show Neon.wr (Neon.wr m (x 3).region ((x 3).off + 0) 8 _) (addVal (x 3) 8).region ((addVal (x 3) 8).off + 0) 8 _ = _
    rw [h]; rfl

theorem sum_at (wide : Bool) : (code wide)[fin wide]? = some (sumB wide) := by cases wide <;> rfl
theorem store_at (wide : Bool) : (code wide)[fin wide + 1]? = some (storeB wide) := by cases wide <;> rfl
theorem len (wide : Bool) : (code wide).length = fin wide + 2 := by cases wide <;> rfl

theorem half_two {v w a b : Vec} (h : v = setHi w (two a b)) {i : Nat} (hi : i < 8) : half 1 v i = two a b i := by
  subst h
  interval_cases i <;> rfl

/-- The whole `asm` statement. -/
theorem whole (hf : Fits wide j) {s : St} (h : Start wide j s) :
    ∃ s', Stops (env j) (code wide) s s' ∧ Result wide j s' ∧
      s'.x 52 = .ptr .packed (j.packedBase + 16 * width wide * j.chunks) := by
  obtain ⟨s1, r1, h1⟩ := blocks hf h
  obtain ⟨s2, p, r2, h2⟩ := tail hf h1
  have hw := width_cases wide
  have hp := hf.packed
  have h16 : 16 * (width wide * j.chunks) = 16 * width wide * j.chunks := by ring
  have hent : ∀ c, c < width wide → ∀ k, k < 16 * j.chunks → cells j (width wide) (width wide * j.chunks) .packed
      (j.packedBase + 16 * width wide * (k / 16) + 16 * c + k % 16) = j.entry c k := by
    intro c hc k hk
    unfold cells
    rcases hw with ⟨hw, _⟩ | ⟨hw, _⟩ <;> rw [hw] at hc ⊢ <;> rw [if_pos ⟨rfl, by omega, by omega⟩] <;> congr 1 <;> omega
  have hrest : ∀ o, o < j.packedBase ∨ j.packedBase + 16 * width wide * j.chunks ≤ o →
      cells j (width wide) (width wide * j.chunks) .packed o = j.m .packed o := by
    intro o ho
    unfold cells
    rw [if_neg (by omega)]
  have hother : ∀ r, r ≠ .packed → cells j (width wide) (width wide * j.chunks) r = j.m r :=
    fun r hr => cells_other _ _ hr
  obtain ⟨g1, g2, g3, g4, ⟨w, g5⟩, g6, g7⟩ := sumx (env j) wide s2
  have nx : ∀ l, (bif (exec (env j) (sumB wide).body s2).z then fin wide + 2 else fin wide + 1) = l →
      Reach (env j) (code wide) (fin wide, s2) (l, exec (env j) (sumB wide).body s2) := by
    intro l hl
    refine Reach.block (sum_at wide) ?_
    rw [← hl]
    cases wide <;> rfl
  generalize exec (env j) (sumB wide).body s2 = s3 at *
  have x52 : s3.x 52 = .ptr .packed (j.packedBase + 16 * width wide * j.chunks) := by
    rw [g1.get (by decide), h2.packed, h16]
  have hsum : ∀ c, c < width wide → wrap32 (∑ u ∈ Finset.range j.chunks, j.quad c u 0 + ∑ u ∈ Finset.range j.chunks, j.quad c u 1 +
      (∑ u ∈ Finset.range j.chunks, j.quad c u 2 + ∑ u ∈ Finset.range j.chunks, j.quad c u 3)) = j.colSum c := by
    intro c _
    rw [← sum_quads]; rfl
  have hlane : ∀ p, 2 * p + 1 < width wide → ∀ i, i < 2 →
      getS (two (s2.v (12 + 2 * p)) (s2.v (12 + (2 * p + 1)))) i = j.colSum (2 * p + i) := by
    intro p hp i hi
    rw [getS_two (q := fun i => ∑ u ∈ Finset.range j.chunks, j.quad (2 * p) u i)
      (r := fun i => ∑ u ∈ Finset.range j.chunks, j.quad (2 * p + 1) u i) (h2.acc (2 * p) (by omega)) (h2.acc (2 * p + 1) (by omega)) hi]
    interval_cases i
    · rw [if_pos rfl]; exact hsum (2 * p) (by omega)
    · rw [if_neg (by decide)]; exact hsum (2 * p + 1) (by omega)
  have hfield : (env j).field .packSums = match j.sumsAt with | some o => .ptr .sums o | none => .int 0 := rfl
  cases ha : j.sumsAt with
  | none =>
    rw [hfield, ha] at g4
    refine ⟨s3, stops_of ?_, ?_, x52⟩
    · rw [len]
      exact (r1.trans r2).trans (nx _ (by rw [g4]; rfl))
    · refine ⟨by rw [g7, h2.ok], ?_, fun o ho => by simp [ha] at ho, ?_, fun o _ => ?_, fun r hr _ => ?_⟩
      · rw [g2, h2.mem]; exact hent
      · rw [g2, h2.mem]; exact hrest
      · rw [g2, h2.mem, hother _ (by decide)]
      · rw [g2, h2.mem, hother _ hr]
  | some a =>
    rw [hfield, ha] at g3 g4
    have hsz := hf.sums a ha
    obtain ⟨k1, k2, k3, k4, k5, k6⟩ := storex (env j) s3 g3
    have r4 : Reach (env j) (code wide) (fin wide + 1, s3) (fin wide + 2, exec (env j) (storeB wide).body s3) :=
      Reach.block (store_at wide) (by cases wide <;> rfl)
    have r5 := ((r1.trans r2).trans (nx (fin wide + 1) (by rw [g4]; rfl))).trans r4
    have hm : ∀ r o, ¬(r = .sums ∧ a ≤ o ∧ o < a + 4 * width wide) →
        (exec (env j) (storeB wide).body s3).m r o = cells j (width wide) (width wide * j.chunks) r o := by
      intro r o hr
      rw [← h2.mem, ← g2]
      rcases hw with ⟨hw, rfl⟩ | ⟨hw, rfl⟩ <;> rw [hw] at hr
      · rw [k4]; unfold wr
        rw [if_neg (fun hh => hr ⟨hh.1, by omega, by omega⟩), if_neg (fun hh => hr ⟨hh.1, by omega, by omega⟩)]
      · rw [k3]; unfold wr
        rw [if_neg (fun hh => hr ⟨hh.1, by omega, by omega⟩)]
    refine ⟨exec (env j) (storeB wide).body s3, stops_of (by rw [len]; exact r5), ⟨?_, ?_, fun o ho c hc b hb => ?_, ?_, fun o ho => ?_,
      fun r hr hr' => ?_⟩, ?_⟩
    · rcases hw with ⟨hw, rfl⟩ | ⟨hw, rfl⟩ <;> rw [hw] at hsz
      · rw [k6, g7, h2.ok, out_ptr (by show a + 0 + 8 ≤ j.size .sums; omega), out_ptr (by show a + 8 + 0 + 8 ≤ j.size .sums; omega)]; rfl
      · rw [k5, g7, h2.ok, out_ptr (by show a + 0 + 8 ≤ j.size .sums; omega)]; rfl
    · intro c hc k hk
      rw [hm _ _ (by simp)]; exact hent c hc k hk
    · obtain rfl : a = o := by simpa [ha] using ho
      have lane : ∀ p, 2 * p + 1 < width wide → ∀ i, i < 2 → two (s2.v (12 + 2 * p)) (s2.v (12 + (2 * p + 1))) (4 * i + b) =
          byteOf (j.colSum (2 * p + i)) b := by
        intro p hp i hi
        rw [← hlane p hp i hi, byteOf_getS _ _ _ hb]
      rcases hw with ⟨hw, rfl⟩ | ⟨hw, rfl⟩ <;> rw [hw] at hc
      · rw [k4]
        obtain ⟨w', g6⟩ := g6 rfl
        unfold wr
        by_cases h8 : c < 2
        · rw [if_neg (by omega), if_pos ⟨rfl, by omega, by omega⟩, half_two g5 (by omega), show a + 4 * c + b - a = 4 * c + b by omega]
          have := lane 0 (by omega) c (by omega)
          rw [show 2 * 0 + c = c by omega] at this
          exact this
        · rw [if_pos ⟨rfl, by omega, by omega⟩, half_two g6 (by omega), show a + 4 * c + b - (a + 8) = 4 * (c - 2) + b by omega]
          have := lane 1 (by omega) (c - 2) (by omega)
          rw [show 2 * 1 + (c - 2) = c by omega] at this
          exact this
      · rw [k3]
        unfold wr
        rw [if_pos ⟨rfl, by omega, by omega⟩, half_two g5 (by omega), show a + 4 * c + b - a = 4 * c + b by omega]
        have := lane 0 (by omega) c (by omega)
        rw [show 2 * 0 + c = c by omega] at this
        exact this
    · intro o ho
      rw [hm _ _ (by simp)]; exact hrest o ho
    · have := ho a ha
      rw [hm _ _ (by omega), hother _ (by decide)]
    · funext o
      rw [hm _ _ (fun hh => hr' hh.1), hother _ hr]
    · cases wide
      · rw [k1]; exact x52
      · rw [k2]; exact x52

end
end Ruy.Arm8.Pack

import Verif.Neon.PackAsm
import Verif.Neon.Value
/-
The pack functions from start to end.  `Variant` lists what differs between
`Pack8bitColMajorForNeon` and `Pack8bitColMajorForNeonA55ish`: how full blocks of 16 rows
are loaded.
-/
namespace Ruy.Neon
open Simd (wrap8 wrap16 wrap32)

namespace PJob

/-- Where column `c` is read after `k` full blocks. -/
def pos (j : PJob) (k c : Nat) : Nat := j.off c + j.inc c * k

/-- Full blocks of 16 rows. -/
def full (j : PJob) : Nat := j.rows / 16

/-! ### Arithmetic -/

theorem and_high {n : Nat} (h : n < 2 ^ 31) : n % 2 ^ 32 &&& 4294967280 = 16 * (n / 16) := by
  rw [Nat.mod_eq_of_lt (by omega)]
  apply Nat.eq_of_testBit_eq
  intro i
  rw [Nat.testBit_and, show 4294967280 = 2 ^ 4 * (2 ^ 28 - 1) from rfl, show 16 * (n / 16) = 2 ^ 4 * (n / 2 ^ 4) from rfl,
    Nat.testBit_two_pow_mul, Nat.testBit_two_pow_mul, Nat.testBit_two_pow_sub_one, Nat.testBit_div_two_pow]
  by_cases h4 : 4 ≤ i
  · have e : i - 4 + 4 = i := by omega
    by_cases h32 : i - 4 < 28
    · simp [h4, h32, e]
    · have : n.testBit i = false := Nat.testBit_lt_two_pow (lt_of_lt_of_le h (Nat.pow_le_pow_right (by omega) (by omega)))
      simp [h4, h32, e, this]
  · simp [h4]

theorem and_low {n : Nat} (h : n < 2 ^ 31) : n % 2 ^ 32 &&& 15 = n % 16 := by
  rw [Nat.mod_eq_of_lt (by omega), show 15 = 2 ^ 4 - 1 from rfl, Nat.and_two_pow_sub_one_eq_mod]

theorem beq_zero (n : Nat) : Nat.beq n 0 = decide (n = 0) := by
  cases n with
  | zero => rfl
  | succ n => exact (decide_eq_false (by omega)).symm

theorem beq_ne {a b : Nat} (h : a ≠ b) : Nat.beq a b = false := by
  cases e : Nat.beq a b with
  | false => rfl
  | true => exact absurd (Nat.eq_of_beq_eq_true e) h

theorem u32_byte (x : Int) : BitVec.ofInt 8 ((Job.u32 x : Int) / 256 ^ 0) = BitVec.ofInt 8 x := by
  apply BitVec.eq_of_toNat_eq
  rw [BitVec.toNat_ofInt, BitVec.toNat_ofInt]
  unfold Job.u32
  simp only [pow_zero, Int.ediv_one]
  omega

theorem nat_byte (n : Nat) : BitVec.ofInt 8 ((n : Int) / 256 ^ 0) = BitVec.ofNat 8 n := by
  simp only [pow_zero, Int.ediv_one]
  exact BitVec.ofInt_natCast 8 n

/-! ### Blocks of 16 rows -/

/-- The next block of 16 rows is in v0, …, v3. -/
def Loaded (j : PJob) (t : Nat) (s : St) : Prop :=
  ∀ c, c < 4 → ∀ b, b < 16 → s.v c b ^^^ BitVec.ofNat 8 j.xor = j.entry c (16 * t + b)

theorem Loaded.eor {j : PJob} {t : Nat} {p : Nat → Nat} {s : St} (h : At j t p s) (hl : Loaded j t s) :
    ∀ c, c < 4 → ∀ b, b < 16 → eorV (s.v c) (s.v 26) b = j.entry c (16 * t + b) := by
  intro c hc b hb
  unfold eorV
  rw [h.x26 b hb]
  exact hl c hc b hb

/-- Both orders of the instructions that process a loaded block. -/
theorem processed {j : PJob} (hf : j.Fits) {t : Nat} {p : Nat → Nat} {s s' : St} (h : At j t p s) (ht : t < j.chunks)
    (hl : ∀ c, c < 4 → ∀ b, b < 16 → eorV (s.v c) (s.v 26) b = j.entry c (16 * t + b))
    (h1 : Same keepQ s s')
    (h2 : s'.m = store4 s.m (s.x 52) (eorV (s.v 0) (s.v 26)) (eorV (s.v 1) (s.v 26))
      (eorV (s.v 2) (s.v 26)) (eorV (s.v 3) (s.v 26)))
    (h3 : s'.x 52 = addVal (s.x 52) 64)
    (h4 : ∀ c, c < 4 → s'.v (28 + c) = sumV (s.v (28 + c)) (eorV (s.v c) (s.v 26)))
    (h5 : s'.v 26 = s.v 26)
    (h6 : s'.bad = (s.bad || out j.env (s.x 52) 0 16 || out j.env (s.x 52) 16 16 || out j.env (s.x 52) 32 16 ||
      out j.env (s.x 52) 48 16)) : At j (t + 1) p s' := by
  have hp := hf.packed
  refine ⟨fun c hc => ?_, ?_, ?_, fun c hc => ?_, ?_, ?_, ?_, fun c hc i hi => ?_, fun b hb => ?_, ?_⟩
  · rw [h1.get (by interval_cases c <;> decide)]; exact h.src c hc
  · rw [h3, h.packed]
    show Val.ptr _ _ = _
    rw [show j.packedBase + 64 * t + 64 = j.packedBase + 64 * (t + 1) by ring]
  · rw [h1.get (by decide)]; exact h.sums
  · rw [h1.get (by interval_cases c <;> decide)]; exact h.inc c hc
  · rw [h1.get (by decide)]; exact h.rows
  · rw [h1.get (by decide)]; exact h.zp
  · rw [h2, h.mem, h.packed]
    exact stored_succ (x := fun c => eorV (s.v c) (s.v 26)) hl
  · rw [h4 c hc]
    exact acc_succ hi (hl c hc) (h.acc c hc i hi)
  · rw [h5]; exact h.x26 b hb
  · rw [h6, h.ok, h.packed, out_ptr, out_ptr, out_ptr, out_ptr] <;>
      first | rfl | (show _ ≤ j.size .packed; omega)

/-! ### The last rows -/

/-- `k` of the remaining rows are loaded. -/
structure Tail (j : PJob) (k : Nat) (s : St) : Prop where
  inv : At j j.full (fun c => j.pos j.full c + k) s
  left : s.x 2 = .int (j.rows % 16)
  v : ∀ c, c < 4 → ∀ b, b < 16 → s.v c b = if b < k then j.raw c (16 * j.full + b) else BitVec.ofInt 8 j.zp

theorem Tail.step {j : PJob} (hf : j.Fits) {k : Nat} {s : St} (h : Tail j k s) (hk : k < j.rows % 16) :
    Tail j (k + 1) (exec j.env (rowLoads k) s) := by
  obtain ⟨h1, h2, h3, h4, h5, h6, h7⟩ := pRow j.env k s
  generalize exec j.env (rowLoads k) s = s' at *
  have hfull : j.full = j.rows / 16 := rfl
  have e1 : (16 * j.full + k) / 16 = j.full := by omega
  have e2 : (16 * j.full + k) % 16 = k := by omega
  have hin : ∀ c, c < 4 → j.pos j.full c + k + 0 + 1 ≤ j.env.size (j.reg c) := by
    intro c hc
    have := hf.src c hc (16 * j.full + k) (by omega)
    rw [e1, e2] at this
    exact this
  refine ⟨⟨fun c hc => ?_, ?_, ?_, fun c hc => ?_, ?_, ?_, ?_, fun c hc i hi => ?_, fun b hb => ?_, ?_⟩, ?_, fun c hc b hb => ?_⟩
  · rw [h3 c hc, h.inv.src c hc]; rfl
  · rw [h1.get (by decide)]; exact h.inv.packed
  · rw [h1.get (by decide)]; exact h.inv.sums
  · rw [h1.get (by interval_cases c <;> decide)]; exact h.inv.inc c hc
  · rw [h1.get (by decide)]; exact h.inv.rows
  · rw [h1.get (by decide)]; exact h.inv.zp
  · rw [h2]; exact h.inv.mem
  · rw [h5 c hc]; exact h.inv.acc c hc i hi
  · rw [h6]; exact h.inv.x26 b hb
  · rw [h7, h.inv.ok, h.inv.src 0 (by omega), h.inv.src 1 (by omega), h.inv.src 2 (by omega), h.inv.src 3 (by omega),
      out_ptr (hin 0 (by omega)), out_ptr (hin 1 (by omega)), out_ptr (hin 2 (by omega)), out_ptr (hin 3 (by omega))]
    rfl
  · rw [h1.get (by decide)]; exact h.left
  · rw [h4 c hc, h.inv.src c hc]
    dsimp only [Val.region, Val.off]
    by_cases hbk : b = k
    · subst hbk
      rw [show Nat.beq b b = true by simp, if_pos (by omega), h.inv.mem, stored_src hf hc]
      show j.m _ _ = j.m _ _
      rw [e1, e2]; rfl
    · rw [beq_ne hbk]
      show s.v c b = _
      rw [h.v c hc b hb]
      by_cases hb' : b < k
      · rw [if_pos hb', if_pos (by omega)]
      · rw [if_neg hb', if_neg (by omega)]

theorem Tail.loaded {j : PJob} {s : St} (h : Tail j (j.rows % 16) s) : Loaded j j.full s := by
  intro c hc b hb
  rw [h.v c hc b hb]
  unfold entry
  have hfull : j.full = j.rows / 16 := rfl
  congr 1
  by_cases hr : b < j.rows % 16
  · rw [if_pos hr, if_pos (by omega)]
  · rw [if_neg hr, if_neg (by omega)]

/-- The comparison changes only the flags. -/
theorem Tail.cmp {j : PJob} {k : Nat} {s : St} (h : Tail j k s) (i : Nat) (hi : i < 2 ^ 31) :
    Tail j k (exec j.env [.cmpI 2 i] s) ∧ (exec j.env [.cmpI 2 i] s).z = decide (j.rows % 16 = i) := by
  rw [pCmp]
  refine ⟨⟨⟨h.inv.src, h.inv.packed, h.inv.sums, h.inv.inc, h.inv.rows, h.inv.zp, h.inv.mem, h.inv.acc, h.inv.x26, ?_⟩,
    h.left, h.v⟩, ?_⟩
  · show (s.bad || (s.x 2).isPtr) = false
    rw [h.inv.ok, h.left]; rfl
  · show decide (sgn (s.x 2).num = sgn i) = _
    rw [h.left]
    exact sgn_eq (by omega) hi

/-- What the two functions share (`same`), and how they load full blocks of 16 rows. -/
structure Variant where
  code : List Block
  len : code.length = 24
  same : ∀ i, i < 24 → i = 0 ∨ 4 ≤ i → code[i]? = packCode[i]?
  one : Block
  two : Block
  three : Block
  h1 : code[1]? = some one
  h2 : code[2]? = some two
  h3 : code[3]? = some three
  held : PJob → Nat → St → Prop
  first : ∀ {j : PJob} {s : St}, j.Fits → At j 0 (j.pos 0) s → s.x 1 = .int 0 → s.x 2 = .int (16 * j.full) →
    0 < j.full → At j 0 (j.pos 1) (exec j.env one.body s) ∧ held j 0 (exec j.env one.body s) ∧
      (exec j.env one.body s).x 1 = .int 16 ∧ (exec j.env one.body s).x 2 = .int (16 * j.full) ∧
      next (exec j.env one.body s) one.term = if j.full = 1 then 3 else 2
  loop : ∀ {j : PJob} {t : Nat} {s : St}, j.Fits → At j t (j.pos (t + 1)) s → held j t s → s.x 1 = .int (16 * (t + 1)) →
    s.x 2 = .int (16 * j.full) → t + 1 < j.full →
    At j (t + 1) (j.pos (t + 2)) (exec j.env two.body s) ∧ held j (t + 1) (exec j.env two.body s) ∧
      (exec j.env two.body s).x 1 = .int (16 * (t + 2)) ∧ (exec j.env two.body s).x 2 = .int (16 * j.full) ∧
      next (exec j.env two.body s) two.term = if j.full = t + 2 then 3 else 2
  last : ∀ {j : PJob} {t : Nat} {s : St}, j.Fits → At j t (j.pos (t + 1)) s → held j t s → t + 1 = j.full →
    At j (t + 1) (j.pos (t + 1)) (exec j.env three.body s) ∧ next (exec j.env three.body s) three.term = 4

theorem Variant.at {V : Variant} {i : Nat} {b : Block} (hi : i < 24) (h : i = 0 ∨ 4 ≤ i) (hb : packCode[i]? = some b) :
    V.code[i]? = some b := (V.same i hi h).trans hb

/-- The loop over full blocks. -/
theorem Variant.loops (V : Variant) {j : PJob} (hf : j.Fits) : ∀ n t s, t + 1 + n = j.full → At j t (j.pos (t + 1)) s →
    V.held j t s → s.x 1 = .int (16 * (t + 1)) → s.x 2 = .int (16 * j.full) →
    ∃ s', Reach j.env V.code ((if j.full = t + 1 then 3 else 2), s) (4, s') ∧ At j j.full (j.pos j.full) s' := by
  intro n
  induction n with
  | zero =>
    intro t s hn h hh _ _
    obtain ⟨h1, h2⟩ := V.last hf h hh (by omega)
    rw [if_pos (by omega)]
    refine ⟨_, Reach.block V.h3 h2, ?_⟩
    rw [show j.full = t + 1 by omega]
    exact h1
  | succ n ih =>
    intro t s hn h hh hx1 hx2
    obtain ⟨h1, h2, h3, h4, h5⟩ := V.loop hf h hh hx1 hx2 (by omega)
    obtain ⟨s', r, h'⟩ := ih (t + 1) _ (by omega) h1 h2 h3 h4
    rw [if_neg (by omega)]
    exact ⟨s', (Reach.block V.h2 h5).trans r, h'⟩

/-- From the start to label 3. -/
theorem Variant.blocks (V : Variant) {j : PJob} (hf : j.Fits) {s : St} (h : j.Start s) :
    ∃ s', Reach j.env V.code (0, s) (4, s') ∧ At j j.full (j.pos j.full) s' := by
  obtain ⟨h1, h2, h3, h4, h5, h6, h7, h8⟩ := p0 j.env s
  have nx : ∀ l, (bif (exec j.env pack0.body s).z then 4 else 1) = l → Reach j.env V.code (0, s) (l, exec j.env pack0.body s) :=
    fun l hl => Reach.block (b := pack0) (Variant.at (by omega) (Or.inl rfl) rfl) hl
  generalize exec j.env pack0.body s = s1 at *
  have hr := hf.rows
  rw [h.rows] at h4 h5 h8
  change s1.x 2 = .int (j.rows % 2 ^ 32 &&& 4294967280) at h4
  change s1.z = Nat.beq (j.rows % 2 ^ 32 &&& 4294967280) 0 at h5
  rw [and_high hr] at h4 h5
  have inv : At j 0 (j.pos 0) s1 := by
    refine ⟨fun c hc => ?_, ?_, ?_, fun c hc => ?_, ?_, ?_, ?_, fun c hc i hi => ?_, fun b hb => ?_, ?_⟩
    · rw [h1.get (by interval_cases c <;> decide)]; exact h.src c hc
    · rw [h1.get (by decide)]; exact h.packed
    · rw [h1.get (by decide)]; exact h.sums
    · rw [h1.get (by interval_cases c <;> decide)]; exact h.inc c hc
    · rw [h1.get (by decide)]; exact h.rows
    · rw [h1.get (by decide)]; exact h.zp
    · rw [h2, h.mem, stored_zero]
    · rw [h7 c hc, getS_zero]; rfl
    · rw [h6, h.xor]
      exact nat_byte _
    · rw [h8, h.ok, h.xor]; rfl
  by_cases h0 : j.full = 0
  · refine ⟨s1, nx 4 ?_, ?_⟩
    · rw [h5, beq_zero, show 16 * (j.rows / 16) = 0 by unfold full at h0; omega]; rfl
    · rw [h0]; exact inv
  · have r := nx 1 (by rw [h5, beq_zero, decide_eq_false (by unfold full at h0; omega)]; rfl)
    obtain ⟨a1, a2, a3, a4, a5⟩ := V.first hf inv h3 h4 (by omega)
    obtain ⟨s', r', h'⟩ := V.loops hf (j.full - 1) 0 _ (by omega) a1 a2 a3 a4
    exact ⟨s', (r.trans (Reach.block V.h1 a5)).trans r', h'⟩

/-- The remaining rows one by one. -/
theorem Variant.rows (V : Variant) {j : PJob} (hf : j.Fits) : ∀ n k s, k + n + 1 = j.rows % 16 → Tail j k s →
    ∃ s', Reach j.env V.code (6 + k, s) (21, s') ∧ Tail j (j.rows % 16) s' := by
  intro n
  induction n with
  | zero =>
    intro k s hn h
    have hk : k < 15 := by omega
    have h' := h.step hf (by omega)
    rcases (by omega : k = 14 ∨ k < 14) with rfl | hk'
    · refine ⟨exec j.env (rowLoads 14) s, Reach.block (b := pack20) (Variant.at (by omega) (Or.inr (by omega)) rfl) rfl, ?_⟩
      rw [← hn]; exact h'
    · obtain ⟨c1, c2⟩ := h'.cmp (k + 1) (by omega)
      refine ⟨exec j.env [.cmpI 2 (k + 1)] (exec j.env (rowLoads k) s), ?_, by rw [← hn]; exact c1⟩
      rw [← exec_append] at *
      refine Reach.block (b := ⟨rowLoads k ++ [.cmpI 2 (k + 1)], .br .eq 21 (7 + k)⟩)
        (Variant.at (i := 6 + k) (by omega) (Or.inr (by omega)) (by interval_cases k <;> rfl)) ?_
      show (bif (exec j.env (rowLoads k ++ [.cmpI 2 (k + 1)]) s).z then 21 else 7 + k) = 21
      rw [c2, decide_eq_true (by omega)]; rfl
  | succ n ih =>
    intro k s hn h
    have hk : k < 14 := by omega
    have h' := h.step hf (by omega)
    obtain ⟨c1, c2⟩ := h'.cmp (k + 1) (by omega)
    obtain ⟨s', r, hs'⟩ := ih (k + 1) _ (by omega) c1
    refine ⟨s', Reach.trans ?_ r, hs'⟩
    rw [← exec_append] at *
    refine Reach.block (b := ⟨rowLoads k ++ [.cmpI 2 (k + 1)], .br .eq 21 (7 + k)⟩)
      (Variant.at (i := 6 + k) (by omega) (Or.inr (by omega)) (by interval_cases k <;> rfl)) ?_
    show (bif (exec j.env (rowLoads k ++ [.cmpI 2 (k + 1)]) s).z then 21 else 7 + k) = 6 + (k + 1)
    rw [c2, decide_eq_false (by omega)]
    show 7 + k = _
    omega

/-- From label 3 to label 4: all rows are stored. -/
theorem Variant.tail (V : Variant) {j : PJob} (hf : j.Fits) {s : St} (h : At j j.full (j.pos j.full) s) :
    ∃ s' p, Reach j.env V.code (4, s) (22, s') ∧ At j j.chunks p s' := by
  have hfull : j.full = j.rows / 16 := rfl
  have hch : j.chunks = (j.rows + 15) / 16 := rfl
  have hr := hf.rows
  obtain ⟨h1, h2, h3, h4, h5, h6⟩ := p4 j.env s
  have nx : ∀ l, (bif (exec j.env pack4.body s).z then 22 else 5) = l → Reach j.env V.code (4, s) (l, exec j.env pack4.body s) :=
    fun l hl => Reach.block (b := pack4) (Variant.at (by omega) (Or.inr (by omega)) rfl) hl
  generalize exec j.env pack4.body s = s1 at *
  rw [h.rows] at h3 h4 h6
  change s1.x 2 = .int (j.rows % 2 ^ 32 &&& 15) at h3
  change s1.z = Nat.beq (j.rows % 2 ^ 32 &&& 15) 0 at h4
  rw [and_low hr] at h3 h4
  have inv : At j j.full (j.pos j.full) s1 := by
    refine ⟨fun c hc => ?_, ?_, ?_, fun c hc => ?_, ?_, ?_, ?_, fun c hc i hi => ?_, fun b hb => ?_, ?_⟩
    · rw [h1.get (by interval_cases c <;> decide)]; exact h.src c hc
    · rw [h1.get (by decide)]; exact h.packed
    · rw [h1.get (by decide)]; exact h.sums
    · rw [h1.get (by interval_cases c <;> decide)]; exact h.inc c hc
    · rw [h1.get (by decide)]; exact h.rows
    · rw [h1.get (by decide)]; exact h.zp
    · rw [h2, h.mem]
    · rw [h5]; exact h.acc c hc i hi
    · rw [h5]; exact h.x26 b hb
    · rw [h6, h.ok]; rfl
  by_cases h0 : j.rows % 16 = 0
  · refine ⟨s1, j.pos j.full, nx 22 ?_, ?_⟩
    · rw [h4, h0]; rfl
    · rw [show j.chunks = j.full by omega]; exact inv
  · have r1 := nx 5 (by rw [h4, beq_zero, decide_eq_false h0]; rfl)
    obtain ⟨g1, g2, g3, g4, g5, g6, g7⟩ := p5 j.env s1
    have nx' : ∀ l, (bif (exec j.env pack5.body s1).z then 21 else 6) = l →
        Reach j.env V.code (5, s1) (l, exec j.env pack5.body s1) :=
      fun l hl => Reach.block (b := pack5) (Variant.at (by omega) (Or.inr (by omega)) rfl) hl
    generalize exec j.env pack5.body s1 = s2 at *
    have r2 := nx' 6 (by
      rw [g3, h3, show decide (sgn (Val.int (j.rows % 16)).num = sgn 0) = decide (j.rows % 16 = 0) from
        sgn_eq (by omega) (by omega), decide_eq_false h0]
      rfl)
    have t0 : Tail j 0 s2 := by
      refine ⟨⟨fun c hc => ?_, ?_, ?_, fun c hc => ?_, ?_, ?_, ?_, fun c hc i hi => ?_, fun b hb => ?_, ?_⟩, ?_,
        fun c hc b hb => ?_⟩
      · rw [g1.get (by interval_cases c <;> decide)]; exact inv.src c hc
      · rw [g1.get (by decide)]; exact inv.packed
      · rw [g1.get (by decide)]; exact inv.sums
      · rw [g1.get (by interval_cases c <;> decide)]; exact inv.inc c hc
      · rw [g1.get (by decide)]; exact inv.rows
      · rw [g1.get (by decide)]; exact inv.zp
      · rw [g2, inv.mem]
      · rw [g5 c hc]; exact inv.acc c hc i hi
      · rw [g6]; exact inv.x26 b hb
      · rw [g7, inv.ok, inv.zp, h3]; rfl
      · rw [g1.get (by decide)]; exact h3
      · rw [g4 c hc, inv.zp, if_neg (by omega)]
        exact u32_byte _
    obtain ⟨s3, r3, h'⟩ := V.rows hf (j.rows % 16 - 1) 0 s2 (by omega) t0
    obtain ⟨k1, k2, k3, k4, k5, k6⟩ := p21 j.env s3
    refine ⟨_, fun c => j.pos j.full c + j.rows % 16, ((r1.trans r2).trans r3).trans (Reach.block (b := pack21) (Variant.at (by omega) (Or.inr (by omega)) rfl) rfl), ?_⟩
    rw [show j.chunks = j.full + 1 by omega]
    exact processed hf h'.inv (by omega) (h'.loaded.eor h'.inv) k1 k2 k3 k4 k5 k6

/-! ### The sums -/

theorem sum_quads (j : PJob) (c n : Nat) : ∑ k ∈ Finset.range (16 * n), wrap8 (j.entry c k).toNat =
    ∑ u ∈ Finset.range n, j.quad c u 0 + ∑ u ∈ Finset.range n, j.quad c u 1 +
    (∑ u ∈ Finset.range n, j.quad c u 2 + ∑ u ∈ Finset.range n, j.quad c u 3) := by
  induction n with
  | zero => rfl
  | succ n ih =>
    rw [show 16 * (n + 1) = 16 * n + 16 by ring, Finset.sum_range_add, ih]
    simp only [Finset.sum_range_succ, Finset.sum_range_zero, quad, Nat.mul_zero, Nat.add_zero, Nat.mul_one, Nat.add_assoc,
      show 4 * 2 = 8 from rfl, show 4 * 3 = 12 from rfl, Nat.reduceAdd]
    ring

theorem addp_lanes {a b c d : Vec} {q : Nat → Nat → Int} (v : Nat → Vec)
    (hv : v 0 = a ∧ v 1 = b ∧ v 2 = c ∧ v 3 = d)
    (h : ∀ k, k < 4 → ∀ i, i < 4 → getS (v k) i = wrap32 (q k i)) {k : Nat} (hk : k < 4) (x y z : Vec) :
    getS (vop .addp x (vop .addp y a b) (vop .addp z c d)) k = wrap32 (q k 0 + q k 1 + (q k 2 + q k 3)) := by
  obtain ⟨rfl, rfl, rfl, rfl⟩ := hv
  have key : ∀ k, k < 4 → wrap32 (wrap32 (getS (v k) 0 + getS (v k) 1) + wrap32 (getS (v k) 2 + getS (v k) 3)) =
      wrap32 (q k 0 + q k 1 + (q k 2 + q k 3)) := by
    intro k hk
    rw [h k hk 0 (by omega), h k hk 1 (by omega), h k hk 2 (by omega), h k hk 3 (by omega)]
    generalize q k 0 = q0
    generalize q k 1 = q1
    generalize q k 2 = q2
    generalize q k 3 = q3
    unfold wrap32; omega
  simp only [vop]
  rw [getS_ofS]
  interval_cases k
  all_goals simp only [Nat.reduceLT, Nat.reduceMul, Nat.reduceAdd, Nat.reduceSub, if_true, if_false, getS_ofS]
  · exact key 0 (by omega)
  · exact key 1 (by omega)
  · exact key 2 (by omega)
  · exact key 3 (by omega)

/-- The whole `asm` statement. -/
theorem Variant.whole (V : Variant) {j : PJob} (hf : j.Fits) {s : St} (h : j.Start s) :
    ∃ s', Stops j.env V.code s s' ∧ Result j s' := by
  obtain ⟨s1, r1, h1⟩ := V.blocks hf h
  obtain ⟨s2, p, r2, h2⟩ := V.tail hf h1
  have hp := hf.packed
  have hent : ∀ c, c < 4 → ∀ k, k < 16 * j.chunks →
      j.stored j.chunks .packed (j.packedBase + 64 * (k / 16) + 16 * c + k % 16) = j.entry c k := by
    intro c hc k hk
    unfold stored
    rw [if_pos ⟨rfl, by omega, by omega⟩]
    congr 1 <;> omega
  have hrest : ∀ o, o < j.packedBase ∨ j.packedBase + 64 * j.chunks ≤ o →
      j.stored j.chunks .packed o = j.m .packed o := by
    intro o ho
    unfold stored
    rw [if_neg (by omega)]
  have hother : ∀ r, r ≠ .packed → j.stored j.chunks r = j.m r := by
    intro r hr
    funext o
    unfold stored
    rw [if_neg (fun hh => hr hh.1)]
  obtain ⟨g1, g2, g3, g4, g5⟩ := p22 j.env s2
  have nx : ∀ l, (bif (exec j.env pack22.body s2).z then 24 else 23) = l →
      Reach j.env V.code (22, s2) (l, exec j.env pack22.body s2) :=
    fun l hl => Reach.block (b := pack22) (Variant.at (by omega) (Or.inr (by omega)) rfl) hl
  generalize exec j.env pack22.body s2 = s3 at *
  have hs := h2.sums
  cases ha : j.sumsAt with
  | none =>
    rw [ha] at hs
    refine ⟨s3, stops_of ?_, ?_⟩
    · rw [V.len]
      exact (r1.trans r2).trans (nx 24 (by rw [g3, hs]; rfl))
    · refine ⟨by rw [g5, h2.ok], ?_, fun o ho => by simp [ha] at ho, ?_, fun o _ => ?_, fun r hr _ => ?_⟩
      · rw [g2, h2.mem]; exact hent
      · rw [g2, h2.mem]; exact hrest
      · rw [g2, h2.mem, hother _ (by decide)]
      · rw [g2, h2.mem, hother _ hr]
  | some a =>
    rw [ha] at hs
    have hsz := hf.sums a ha
    obtain ⟨k1, k2⟩ := p23 j.env s3
    have r4 : Reach j.env V.code (23, s3) (24, exec j.env pack23.body s3) :=
      Reach.block (b := pack23) (Variant.at (by omega) (Or.inr (by omega)) rfl) rfl
    generalize exec j.env pack23.body s3 = s4 at *
    have hx : s3.x 53 = .ptr .sums a := by rw [g1]; exact hs
    rw [hx] at k1 k2
    simp only [Val.region, Val.off, Nat.add_zero] at k1
    have hm : ∀ r, r ≠ .sums → s4.m r = j.stored j.chunks r := by
      intro r hr
      rw [k1, g2, h2.mem]
      funext o
      unfold wr
      rw [if_neg (fun hh => hr hh.1)]
    refine ⟨s4, stops_of ?_, ?_⟩
    · rw [V.len]
      exact ((r1.trans r2).trans (nx 23 (by rw [g3, hs]; rfl))).trans r4
    · refine ⟨?_, ?_, fun o ho c hc b hb => ?_, ?_, fun o ho => ?_, fun r hr hr' => ?_⟩
      · rw [k2, g5, h2.ok, out_ptr (by show a + 0 + 16 ≤ j.size .sums; omega)]; rfl
      · rw [hm _ (by decide)]; exact hent
      · obtain rfl : a = o := by simpa [ha] using ho
        rw [k1]
        unfold wr
        rw [if_pos ⟨rfl, by omega, by omega⟩, show a + 4 * c + b - a = 4 * c + b by omega, ← byteOf_getS (s3.v 28) c b hb, g4,
          addp_lanes (q := fun c i => ∑ u ∈ Finset.range j.chunks, j.quad c u i) (fun c => s2.v (28 + c)) ⟨rfl, rfl, rfl, rfl⟩
            h2.acc hc, ← sum_quads]
        rfl
      · rw [hm _ (by decide)]; exact hrest
      · rw [k1]
        unfold wr
        have := ho a ha
        rw [if_neg (by omega), g2, h2.mem, hother _ (by decide)]
      · rw [hm _ hr', hother _ hr]

end PJob
end Ruy.Neon

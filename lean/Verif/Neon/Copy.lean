import Verif.Neon.Block
/-
Writing a tile to the destination: the two nested loops that copy a part of a tile from
`dst_tmp_buf` (labels 50, 51) and the sixteen stores of a whole tile (label 30).
-/
namespace Ruy.Neon

/-! ### Writes -/

theorem wr_congr {m : Region → Nat → Byte} {r : Region} {o n : Nat} {f g : Nat → Byte}
    (h : ∀ b, b < n → f b = g b) : wr m r o n f = wr m r o n g := by
  funext r' b
  unfold wr
  split_ifs with hb
  · exact h _ (by omega)
  · rfl

theorem wr_append (m : Region → Nat → Byte) (r : Region) (o a b : Nat) (f : Nat → Byte) :
    wr (wr m r o a f) r (o + a) b (fun i => f (a + i)) = wr m r o (a + b) f := by
  funext r' c
  unfold wr
  by_cases hr : r' = r
  · by_cases h1 : o + a ≤ c ∧ c < o + a + b
    · rw [if_pos ⟨hr, h1.1, h1.2⟩, if_pos ⟨hr, by omega, by omega⟩]
      exact congrArg f (by omega)
    · by_cases h2 : o ≤ c ∧ c < o + a
      · rw [if_neg (fun h => h1 h.2), if_pos ⟨hr, h2.1, h2.2⟩, if_pos ⟨hr, h2.1, by omega⟩]
      · rw [if_neg (fun h => h1 h.2), if_neg (fun h => h2 h.2), if_neg (fun h => by omega)]
  · rw [if_neg (fun h => hr h.1), if_neg (fun h => hr h.1), if_neg (fun h => hr h.1)]

theorem wr_zero (m : Region → Nat → Byte) (r : Region) (o : Nat) (f : Nat → Byte) : wr m r o 0 f = m := by
  funext r' b
  unfold wr
  rw [if_neg (by omega)]

theorem wr_other {m : Region → Nat → Byte} {r r' : Region} {o n : Nat} {f : Nat → Byte} (h : r' ≠ r) :
    wr m r o n f r' = m r' := by
  funext b
  unfold wr
  rw [if_neg (fun hh => h hh.1)]

/-- Memory after writing `w` columns of `n` bytes; column `i` is found at `c * i` of `T`. -/
def cols (M : Region → Nat → Byte) (T : Nat → Byte) (dp stride n c : Nat) : Nat → Region → Nat → Byte
  | 0 => M
  | w + 1 => wr (cols M T dp stride n c w) .dst (dp + w * stride) n (fun b => T (c * w + b))

theorem cols_other {M : Region → Nat → Byte} {T : Nat → Byte} {dp stride n c w : Nat} {r : Region}
    (h : r ≠ .dst) : cols M T dp stride n c w r = M r := by
  induction w with
  | zero => rfl
  | succ w ih => rw [cols, wr_other h, ih]

theorem cols_congr {M : Region → Nat → Byte} {T T' : Nat → Byte} {dp stride n c w : Nat}
    (h : ∀ i, i < w → ∀ b, b < n → T (c * i + b) = T' (c * i + b)) :
    cols M T dp stride n c w = cols M T' dp stride n c w := by
  induction w with
  | zero => rfl
  | succ w ih =>
    rw [cols, cols, ih (fun i hi b hb => h i (by omega) b hb)]
    exact wr_congr (fun b hb => h w (by omega) b hb)

/-- What is written. -/
theorem cols_at {M : Region → Nat → Byte} {T : Nat → Byte} {dp stride n c w : Nat} (hn : n ≤ stride)
    {i : Nat} (hi : i < w) {b : Nat} (hb : b < n) :
    cols M T dp stride n c w .dst (dp + i * stride + b) = T (c * i + b) := by
  induction w with
  | zero => omega
  | succ w ih =>
    rw [cols]
    unfold wr
    rcases Nat.lt_or_ge i w with h | h
    · have : (i + 1) * stride ≤ w * stride := Nat.mul_le_mul_right _ h
      rw [Nat.add_mul, Nat.one_mul] at this
      rw [if_neg (by omega)]
      exact ih h
    · obtain rfl : i = w := by omega
      rw [if_pos ⟨rfl, by omega, by omega⟩]
      exact congrArg T (by omega)

/-- What is left alone. -/
theorem cols_not {M : Region → Nat → Byte} {T : Nat → Byte} {dp stride n c w : Nat} {o : Nat}
    (h : ∀ i, i < w → ∀ b, b < n → o ≠ dp + i * stride + b) :
    cols M T dp stride n c w .dst o = M .dst o := by
  induction w with
  | zero => rfl
  | succ w ih =>
    rw [cols]
    unfold wr
    rw [if_neg (fun hh => h w (by omega) (o - (dp + w * stride)) (by omega) (by omega))]
    exact ih (fun i hi b hb => h i (by omega) b hb)

/-! ### The loops -/

/-- Labels 50, 51 and the end of the outer loop; `k` is the size of an entry. -/
def bodyB : List Instr := [.movI 5 0]
def bodyC : Nat → List Instr
  | 1 => [.ldrB 7 3 5, .strB 7 4 5, .addWI 5 5 1, .cmpW 5 1]
  | 2 => [.ldrH 7 3 5, .strH 7 4 5, .addWI 5 5 1, .cmpW 5 1]
  | _ => [.ldrS 7 3 5, .strS 7 4 5, .addWI 5 5 1, .cmpW 5 1]
def bodyD (k : Nat) : List Instr := [.addWI 6 6 1, .addXI 3 3 (4 * k), .addX 4 4 11 0, .cmpW 6 2]

/-- Registers that the loops leave alone. -/
def keepCopy : List Nat := [1, 2, 8, 9, 10, 11, 12, 32, 33, 34, 35, 36, 37, 38, 39, 40, 41, 42, 43]

theorem numByte_byte (b : Byte) : numByte b.toNat 0 = b := by
  unfold numByte
  simp

theorem numByte_le2 (f : Nat → Byte) (b : Nat) (hb : b < 2) : numByte (le2 f 0) b = f b := by
  unfold numByte le2
  apply BitVec.eq_of_toNat_eq
  rw [BitVec.toNat_ofNat]
  have h0 := byte_lt (f 0)
  have h1 := byte_lt (f 1)
  interval_cases b
  · simp only [Nat.zero_add, pow_zero, Nat.div_one]; omega
  · simp only [Nat.zero_add, pow_one]; omega

theorem numByte_le4 (f : Nat → Byte) (b : Nat) (hb : b < 4) : numByte (le4 f 0) b = f b := by
  unfold numByte le4 le2
  apply BitVec.eq_of_toNat_eq
  rw [BitVec.toNat_ofNat]
  have h0 := byte_lt (f 0)
  have h1 := byte_lt (f 1)
  have h2 := byte_lt (f 2)
  have h3 := byte_lt (f 3)
  interval_cases b <;> simp only [Nat.zero_add, Nat.reduceAdd, Nat.reducePow, pow_zero, pow_one, Nat.div_one] <;> omega

theorem bB (e : Env) (s : St) : Same keepCopy s (exec e bodyB s) ∧ (exec e bodyB s).m = s.m ∧
    (exec e bodyB s).bad = s.bad ∧ (exec e bodyB s).v = s.v ∧ Same [3, 4, 6] s (exec e bodyB s) ∧
    (exec e bodyB s).x 5 = .int 0 := by
  cases s; exact ⟨by keep, rfl, rfl, rfl, by keep, rfl⟩

theorem bD (e : Env) (k : Nat) (s : St) : Same keepCopy s (exec e (bodyD k) s) ∧
    (exec e (bodyD k) s).m = s.m ∧
    (exec e (bodyD k) s).bad = (s.bad || (s.x 6).isPtr || (s.x 11).isPtr || false || (s.x 2).isPtr) ∧
    (exec e (bodyD k) s).v = s.v ∧
    (exec e (bodyD k) s).x 6 = .int (((s.x 6).num + 1) % 2 ^ 32) ∧
    (exec e (bodyD k) s).x 3 = addVal (s.x 3) (4 * k) ∧
    (exec e (bodyD k) s).x 4 = addVal (s.x 4) ((s.x 11).num * 2 ^ 0) ∧
    (exec e (bodyD k) s).lt =
      decide (sgn (Val.int (((s.x 6).num + 1) % 2 ^ 32)).num < sgn (s.x 2).num) := by
  cases s; exact ⟨by keep, rfl, rfl, rfl, rfl, rfl, rfl, rfl⟩

theorem bC1 (e : Env) (s : St) : Same keepCopy s (exec e (bodyC 1) s) ∧
    (exec e (bodyC 1) s).m = store s (s.x 4) ((s.x 5).num % 2 ^ 32) 1
      (numByte (s.m (s.x 3).region ((s.x 3).off + (s.x 5).num % 2 ^ 32)).toNat) ∧
    (exec e (bodyC 1) s).bad = (s.bad || (s.x 5).isPtr || out e (s.x 3) ((s.x 5).num % 2 ^ 32) 1 || false ||
      (s.x 5).isPtr || out e (s.x 4) ((s.x 5).num % 2 ^ 32) 1 || (s.x 5).isPtr || false || (s.x 1).isPtr) ∧
    (exec e (bodyC 1) s).v = s.v ∧ Same [3, 4, 6] s (exec e (bodyC 1) s) ∧
    (exec e (bodyC 1) s).x 5 = .int (((s.x 5).num + 1) % 2 ^ 32) ∧
    (exec e (bodyC 1) s).lt =
      decide (sgn (Val.int (((s.x 5).num + 1) % 2 ^ 32)).num < sgn (s.x 1).num) := by
  cases s; exact ⟨by keep, rfl, rfl, rfl, by keep, rfl, rfl⟩

theorem bC2 (e : Env) (s : St) : Same keepCopy s (exec e (bodyC 2) s) ∧
    (exec e (bodyC 2) s).m = store s (s.x 4) (2 * (s.x 5).num) 2
      (numByte (le2 (bytes s (s.x 3) (2 * (s.x 5).num)) 0)) ∧
    (exec e (bodyC 2) s).bad = (s.bad || (s.x 5).isPtr || out e (s.x 3) (2 * (s.x 5).num) 2 || false ||
      (s.x 5).isPtr || out e (s.x 4) (2 * (s.x 5).num) 2 || (s.x 5).isPtr || false || (s.x 1).isPtr) ∧
    (exec e (bodyC 2) s).v = s.v ∧ Same [3, 4, 6] s (exec e (bodyC 2) s) ∧
    (exec e (bodyC 2) s).x 5 = .int (((s.x 5).num + 1) % 2 ^ 32) ∧
    (exec e (bodyC 2) s).lt =
      decide (sgn (Val.int (((s.x 5).num + 1) % 2 ^ 32)).num < sgn (s.x 1).num) := by
  cases s; exact ⟨by keep, rfl, rfl, rfl, by keep, rfl, rfl⟩

theorem bC4 (e : Env) (s : St) : Same keepCopy s (exec e (bodyC 4) s) ∧
    (exec e (bodyC 4) s).m = store s (s.x 4) (4 * (s.x 5).num) 4
      (numByte (le4 (bytes s (s.x 3) (4 * (s.x 5).num)) 0)) ∧
    (exec e (bodyC 4) s).bad = (s.bad || (s.x 5).isPtr || out e (s.x 3) (4 * (s.x 5).num) 4 || false ||
      (s.x 5).isPtr || out e (s.x 4) (4 * (s.x 5).num) 4 || (s.x 5).isPtr || false || (s.x 1).isPtr) ∧
    (exec e (bodyC 4) s).v = s.v ∧ Same [3, 4, 6] s (exec e (bodyC 4) s) ∧
    (exec e (bodyC 4) s).x 5 = .int (((s.x 5).num + 1) % 2 ^ 32) ∧
    (exec e (bodyC 4) s).lt =
      decide (sgn (Val.int (((s.x 5).num + 1) % 2 ^ 32)).num < sgn (s.x 1).num) := by
  cases s; exact ⟨by keep, rfl, rfl, rfl, by keep, rfl, rfl⟩

theorem sgn_lt_succ {i w : Nat} (hi : i + 1 < 2 ^ 31) (hw : w < 2 ^ 31) :
    decide (sgn (Val.int (((Val.int i).num + 1) % 2 ^ 32)).num < sgn (Val.int w).num) = decide (i + 1 < w) := by
  have h : ((Val.int i).num + 1) % 2 ^ 32 = i + 1 := Nat.mod_eq_of_lt (by simp only [Val.num]; omega)
  rw [← sgn_lt hi hw, h]

/-- One entry. -/
theorem bC {e : Env} {k : Nat} (hk : k = 1 ∨ k = 2 ∨ k = 4) {s : St} {o3 o4 i w1 : Nat}
    (h1 : s.x 1 = .int w1) (h3 : s.x 3 = .ptr .tmp o3) (h4 : s.x 4 = .ptr .dst o4)
    (h5 : s.x 5 = .int i) (hi : i < w1) (hw : w1 ≤ 4) (st : o3 + k * i + k ≤ e.size .tmp)
    (sd : o4 + k * i + k ≤ e.size .dst) (ok : s.bad = false) :
    Same keepCopy s (exec e (bodyC k) s) ∧
    (exec e (bodyC k) s).m = wr s.m .dst (o4 + k * i) k (fun b => s.m .tmp (o3 + (k * i + b))) ∧
    (exec e (bodyC k) s).bad = false ∧
    (exec e (bodyC k) s).v = s.v ∧ Same [3, 4, 6] s (exec e (bodyC k) s) ∧
    (exec e (bodyC k) s).x 5 = .int (i + 1) ∧
    (exec e (bodyC k) s).lt = decide (i + 1 < w1) := by
  have hi1 : (i + 1) % 2 ^ 32 = i + 1 := Nat.mod_eq_of_lt (by omega)
  have hi2 : i % 2 ^ 32 = i := Nat.mod_eq_of_lt (by omega)
  have hm : ∀ {f : Nat → Byte}, (∀ b, b < k → f b = s.m .tmp (o3 + k * i + b)) →
      store s (.ptr .dst o4) (k * i) k f = wr s.m .dst (o4 + k * i) k (fun b => s.m .tmp (o3 + (k * i + b))) := by
    intro f hf
    exact wr_congr (fun b hb => by rw [hf b hb, Nat.add_assoc])
  rcases hk with rfl | rfl | rfl
  · obtain ⟨a1, a2, a3, a4, a5, a6, a7⟩ := bC1 e s
    refine ⟨a1, ?_, ?_, a4, a5, by rw [a6, h5]; exact congrArg _ hi1, ?_⟩
    · rw [a2, h3, h4, h5]
      simp only [Val.num, Val.region, Val.off]
      rw [hi2]
      have := hm (f := numByte (s.m .tmp (o3 + i)).toNat) (fun b hb => by
        obtain rfl : b = 0 := by omega
        rw [numByte_byte]; simp only [Nat.one_mul, Nat.add_zero])
      rw [Nat.one_mul] at this
      rw [this, Nat.one_mul]
    · rw [a3, ok, h1, h3, h4, h5]
      simp only [Val.num]
      rw [hi2, out_ptr (by omega), out_ptr (by omega)]; rfl
    · rw [a7, h1, h5]
      exact sgn_lt_succ (by omega) (by omega)
  · obtain ⟨a1, a2, a3, a4, a5, a6, a7⟩ := bC2 e s
    refine ⟨a1, ?_, ?_, a4, a5, by rw [a6, h5]; exact congrArg _ hi1, ?_⟩
    · rw [a2, h3, h4, h5]
      simp only [Val.num]
      exact hm (fun b hb => by rw [numByte_le2 _ _ hb]; rfl)
    · rw [a3, ok, h1, h3, h4, h5]
      simp only [Val.num]
      rw [out_ptr (by omega), out_ptr (by omega)]; rfl
    · rw [a7, h1, h5]
      exact sgn_lt_succ (by omega) (by omega)
  · obtain ⟨a1, a2, a3, a4, a5, a6, a7⟩ := bC4 e s
    refine ⟨a1, ?_, ?_, a4, a5, by rw [a6, h5]; exact congrArg _ hi1, ?_⟩
    · rw [a2, h3, h4, h5]
      simp only [Val.num]
      exact hm (fun b hb => by rw [numByte_le4 _ _ hb]; rfl)
    · rw [a3, ok, h1, h3, h4, h5]
      simp only [Val.num]
      rw [out_ptr (by omega), out_ptr (by omega)]; rfl
    · rw [a7, h1, h5]
      exact sgn_lt_succ (by omega) (by omega)

/-- The blocks of the loops in a program. -/
structure CopyAt (P : List Block) (k n0 : Nat) : Prop where
  b : P[n0]? = some ⟨bodyB, .jmp (n0 + 1)⟩
  c : P[n0 + 1]? = some ⟨bodyC k, .br .lt (n0 + 1) (n0 + 2)⟩
  d : P[n0 + 2]? = some ⟨bodyD k, .br .lt n0 (n0 + 3)⟩
  e : P[n0 + 3]? = some ⟨[], .jmp (n0 + 5)⟩

/-- State while column `w` is copied, `i` entries of it done. -/
structure Col (k w1 w2 dp stride : Nat) (s : St) (w i : Nat) (s' : St) : Prop where
  same : Same keepCopy s s'
  v : s'.v = s.v
  x6 : s'.x 6 = .int w
  x3 : s'.x 3 = .ptr .tmp (4 * k * w)
  x4 : s'.x 4 = .ptr .dst (dp + w * stride)
  m : s'.m = wr (cols s.m (s.m .tmp) dp stride (k * w1) (4 * k) w) .dst (dp + w * stride) (k * i)
    (fun b => s.m .tmp (4 * k * w + b))
  ok : s'.bad = false

theorem inner {e : Env} {P : List Block} {k n0 : Nat} (hP : P[n0 + 1]? = some ⟨bodyC k, .br .lt (n0 + 1) (n0 + 2)⟩)
    (hk : k = 1 ∨ k = 2 ∨ k = 4) {w1 w2 dp stride : Nat} {s : St}
    (h1 : s.x 1 = .int w1) (hw : w1 ≤ 4) {w : Nat} (hw2 : w < 4)
    (st : 16 * k ≤ e.size .tmp)
    (sd : ∀ i, i < w1 → dp + w * stride + k * i + k ≤ e.size .dst) :
    ∀ d i s', i + 1 + d = w1 → Col k w1 w2 dp stride s w i s' → s'.x 5 = .int i →
      ∃ s'', Reach e P (n0 + 1, s') (n0 + 2, s'') ∧ Col k w1 w2 dp stride s w w1 s'' ∧ s''.lt = false := by
  intro d
  induction d with
  | zero =>
    intro i s' hd hc h5
    have hx1 : s'.x 1 = .int w1 := (hc.same.get (by decide)).trans h1
    have ht : 4 * k * w + k * i + k ≤ e.size .tmp := by
      rcases hk with rfl | rfl | rfl <;> omega
    obtain ⟨a1, a2, a3, a4, a5, a6, a7⟩ := bC hk hx1 hc.x3 hc.x4 h5 (by omega) hw ht (sd i (by omega)) hc.ok
    refine ⟨_, Reach.block hP ?_, ⟨hc.same.trans a1, a4.trans hc.v, (a5.get (by decide)).trans hc.x6,
      (a5.get (by decide)).trans hc.x3, (a5.get (by decide)).trans hc.x4, ?_, a3⟩,
      a7.trans (decide_eq_false (by omega))⟩
    · show (bif (exec e (bodyC k) s').lt then n0 + 1 else n0 + 2) = n0 + 2
      rw [a7, decide_eq_false (by omega)]; rfl
    · rw [a2, hc.m, wr_other (by decide), cols_other (by decide), show w1 = i + 1 by omega, Nat.mul_add,
        Nat.mul_one]
      exact wr_append _ _ _ _ _ (fun b => s.m .tmp (4 * k * w + b))
  | succ d ih =>
    intro i s' hd hc h5
    have hx1 : s'.x 1 = .int w1 := (hc.same.get (by decide)).trans h1
    have ht : 4 * k * w + k * i + k ≤ e.size .tmp := by
      rcases hk with rfl | rfl | rfl <;> omega
    obtain ⟨a1, a2, a3, a4, a5, a6, a7⟩ := bC hk hx1 hc.x3 hc.x4 h5 (by omega) hw ht (sd i (by omega)) hc.ok
    obtain ⟨s'', r, hcol⟩ := ih (i + 1) _ (by omega) ⟨hc.same.trans a1, a4.trans hc.v,
      (a5.get (by decide)).trans hc.x6, (a5.get (by decide)).trans hc.x3, (a5.get (by decide)).trans hc.x4, (by
        rw [a2, hc.m, wr_other (by decide), cols_other (by decide), Nat.mul_add, Nat.mul_one]
        exact wr_append _ _ _ _ _ (fun b => s.m .tmp (4 * k * w + b))), a3⟩ a6
    refine ⟨s'', Reach.trans (Reach.block hP ?_) r, hcol⟩
    show (bif (exec e (bodyC k) s').lt then n0 + 1 else n0 + 2) = n0 + 1
    rw [a7, decide_eq_true (by omega)]; rfl

/-- Both loops: `w2` columns of `w1` entries. -/
theorem copied {e : Env} {P : List Block} {k n0 : Nat} (hP : CopyAt P k n0)
    (hk : k = 1 ∨ k = 2 ∨ k = 4) {w1 w2 dp stride : Nat} {s : St}
    (h1 : s.x 1 = .int w1) (h2 : s.x 2 = .int w2) (h11 : s.x 11 = .int stride)
    (h3 : s.x 3 = .ptr .tmp 0) (h4 : s.x 4 = .ptr .dst dp) (h6 : s.x 6 = .int 0)
    (hw : w1 ≤ 4) (hw' : w2 ≤ 4) (hp1 : 0 < w1) (hp2 : 0 < w2)
    (st : 16 * k ≤ e.size .tmp)
    (sd : ∀ w, w < w2 → ∀ i, i < w1 → dp + w * stride + k * i + k ≤ e.size .dst) (ok : s.bad = false) :
    ∃ s', Reach e P (n0, s) (n0 + 5, s') ∧ Same keepCopy s s' ∧ s'.v = s.v ∧ s'.bad = false ∧
      s'.m = cols s.m (s.m .tmp) dp stride (k * w1) (4 * k) w2 := by
  have key : ∀ d w s', w + 1 + d = w2 → Col k w1 w2 dp stride s w 0 s' →
      ∃ s'', Reach e P (n0, s') (n0 + 5, s'') ∧ Same keepCopy s s'' ∧ s''.v = s.v ∧ s''.bad = false ∧
        s''.m = cols s.m (s.m .tmp) dp stride (k * w1) (4 * k) w2 := by
    intro d
    have one : ∀ w s', w + 1 ≤ w2 → Col k w1 w2 dp stride s w 0 s' →
        ∃ s'', Reach e P (n0, s') (bif decide (w + 1 < w2) then n0 else n0 + 3, s'') ∧
          Col k w1 w2 dp stride s (w + 1) 0 s'' := by
      intro w s' hd hc
      obtain ⟨a1, a2, a3, a4, a5, a6⟩ := bB e s'
      have r1 : Reach e P (n0, s') (n0 + 1, exec e bodyB s') := Reach.block hP.b rfl
      obtain ⟨s2, r2, c2, _⟩ := inner hP.c hk h1 hw (w := w) (w2 := w2) (by omega) st
        (fun i hi => sd w (by omega) i hi) (w1 - 1) 0 (exec e bodyB s') (by omega)
        ⟨hc.same.trans a1, a4.trans hc.v, (a5.get (by decide)).trans hc.x6, (a5.get (by decide)).trans hc.x3,
          (a5.get (by decide)).trans hc.x4, a2.trans hc.m, a3.trans hc.ok⟩ a6
      obtain ⟨d1, d2, d3, d4, d5, d6, d7, d8⟩ := bD e k s2
      have hx2 : s2.x 2 = .int w2 := (c2.same.get (by decide)).trans h2
      have hx11 : s2.x 11 = .int stride := (c2.same.get (by decide)).trans h11
      refine ⟨exec e (bodyD k) s2, (r1.trans r2).trans (Reach.block hP.d ?_), ⟨c2.same.trans d1, d4.trans c2.v,
        ?_, ?_, ?_, ?_, ?_⟩⟩
      · show (bif (exec e (bodyD k) s2).lt then n0 else n0 + 3) = _
        rw [d8, c2.x6, hx2, sgn_lt_succ (by omega) (by omega)]
      · rw [d5, c2.x6]
        simp only [Val.num]
        rw [Nat.mod_eq_of_lt (show w + 1 < 2 ^ 32 by omega)]
      · rw [d6, c2.x3]
        simp only [addVal]
        rw [Nat.mul_add, Nat.mul_one]
      · rw [d7, c2.x4, hx11]
        simp only [addVal, Val.num]
        rw [Nat.pow_zero, Nat.mul_one, Nat.add_mul, Nat.one_mul, Nat.add_assoc]
      · rw [d2, c2.m, Nat.mul_zero, wr_zero, cols]
      · rw [d3, c2.ok, c2.x6, hx2, hx11]; rfl
    induction d with
    | zero =>
      intro w s' hd hc
      obtain ⟨s2, r2, c2⟩ := one w s' (by omega) hc
      rw [decide_eq_false (by omega)] at r2
      have r3 : Reach e P (n0 + 3, s2) (n0 + 5, s2) := Reach.block hP.e rfl
      refine ⟨s2, r2.trans r3, c2.same, c2.v, c2.ok, ?_⟩
      rw [c2.m, Nat.mul_zero, wr_zero, show w + 1 = w2 by omega]
    | succ d ih =>
      intro w s' hd hc
      obtain ⟨s2, r2, c2⟩ := one w s' (by omega) hc
      rw [decide_eq_true (by omega)] at r2
      obtain ⟨s3, r3, h3⟩ := ih (w + 1) s2 (by omega) c2
      exact ⟨s3, r2.trans r3, h3⟩
  exact key (w2 - 1) 0 s (by omega) ⟨Same.refl _ _, rfl, h6, h3, by rw [h4, Nat.zero_mul, Nat.add_zero],
    by rw [Nat.mul_zero, wr_zero]; rfl, ok⟩

/-! ### Whole tiles -/

/-- Four stores of `k` bytes with post-increment. -/
def st4 (M : Region → Nat → Byte) (P : Val) (k : Nat) (g : Nat → Nat → Byte) : Region → Nat → Byte :=
  wr (wr (wr (wr M P.region (P.off + 0) k (g 0)) (addVal P k).region ((addVal P k).off + 0) k (g 1))
    (addVal (addVal P k) k).region ((addVal (addVal P k) k).off + 0) k (g 2))
    (addVal (addVal (addVal P k) k) k).region ((addVal (addVal (addVal P k) k) k).off + 0) k (g 3)

def badF (e : Env) (b : Bool) (P x11 : Val) (k : Nat) : Bool :=
  b || out e P 0 k || x11.isPtr || out e (addVal P k) 0 k || out e (addVal (addVal P k) k) 0 k ||
    out e (addVal (addVal (addVal P k) k) k) 0 k

theorem st4_eq {M : Region → Nat → Byte} {k o : Nat} {g : Nat → Nat → Byte} {f : Nat → Byte}
    (h : ∀ i, i < 4 → ∀ b, b < k → g i b = f (k * i + b)) :
    st4 M (.ptr .dst o) k g = wr M .dst o (k * 4) f := by
  unfold st4
  simp only [addVal, Val.region, Val.off, Nat.add_zero]
  rw [wr_congr (h 0 (by omega)), wr_congr (h 1 (by omega)), wr_congr (h 2 (by omega)), wr_congr (h 3 (by omega)),
    Nat.mul_zero, Nat.mul_one]
  simp only [Nat.zero_add]
  have e2 : o + k + k = o + k * 2 := by omega
  have e3 : o + k * 2 + k = o + k * 3 := by omega
  rw [e2, e3, wr_append, show k + k = k * 2 by omega, wr_append, show k * 2 + k = k * 3 by omega, wr_append,
    show k * 3 + k = k * 4 by omega]

theorem badF_ok {e : Env} {b : Bool} {o k stride : Nat} (hb : b = false) (h : o + 4 * k ≤ e.size .dst) :
    badF e b (.ptr .dst o) (.int stride) k = false := by
  unfold badF
  simp only [addVal]
  rw [hb, out_ptr (by omega), out_ptr (by omega), out_ptr (by omega), out_ptr (by omega)]
  rfl

/-- The sixteen stores, given the byte `T b` of the tile. -/
def st16 (M : Region → Nat → Byte) (P x11 : Val) (k : Nat) (g : Nat → Nat → Byte) : Region → Nat → Byte :=
  st4 (st4 (st4 (st4 M P k g)
    (addVal P (x11.num * 2 ^ 0)) k (fun i => g (4 + i)))
    (addVal (addVal P (x11.num * 2 ^ 0)) (x11.num * 2 ^ 0)) k (fun i => g (8 + i)))
    (addVal (addVal (addVal P (x11.num * 2 ^ 0)) (x11.num * 2 ^ 0)) (x11.num * 2 ^ 0)) k (fun i => g (12 + i))

def bad16 (e : Env) (b : Bool) (P x11 : Val) (k : Nat) : Bool :=
  badF e (badF e (badF e (badF e b P x11 k) (addVal P (x11.num * 2 ^ 0)) x11 k)
    (addVal (addVal P (x11.num * 2 ^ 0)) (x11.num * 2 ^ 0)) x11 k)
    (addVal (addVal (addVal P (x11.num * 2 ^ 0)) (x11.num * 2 ^ 0)) (x11.num * 2 ^ 0)) x11 k

theorem st16_eq {M : Region → Nat → Byte} {k o stride : Nat} {g : Nat → Nat → Byte} {T : Nat → Byte}
    (h : ∀ i, i < 16 → ∀ b, b < k → g i b = T (k * i + b)) :
    st16 M (.ptr .dst o) (.int stride) k g = cols M T o stride (k * 4) (4 * k) 4 := by
  unfold st16
  simp only [addVal, Val.num, Nat.pow_zero, Nat.mul_one]
  have hh : ∀ c, c < 4 → ∀ i, i < 4 → ∀ b, b < k → g (4 * c + i) b = T (4 * k * c + (k * i + b)) := by
    intro c hc i hi b hb
    rw [h (4 * c + i) (by omega) b hb]
    exact congrArg T (by ring)
  rw [st4_eq (f := fun b => T (4 * k * 3 + b)) (fun i hi b hb => hh 3 (by omega) i hi b hb),
    st4_eq (f := fun b => T (4 * k * 2 + b)) (fun i hi b hb => hh 2 (by omega) i hi b hb),
    st4_eq (f := fun b => T (4 * k * 1 + b)) (fun i hi b hb => hh 1 (by omega) i hi b hb),
    st4_eq (f := fun b => T (4 * k * 0 + b)) (fun i hi b hb => by
      have := hh 0 (by omega) i hi b hb
      rw [Nat.mul_zero, Nat.zero_add] at this
      exact this)]
  simp only [cols]
  rw [Nat.zero_mul, Nat.add_zero, Nat.one_mul, show 2 * stride = stride + stride by omega,
    show 3 * stride = stride + stride + stride by omega, ← Nat.add_assoc, ← Nat.add_assoc, ← Nat.add_assoc]

theorem bad16_ok {e : Env} {b : Bool} {o k stride : Nat} (hb : b = false)
    (h : ∀ w, w < 4 → o + w * stride + 4 * k ≤ e.size .dst) :
    bad16 e b (.ptr .dst o) (.int stride) k = false := by
  unfold bad16
  simp only [addVal, Val.num, Nat.pow_zero, Nat.mul_one]
  have h0 := h 0 (by omega)
  have h1 := h 1 (by omega)
  have h2 := h 2 (by omega)
  have h3 := h 3 (by omega)
  exact badF_ok (badF_ok (badF_ok (badF_ok hb (by omega)) (by omega)) (by omega)) (by omega)

end Ruy.Neon

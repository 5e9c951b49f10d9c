import Verif.Neon.DotQuant
import Verif.Neon.Copy
import Verif.Neon.Types
/-
Writing an 8x8 tile to the destination: the two nested loops that copy a part of a tile from
`dst_tmp_buf` (labels 50, 51 and those of the other types), and the stores of whole columns.
-/
namespace Ruy.Neon.Dot

/-! ### Columns written one after another -/

/-- A pointer after `w` steps. -/
def ptrN (P : Val) (S : Nat) : Nat → Val
  | 0 => P
  | w + 1 => addVal (ptrN P S w) S

theorem ptrN_ptr (r : Region) (o S w : Nat) : ptrN (.ptr r o) S w = .ptr r (o + w * S) := by
  induction w with
  | zero => simp [ptrN]
  | succ w ih => rw [ptrN, ih, addVal, Nat.add_mul, Nat.one_mul, Nat.add_assoc]

/-- Memory after `w` writes of `n` bytes, `S` bytes apart. -/
def strided (M : Region → Nat → Byte) (P : Val) (S n : Nat) (g : Nat → Nat → Byte) : Nat → Region → Nat → Byte
  | 0 => M
  | w + 1 => wr (strided M P S n g w) (ptrN P S w).region ((ptrN P S w).off + 0) n (g w)

theorem strided_other {M : Region → Nat → Byte} {r r' : Region} {o S n : Nat} {g : Nat → Nat → Byte} {w : Nat}
    (h : r' ≠ r) : strided M (.ptr r o) S n g w r' = M r' := by
  induction w with
  | zero => rfl
  | succ w ih => rw [strided, ptrN_ptr, Val.region, wr_other h, ih]

theorem strided_at {M : Region → Nat → Byte} {r : Region} {o S n : Nat} {g : Nat → Nat → Byte} {w : Nat} (hn : n ≤ S)
    {i : Nat} (hi : i < w) {b : Nat} (hb : b < n) : strided M (.ptr r o) S n g w r (o + i * S + b) = g i b := by
  induction w with
  | zero => omega
  | succ w ih =>
    rw [strided, ptrN_ptr]
    unfold wr
    simp only [Val.region, Val.off, Nat.add_zero]
    rcases Nat.lt_or_ge i w with h | h
    · have : (i + 1) * S ≤ w * S := Nat.mul_le_mul_right _ h
      rw [Nat.add_mul, Nat.one_mul] at this
      rw [if_neg (by omega)]
      exact ih h
    · obtain rfl : i = w := by omega
      rw [if_pos ⟨trivial, by omega, by omega⟩]
      exact congrArg (g i) (by omega)

theorem strided_cols {M : Region → Nat → Byte} {o S n c : Nat} {g : Nat → Nat → Byte} {T : Nat → Byte} {w : Nat}
    (h : ∀ i, i < w → ∀ b, b < n → g i b = T (c * i + b)) :
    strided M (.ptr .dst o) S n g w = cols M T o S n c w := by
  induction w with
  | zero => rfl
  | succ w ih =>
    rw [strided, ptrN_ptr, cols, ih (fun i hi b hb => h i (by omega) b hb)]
    exact wr_congr (fun b hb => h w (by omega) b hb)

/-- Two stores of 16 bytes per column. -/
def paired (M : Region → Nat → Byte) (P : Val) (S : Nat) (g : Nat → Vec) : Nat → Region → Nat → Byte
  | 0 => M
  | w + 1 => wr (wr (paired M P S g w) (ptrN P S w).region ((ptrN P S w).off + 0) 16 (g (2 * w)))
      (addVal (ptrN P S w) 16).region ((addVal (ptrN P S w) 16).off + 0) 16 (g (2 * w + 1))

theorem paired_cols {M : Region → Nat → Byte} {o S : Nat} {g : Nat → Vec} {T : Nat → Byte} {w : Nat}
    (h : ∀ i, i < w → ∀ b, b < 32 → g (2 * i + b / 16) (b % 16) = T (32 * i + b)) :
    paired M (.ptr .dst o) S g w = cols M T o S 32 32 w := by
  induction w with
  | zero => rfl
  | succ w ih =>
    rw [paired, ptrN_ptr, cols, ih (fun i hi b hb => h i (by omega) b hb)]
    simp only [addVal, Val.region, Val.off, Nat.add_zero]
    rw [wr_congr (f := g (2 * w)) (g := fun b => T (32 * w + b)) (fun b hb => by
        have := h w (by omega) b (by omega)
        rwa [show b / 16 = 0 by omega, show b % 16 = b by omega, Nat.add_zero] at this),
      wr_congr (f := g (2 * w + 1)) (g := fun b => T (32 * w + (16 + b))) (fun b hb => by
        have := h w (by omega) (16 + b) (by omega)
        rwa [show (16 + b) / 16 = 1 by omega, show (16 + b) % 16 = b by omega] at this)]
    exact wr_append _ _ _ 16 16 (fun b => T (32 * w + b))

/-- The accesses of `strided`. -/
def badN (e : Env) (b : Bool) (P : Val) (S n : Nat) (r : Bool) : Nat → Bool
  | 0 => b
  | w + 1 => badN e b P S n r w || r || out e (ptrN P S w) 0 n

theorem badN_ok {e : Env} {b : Bool} {r : Region} {o S n : Nat} {w : Nat} (hb : b = false)
    (h : ∀ i, i < w → o + i * S + n ≤ e.size r) : badN e b (.ptr r o) S n false w = false := by
  induction w with
  | zero => exact hb
  | succ w ih =>
    have := h w (by omega)
    rw [badN, ih (fun i hi => h i (by omega)), ptrN_ptr, out_ptr (by omega)]; rfl

/-- The accesses of `paired`. -/
def badP (e : Env) (b : Bool) (P : Val) (S : Nat) (r : Bool) : Nat → Bool
  | 0 => b
  | 1 => b || out e P 0 16 || out e (addVal P 16) 0 16
  | w + 1 => badP e b P S r w || r || out e (ptrN P S w) 0 16 || out e (addVal (ptrN P S w) 16) 0 16

theorem badP_ok {e : Env} {b : Bool} {r : Region} {o S : Nat} {w : Nat} (hb : b = false)
    (h : ∀ i, i < w → o + i * S + 32 ≤ e.size r) : badP e b (.ptr r o) S false w = false := by
  induction w with
  | zero => exact hb
  | succ w ih =>
    have h1 := h w (by omega)
    cases w with
    | zero =>
      rw [badP, hb]
      simp only [addVal]
      rw [out_ptr (by omega), out_ptr (by omega)]; rfl
    | succ w =>
      rw [badP, ih (fun i hi => h i (by omega)), ptrN_ptr]
      simp only [addVal]
      rw [out_ptr (by omega), out_ptr (by omega)]; rfl
      exact Nat.succ_ne_zero _

/-! ### The loops -/

def bodyC : Nat → List Instr
  | 1 => [.ldrB 7 3 5, .strB 7 4 5, .addWI 5 5 1, .cmpW 5 1]
  | 2 => [.ldrSH 7 3 5, .strH 7 4 5, .addWI 5 5 1, .cmpW 5 1]
  | _ => [.ldrS 7 3 5, .strS 7 4 5, .addWI 5 5 1, .cmpW 5 1]
def bodyD (k : Nat) : List Instr := [.addWI 6 6 1, .addXI 3 3 (8 * k), .addX 4 4 11 0, .cmpW 6 2]

theorem bD (e : Env) (k : Nat) (s : St) : Same keepCopy s (exec e (bodyD k) s) ∧
    (exec e (bodyD k) s).m = s.m ∧
    (exec e (bodyD k) s).bad = (s.bad || (s.x 6).isPtr || (s.x 11).isPtr || false || (s.x 2).isPtr) ∧
    (exec e (bodyD k) s).v = s.v ∧
    (exec e (bodyD k) s).x 6 = .int (((s.x 6).num + 1) % 2 ^ 32) ∧
    (exec e (bodyD k) s).x 3 = addVal (s.x 3) (8 * k) ∧
    (exec e (bodyD k) s).x 4 = addVal (s.x 4) ((s.x 11).num * 2 ^ 0) ∧
    (exec e (bodyD k) s).lt =
      decide (sgn (Val.int (((s.x 6).num + 1) % 2 ^ 32)).num < sgn (s.x 2).num) := by
  cases s; exact ⟨by keep, rfl, rfl, rfl, rfl, rfl, rfl, rfl⟩

theorem bC2 (e : Env) (s : St) : Same keepCopy s (exec e (bodyC 2) s) ∧
    (exec e (bodyC 2) s).m = store s (s.x 4) (2 * (s.x 5).num) 2
      (numByte ((exec e [.ldrSH 7 3 5] s).x 7).num) ∧
    (exec e (bodyC 2) s).bad = (s.bad || (s.x 5).isPtr || out e (s.x 3) (2 * (s.x 5).num) 2 || false ||
      (s.x 5).isPtr || out e (s.x 4) (2 * (s.x 5).num) 2 || (s.x 5).isPtr || false || (s.x 1).isPtr) ∧
    (exec e (bodyC 2) s).v = s.v ∧ Same [3, 4, 6] s (exec e (bodyC 2) s) ∧
    (exec e (bodyC 2) s).x 5 = .int (((s.x 5).num + 1) % 2 ^ 32) ∧
    (exec e (bodyC 2) s).lt =
      decide (sgn (Val.int (((s.x 5).num + 1) % 2 ^ 32)).num < sgn (s.x 1).num) := by
  cases s; exact ⟨by keep, rfl, rfl, rfl, by keep, rfl, rfl⟩

theorem numByte_getH (f : Nat → Byte) (b : Nat) (hb : b < 2) :
    numByte (getH f 0 % 4294967296).toNat b = f b := by
  have h := byteOf_getH f 0 b hb
  rw [Nat.mul_zero, Nat.zero_add] at h
  rw [← h]
  have h1 := getH_range f 0
  generalize getH f 0 = x at *
  apply BitVec.eq_of_toNat_eq
  have h2 := byteOf_toNat x b
  unfold numByte
  rw [BitVec.toNat_ofNat]
  interval_cases b
  · simp only [pow_zero, Nat.div_one, Int.ediv_one] at *; omega
  · simp only [pow_one] at *; omega

theorem ldrSH_num (e : Env) (s : St) : ((exec e [.ldrSH 7 3 5] s).x 7).num =
    (getH (bytes s (s.x 3) (2 * (s.x 5).num)) 0 % 4294967296).toNat := by
  simp [exec, step, put, Val.num]

/-- One entry. -/
theorem bC {e : Env} {k : Nat} (hk : k = 1 ∨ k = 2 ∨ k = 4) {s : St} {o3 o4 i w1 : Nat}
    (h1 : s.x 1 = .int w1) (h3 : s.x 3 = .ptr .tmp o3) (h4 : s.x 4 = .ptr .dst o4)
    (h5 : s.x 5 = .int i) (hi : i < w1) (hw : w1 ≤ 8) (st : o3 + k * i + k ≤ e.size .tmp)
    (sd : o4 + k * i + k ≤ e.size .dst) (ok : s.bad = false) :
    Same keepCopy s (exec e (bodyC k) s) ∧
    (exec e (bodyC k) s).m = wr s.m .dst (o4 + k * i) k (fun b => s.m .tmp (o3 + (k * i + b))) ∧
    (exec e (bodyC k) s).bad = false ∧
    (exec e (bodyC k) s).v = s.v ∧ Same [3, 4, 6] s (exec e (bodyC k) s) ∧
    (exec e (bodyC k) s).x 5 = .int (i + 1) ∧
    (exec e (bodyC k) s).lt = decide (i + 1 < w1) := by
  have hi1 : (i + 1) % 2 ^ 32 = i + 1 := Nat.mod_eq_of_lt (by omega)
  have hi2 : i % 2 ^ 32 = i := Nat.mod_eq_of_lt (by omega)
  have hm : ∀ {f : Nat → Byte}, (∀ b, b < k → f b = s.m .tmp (o3 + k * i + b)) →
      store s (.ptr .dst o4) (k * i) k f = wr s.m .dst (o4 + k * i) k (fun b => s.m .tmp (o3 + (k * i + b))) := by
    intro f hf
    exact wr_congr (fun b hb => by rw [hf b hb, Nat.add_assoc])
  rcases hk with rfl | rfl | rfl
  · obtain ⟨a1, a2, a3, a4, a5, a6, a7⟩ := bC1 e s
    refine ⟨a1, ?_, ?_, a4, a5, by rw [show bodyC 1 = Ruy.Neon.bodyC 1 from rfl, a6, h5]; exact congrArg _ hi1, ?_⟩
    · rw [show bodyC 1 = Ruy.Neon.bodyC 1 from rfl, a2, h3, h4, h5]
      simp only [Val.num, Val.region, Val.off]
      rw [hi2]
      have := hm (f := numByte (s.m .tmp (o3 + i)).toNat) (fun b hb => by
        obtain rfl : b = 0 := by omega
        rw [numByte_byte]; simp only [Nat.one_mul, Nat.add_zero])
      rw [Nat.one_mul] at this
      rw [this, Nat.one_mul]
    · rw [show bodyC 1 = Ruy.Neon.bodyC 1 from rfl, a3, ok, h1, h3, h4, h5]
      simp only [Val.num]
      rw [hi2, out_ptr (by omega), out_ptr (by omega)]; rfl
    · rw [show bodyC 1 = Ruy.Neon.bodyC 1 from rfl, a7, h1, h5]
      exact sgn_lt_succ (by omega) (by omega)
  · obtain ⟨a1, a2, a3, a4, a5, a6, a7⟩ := bC2 e s
    refine ⟨a1, ?_, ?_, a4, a5, by rw [a6, h5]; exact congrArg _ hi1, ?_⟩
    · rw [a2, ldrSH_num, h3, h4, h5]
      simp only [Val.num]
      exact hm (fun b hb => by rw [numByte_getH _ _ hb]; rfl)
    · rw [a3, ok, h1, h3, h4, h5]
      simp only [Val.num]
      rw [out_ptr (by omega), out_ptr (by omega)]; rfl
    · rw [a7, h1, h5]
      exact sgn_lt_succ (by omega) (by omega)
  · obtain ⟨a1, a2, a3, a4, a5, a6, a7⟩ := bC4 e s
    refine ⟨a1, ?_, ?_, a4, a5, by rw [show bodyC 4 = Ruy.Neon.bodyC 4 from rfl, a6, h5]; exact congrArg _ hi1, ?_⟩
    · rw [show bodyC 4 = Ruy.Neon.bodyC 4 from rfl, a2, h3, h4, h5]
      simp only [Val.num]
      exact hm (fun b hb => by rw [numByte_le4 _ _ hb]; rfl)
    · rw [show bodyC 4 = Ruy.Neon.bodyC 4 from rfl, a3, ok, h1, h3, h4, h5]
      simp only [Val.num]
      rw [out_ptr (by omega), out_ptr (by omega)]; rfl
    · rw [show bodyC 4 = Ruy.Neon.bodyC 4 from rfl, a7, h1, h5]
      exact sgn_lt_succ (by omega) (by omega)

/-- The blocks of the loops in a program. -/
structure CopyAt (P : List Block) (k n0 : Nat) : Prop where
  b : P[n0]? = some ⟨bodyB, .jmp (n0 + 1)⟩
  c : P[n0 + 1]? = some ⟨bodyC k, .br .lt (n0 + 1) (n0 + 2)⟩
  d : P[n0 + 2]? = some ⟨bodyD k, .br .lt n0 (n0 + 3)⟩

/-- State while column `w` is copied, `i` entries of it done. -/
structure Col (k w1 w2 dp stride : Nat) (s : St) (w i : Nat) (s' : St) : Prop where
  same : Same keepCopy s s'
  v : s'.v = s.v
  x6 : s'.x 6 = .int w
  x3 : s'.x 3 = .ptr .tmp (8 * k * w)
  x4 : s'.x 4 = .ptr .dst (dp + w * stride)
  m : s'.m = wr (cols s.m (s.m .tmp) dp stride (k * w1) (8 * k) w) .dst (dp + w * stride) (k * i)
    (fun b => s.m .tmp (8 * k * w + b))
  ok : s'.bad = false

theorem inner {e : Env} {P : List Block} {k n0 : Nat} (hP : P[n0 + 1]? = some ⟨bodyC k, .br .lt (n0 + 1) (n0 + 2)⟩)
    (hk : k = 1 ∨ k = 2 ∨ k = 4) {w1 w2 dp stride : Nat} {s : St}
    (h1 : s.x 1 = .int w1) (hw : w1 ≤ 8) {w : Nat} (hw2 : w < 8)
    (st : 64 * k ≤ e.size .tmp)
    (sd : ∀ i, i < w1 → dp + w * stride + k * i + k ≤ e.size .dst) :
    ∀ d i s', i + 1 + d = w1 → Col k w1 w2 dp stride s w i s' → s'.x 5 = .int i →
      ∃ s'', Reach e P (n0 + 1, s') (n0 + 2, s'') ∧ Col k w1 w2 dp stride s w w1 s'' ∧ s''.lt = false := by
  intro d
  induction d with
  | zero =>
    intro i s' hd hc h5
    have hx1 : s'.x 1 = .int w1 := (hc.same.get (by decide)).trans h1
    have ht : 8 * k * w + k * i + k ≤ e.size .tmp := by
      rcases hk with rfl | rfl | rfl <;> omega
    obtain ⟨a1, a2, a3, a4, a5, a6, a7⟩ := bC hk hx1 hc.x3 hc.x4 h5 (by omega) hw ht (sd i (by omega)) hc.ok
    refine ⟨_, Reach.block hP ?_, ⟨hc.same.trans a1, a4.trans hc.v, (a5.get (by decide)).trans hc.x6,
      (a5.get (by decide)).trans hc.x3, (a5.get (by decide)).trans hc.x4, ?_, a3⟩,
      a7.trans (decide_eq_false (by omega))⟩
    · show (bif (exec e (bodyC k) s').lt then n0 + 1 else n0 + 2) = n0 + 2
      rw [a7, decide_eq_false (by omega)]; rfl
    · rw [a2, hc.m, wr_other (by decide), cols_other (by decide), show w1 = i + 1 by omega, Nat.mul_add,
        Nat.mul_one]
      exact wr_append _ _ _ _ _ (fun b => s.m .tmp (8 * k * w + b))
  | succ d ih =>
    intro i s' hd hc h5
    have hx1 : s'.x 1 = .int w1 := (hc.same.get (by decide)).trans h1
    have ht : 8 * k * w + k * i + k ≤ e.size .tmp := by
      rcases hk with rfl | rfl | rfl <;> omega
    obtain ⟨a1, a2, a3, a4, a5, a6, a7⟩ := bC hk hx1 hc.x3 hc.x4 h5 (by omega) hw ht (sd i (by omega)) hc.ok
    obtain ⟨s'', r, hcol⟩ := ih (i + 1) _ (by omega) ⟨hc.same.trans a1, a4.trans hc.v,
      (a5.get (by decide)).trans hc.x6, (a5.get (by decide)).trans hc.x3, (a5.get (by decide)).trans hc.x4, (by
        rw [a2, hc.m, wr_other (by decide), cols_other (by decide), Nat.mul_add, Nat.mul_one]
        exact wr_append _ _ _ _ _ (fun b => s.m .tmp (8 * k * w + b))), a3⟩ a6
    refine ⟨s'', Reach.trans (Reach.block hP ?_) r, hcol⟩
    show (bif (exec e (bodyC k) s').lt then n0 + 1 else n0 + 2) = n0 + 1
    rw [a7, decide_eq_true (by omega)]; rfl

/-- Both loops: `w2` columns of `w1` entries. -/
theorem copied {e : Env} {P : List Block} {k n0 : Nat} (hP : CopyAt P k n0)
    (hk : k = 1 ∨ k = 2 ∨ k = 4) {w1 w2 dp stride : Nat} {s : St}
    (h1 : s.x 1 = .int w1) (h2 : s.x 2 = .int w2) (h11 : s.x 11 = .int stride)
    (h3 : s.x 3 = .ptr .tmp 0) (h4 : s.x 4 = .ptr .dst dp) (h6 : s.x 6 = .int 0)
    (hw : w1 ≤ 8) (hw' : w2 ≤ 8) (hp1 : 0 < w1) (hp2 : 0 < w2)
    (st : 64 * k ≤ e.size .tmp)
    (sd : ∀ w, w < w2 → ∀ i, i < w1 → dp + w * stride + k * i + k ≤ e.size .dst) (ok : s.bad = false) :
    ∃ s', Reach e P (n0, s) (n0 + 3, s') ∧ Same keepCopy s s' ∧ s'.v = s.v ∧ s'.bad = false ∧
      s'.m = cols s.m (s.m .tmp) dp stride (k * w1) (8 * k) w2 := by
  have key : ∀ d w s', w + 1 + d = w2 → Col k w1 w2 dp stride s w 0 s' →
      ∃ s'', Reach e P (n0, s') (n0 + 3, s'') ∧ Same keepCopy s s'' ∧ s''.v = s.v ∧ s''.bad = false ∧
        s''.m = cols s.m (s.m .tmp) dp stride (k * w1) (8 * k) w2 := by
    intro d
    have one : ∀ w s', w + 1 ≤ w2 → Col k w1 w2 dp stride s w 0 s' →
        ∃ s'', Reach e P (n0, s') (bif decide (w + 1 < w2) then n0 else n0 + 3, s'') ∧
          Col k w1 w2 dp stride s (w + 1) 0 s'' := by
      intro w s' hd hc
      obtain ⟨a1, a2, a3, a4, a5, a6⟩ := bB e s'
      have r1 : Reach e P (n0, s') (n0 + 1, exec e bodyB s') := Reach.block hP.b rfl
      obtain ⟨s2, r2, c2, _⟩ := inner hP.c hk h1 hw (w := w) (w2 := w2) (by omega) st
        (fun i hi => sd w (by omega) i hi) (w1 - 1) 0 (exec e bodyB s') (by omega)
        ⟨hc.same.trans a1, a4.trans hc.v, (a5.get (by decide)).trans hc.x6, (a5.get (by decide)).trans hc.x3,
          (a5.get (by decide)).trans hc.x4, a2.trans hc.m, a3.trans hc.ok⟩ a6
      obtain ⟨d1, d2, d3, d4, d5, d6, d7, d8⟩ := bD e k s2
      have hx2 : s2.x 2 = .int w2 := (c2.same.get (by decide)).trans h2
      have hx11 : s2.x 11 = .int stride := (c2.same.get (by decide)).trans h11
      refine ⟨exec e (bodyD k) s2, (r1.trans r2).trans (Reach.block hP.d ?_), ⟨c2.same.trans d1, d4.trans c2.v,
        ?_, ?_, ?_, ?_, ?_⟩⟩
      · show (bif (exec e (bodyD k) s2).lt then n0 else n0 + 3) = _
        rw [d8, c2.x6, hx2, sgn_lt_succ (by omega) (by omega)]
      · rw [d5, c2.x6]
        simp only [Val.num]
        rw [Nat.mod_eq_of_lt (show w + 1 < 2 ^ 32 by omega)]
      · rw [d6, c2.x3]
        simp only [addVal]
        rw [Nat.mul_add, Nat.mul_one]
      · rw [d7, c2.x4, hx11]
        simp only [addVal, Val.num]
        rw [Nat.pow_zero, Nat.mul_one, Nat.add_mul, Nat.one_mul, Nat.add_assoc]
      · rw [d2, c2.m, Nat.mul_zero, wr_zero, cols]
      · rw [d3, c2.ok, c2.x6, hx2, hx11]; rfl
    induction d with
    | zero =>
      intro w s' hd hc
      obtain ⟨s2, r2, c2⟩ := one w s' (by omega) hc
      rw [decide_eq_false (by omega)] at r2
      refine ⟨s2, r2, c2.same, c2.v, c2.ok, ?_⟩
      rw [c2.m, Nat.mul_zero, wr_zero, show w + 1 = w2 by omega]
    | succ d ih =>
      intro w s' hd hc
      obtain ⟨s2, r2, c2⟩ := one w s' (by omega) hc
      rw [decide_eq_true (by omega)] at r2
      obtain ⟨s3, r3, h3⟩ := ih (w + 1) s2 (by omega) c2
      exact ⟨s3, r2.trans r3, h3⟩
  exact key (w2 - 1) 0 s (by omega) ⟨Same.refl _ _, rfl, h6, h3, by rw [h4, Nat.zero_mul, Nat.add_zero],
    by rw [Nat.mul_zero, wr_zero]; rfl, ok⟩

end Ruy.Neon.Dot

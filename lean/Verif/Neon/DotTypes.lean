import Verif.Neon.DotStore
/-
The parts of the stores of the dot-product kernels that depend on the type of the destination:
the columns of a tile are written to the destination or to `dst_tmp_buf`.
-/
namespace Ruy.Neon.Dot
open Simd (wrap8 wrap16 wrap32)

/-- After the writes: registers and accumulators. -/
def After (s s' : St) : Prop :=
  Same keepCopy s s' ∧ s'.z = s.z ∧ (∀ i, i < 4 → s'.v i = s.v i) ∧
  (∀ k, k < 4 → s'.v (16 + 2 * k) = eop .sdot k (fun _ => 0) (s.v 0) (s.v 2)) ∧
  ∀ k, k < 4 → s'.v (17 + 2 * k) = fun _ => 0

theorem After.fresh {s s' : St} (h : After s s') (hz : ∀ i, i < 8 → s'.v (24 + i) = fun _ => 0) : Fresh s s' := by
  obtain ⟨_, _, h1, h2, h3⟩ := h
  refine ⟨h1, fun q hq k hk u hu => ?_⟩
  rcases (show q = 0 ∨ q = 1 by omega) with rfl | rfl
  · rcases (show u = 0 ∨ u = 1 by omega) with rfl | rfl
    · rw [if_pos ⟨rfl, rfl⟩]; exact h2 k hk
    · rw [if_neg (by omega), ← h3 k hk]
      exact congrArg s'.v (by omega)
  · rw [if_neg (by omega), ← hz (2 * k + u) (by omega)]
    exact congrArg s'.v (by omega)

/-! ### Bytes -/

/-- Column `w` of the tile of bytes. -/
def gB (s : St) (w : Nat) : Vec := s.v (16 + w / 2 + 4 * (w % 2))

theorem w28 (e : Env) (s : St) : After s (exec e dot28.body s) ∧
    (∀ i, i < 8 → (exec e dot28.body s).v (24 + i) = s.v (24 + i)) ∧
    (exec e dot28.body s).m = strided s.m (s.x 3) (s.x 4).num 8 (gB s) 8 ∧
    (exec e dot28.body s).bad = badN e s.bad (s.x 3) (s.x 4).num 8 (s.x 4).isPtr 8 := by
  cases s
  refine ⟨⟨by keep, rfl, ?_, ?_, ?_⟩, ?_, rfl, rfl⟩
  all_goals
    intro i hi
    interval_cases i <;> rfl

theorem t26 (e : Env) (s : St) : Same keepCopy s (exec e dot26.body s) ∧ (exec e dot26.body s).z = s.z ∧
    (exec e dot26.body s).v = s.v ∧ (exec e dot26.body s).m = s.m ∧ (exec e dot26.body s).bad = s.bad ∧
    (exec e dot26.body s).x 3 = s.x tmpBuf ∧ (exec e dot26.body s).x 4 = .int 8 := by
  cases s; exact ⟨by keep, rfl, rfl, rfl, rfl, rfl, rfl⟩

theorem t27 (e : Env) (s : St) : Same keepCopy s (exec e dot27.body s) ∧ (exec e dot27.body s).z = s.z ∧
    (exec e dot27.body s).v = s.v ∧ (exec e dot27.body s).m = s.m ∧ (exec e dot27.body s).bad = s.bad ∧
    (exec e dot27.body s).x 3 = s.x dstPtr ∧ (exec e dot27.body s).x 4 = s.x 11 := by
  cases s; exact ⟨by keep, rfl, rfl, rfl, rfl, rfl, rfl⟩

theorem colByte_of_v {s s' : St} (h : s'.v = s.v) (k w b : Nat) : colByte k s' w b = colByte k s w b := by
  unfold colByte; rw [h]

theorem After.of_v {s s' t : St} (h : After s' t) (hs : Same keepCopy s s') (hz : s'.z = s.z) (hv : s'.v = s.v) :
    After s t := by
  obtain ⟨h1, h2, h3, h4, h5⟩ := h
  rw [hv] at h3 h4
  exact ⟨hs.trans h1, h2.trans hz, h3, h4, h5⟩

theorem tmp1 : TmpOk dot26.body dot28.body 1 := by
  intro e s hz ht hs
  obtain ⟨a1, a2, a3, a4, a5, a6, a7⟩ := t26 e s
  generalize exec e dot26.body s = s1 at *
  obtain ⟨b1, b2, b3, b4⟩ := w28 e s1
  generalize exec e dot28.body s1 = s2 at *
  have c := b1.of_v a1 a2 a3
  have hz' : ∀ i, i < 8 → s.v (24 + i) = fun _ => 0 := hz.resolve_left (by omega)
  rw [a6, ht, a7] at b3 b4
  have e8 : (Val.int 8).num = 8 := rfl
  have ep : (Val.int 8).isPtr = false := rfl
  rw [e8] at b3 b4
  rw [ep] at b4
  refine ⟨c.1, c.2.1, c.fresh (fun i hi => by rw [b2 i hi, a3]; exact hz' i hi), ?_, ?_, ?_⟩
  · rw [b4, a5]
    cases hb : s.bad with
    | false => exact badN_ok rfl (fun i hi => by omega)
    | true => simp [badN]
  · intro r hr
    rw [b3, strided_other hr, a4]
  · intro i hi b hb
    rw [b3]
    have := strided_at (M := s1.m) (r := .tmp) (o := 0) (S := 8) (n := 8) (g := gB s1) (w := 8) (le_refl _) hi hb
    rw [Nat.zero_add, Nat.mul_comm] at this
    rw [Nat.mul_one, this]
    unfold gB colByte
    rw [if_pos rfl, a3]

theorem badN_bad {e : Env} {P : Val} {S n : Nat} {r : Bool} {w : Nat} : badN e true P S n r w = true := by
  induction w with
  | zero => rfl
  | succ w ih => rw [badN, ih]; rfl

theorem badP_bad {e : Env} {P : Val} {S : Nat} {r : Bool} {w : Nat} : badP e true P S r w = true := by
  induction w with
  | zero => rfl
  | succ w ih =>
    cases w with
    | zero => rfl
    | succ w => rw [badP, ih]; rfl; exact Nat.succ_ne_zero _

theorem badN_eq {e : Env} {b : Bool} {r : Region} {o S n : Nat} {w : Nat}
    (h : ∀ i, i < w → o + i * S + n ≤ e.size r) : badN e b (.ptr r o) S n false w = b := by
  cases b
  · exact badN_ok rfl h
  · exact badN_bad
theorem badP_eq {e : Env} {b : Bool} {r : Region} {o S : Nat} {w : Nat}
    (h : ∀ i, i < w → o + i * S + 32 ≤ e.size r) : badP e b (.ptr r o) S false w = b := by
  cases b
  · exact badP_ok rfl h
  · exact badP_bad

theorem direct1 : DirectOk dot27.body dot28.body 1 := by
  intro e s o S hz ht h11 hs
  obtain ⟨a1, a2, a3, a4, a5, a6, a7⟩ := t27 e s
  generalize exec e dot27.body s = s1 at *
  obtain ⟨b1, b2, b3, b4⟩ := w28 e s1
  generalize exec e dot28.body s1 = s2 at *
  have c := b1.of_v a1 a2 a3
  have hz' : ∀ i, i < 8 → s.v (24 + i) = fun _ => 0 := hz.resolve_left (by omega)
  rw [a6, ht, a7, h11] at b3 b4
  have e8 : (Val.int S).num = S := rfl
  have ep : (Val.int S).isPtr = false := rfl
  rw [e8] at b3 b4
  rw [ep] at b4
  refine ⟨c.1, c.2.1, c.fresh (fun i hi => by rw [b2 i hi, a3]; exact hz' i hi), ?_, ?_⟩
  · rw [b4, a5, badN_eq (fun i hi => by have := hs i hi; omega)]
  · rw [b3, a4]
    refine strided_cols (fun i hi b hb => ?_)
    rw [show 8 * 1 * i + b = 8 * 1 * i + b from rfl, tileByte_col s i (by omega)]
    unfold gB colByte
    rw [if_pos rfl, a3]

/-! ### Halfwords -/

def gH (s : St) (w : Nat) : Vec := s.v (16 + w)

theorem w46 (e : Env) (s : St) : After s (exec e dot46.body s) ∧
    (∀ i, i < 8 → (exec e dot46.body s).v (24 + i) = s.v (24 + i)) ∧
    (exec e dot46.body s).m = strided s.m (s.x 3) (s.x 4).num 16 (gH s) 8 ∧
    (exec e dot46.body s).bad = badN e s.bad (s.x 3) (s.x 4).num 16 (s.x 4).isPtr 8 := by
  cases s
  refine ⟨⟨by keep, rfl, ?_, ?_, ?_⟩, ?_, rfl, rfl⟩
  all_goals
    intro i hi
    interval_cases i <;> rfl

theorem t44 (e : Env) (s : St) : Same keepCopy s (exec e dot44.body s) ∧ (exec e dot44.body s).z = s.z ∧
    (exec e dot44.body s).v = s.v ∧ (exec e dot44.body s).m = s.m ∧ (exec e dot44.body s).bad = s.bad ∧
    (exec e dot44.body s).x 3 = s.x tmpBuf ∧ (exec e dot44.body s).x 4 = .int 16 := by
  cases s; exact ⟨by keep, rfl, rfl, rfl, rfl, rfl, rfl⟩

theorem tmp2 : TmpOk dot44.body dot46.body 2 := by
  intro e s hz ht hs
  obtain ⟨a1, a2, a3, a4, a5, a6, a7⟩ := t44 e s
  generalize exec e dot44.body s = s1 at *
  obtain ⟨b1, b2, b3, b4⟩ := w46 e s1
  generalize exec e dot46.body s1 = s2 at *
  have c := b1.of_v a1 a2 a3
  have hz' : ∀ i, i < 8 → s.v (24 + i) = fun _ => 0 := hz.resolve_left (by omega)
  rw [a6, ht, a7] at b3 b4
  have e8 : (Val.int 16).num = 16 := rfl
  have ep : (Val.int 16).isPtr = false := rfl
  rw [e8] at b3 b4
  rw [ep] at b4
  refine ⟨c.1, c.2.1, c.fresh (fun i hi => by rw [b2 i hi, a3]; exact hz' i hi), ?_, ?_, ?_⟩
  · rw [b4, a5, badN_eq (fun i hi => by omega)]
  · intro r hr
    rw [b3, strided_other hr, a4]
  · intro i hi b hb
    rw [b3]
    have := strided_at (M := s1.m) (r := .tmp) (o := 0) (S := 16) (n := 16) (g := gH s1) (w := 8) (le_refl _) hi hb
    rw [Nat.zero_add, Nat.mul_comm] at this
    rw [show 8 * 2 = 16 from rfl, this]
    unfold gH colByte
    rw [if_neg (by omega), if_pos rfl, a3]

theorem direct2 : DirectOk dot45.body dot46.body 2 := by
  intro e s o S hz ht h11 hs
  obtain ⟨a1, a2, a3, a4, a5, a6, a7⟩ := t27 e s
  rw [show dot45.body = dot27.body from rfl]
  generalize exec e dot27.body s = s1 at *
  obtain ⟨b1, b2, b3, b4⟩ := w46 e s1
  generalize exec e dot46.body s1 = s2 at *
  have c := b1.of_v a1 a2 a3
  have hz' : ∀ i, i < 8 → s.v (24 + i) = fun _ => 0 := hz.resolve_left (by omega)
  rw [a6, ht, a7, h11] at b3 b4
  have e8 : (Val.int S).num = S := rfl
  have ep : (Val.int S).isPtr = false := rfl
  rw [e8] at b3 b4
  rw [ep] at b4
  refine ⟨c.1, c.2.1, c.fresh (fun i hi => by rw [b2 i hi, a3]; exact hz' i hi), ?_, ?_⟩
  · rw [b4, a5, badN_eq (fun i hi => by have := hs i hi; omega)]
  · rw [b3, a4]
    refine strided_cols (fun i hi b hb => ?_)
    rw [tileByte_col s i (by omega)]
    unfold gH colByte
    rw [if_neg (by omega), if_pos rfl, a3]

/-! ### Words -/

theorem w55 (e : Env) (s : St) : Same keepCopy s (exec e dot55.body s) ∧ (exec e dot55.body s).z = s.z ∧
    (exec e dot55.body s).m = s.m ∧ (exec e dot55.body s).bad = s.bad ∧
    (∀ i, i < 4 → (exec e dot55.body s).v i = s.v i) ∧
    (∀ i, i < 8 → (exec e dot55.body s).v (24 + i) = s.v (24 + i)) ∧
    (∀ k, k < 4 → (exec e dot55.body s).v (16 + 2 * k) = eop .sdot k (s.v (16 + 2 * k)) (s.v 0) (s.v 2)) ∧
    ∀ k, k < 4 → (exec e dot55.body s).v (17 + 2 * k) = s.v (17 + 2 * k) := by
  cases s
  refine ⟨by keep, rfl, rfl, rfl, ?_, ?_, ?_, ?_⟩
  all_goals
    intro i hi
    interval_cases i <;> rfl

/-- Eight stores of `dot53`, from register `n` on. -/
def eight (n : Nat) : List Instr := [
  .stqP n 3, .movi n, .stqP (n + 1) 3, .movi (n + 1), .stqP (n + 2) 3, .movi (n + 2), .stqP (n + 3) 3, .movi (n + 3),
  .stqP (n + 4) 3, .movi (n + 4), .stqP (n + 5) 3, .movi (n + 5), .stqP (n + 6) 3, .movi (n + 6),
  .stqP (n + 7) 3, .movi (n + 7)]

theorem t53a (e : Env) (n : Nat) (hn : n = 16 ∨ n = 24) (s : St) : Same keepCopy s (exec e (eight n) s) ∧
    (exec e (eight n) s).z = s.z ∧ (exec e (eight n) s).x 3 = ptrN (s.x 3) 16 8 ∧
    (∀ i, i < 4 → (exec e (eight n) s).v i = s.v i) ∧
    (∀ i, i < 8 → (exec e (eight n) s).v (n + i) = fun _ => 0) ∧
    (∀ i, i < 8 → (exec e (eight n) s).v (40 - n + i) = s.v (40 - n + i)) ∧
    (exec e (eight n) s).m = strided s.m (s.x 3) 16 16 (fun w => s.v (n + w)) 8 ∧
    (exec e (eight n) s).bad = (s.bad || out e (ptrN (s.x 3) 16 0) 0 16 ||
      out e (ptrN (s.x 3) 16 1) 0 16 || out e (ptrN (s.x 3) 16 2) 0 16 ||
      out e (ptrN (s.x 3) 16 3) 0 16 || out e (ptrN (s.x 3) 16 4) 0 16 ||
      out e (ptrN (s.x 3) 16 5) 0 16 || out e (ptrN (s.x 3) 16 6) 0 16 ||
      out e (ptrN (s.x 3) 16 7) 0 16) := by
  rcases hn with rfl | rfl
  all_goals
    cases s
    refine ⟨by keep, rfl, rfl, ?_, ?_, ?_, rfl, rfl⟩
    all_goals
      intro i hi
      interval_cases i <;> rfl

theorem eight_ok {e : Env} {r : Region} {o : Nat} {b : Bool} (h : o + 128 ≤ e.size r) :
    (b || out e (ptrN (.ptr r o) 16 0) 0 16 ||
      out e (ptrN (.ptr r o) 16 1) 0 16 || out e (ptrN (.ptr r o) 16 2) 0 16 ||
      out e (ptrN (.ptr r o) 16 3) 0 16 || out e (ptrN (.ptr r o) 16 4) 0 16 ||
      out e (ptrN (.ptr r o) 16 5) 0 16 || out e (ptrN (.ptr r o) 16 6) 0 16 ||
      out e (ptrN (.ptr r o) 16 7) 0 16) = b := by
  simp only [ptrN_ptr]
  rw [out_ptr (by omega), out_ptr (by omega), out_ptr (by omega), out_ptr (by omega), out_ptr (by omega),
    out_ptr (by omega), out_ptr (by omega), out_ptr (by omega)]
  simp only [Bool.or_false]

theorem t53 (e : Env) (s : St) (ht : s.x tmpBuf = .ptr .tmp 0) (hs : 256 ≤ e.size .tmp) :
    Same keepCopy s (exec e dot53.body s) ∧ (exec e dot53.body s).z = s.z ∧
    (∀ i, i < 4 → (exec e dot53.body s).v i = s.v i) ∧
    (∀ i, i < 16 → (exec e dot53.body s).v (16 + i) = fun _ => 0) ∧
    (exec e dot53.body s).m = strided s.m (.ptr .tmp 0) 16 16 (gH s) 16 ∧
    (exec e dot53.body s).bad = s.bad := by
  have h : exec e dot53.body s = exec e (eight 24) (exec e (eight 16) (exec e [.movX 3 tmpBuf] s)) := rfl
  have c : Same keepCopy s (exec e [.movX 3 tmpBuf] s) ∧ (exec e [.movX 3 tmpBuf] s).z = s.z ∧
      (exec e [.movX 3 tmpBuf] s).v = s.v ∧ (exec e [.movX 3 tmpBuf] s).m = s.m ∧
      (exec e [.movX 3 tmpBuf] s).bad = s.bad ∧ (exec e [.movX 3 tmpBuf] s).x 3 = s.x tmpBuf := by
    cases s; exact ⟨by keep, rfl, rfl, rfl, rfl, rfl⟩
  obtain ⟨c1, c2, c3, c4, c5, c6⟩ := c
  rw [h]
  clear h
  generalize exec e [.movX 3 tmpBuf] s = s0 at *
  obtain ⟨a1, a2, a3, a4, a5, a6, a7, a8⟩ := t53a e 16 (.inl rfl) s0
  generalize exec e (eight 16) s0 = s1 at *
  obtain ⟨b1, b2, b3, b4, b5, b6, b7, b8⟩ := t53a e 24 (.inr rfl) s1
  generalize exec e (eight 24) s1 = s2 at *
  rw [c6, ht] at a3 a7 a8
  rw [eight_ok (by omega)] at a8
  rw [a3] at b7 b8
  rw [ptrN_ptr, eight_ok (by omega)] at b8
  refine ⟨(c1.trans a1).trans b1, b2.trans (a2.trans c2), fun i hi => ?_, fun i hi => ?_, ?_, b8.trans (a8.trans c5)⟩
  · rw [b4 i hi, a4 i hi, c3]
  · rcases Nat.lt_or_ge i 8 with h8 | h8
    · exact (b6 i h8).trans (a5 i h8)
    · have := b5 (i - 8) (by omega)
      rwa [show 24 + (i - 8) = 16 + i by omega] at this
  · rw [b7, a7, c4, c3]
    have g2 : (fun w => s1.v (24 + w)) = fun w => if w < 8 then s.v (24 + w) else s1.v (24 + w) := by
      funext w
      split_ifs with hw
      · exact (a6 w hw).trans (by rw [c3])
      · rfl
    rw [g2]
    rfl

/-- Four columns of `dot54`, from register `n` on; the first instructions differ for the first column. -/
def four (n : Nat) : List Instr := [
  .movX 3 4, .stqP n 3, .stqP (n + 1) 3, .movi n, .movi (n + 1), .addX 4 4 11 0,
  .movX 3 4, .stqP (n + 2) 3, .stqP (n + 3) 3, .movi (n + 2), .movi (n + 3), .addX 4 4 11 0,
  .movX 3 4, .stqP (n + 4) 3, .stqP (n + 5) 3, .movi (n + 4), .movi (n + 5), .addX 4 4 11 0,
  .movX 3 4, .stqP (n + 6) 3, .stqP (n + 7) 3, .movi (n + 6), .movi (n + 7)]

theorem t54a (e : Env) (n : Nat) (hn : n = 16 ∨ n = 24) (s : St) : Same keepCopy s (exec e (four n) s) ∧
    (exec e (four n) s).z = s.z ∧ (exec e (four n) s).x 4 = ptrN (s.x 4) ((s.x 11).num * 2 ^ 0) 3 ∧
    (∀ i, i < 4 → (exec e (four n) s).v i = s.v i) ∧
    (∀ i, i < 8 → (exec e (four n) s).v (n + i) = fun _ => 0) ∧
    (∀ i, i < 8 → (exec e (four n) s).v (40 - n + i) = s.v (40 - n + i)) ∧
    (exec e (four n) s).m = paired s.m (s.x 4) ((s.x 11).num * 2 ^ 0) (fun w => s.v (n + w)) 4 ∧
    (exec e (four n) s).bad = badP e s.bad (s.x 4) ((s.x 11).num * 2 ^ 0) (s.x 11).isPtr 4 := by
  rcases hn with rfl | rfl
  all_goals
    cases s
    refine ⟨by keep, rfl, rfl, ?_, ?_, ?_, rfl, rfl⟩
    all_goals
      intro i hi
      interval_cases i <;> rfl

theorem t54 (e : Env) (s : St) (o S : Nat) (ht : s.x dstPtr = .ptr .dst o) (h11 : s.x 11 = .int S)
    (hs : ∀ i, i < 8 → o + i * S + 32 ≤ e.size .dst) :
    Same keepCopy s (exec e dot54.body s) ∧ (exec e dot54.body s).z = s.z ∧
    (∀ i, i < 4 → (exec e dot54.body s).v i = s.v i) ∧
    (∀ i, i < 16 → (exec e dot54.body s).v (16 + i) = fun _ => 0) ∧
    (exec e dot54.body s).m = paired s.m (.ptr .dst o) S (gH s) 8 ∧
    (exec e dot54.body s).bad = s.bad := by
  have h : exec e dot54.body s =
      exec e (four 24) (exec e [.addX 4 4 11 0] (exec e (four 16) (exec e [.movX 4 dstPtr] s))) := rfl
  have c : Same keepCopy s (exec e [.movX 4 dstPtr] s) ∧ (exec e [.movX 4 dstPtr] s).z = s.z ∧
      (exec e [.movX 4 dstPtr] s).v = s.v ∧ (exec e [.movX 4 dstPtr] s).m = s.m ∧
      (exec e [.movX 4 dstPtr] s).bad = s.bad ∧ (exec e [.movX 4 dstPtr] s).x 4 = s.x dstPtr := by
    cases s; exact ⟨by keep, rfl, rfl, rfl, rfl, rfl⟩
  have d : ∀ s : St, Same keepCopy s (exec e [.addX 4 4 11 0] s) ∧ (exec e [.addX 4 4 11 0] s).z = s.z ∧
      (exec e [.addX 4 4 11 0] s).v = s.v ∧ (exec e [.addX 4 4 11 0] s).m = s.m ∧
      (exec e [.addX 4 4 11 0] s).bad = (s.bad || (s.x 11).isPtr) ∧
      (exec e [.addX 4 4 11 0] s).x 4 = addVal (s.x 4) ((s.x 11).num * 2 ^ 0) := by
    intro s
    cases s; exact ⟨by keep, rfl, rfl, rfl, rfl, rfl⟩
  obtain ⟨c1, c2, c3, c4, c5, c6⟩ := c
  rw [h]
  clear h
  generalize exec e [.movX 4 dstPtr] s = s0 at *
  obtain ⟨a1, a2, a3, a4, a5, a6, a7, a8⟩ := t54a e 16 (.inl rfl) s0
  generalize exec e (four 16) s0 = s1 at *
  obtain ⟨d1, d2, d3, d4, d5, d6⟩ := d s1
  generalize exec e [.addX 4 4 11 0] s1 = s3 at *
  obtain ⟨b1, b2, b3, b4, b5, b6, b7, b8⟩ := t54a e 24 (.inr rfl) s3
  generalize exec e (four 24) s3 = s2 at *
  have x0 : s0.x 11 = .int S := (c1.get (by decide)).trans h11
  have x1 : s1.x 11 = .int S := (a1.get (by decide)).trans x0
  have x3 : s3.x 11 = .int S := (d1.get (by decide)).trans x1
  have e8 : (Val.int S).num * 2 ^ 0 = S := by simp [Val.num]
  have ep : (Val.int S).isPtr = false := rfl
  rw [c6, ht, x0, e8] at a3 a7 a8
  rw [ep, badP_eq (fun i hi => by have := hs i (by omega); omega)] at a8
  rw [a3, x1, e8, ptrN_ptr] at d6
  have d6' : s3.x 4 = .ptr .dst (o + 4 * S) := d6.trans (congrArg (Val.ptr _) (by omega))
  rw [x1, ep, Bool.or_false] at d5
  rw [d6', x3, e8] at b7 b8
  rw [ep, badP_eq (fun i hi => by
    have := hs (4 + i) (by omega); rw [Nat.add_mul] at this; omega)] at b8
  refine ⟨((c1.trans a1).trans d1).trans b1, b2.trans (d2.trans (a2.trans c2)), fun i hi => ?_, fun i hi => ?_, ?_,
    b8.trans (d5.trans (a8.trans c5))⟩
  · rw [b4 i hi, d3, a4 i hi, c3]
  · rcases Nat.lt_or_ge i 8 with h8 | h8
    · refine (b6 i h8).trans ?_
      rw [d3]; exact a5 i h8
    · have := b5 (i - 8) (by omega)
      rwa [show 24 + (i - 8) = 16 + i by omega] at this
  · rw [b7, d4, a7, c4, c3, d3]
    have g2 : (fun w => s1.v (24 + w)) = fun w => if w < 8 then s.v (24 + w) else s1.v (24 + w) := by
      funext w
      split_ifs with hw
      · exact (a6 w hw).trans (by rw [c3])
      · rfl
    have ptr : ∀ w, ptrN (.ptr .dst (o + 4 * S)) S w = ptrN (.ptr .dst o) S (4 + w) := fun w => by
      rw [ptrN_ptr, ptrN_ptr, Nat.add_mul, Nat.add_assoc]
    rw [g2]
    simp only [paired, ptr]
    rfl

theorem after55 {e : Env} {s s1 : St} (hk : Same keepCopy s s1) (hz : s1.z = s.z) (hv : ∀ i, i < 4 → s1.v i = s.v i)
    (h0 : ∀ i, i < 16 → s1.v (16 + i) = fun _ => 0) :
    After s (exec e dot55.body s1) ∧ Fresh s (exec e dot55.body s1) := by
  obtain ⟨b1, b2, b3, b4, b5, b6, b7, b8⟩ := w55 e s1
  have c : After s (exec e dot55.body s1) := by
    refine ⟨hk.trans b1, b2.trans hz, fun i hi => (b5 i hi).trans (hv i hi), fun k hk => ?_, fun k hk => ?_⟩
    · rw [b7 k hk, h0 (2 * k) (by omega), hv 0 (by omega), hv 2 (by omega)]
    · rw [b8 k hk, show 17 + 2 * k = 16 + (1 + 2 * k) by omega, h0 _ (by omega)]
  refine ⟨c, c.fresh (fun i hi => ?_)⟩
  rw [b6 i hi, show 24 + i = 16 + (8 + i) by omega, h0 _ (by omega)]

theorem tmp4 : TmpOk dot53.body dot55.body 4 := by
  intro e s hz ht hs
  obtain ⟨a1, a2, a3, a4, a5, a6⟩ := t53 e s ht hs
  obtain ⟨c, f⟩ := after55 (e := e) a1 a2 a3 a4
  obtain ⟨_, _, b3, b4, _⟩ := w55 e (exec e dot53.body s)
  generalize exec e dot53.body s = s1 at *
  generalize exec e dot55.body s1 = s2 at *
  refine ⟨c.1, c.2.1, f, b4.trans a6, ?_, ?_⟩
  · intro r hr
    rw [b3, a5, strided_other hr]
  · intro i hi b hb
    rw [b3, a5]
    have := strided_at (M := s.m) (r := .tmp) (o := 0) (S := 16) (n := 16) (g := gH s) (w := 16) (le_refl _)
      (i := 2 * i + b / 16) (by omega) (b := b % 16) (by omega)
    rw [show 8 * 4 * i + b = 0 + (2 * i + b / 16) * 16 + b % 16 by omega, this]
    unfold gH colByte
    rw [if_neg (by omega), if_neg (by omega), Nat.add_assoc]

theorem direct4 : DirectOk dot54.body dot55.body 4 := by
  intro e s o S hz ht h11 hs
  obtain ⟨a1, a2, a3, a4, a5, a6⟩ := t54 e s o S ht h11 (fun i hi => by have := hs i hi; omega)
  obtain ⟨c, f⟩ := after55 (e := e) a1 a2 a3 a4
  obtain ⟨_, _, b3, b4, _⟩ := w55 e (exec e dot54.body s)
  generalize exec e dot54.body s = s1 at *
  generalize exec e dot55.body s1 = s2 at *
  refine ⟨c.1, c.2.1, f, b4.trans a6, ?_⟩
  · rw [b3, a5]
    refine paired_cols (fun i hi b hb => ?_)
    rw [show 32 * i + b = 8 * 4 * i + b from rfl, tileByte_col s i (by omega)]
    unfold gH colByte
    rw [if_neg (by omega), if_neg (by omega), Nat.add_assoc]

end Ruy.Neon.Dot

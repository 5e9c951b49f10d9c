import Verif.Neon.PackRun
/-
The two pack functions as variants.
-/
namespace Ruy.Neon
open Simd (wrap8 wrap16 wrap32)
namespace PJob

theorem full_lt (j : PJob) {t : Nat} (ht : t < j.full) : t < j.chunks := by
  unfold full at ht; unfold chunks; omega

theorem raw_eq (j : PJob) (c t : Nat) {b : Nat} (hb : b < 16) : j.raw c (16 * t + b) = j.m (j.reg c) (j.pos t c + b) := by
  unfold raw pos
  rw [show (16 * t + b) / 16 = t by omega, show (16 * t + b) % 16 = b by omega]

theorem entry_full (j : PJob) (c : Nat) {t b : Nat} (ht : t < j.full) (hb : b < 16) :
    j.entry c (16 * t + b) = j.m (j.reg c) (j.pos t c + b) ^^^ BitVec.ofNat 8 j.xor := by
  unfold entry
  unfold full at ht
  rw [if_pos (by omega), raw_eq j c t hb]

theorem in_src {j : PJob} (hf : j.Fits) {c t : Nat} (hc : c < 4) (ht : t < j.full) :
    j.pos t c + 16 ≤ j.env.size (j.reg c) := by
  unfold full at ht
  have := hf.src c hc (16 * t + 15) (by omega)
  rw [show (16 * t + 15) / 16 = t by omega, show (16 * t + 15) % 16 = 15 by omega] at this
  exact this

theorem pos_succ (j : PJob) (t c : Nat) : j.pos t c + j.inc c = j.pos (t + 1) c := by
  unfold pos; ring

theorem count_eq {j : PJob} (hf : j.Fits) {t : Nat} (ht : t ≤ j.full) :
    decide (sgn (Val.int (16 * t)).num = sgn (Val.int (16 * j.full)).num) = decide (j.full = t) := by
  have := hf.rows
  unfold full at *
  rw [sgn_eq (by omega) (by omega)]
  rw [decide_eq_decide]; omega

/-! ### `Pack8bitColMajorForNeon` -/

def keep1 : List Nat := [2, 52, 53, 54, 55, 56, 57, 58, 59, 60]
def keep2 : List Nat := [2, 53, 54, 55, 56, 57, 58, 59, 60]

theorem p1 (e : Env) (s : St) : Same keep1 s (exec e pack1.body s) ∧ (exec e pack1.body s).m = s.m ∧
    (exec e pack1.body s).x 1 = .int (((s.x 1).num + 16) % 2 ^ 32) ∧
    (∀ c, c < 4 → (exec e pack1.body s).x (48 + c) = addVal (s.x (48 + c)) (s.x (54 + c)).num) ∧
    (∀ c, c < 4 → (exec e pack1.body s).v c = bytes s (s.x (48 + c)) 0) ∧
    (∀ c, c < 4 → (exec e pack1.body s).v (28 + c) = s.v (28 + c)) ∧
    (exec e pack1.body s).v 26 = s.v 26 ∧
    (exec e pack1.body s).z = decide (sgn (((s.x 1).num + 16) % 2 ^ 32) = sgn (s.x 2).num) ∧
    (exec e pack1.body s).bad = (s.bad || (s.x 1).isPtr || (s.x 54).isPtr || out e (s.x 48) 0 16 ||
      (s.x 55).isPtr || out e (s.x 49) 0 16 || false || (s.x 2).isPtr || (s.x 56).isPtr || out e (s.x 50) 0 16 ||
      (s.x 57).isPtr || out e (s.x 51) 0 16) := by
  cases s
  exact ⟨by keep, rfl, rfl, by intro c hc; interval_cases c <;> rfl, by intro c hc; interval_cases c <;> rfl,
    by intro c hc; interval_cases c <;> rfl, rfl, rfl, rfl⟩

theorem p2 (e : Env) (s : St) : Same keep2 s (exec e pack2.body s) ∧
    (exec e pack2.body s).m = store4 s.m (s.x 52) (eorV (s.v 0) (s.v 26)) (eorV (s.v 1) (s.v 26))
      (eorV (s.v 2) (s.v 26)) (eorV (s.v 3) (s.v 26)) ∧
    (exec e pack2.body s).x 1 = .int (((s.x 1).num + 16) % 2 ^ 32) ∧
    (exec e pack2.body s).x 52 = addVal (s.x 52) 64 ∧
    (∀ c, c < 4 → (exec e pack2.body s).x (48 + c) = addVal (s.x (48 + c)) (s.x (54 + c)).num) ∧
    (∀ c, c < 4 → (exec e pack2.body s).v c = bytes s (s.x (48 + c)) 0) ∧
    (∀ c, c < 4 → (exec e pack2.body s).v (28 + c) = sumV (s.v (28 + c)) (eorV (s.v c) (s.v 26))) ∧
    (exec e pack2.body s).v 26 = s.v 26 ∧
    (exec e pack2.body s).z = decide (sgn (((s.x 1).num + 16) % 2 ^ 32) = sgn (s.x 2).num) ∧
    (exec e pack2.body s).bad = (s.bad || (s.x 1).isPtr || (s.x 54).isPtr || out e (s.x 48) 0 16 ||
      (s.x 55).isPtr || out e (s.x 49) 0 16 || (s.x 56).isPtr || out e (s.x 50) 0 16 ||
      (s.x 57).isPtr || out e (s.x 51) 0 16 || out e (s.x 52) 0 16 || out e (s.x 52) 16 16 || out e (s.x 52) 32 16 ||
      out e (s.x 52) 48 16 || false || (s.x 2).isPtr) := by
  cases s
  exact ⟨by keep, rfl, rfl, rfl, by intro c hc; interval_cases c <;> rfl, by intro c hc; interval_cases c <;> rfl,
    by intro c hc; interval_cases c <;> rfl, rfl, rfl, rfl⟩

/-- All bytes of the block are in v0, …, v3. -/
def heldQ (j : PJob) (t : Nat) (s : St) : Prop :=
  ∀ c, c < 4 → ∀ b, b < 16 → s.v c b = j.m (j.reg c) (j.pos t c + b)

/-- What the first load does, in either function. -/
theorem first_at {j : PJob} {s s' : St} (h : At j 0 (j.pos 0) s)
    (h1 : Same keep1 s s') (h2 : s'.m = s.m)
    (h3 : ∀ c, c < 4 → s'.x (48 + c) = addVal (s.x (48 + c)) (s.x (54 + c)).num)
    (h4 : ∀ c, c < 4 → s'.v (28 + c) = s.v (28 + c)) (h5 : s'.v 26 = s.v 26) (h6 : s'.bad = false) :
    At j 0 (j.pos 1) s' := by
  refine ⟨fun c hc => ?_, ?_, ?_, fun c hc => ?_, ?_, ?_, ?_, fun c hc i hi => ?_, fun b hb => ?_, h6⟩
  · rw [h3 c hc, h.src c hc, h.inc c hc]
    show Val.ptr _ _ = _
    rw [← pos_succ]; rfl
  · rw [h1.get (by decide)]; exact h.packed
  · rw [h1.get (by decide)]; exact h.sums
  · rw [h1.get (by interval_cases c <;> decide)]; exact h.inc c hc
  · rw [h1.get (by decide)]; exact h.rows
  · rw [h1.get (by decide)]; exact h.zp
  · rw [h2]; exact h.mem
  · rw [h4 c hc]; exact h.acc c hc i hi
  · rw [h5]; exact h.x26 b hb

/-- One iteration, in either function; `x c` are the vectors that are stored. -/
theorem loop_at {j : PJob} {t : Nat} {s s' : St} (h : At j t (j.pos (t + 1)) s) {x : Nat → Vec}
    (hl : ∀ c, c < 4 → ∀ b, b < 16 → x c b = j.entry c (16 * t + b))
    (h1 : Same keep2 s s') (h2 : s'.m = store4 s.m (s.x 52) (x 0) (x 1) (x 2) (x 3))
    (h3 : s'.x 52 = addVal (s.x 52) 64)
    (h4 : ∀ c, c < 4 → s'.x (48 + c) = addVal (s.x (48 + c)) (s.x (54 + c)).num)
    (h5 : ∀ c, c < 4 → s'.v (28 + c) = sumV (s.v (28 + c)) (x c)) (h6 : s'.v 26 = s.v 26) (h7 : s'.bad = false) :
    At j (t + 1) (j.pos (t + 2)) s' := by
  refine ⟨fun c hc => ?_, ?_, ?_, fun c hc => ?_, ?_, ?_, ?_, fun c hc i hi => ?_, fun b hb => ?_, h7⟩
  · rw [h4 c hc, h.src c hc, h.inc c hc]
    show Val.ptr _ _ = _
    rw [← pos_succ j (t + 1) c]; rfl
  · rw [h3, h.packed]
    show Val.ptr _ _ = _
    rw [show j.packedBase + 64 * t + 64 = j.packedBase + 64 * (t + 1) by ring]
  · rw [h1.get (by decide)]; exact h.sums
  · rw [h1.get (by interval_cases c <;> decide)]; exact h.inc c hc
  · rw [h1.get (by decide)]; exact h.rows
  · rw [h1.get (by decide)]; exact h.zp
  · rw [h2, h.mem, h.packed]
    exact stored_succ (x := x) hl
  · rw [h5 c hc]
    exact acc_succ hi (hl c hc) (h.acc c hc i hi)
  · rw [h6]; exact h.x26 b hb

theorem src_byte {j : PJob} (hf : j.Fits) {t k c : Nat} (hc : c < 4) {s : St} (hm : s.m = j.stored k)
    (hx : s.x (48 + c) = .ptr (j.reg c) (j.pos t c)) (o b : Nat) :
    bytes s (s.x (48 + c)) o b = j.m (j.reg c) (j.pos t c + o + b) := by
  unfold bytes
  rw [hx, hm]
  show j.stored k (j.reg c) _ = _
  rw [stored_src hf hc]
  rfl

theorem outs {j : PJob} (hf : j.Fits) {t k c : Nat} (hc : c < 4) (hk : k < j.full) {p : Nat → Nat} {s : St} (h : At j t p s)
    (hp : p c = j.pos k c) {o n : Nat} (ho : o + n ≤ 16) : out j.env (s.x (48 + c)) o n = false := by
  rw [h.src c hc, hp]
  exact out_ptr (by have := in_src hf hc hk; omega)

theorem outp {j : PJob} (hf : j.Fits) {t : Nat} (ht : t < j.chunks) {p : Nat → Nat} {s : St} (h : At j t p s) {o : Nat}
    (ho : o + 16 ≤ 64) : out j.env (s.x 52) o 16 = false := by
  rw [h.packed]
  have := hf.packed
  exact out_ptr (by show _ ≤ j.size .packed; omega)

theorem incs {j : PJob} {t c : Nat} (hc : c < 4) {p : Nat → Nat} {s : St} (h : At j t p s) :
    (s.x (54 + c)).isPtr = false := by rw [h.inc c hc]; rfl

theorem next_of {z : Bool} {a b : Nat} (h : z = decide (a = b)) : (bif z then 3 else 2) = if a = b then 3 else 2 := by
  rw [h]
  by_cases hab : a = b
  · rw [decide_eq_true hab, if_pos hab]; rfl
  · rw [decide_eq_false hab, if_neg hab]; rfl

theorem next_ne {z : Bool} {a b : Nat} (h : z = decide (a = b)) : (bif !z then 2 else 3) = if a = b then 3 else 2 := by
  rw [h]
  by_cases hab : a = b
  · rw [decide_eq_true hab, if_pos hab]; rfl
  · rw [decide_eq_false hab, if_neg hab]; rfl

theorem held_entry {j : PJob} {t : Nat} {p : Nat → Nat} {s : St} (h : At j t p s) (ht : t < j.full) (hh : heldQ j t s) :
    ∀ c, c < 4 → ∀ b, b < 16 → eorV (s.v c) (s.v 26) b = j.entry c (16 * t + b) := by
  intro c hc b hb
  unfold eorV
  rw [h.x26 b hb, hh c hc b hb, entry_full j c ht hb]

/-- `Pack8bitColMajorForNeon`. -/
def generic : Variant where
  code := packCode
  len := rfl
  same _ _ _ := rfl
  one := pack1
  two := pack2
  three := pack3
  h1 := rfl
  h2 := rfl
  h3 := rfl
  held := heldQ
  first := by
    intro j s hf h hx1 hx2 hn
    obtain ⟨h1, h2, h3, h4, h5, h6, h7, h8, h9⟩ := p1 j.env s
    have hnx : next (exec j.env pack1.body s) pack1.term = bif (exec j.env pack1.body s).z then 3 else 2 := rfl
    generalize exec j.env pack1.body s = s' at *
    rw [hx1] at h3 h8
    rw [hx2] at h8
    change s'.z = decide (sgn (Val.int (16 * 1)).num = sgn (Val.int (16 * j.full)).num) at h8
    rw [count_eq hf (by omega)] at h8
    refine ⟨first_at h h1 h2 h4 h6 h7 ?_, fun c hc b _ => ?_, h3, by rw [h1.get (by decide)]; exact hx2, ?_⟩
    · rw [h9, h.ok, hx1, hx2, outs (c := 0) hf (by omega) hn h rfl (by omega), outs (c := 1) hf (by omega) hn h rfl (by omega),
        outs (c := 2) hf (by omega) hn h rfl (by omega), outs (c := 3) hf (by omega) hn h rfl (by omega),
        incs (c := 0) (by omega) h, incs (c := 1) (by omega) h, incs (c := 2) (by omega) h, incs (c := 3) (by omega) h]
      rfl
    · rw [h5 c hc, src_byte hf hc h.mem (h.src c hc)]; rfl
    · rw [hnx]; exact next_of h8
  loop := by
    intro j t s hf h hh hx1 hx2 hn
    obtain ⟨h1, h2, h3, h4, h5, h6, h7, h8, h9, h10⟩ := p2 j.env s
    have hnx : next (exec j.env pack2.body s) pack2.term = bif !(exec j.env pack2.body s).z then 2 else 3 := rfl
    generalize exec j.env pack2.body s = s' at *
    rw [hx1] at h3 h9
    rw [hx2] at h9
    have hr := hf.rows
    have e : (16 * (t + 1) + 16) % 2 ^ 32 = 16 * (t + 2) := by unfold full at hn; omega
    change s'.x 1 = .int ((16 * (t + 1) + 16) % 2 ^ 32) at h3
    change s'.z = decide (sgn ((16 * (t + 1) + 16) % 2 ^ 32) = sgn (Val.int (16 * j.full)).num) at h9
    rw [e] at h3 h9
    have h9' := h9.trans (count_eq hf (t := t + 2) (by omega))
    have hc' : t < j.chunks := full_lt j (by omega)
    refine ⟨loop_at (x := fun c => eorV (s.v c) (s.v 26)) h (held_entry h (by omega) hh) h1 h2 h4 h5 h7 h8 ?_,
      fun c hc b _ => ?_, h3, by rw [h1.get (by decide)]; exact hx2, ?_⟩
    · rw [h10, h.ok, hx1, hx2, outs (c := 0) hf (by omega) hn h rfl (by omega), outs (c := 1) hf (by omega) hn h rfl (by omega),
        outs (c := 2) hf (by omega) hn h rfl (by omega), outs (c := 3) hf (by omega) hn h rfl (by omega),
        incs (c := 0) (by omega) h, incs (c := 1) (by omega) h, incs (c := 2) (by omega) h, incs (c := 3) (by omega) h,
        outp hf hc' h (by omega), outp hf hc' h (by omega), outp hf hc' h (by omega), outp hf hc' h (by omega)]
      rfl
    · rw [h6 c hc, src_byte hf hc h.mem (h.src c hc)]; rfl
    · rw [hnx]; exact next_ne h9'
  last := by
    intro j t s hf h hh hn
    obtain ⟨k1, k2, k3, k4, k5, k6⟩ := pStores j.env s
    exact ⟨processed hf h (full_lt j (by omega)) (held_entry h (by omega) hh) k1 k2 k3 k4 k5 k6, rfl⟩

/-! ### `Pack8bitColMajorForNeonA55ish` -/

/-- The vector after the upper half has been inserted. -/
def joined (v : Vec) (x : Val) : Vec := fun b => if b / 8 = 1 then numByte x.num (b % 8) else v b

theorem q1 (e : Env) (s : St) : Same keep1 s (exec e packA1.body s) ∧ (exec e packA1.body s).m = s.m ∧
    (exec e packA1.body s).x 1 = .int (((s.x 1).num + 16) % 2 ^ 32) ∧
    (∀ c, c < 4 → (exec e packA1.body s).x (48 + c) = addVal (s.x (48 + c)) (s.x (54 + c)).num) ∧
    (∀ c, c < 4 → (exec e packA1.body s).v c = lower (bytes s (s.x (48 + c)) 0)) ∧
    (∀ c, c < 4 → (exec e packA1.body s).x (10 + c) = .int (le8 (bytes s (s.x (48 + c)) 8) 0)) ∧
    (∀ c, c < 4 → (exec e packA1.body s).v (28 + c) = s.v (28 + c)) ∧
    (exec e packA1.body s).v 26 = s.v 26 ∧
    (exec e packA1.body s).z = decide (sgn (((s.x 1).num + 16) % 2 ^ 32) = sgn (s.x 2).num) ∧
    (exec e packA1.body s).bad = (s.bad || (s.x 1).isPtr || out e (s.x 48) 8 8 || (s.x 54).isPtr || out e (s.x 48) 0 8 ||
      out e (s.x 49) 8 8 || (s.x 55).isPtr || out e (s.x 49) 0 8 || out e (s.x 50) 8 8 || (s.x 56).isPtr || out e (s.x 50) 0 8 ||
      out e (s.x 51) 8 8 || (s.x 57).isPtr || out e (s.x 51) 0 8 || false || (s.x 2).isPtr) := by
  cases s
  exact ⟨by keep, rfl, rfl, by intro c hc; interval_cases c <;> rfl, by intro c hc; interval_cases c <;> rfl,
    by intro c hc; interval_cases c <;> rfl, by intro c hc; interval_cases c <;> rfl, rfl, rfl, rfl⟩

theorem q2 (e : Env) (s : St) : Same keep2 s (exec e packA2.body s) ∧
    (exec e packA2.body s).m = store4 s.m (s.x 52) (eorV (joined (s.v 0) (s.x 10)) (s.v 26))
      (eorV (joined (s.v 1) (s.x 11)) (s.v 26)) (eorV (joined (s.v 2) (s.x 12)) (s.v 26))
      (eorV (joined (s.v 3) (s.x 13)) (s.v 26)) ∧
    (exec e packA2.body s).x 1 = .int (((s.x 1).num + 16) % 2 ^ 32) ∧
    (exec e packA2.body s).x 52 = addVal (s.x 52) 64 ∧
    (∀ c, c < 4 → (exec e packA2.body s).x (48 + c) = addVal (s.x (48 + c)) (s.x (54 + c)).num) ∧
    (∀ c, c < 4 → (exec e packA2.body s).v c = lower (bytes s (s.x (48 + c)) 0)) ∧
    (∀ c, c < 4 → (exec e packA2.body s).x (10 + c) = .int (le8 (bytes s (s.x (48 + c)) 8) 0)) ∧
    (∀ c, c < 4 → (exec e packA2.body s).v (28 + c) =
      sumV (s.v (28 + c)) (eorV (joined (s.v c) (s.x (10 + c))) (s.v 26))) ∧
    (exec e packA2.body s).v 26 = s.v 26 ∧
    (exec e packA2.body s).z = decide (sgn (((s.x 1).num + 16) % 2 ^ 32) = sgn (s.x 2).num) ∧
    (exec e packA2.body s).bad = (s.bad || (s.x 1).isPtr || (s.x 10).isPtr || out e (s.x 48) 8 8 ||
      (s.x 11).isPtr || out e (s.x 49) 8 8 || (s.x 12).isPtr || out e (s.x 50) 8 8 || (s.x 13).isPtr || out e (s.x 51) 8 8 ||
      (s.x 54).isPtr || out e (s.x 48) 0 8 || (s.x 55).isPtr || out e (s.x 49) 0 8 || (s.x 56).isPtr || out e (s.x 50) 0 8 ||
      (s.x 57).isPtr || out e (s.x 51) 0 8 || out e (s.x 52) 0 16 || out e (s.x 52) 16 16 || out e (s.x 52) 32 16 ||
      out e (s.x 52) 48 16 || false || (s.x 2).isPtr) := by
  cases s
  exact ⟨by keep, rfl, rfl, rfl, by intro c hc; interval_cases c <;> rfl, by intro c hc; interval_cases c <;> rfl,
    by intro c hc; interval_cases c <;> rfl, by intro c hc; interval_cases c <;> rfl, rfl, rfl, rfl⟩

theorem q3 (e : Env) (s : St) : Same keepQ s (exec e packA3.body s) ∧
    (exec e packA3.body s).m = store4 s.m (s.x 52) (eorV (joined (s.v 0) (s.x 10)) (s.v 26))
      (eorV (joined (s.v 1) (s.x 11)) (s.v 26)) (eorV (joined (s.v 2) (s.x 12)) (s.v 26))
      (eorV (joined (s.v 3) (s.x 13)) (s.v 26)) ∧
    (exec e packA3.body s).x 52 = addVal (s.x 52) 64 ∧
    (∀ c, c < 4 → (exec e packA3.body s).v (28 + c) =
      sumV (s.v (28 + c)) (eorV (joined (s.v c) (s.x (10 + c))) (s.v 26))) ∧
    (exec e packA3.body s).v 26 = s.v 26 ∧
    (exec e packA3.body s).bad = (s.bad || (s.x 10).isPtr || (s.x 11).isPtr || (s.x 12).isPtr || (s.x 13).isPtr ||
      out e (s.x 52) 0 16 || out e (s.x 52) 16 16 || out e (s.x 52) 32 16 || out e (s.x 52) 48 16) := by
  cases s
  exact ⟨by keep, rfl, rfl, by intro c hc; interval_cases c <;> rfl, rfl, rfl⟩

/-- The lower halves are in v0, …, v3, the upper ones in x10, …, x13. -/
structure HeldA (j : PJob) (t : Nat) (s : St) : Prop where
  lo : ∀ c, c < 4 → ∀ b, b < 8 → s.v c b = j.m (j.reg c) (j.pos t c + b)
  hi : ∀ c, c < 4 → ∃ f : Nat → Byte, s.x (10 + c) = .int (le8 f 0) ∧ ∀ b, b < 8 → f b = j.m (j.reg c) (j.pos t c + 8 + b)

theorem numByte_le8 (f : Nat → Byte) {k : Nat} (hk : k < 8) : numByte (le8 f 0) k = f k := by
  apply BitVec.eq_of_toNat_eq
  unfold numByte
  rw [BitVec.toNat_ofNat]
  unfold le8 le4 le2
  have h0 := byte_lt (f 0)
  have h1 := byte_lt (f 1)
  have h2 := byte_lt (f 2)
  have h3 := byte_lt (f 3)
  have h4 := byte_lt (f 4)
  have h5 := byte_lt (f 5)
  have h6 := byte_lt (f 6)
  have h7 := byte_lt (f 7)
  simp only [Nat.zero_add, Nat.reduceAdd]
  interval_cases k <;> norm_num <;> omega

theorem joined_entry {j : PJob} {t : Nat} {p : Nat → Nat} {s : St} (h : At j t p s) (ht : t < j.full) (hh : HeldA j t s) :
    ∀ c, c < 4 → ∀ b, b < 16 → eorV (joined (s.v c) (s.x (10 + c))) (s.v 26) b = j.entry c (16 * t + b) := by
  intro c hc b hb
  unfold eorV joined
  rw [h.x26 b hb, entry_full j c ht hb]
  congr 1
  by_cases h8 : b < 8
  · rw [if_neg (by omega), hh.lo c hc b h8]
  · obtain ⟨f, h1, h2⟩ := hh.hi c hc
    rw [if_pos (by omega), h1]
    show numByte (le8 f 0) _ = _
    rw [numByte_le8 f (by omega), h2 _ (by omega), show j.pos t c + 8 + b % 8 = j.pos t c + b by omega]

theorem held_ptr {j : PJob} {t c : Nat} (hc : c < 4) {s : St} (hh : HeldA j t s) : (s.x (10 + c)).isPtr = false := by
  obtain ⟨f, h1, _⟩ := hh.hi c hc
  rw [h1]; rfl

/-- `Pack8bitColMajorForNeonA55ish`. -/
def a55ish : Variant where
  code := packACode
  len := rfl
  same i hi h := by
    rcases h with rfl | h
    · rfl
    · interval_cases i <;> rfl
  one := packA1
  two := packA2
  three := packA3
  h1 := rfl
  h2 := rfl
  h3 := rfl
  held := HeldA
  first := by
    intro j s hf h hx1 hx2 hn
    obtain ⟨h1, h2, h3, h4, h5, h5', h6, h7, h8, h9⟩ := q1 j.env s
    have hnx : next (exec j.env packA1.body s) packA1.term = bif (exec j.env packA1.body s).z then 3 else 2 := rfl
    generalize exec j.env packA1.body s = s' at *
    rw [hx1] at h3 h8
    rw [hx2] at h8
    change s'.z = decide (sgn (Val.int (16 * 1)).num = sgn (Val.int (16 * j.full)).num) at h8
    rw [count_eq hf (by omega)] at h8
    refine ⟨first_at h h1 h2 h4 h6 h7 ?_, ⟨fun c hc b hb => ?_, fun c hc => ⟨_, h5' c hc, fun b hb => ?_⟩⟩, h3,
      by rw [h1.get (by decide)]; exact hx2, ?_⟩
    · rw [h9, h.ok, hx1, hx2, outs (c := 0) (o := 0) hf (by omega) hn h rfl (by omega),
        outs (c := 1) (o := 0) hf (by omega) hn h rfl (by omega),
        outs (c := 2) (o := 0) hf (by omega) hn h rfl (by omega), outs (c := 3) (o := 0) hf (by omega) hn h rfl (by omega),
        outs (c := 0) (o := 8) hf (by omega) hn h rfl (by omega), outs (c := 1) (o := 8) hf (by omega) hn h rfl (by omega),
        outs (c := 2) (o := 8) hf (by omega) hn h rfl (by omega), outs (c := 3) (o := 8) hf (by omega) hn h rfl (by omega),
        incs (c := 0) (by omega) h, incs (c := 1) (by omega) h, incs (c := 2) (by omega) h, incs (c := 3) (by omega) h]
      rfl
    · rw [h5 c hc]
      unfold lower
      rw [if_pos hb, src_byte hf hc h.mem (h.src c hc)]; rfl
    · rw [src_byte hf hc h.mem (h.src c hc)]
    · rw [hnx]; exact next_of h8
  loop := by
    intro j t s hf h hh hx1 hx2 hn
    obtain ⟨h1, h2, h3, h4, h5, h6, h6', h7, h8, h9, h10⟩ := q2 j.env s
    have hnx : next (exec j.env packA2.body s) packA2.term = bif !(exec j.env packA2.body s).z then 2 else 3 := rfl
    generalize exec j.env packA2.body s = s' at *
    rw [hx1] at h3 h9
    rw [hx2] at h9
    have hr := hf.rows
    have e : (16 * (t + 1) + 16) % 2 ^ 32 = 16 * (t + 2) := by unfold full at hn; omega
    change s'.x 1 = .int ((16 * (t + 1) + 16) % 2 ^ 32) at h3
    change s'.z = decide (sgn ((16 * (t + 1) + 16) % 2 ^ 32) = sgn (Val.int (16 * j.full)).num) at h9
    rw [e] at h3 h9
    have h9' := h9.trans (count_eq hf (t := t + 2) (by omega))
    have hc' : t < j.chunks := full_lt j (by omega)
    refine ⟨loop_at (x := fun c => eorV (joined (s.v c) (s.x (10 + c))) (s.v 26)) h (joined_entry h (by omega) hh) h1 h2 h4 h5 h7
      h8 ?_, ⟨fun c hc b hb => ?_, fun c hc => ⟨_, h6' c hc, fun b hb => ?_⟩⟩, h3, by rw [h1.get (by decide)]; exact hx2, ?_⟩
    · rw [h10, h.ok, hx1, hx2, outs (c := 0) (o := 0) hf (by omega) hn h rfl (by omega),
        outs (c := 1) (o := 0) hf (by omega) hn h rfl (by omega),
        outs (c := 2) (o := 0) hf (by omega) hn h rfl (by omega), outs (c := 3) (o := 0) hf (by omega) hn h rfl (by omega),
        outs (c := 0) (o := 8) hf (by omega) hn h rfl (by omega), outs (c := 1) (o := 8) hf (by omega) hn h rfl (by omega),
        outs (c := 2) (o := 8) hf (by omega) hn h rfl (by omega), outs (c := 3) (o := 8) hf (by omega) hn h rfl (by omega),
        incs (c := 0) (by omega) h, incs (c := 1) (by omega) h, incs (c := 2) (by omega) h, incs (c := 3) (by omega) h,
        held_ptr (c := 0) (by omega) hh, held_ptr (c := 1) (by omega) hh, held_ptr (c := 2) (by omega) hh,
        held_ptr (c := 3) (by omega) hh,
        outp hf hc' h (by omega), outp hf hc' h (by omega), outp hf hc' h (by omega), outp hf hc' h (by omega)]
      rfl
    · rw [h6 c hc]
      unfold lower
      rw [if_pos hb, src_byte hf hc h.mem (h.src c hc)]; rfl
    · rw [src_byte hf hc h.mem (h.src c hc)]
    · rw [hnx]; exact next_ne h9'
  last := by
    intro j t s hf h hh hn
    obtain ⟨k1, k2, k3, k4, k5, k6⟩ := q3 j.env s
    have hc' : t < j.chunks := full_lt j (by omega)
    refine ⟨?_, rfl⟩
    generalize exec j.env packA3.body s = s' at *
    have hp := hf.packed
    have hl := joined_entry h (by omega) hh
    refine ⟨fun c hc => ?_, ?_, ?_, fun c hc => ?_, ?_, ?_, ?_, fun c hc i hi => ?_, fun b hb => ?_, ?_⟩
    · rw [k1.get (by interval_cases c <;> decide)]; exact h.src c hc
    · rw [k3, h.packed]
      show Val.ptr _ _ = _
      rw [show j.packedBase + 64 * t + 64 = j.packedBase + 64 * (t + 1) by ring]
    · rw [k1.get (by decide)]; exact h.sums
    · rw [k1.get (by interval_cases c <;> decide)]; exact h.inc c hc
    · rw [k1.get (by decide)]; exact h.rows
    · rw [k1.get (by decide)]; exact h.zp
    · rw [k2, h.mem, h.packed]
      exact stored_succ (x := fun c => eorV (joined (s.v c) (s.x (10 + c))) (s.v 26)) hl
    · rw [k4 c hc]
      exact acc_succ hi (hl c hc) (h.acc c hc i hi)
    · rw [k5]; exact h.x26 b hb
    · rw [k6, h.ok, held_ptr (c := 0) (by omega) hh, held_ptr (c := 1) (by omega) hh, held_ptr (c := 2) (by omega) hh,
        held_ptr (c := 3) (by omega) hh,
        outp hf hc' h (by omega), outp hf hc' h (by omega), outp hf hc' h (by omega), outp hf hc' h (by omega)]
      rfl

end PJob
end Ruy.Neon

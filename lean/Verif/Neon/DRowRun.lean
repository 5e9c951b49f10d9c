import Verif.Neon.DRowAsm
import Verif.Neon.DPackRun
/-
`Pack8bitRowMajorForNeonDotprod` as a whole.
-/
namespace Ruy.Neon.RJob
open Simd (wrap8 wrap16 wrap32)
open DPack (dotV ones_getB wrap_of_mod)
open PJob (u32_byte nat_byte beq_zero)

/-! ### Memory -/

theorem st4_packed (M : Region → Nat → Byte) (B S : Nat) (q0 q1 d0 d1 : Vec) (o : Nat) :
    st4 M (.ptr .packed B) (.ptr .sums S) (.ptr .sums (S + 16)) q0 q1 d0 d1 .packed o =
      if B + 16 ≤ o ∧ o < B + 32 then q1 (o - (B + 16)) else if B ≤ o ∧ o < B + 16 then q0 (o - B) else M .packed o := by
  unfold st4 wr
  simp only [Val.region, Val.off, true_and, reduceCtorEq, false_and, if_false, Nat.add_zero]

theorem st4_sums (M : Region → Nat → Byte) (B S : Nat) (q0 q1 d0 d1 : Vec) (o : Nat) :
    st4 M (.ptr .packed B) (.ptr .sums S) (.ptr .sums (S + 16)) q0 q1 d0 d1 .sums o =
      if S + 16 ≤ o ∧ o < S + 32 then d1 (o - (S + 16)) else if S ≤ o ∧ o < S + 16 then d0 (o - S) else M .sums o := by
  unfold st4 wr
  simp only [Val.region, Val.off, true_and, reduceCtorEq, false_and, if_false, Nat.add_zero]

theorem st4_other (M : Region → Nat → Byte) (B S : Nat) (q0 q1 d0 d1 : Vec) {g : Region} (h1 : g ≠ .packed) (h2 : g ≠ .sums) :
    st4 M (.ptr .packed B) (.ptr .sums S) (.ptr .sums (S + 16)) q0 q1 d0 d1 g = M g := by
  funext o
  unfold st4 wr
  simp only [Val.region, h1, h2, false_and, if_false]

theorem place_lt {j : RJob} (hs : 4 ≤ j.stride) {r c n : Nat} (hr : r < 4) (hc : c < 8 * n) :
    j.place r c < j.packedBase + 8 * j.stride * n := by
  unfold place
  have h : 8 * j.stride * (c / 8 + 1) ≤ 8 * j.stride * n := Nat.mul_le_mul_left _ (by omega)
  rw [mul_add] at h
  omega

theorem place_of {j : RJob} {r c n : Nat} (h1 : 8 * n ≤ c) (h2 : c < 8 * (n + 1)) :
    j.place r c = j.packedBase + 8 * j.stride * n + 4 * (c - 8 * n) + r := by
  unfold place
  rw [show c / 8 = n by omega]
  omega

theorem sum_addr (S c b n : Nat) (h : 8 * n ≤ c) : S + 4 * c + b = S + 32 * n + (4 * (c - 8 * n) + b) := by omega

theorem done_block {j : RJob} (hs : 4 ≤ j.stride) {n : Nat} {M : Region → Nat → Byte} (h : j.Done n M) {q d : Nat → Vec}
    (hq : ∀ h, h < 2 → ∀ b, b < 16 → q h b = j.entry (b % 4) (8 * n + 4 * h + b / 4))
    (hd : ∀ h, h < 2 → ∀ b, b < 16 → d h b = byteOf (j.colSum (8 * n + 4 * h + b / 4)) (b % 4)) :
    j.Done (n + 1) (st4 M (.ptr .packed (j.packedBase + 8 * j.stride * n)) (.ptr .sums (j.sumsBase + 32 * n))
      (.ptr .sums (j.sumsBase + 32 * n + 16)) (q 0) (q 1) (d 0) (d 1)) := by
  refine ⟨fun r hr c hc => ?_, fun c hc b hb => ?_, fun o ho => ?_, fun o ho => ?_, fun g h1 h2 => ?_⟩
  · rw [st4_packed]
    by_cases h1 : c < 8 * n
    · have := place_lt hs hr h1
      rw [if_neg (by omega), if_neg (by omega)]
      exact h.entry r hr c h1
    · rw [place_of (by omega) hc]
      generalize j.packedBase + 8 * j.stride * n = B
      by_cases h2 : c < 8 * n + 4
      · rw [if_neg (by omega), if_pos (by omega), hq 0 (by omega) _ (by omega)]
        congr 1 <;> omega
      · rw [if_pos (by omega), hq 1 (by omega) _ (by omega)]
        congr 1 <;> omega
  · rw [st4_sums]
    by_cases h1 : c < 8 * n
    · rw [if_neg (by omega), if_neg (by omega)]
      exact h.sum c h1 b hb
    · rw [sum_addr _ _ _ n (by omega)]
      by_cases h2 : c < 8 * n + 4
      · rw [if_neg (by omega), if_pos (by omega), hd 0 (by omega) _ (by omega)]
        congr 2 <;> omega
      · rw [if_pos (by omega), hd 1 (by omega) _ (by omega)]
        congr 2 <;> omega
  · rw [st4_packed]
    have h1 : ¬(j.packedBase + 8 * j.stride * n ≤ o ∧ o < j.packedBase + 8 * j.stride * n + 32) := by
      intro hh
      refine ho ((o - (j.packedBase + 8 * j.stride * n)) % 4) (by omega)
        (8 * n + (o - (j.packedBase + 8 * j.stride * n)) / 4) (by omega) ?_
      rw [place_of (n := n) (by omega) (by omega)]
      omega
    rw [if_neg (by omega), if_neg (by omega)]
    exact h.restPacked o (fun r hr c hc => ho r hr c (by omega))
  · rw [st4_sums, if_neg (by omega), if_neg (by omega)]
    exact h.restSums o (by omega)
  · rw [st4_other _ _ _ _ _ _ _ h1 h2]
    exact h.rest g h1 h2

/-! ### Values -/

theorem byteOf_congr {a b : Int} (h : a % 4294967296 = b % 4294967296) {k : Nat} (hk : k < 4) : byteOf a k = byteOf b k := by
  unfold byteOf
  apply BitVec.eq_of_toNat_eq
  rw [BitVec.toNat_ofInt, BitVec.toNat_ofInt]
  interval_cases k <;> norm_num <;> omega

/-- The vectors that are stored, when `x` holds block `n`. -/
theorem zq_entry {j : RJob} {n : Nat} {x : Nat → Vec} {f : Vec} (hf : ∀ b, b < 16 → f b = BitVec.ofNat 8 j.xor)
    (hx : ∀ r, r < 4 → ∀ b, b < 8 → x r b = if 8 * n + b < j.cols then j.raw r (8 * n + b) else BitVec.ofInt 8 j.zp)
    {h : Nat} (hh : h < 2) {b : Nat} (hb : b < 16) : zq x f h b = j.entry (b % 4) (8 * n + 4 * h + b / 4) := by
  rw [zq_eq x f hh hb, hx _ (by omega) _ (by omega), hf b hb]
  unfold entry
  rw [add_assoc]

theorem dotV_sum {j : RJob} {n : Nat} {q f d : Vec} {h : Nat}
    (hf : ∀ b, b < 16 → f b = 1) (hq : ∀ b, b < 16 → q b = j.entry (b % 4) (8 * n + 4 * h + b / 4))
    (hd : ∀ b, b < 16 → d b = j.m .sums (j.sumsBase + 32 * n + 16 * h + b)) {b : Nat} (hb : b < 16) :
    dotV d q f b = byteOf (j.colSum (8 * n + 4 * h + b / 4)) (b % 4) := by
  have e : dotV d q f b = byteOf (getS d (b / 4) +
    (getB q (4 * (b / 4)) * getB f (4 * (b / 4)) + getB q (4 * (b / 4) + 1) * getB f (4 * (b / 4) + 1) +
      getB q (4 * (b / 4) + 2) * getB f (4 * (b / 4) + 2) + getB q (4 * (b / 4) + 3) * getB f (4 * (b / 4) + 3))) (b % 4) := rfl
  rw [e, ones_getB hf (by omega), ones_getB hf (by omega), ones_getB hf (by omega), ones_getB hf (by omega)]
  refine congrArg (byteOf · (b % 4)) ?_
  unfold colSum old
  rw [Finset.sum_range_succ, Finset.sum_range_succ, Finset.sum_range_succ, Finset.sum_range_succ, Finset.sum_range_zero]
  have o : getS d (b / 4) = getS (fun k => j.m .sums (j.sumsBase + 4 * (8 * n + 4 * h + b / 4) + k)) 0 := by
    unfold getS le4 le2
    rw [hd _ (by omega), hd _ (by omega), hd _ (by omega), hd _ (by omega)]
    rw [show j.sumsBase + 4 * (8 * n + 4 * h + b / 4) = j.sumsBase + 32 * n + 16 * h + 4 * (b / 4) by ring]
    simp only [add_assoc, mul_zero, zero_add, Nat.add_zero]
  rw [o]
  unfold getB
  rw [hq _ (by omega), hq _ (by omega), hq _ (by omega), hq _ (by omega)]
  rw [show (4 * (b / 4)) / 4 = b / 4 by omega, show (4 * (b / 4) + 1) / 4 = b / 4 by omega, show (4 * (b / 4) + 2) / 4 = b / 4 by omega,
    show (4 * (b / 4) + 3) / 4 = b / 4 by omega, show (4 * (b / 4)) % 4 = 0 by omega, show (4 * (b / 4) + 1) % 4 = 1 by omega,
    show (4 * (b / 4) + 2) % 4 = 2 by omega, show (4 * (b / 4) + 3) % 4 = 3 by omega]
  ring

/-! ### The loop -/

/-- `n` blocks are stored. -/
structure At (j : RJob) (n : Nat) (s : St) : Prop where
  packed : s.x 52 = .ptr .packed (j.packedBase + 8 * j.stride * n)
  sums : s.x 53 = .ptr .sums (j.sumsBase + 32 * n)
  inc : ∀ r, r < 4 → s.x (54 + r) = .int (j.inc r)
  zp : s.x 59 = .int (Job.u32 j.zp)
  stride : s.x 61 = .int j.stride
  done : j.Done n s.m
  x26 : ∀ b, b < 16 → s.v 26 b = BitVec.ofNat 8 j.xor
  x27 : ∀ b, b < 16 → s.v 27 b = 1
  ok : s.bad = false

theorem At.blk {j : RJob} (hs : 4 ≤ j.stride) {n : Nat} {s s' : St} (h : At j n s) {x : Nat → Vec}
    (hx : ∀ r, r < 4 → ∀ b, b < 8 → x r b = if 8 * n + b < j.cols then j.raw r (8 * n + b) else BitVec.ofInt 8 j.zp)
    (hb : Blk x (s.x 53) s s') : j.Done (n + 1) s'.m := by
  rw [hb.m, h.packed, h.sums]
  refine done_block hs h.done (q := fun i => zq x (s.v 26) i) (d := fun i => if i = 0 then
    dotV (bytes s (.ptr .sums (j.sumsBase + 32 * n)) 0) (zq x (s.v 26) 0) (s.v 27) else
    dotV (bytes s (.ptr .sums (j.sumsBase + 32 * n + 0)) 16) (zq x (s.v 26) 1) (s.v 27))
    (fun i hi b hb => zq_entry h.x26 hx hi hb) (fun i hi b hb => ?_)
  rcases (show i = 0 ∨ i = 1 by omega) with rfl | rfl
  · rw [if_pos rfl]
    refine dotV_sum h.x27 (fun b hb => zq_entry h.x26 hx hi hb) (fun b hb => ?_) hb
    show s.m .sums (j.sumsBase + 32 * n + 0 + b) = _
    exact h.done.restSums _ (by omega)
  · rw [if_neg (by omega)]
    refine dotV_sum h.x27 (fun b hb => zq_entry h.x26 hx hi hb) (fun b hb => ?_) hb
    show s.m .sums (j.sumsBase + 32 * n + 0 + 16 + b) = _
    exact h.done.restSums _ (by omega)

/-- The addresses of block `n`. -/
def SrcAt (j : RJob) (n k : Nat) (s : St) : Prop := ∀ r, r < 4 → s.x (48 + r) = .ptr (j.reg r) (j.off r + j.inc r * n + k)

theorem out_no {e : Env} {r : Region} {o a n : Nat} (h : o + a + n ≤ e.size r) : out e (.ptr r o) a n = false := by
  unfold out
  have : Nat.blt (e.size r) (o + a + n) = false := by
    rw [Bool.eq_false_iff]; intro hh; rw [Nat.blt_eq] at hh; omega
  show (!true || Nat.blt (e.size r) (o + a + n)) = false
  rw [this]; rfl

theorem blt_yes {a b : Nat} (h : a < b) : Nat.blt a b = true := by rw [Nat.blt_eq]; exact h

theorem raw_at {j : RJob} (hf : Fits j) {n : Nat} {s : St} (h : At j n s) {r b : Nat} (hr : r < 4) (hb : b < 8) :
    s.m (j.reg r) (j.off r + j.inc r * n + b) = j.raw r (8 * n + b) := by
  rw [h.done.rest _ (hf.reg r hr).1 (hf.reg r hr).2]
  unfold raw
  rw [show (8 * n + b) / 8 = n by omega, show (8 * n + b) % 8 = b by omega]

/-- The sizes for block `n`. -/
theorem room {j : RJob} (hf : Fits j) {n : Nat} (hn : 8 * n < j.cols) :
    j.packedBase + 8 * j.stride * n + 32 ≤ j.size .packed ∧ j.sumsBase + 32 * n + 32 ≤ j.size .sums := by
  have hb : n < j.blocks := by unfold blocks; omega
  have h2 := hf.sums
  exact ⟨hf.packed n hb, by omega⟩

theorem inc_ok {j : RJob} (hf : Fits j) {r : Nat} (hr : r < 4) : (!Nat.blt (j.inc r % 4294967296) 2147483648) = false := by
  have := hf.inc r hr
  rw [blt_yes (by omega)]
  rfl

theorem block_full {j : RJob} (hf : Fits j) {n : Nat} {s : St} (h : At j n s) (hs : SrcAt j n 0 s)
    (hn : 8 * n + 8 ≤ j.cols) (hx : s.x 0 = .int (j.cols - 8 * n - 8)) :
    ∃ s', Reach j.env drowCode (1, s) (if j.cols < 8 * n + 16 then 2 else 1, s') ∧ At j (n + 1) s' ∧ SrcAt j (n + 1) 0 s' ∧
      s'.x 0 = .int ((j.cols + 4294967296 - 8 * n - 16) % 4294967296) := by
  have hc := hf.cols
  obtain ⟨h1, h2, h3, h4, h5, h6, h7, h8, h9, h10⟩ := p1 j.env s
  have rr : ∀ l, (bif !(exec j.env drow1.body s).lt then 1 else 2) = l → Reach j.env drowCode (1, s) (l, exec j.env drow1.body s) :=
    fun l hl => Reach.block (b := drow1) rfl hl
  generalize exec j.env drow1.body s = s1 at *
  obtain ⟨r1, r2⟩ := room hf (n := n) (by omega)
  have hin : ∀ r, r < 4 → out j.env (s.x (48 + r)) 0 8 = false := by
    intro r hr
    rw [hs r hr]
    refine out_no ?_
    have := hf.src r hr (8 * n + 7) (by omega)
    rw [show (8 * n + 7) / 8 = n by omega, show (8 * n + 7) % 8 = 7 by omega] at this
    show _ ≤ j.size (j.reg r)
    omega
  have hd : j.Done (n + 1) s1.m := by
    refine h.blk hf.stride (fun r hr b hb => ?_) h2
    rw [if_pos (by omega), ← raw_at hf h hr hb]
    show lower (bytes s (s.x (48 + r)) 0) b = _
    rw [hs r hr]
    unfold lower
    rw [if_pos hb]
    rfl
  refine ⟨s1, rr _ ?_, ⟨?_, ?_, fun r hr => ?_, ?_, ?_, hd, ?_, ?_, ?_⟩, fun r hr => ?_, ?_⟩
  · rw [h7, hx]
    show (bif !(decide (sgn (j.cols - 8 * n - 8) < sgn 8)) then 1 else 2) = _
    rw [sgn_of (by omega), sgn_of (by norm_num)]
    by_cases hlt : j.cols < 8 * n + 16
    · rw [if_pos hlt, decide_eq_true (by omega)]; rfl
    · rw [if_neg hlt, decide_eq_false (by omega)]; rfl
  · rw [h4, h.packed, h.stride]
    show Val.ptr _ _ = _
    congr 1
    show j.packedBase + 8 * j.stride * n + j.stride * 2 ^ 3 = _
    ring
  · rw [h5, h.sums]; rfl
  · rw [h1.get (by interval_cases r <;> decide)]; exact h.inc r hr
  · rw [h1.get (by decide)]; exact h.zp
  · rw [h1.get (by decide)]; exact h.stride
  · rw [h8]; exact h.x26
  · rw [h9]; exact h.x27
  · rw [h10, h.ok, hin 0 (by omega), hin 1 (by omega), hin 2 (by omega), hin 3 (by omega), h.sums, h.packed, hx, h.stride,
      show s.x 54 = _ from h.inc 0 (by omega), show s.x 55 = _ from h.inc 1 (by omega), show s.x 56 = _ from h.inc 2 (by omega),
      show s.x 57 = _ from h.inc 3 (by omega)]
    dsimp only [addVal, Val.isPtr, Val.num]
    rw [inc_ok hf (by omega), inc_ok hf (by omega), inc_ok hf (by omega), inc_ok hf (by omega)]
    rw [out_no (show j.sumsBase + 32 * n + 0 + 16 ≤ j.env.size .sums from by show _ ≤ j.size _; omega),
      out_no (show j.sumsBase + 32 * n + 0 + 16 + 16 ≤ j.env.size .sums from by show _ ≤ j.size _; omega),
      out_no (show j.packedBase + 8 * j.stride * n + 0 + 16 ≤ j.env.size .packed from by show _ ≤ j.size _; omega),
      out_no (show j.packedBase + 8 * j.stride * n + 16 + 16 ≤ j.env.size .packed from by show _ ≤ j.size _; omega),
      out_no (show j.sumsBase + 32 * n + 0 + 0 + 0 + 16 ≤ j.env.size .sums from by show _ ≤ j.size _; omega),
      out_no (show j.sumsBase + 32 * n + 0 + 0 + 16 + 0 + 16 ≤ j.env.size .sums from by show _ ≤ j.size _; omega)]
    rfl
  · have := hf.inc r hr
    rw [h3 r hr, hs r hr, h.inc r hr]
    show Val.ptr _ _ = _
    congr 1
    show j.off r + j.inc r * n + 0 + 0 + j.inc r % 4294967296 = _
    rw [Nat.mod_eq_of_lt (by omega)]
    ring
  · rw [h6, hx]
    show Val.int ((j.cols - 8 * n - 8 + 4294967296 - 8) % 4294967296) = _
    exact congrArg Val.int (by omega)

/-- All full blocks, from the first one on. -/
theorem full_blocks {j : RJob} (hf : Fits j) : ∀ (k n : Nat) {s : St}, j.cols / 8 = n + k + 1 → At j n s → SrcAt j n 0 s →
    s.x 0 = .int (j.cols - 8 * n - 8) → ∃ s', Reach j.env drowCode (1, s) (2, s') ∧ At j (j.cols / 8) s' ∧
      SrcAt j (j.cols / 8) 0 s' ∧ s'.x 0 = .int ((j.cols % 8 + 4294967296 - 8) % 4294967296) := by
  intro k
  induction k with
  | zero =>
    intro n s hk h hs hx
    obtain ⟨s1, r1, a1, b1, x1⟩ := block_full hf h hs (by omega) hx
    rw [if_pos (by omega)] at r1
    have e : n + 1 = j.cols / 8 := by omega
    rw [e] at a1 b1
    exact ⟨s1, r1, a1, b1, by rw [x1]; exact congrArg Val.int (by omega)⟩
  | succ k ih =>
    intro n s hk h hs hx
    obtain ⟨s1, r1, a1, b1, x1⟩ := block_full hf h hs (by omega) hx
    rw [if_neg (by omega)] at r1
    have hc := hf.cols
    obtain ⟨s2, r2, h2⟩ := ih (n + 1) (by omega) a1 b1 (by rw [x1]; exact congrArg Val.int (by omega))
    exact ⟨s2, r1.trans r2, h2⟩

/-- Only registers that do not matter have changed. -/
theorem At.of {j : RJob} {n : Nat} {s s' : St} (h : At j n s) (h1 : Same (52 :: 53 :: keepR) s s')
    (h2 : s'.m = s.m) (h4 : s'.v 26 = s.v 26) (h5 : s'.v 27 = s.v 27) (h7 : s'.bad = false) : At j n s' := by
  refine ⟨?_, ?_, fun r hr => ?_, ?_, ?_, ?_, ?_, ?_, h7⟩
  · rw [h1.get (by decide)]; exact h.packed
  · rw [h1.get (by decide)]; exact h.sums
  · rw [h1.get (by interval_cases r <;> decide)]; exact h.inc r hr
  · rw [h1.get (by decide)]; exact h.zp
  · rw [h1.get (by decide)]; exact h.stride
  · rw [h2]; exact h.done
  · rw [h4]; exact h.x26
  · rw [h5]; exact h.x27

/-! ### The remaining columns -/

/-- `i` columns of the last block are loaded. -/
structure Left (j : RJob) (i : Nat) (s : St) : Prop where
  at_ : At j (j.cols / 8) s
  src : SrcAt j (j.cols / 8) i s
  x : s.x 0 = .int (j.cols % 8)
  v : ∀ r, r < 4 → ∀ b, b < 8 → s.v r b = if b < i then j.raw r (8 * (j.cols / 8) + b) else BitVec.ofInt 8 j.zp

theorem left_in {j : RJob} (hf : Fits j) {i : Nat} {s : St} (h : Left j i s) (hi : i < j.cols % 8) {r : Nat} (hr : r < 4) :
    out j.env (s.x (48 + r)) 0 1 = false := by
  rw [h.src r hr]
  refine out_no ?_
  have := hf.src r hr (8 * (j.cols / 8) + i) (by omega)
  rw [show (8 * (j.cols / 8) + i) / 8 = j.cols / 8 by omega, show (8 * (j.cols / 8) + i) % 8 = i by omega] at this
  show _ ≤ j.size (j.reg r)
  omega

theorem Lane.left {j : RJob} (hf : Fits j) {i : Nat} {s s' : St} (h : Left j i s) (hi : i < j.cols % 8)
    (hl : Lane j.env i s s') (hb : s'.bad = false) : Left j (i + 1) s' := by
  refine ⟨h.at_.of (hl.same.sub (by decide)) hl.m hl.v26 hl.v27 hb, fun r hr => ?_, ?_, fun r hr b hb => ?_⟩
  · rw [hl.src r hr, h.src r hr]; rfl
  · rw [hl.same.get (by decide)]; exact h.x
  · rw [hl.v r hr]
    show (bif Nat.beq b i then s.m (s.x (48 + r)).region (s.x (48 + r)).off else s.v r b) = _
    rw [h.src r hr]
    show (bif Nat.beq b i then s.m (j.reg r) (j.off r + j.inc r * (j.cols / 8) + i) else s.v r b) = _
    by_cases hbi : b = i
    · subst hbi
      rw [show Nat.beq b b = true from Nat.beq_refl b, if_pos (by omega), raw_at hf h.at_ hr hb]
      rfl
    · rw [PJob.beq_ne hbi, h.v r hr b hb]
      show (if b < i then _ else _) = _
      by_cases h1 : b < i
      · rw [if_pos h1, if_pos (by omega)]
      · rw [if_neg h1, if_neg (by omega)]

theorem lane_block {i : Nat} (hi : i < 6) : drowCode[4 + i]? = some ⟨laneL i ++ [.cmpI 0 (i + 1)], .br .eq 11 (5 + i)⟩ := by
  interval_cases i <;> rfl

theorem left_loop {j : RJob} (hf : Fits j) : ∀ (k i : Nat) {s : St}, i + k + 1 = j.cols % 8 → Left j i s →
    ∃ s', Reach j.env drowCode (4 + i, s) (11, s') ∧ Left j (j.cols % 8) s' := by
  intro k
  induction k with
  | zero =>
    intro i s hk h
    by_cases h6 : i = 6
    · subst h6
      obtain ⟨a1, a2⟩ := pLast j.env s
      have rr : Reach j.env drowCode (10, s) (11, exec j.env (laneL 6) s) := Reach.block (b := drow10) rfl rfl
      generalize exec j.env (laneL 6) s = s1 at *
      refine ⟨s1, rr, ?_⟩
      rw [← hk]
      exact a1.left hf h (by omega) (by rw [a2, h.at_.ok, left_in hf h (by omega) (r := 0) (by omega),
        left_in hf h (by omega) (r := 1) (by omega), left_in hf h (by omega) (r := 2) (by omega), left_in hf h (by omega) (r := 3) (by omega)]; rfl)
    · obtain ⟨a1, a2, a3⟩ := pLane j.env i s
      have rr : ∀ l, (bif (exec j.env (laneL i ++ [.cmpI 0 (i + 1)]) s).z then 11 else 5 + i) = l →
        Reach j.env drowCode (4 + i, s) (l, exec j.env (laneL i ++ [.cmpI 0 (i + 1)]) s) :=
        fun l hl => Reach.block (lane_block (by omega)) hl
      generalize exec j.env (laneL i ++ [.cmpI 0 (i + 1)]) s = s1 at *
      refine ⟨s1, rr _ ?_, ?_⟩
      · rw [a2, h.x]
        show (bif decide (sgn (j.cols % 8) = sgn (i + 1)) then 11 else 5 + i) = _
        rw [← hk, decide_eq_true rfl]
        rfl
      · rw [← hk]
        exact a1.left hf h (by omega) (by rw [a3, h.at_.ok, h.x, left_in hf h (by omega) (r := 0) (by omega),
          left_in hf h (by omega) (r := 1) (by omega), left_in hf h (by omega) (r := 2) (by omega), left_in hf h (by omega) (r := 3) (by omega)]; rfl)
  | succ k ih =>
    intro i s hk h
    obtain ⟨a1, a2, a3⟩ := pLane j.env i s
    have rr : ∀ l, (bif (exec j.env (laneL i ++ [.cmpI 0 (i + 1)]) s).z then 11 else 5 + i) = l →
      Reach j.env drowCode (4 + i, s) (l, exec j.env (laneL i ++ [.cmpI 0 (i + 1)]) s) :=
      fun l hl => Reach.block (lane_block (by omega)) hl
    generalize exec j.env (laneL i ++ [.cmpI 0 (i + 1)]) s = s1 at *
    have hl : Left j (i + 1) s1 := a1.left hf h (by omega) (by rw [a3, h.at_.ok, h.x, left_in hf h (by omega) (r := 0) (by omega),
          left_in hf h (by omega) (r := 1) (by omega), left_in hf h (by omega) (r := 2) (by omega), left_in hf h (by omega) (r := 3) (by omega)]; rfl)
    obtain ⟨s2, r2, h2⟩ := ih (i + 1) (by omega) hl
    refine ⟨s2, (rr (4 + (i + 1)) ?_).trans r2, h2⟩
    rw [a2, h.x]
    show (bif decide (sgn (j.cols % 8) = sgn (i + 1)) then 11 else 5 + i) = _
    rw [sgn_of (by omega), sgn_of (by omega), decide_eq_false (by omega)]
    show 5 + i = _
    omega

theorem back {c : Nat} (h : c < 8) : ((c + 4294967296 - 8) % 4294967296 + 8) % 4294967296 = c := by omega

theorem tail2 {j : RJob} {s : St} {a : Nat} (h : At j (j.cols / 8) s) (hs : SrcAt j (j.cols / 8) 0 s)
    (hx : s.x 0 = .int a) (ha : (a + 8) % 4294967296 = j.cols % 8) :
    ∃ s', Reach j.env drowCode (2, s) (if j.cols % 8 = 0 then 12 else 3, s') ∧ At j (j.cols / 8) s' ∧
      SrcAt j (j.cols / 8) 0 s' ∧ s'.x 0 = .int (j.cols % 8) := by
  obtain ⟨h1, h2, h3, h4, h5, h6⟩ := p2 j.env s
  have rr : ∀ l, (bif (exec j.env drow2.body s).z then 12 else 3) = l → Reach j.env drowCode (2, s) (l, exec j.env drow2.body s) :=
    fun l hl => Reach.block (b := drow2) rfl hl
  generalize exec j.env drow2.body s = s1 at *
  rw [hx] at h4 h5 h6
  dsimp only [Val.num] at h4 h5
  rw [ha] at h4 h5
  rw [beq_zero] at h5
  refine ⟨s1, rr _ ?_, h.of (h1.sub (by decide)) h2 (by rw [h3]) (by rw [h3]) (by rw [h6, h.ok]; rfl),
    fun r hr => by rw [h1.get (by interval_cases r <;> decide)]; exact hs r hr, h4⟩
  rw [h5]
  by_cases h0 : j.cols % 8 = 0
  · rw [decide_eq_true h0, if_pos h0]; rfl
  · rw [decide_eq_false h0, if_neg h0]; rfl

theorem tail3 {j : RJob} {s : St} (h : At j (j.cols / 8) s) (hs : SrcAt j (j.cols / 8) 0 s)
    (hx : s.x 0 = .int (j.cols % 8)) (h0 : j.cols % 8 ≠ 0) :
    ∃ s', Reach j.env drowCode (3, s) (4, s') ∧ Left j 0 s' := by
  obtain ⟨h1, h2, h3, h5, h6, h7, h8⟩ := p3 j.env s
  have rr : ∀ l, (bif (exec j.env drow3.body s).z then 11 else 4) = l → Reach j.env drowCode (3, s) (l, exec j.env drow3.body s) :=
    fun l hl => Reach.block (b := drow3) rfl hl
  generalize exec j.env drow3.body s = s2 at *
  refine ⟨s2, rr _ ?_, h.of (h1.sub (by decide)) h2 h5 h6 (by rw [h8, h.ok, h.zp, hx]; rfl),
      fun r hr => by rw [h1.get (by interval_cases r <;> decide)]; exact hs r hr, by rw [h1.get (by decide)]; exact hx,
      fun r hr b hb => ?_⟩
  · rw [h7, hx]
    show (bif decide (sgn (j.cols % 8) = sgn 0) then 11 else 4) = _
    rw [sgn_of (by omega), sgn_of (by norm_num), decide_eq_false (by omega)]
    rfl
  · rw [h3 r hr, h.zp, if_neg (by omega)]
    unfold lower
    rw [if_pos hb]
    exact u32_byte j.zp

theorem tail4 {j : RJob} (hf : Fits j) {s : St} (h : Left j (j.cols % 8) s) (h0 : j.cols % 8 ≠ 0) :
    ∃ s', Reach j.env drowCode (11, s) (12, s') ∧ Result j s' := by
  obtain ⟨h9, h10⟩ := p11 j.env s
  have r4 : Reach j.env drowCode (11, s) (12, exec j.env drow11.body s) := Reach.block (b := drow11) rfl rfl
  generalize exec j.env drow11.body s = s4 at *
  refine ⟨s4, r4, ?_, ?_⟩
  · obtain ⟨q1, q2⟩ := room hf (n := j.cols / 8) (by omega)
    rw [h10, h.at_.ok, h.at_.sums, h.at_.packed]
    dsimp only [addVal, Val.isPtr, Val.num]
    rw [out_no (show j.sumsBase + 32 * (j.cols / 8) + 0 + 16 ≤ j.env.size .sums from by show _ ≤ j.size _; omega),
      out_no (show j.sumsBase + 32 * (j.cols / 8) + 0 + 16 + 16 ≤ j.env.size .sums from by show _ ≤ j.size _; omega),
      out_no (show j.packedBase + 8 * j.stride * (j.cols / 8) + 0 + 16 ≤ j.env.size .packed from by show _ ≤ j.size _; omega),
      out_no (show j.packedBase + 8 * j.stride * (j.cols / 8) + 16 + 16 ≤ j.env.size .packed from by show _ ≤ j.size _; omega),
      out_no (show j.sumsBase + 32 * (j.cols / 8) + 0 + 0 + 0 + 16 ≤ j.env.size .sums from by show _ ≤ j.size _; omega),
      out_no (show j.sumsBase + 32 * (j.cols / 8) + 0 + 0 + 16 + 0 + 16 ≤ j.env.size .sums from by show _ ≤ j.size _; omega)]
    rfl
  · unfold blocks
    rw [show (j.cols + 7) / 8 = j.cols / 8 + 1 by omega]
    refine h.at_.blk hf.stride (fun r hr b hb => ?_) h9
    rw [h.v r hr b hb]
    by_cases hlt : b < j.cols % 8
    · rw [if_pos hlt, if_pos (by omega)]
    · rw [if_neg hlt, if_neg (by omega)]

/-- From label 2 to the end. -/
theorem finish {j : RJob} (hf : Fits j) {s : St} (h : At j (j.cols / 8) s) (hs : SrcAt j (j.cols / 8) 0 s)
    (hx : s.x 0 = .int ((j.cols % 8 + 4294967296 - 8) % 4294967296)) : ∃ s', Reach j.env drowCode (2, s) (12, s') ∧ Result j s' := by
  obtain ⟨s1, r1, a1, b1, x1⟩ := tail2 h hs hx (back (Nat.mod_lt _ (by norm_num)))
  by_cases h0 : j.cols % 8 = 0
  · rw [if_pos h0] at r1
    refine ⟨s1, r1, a1.ok, ?_⟩
    unfold blocks
    rw [show (j.cols + 7) / 8 = j.cols / 8 by omega]
    exact a1.done
  rw [if_neg h0] at r1
  obtain ⟨s2, r2, l2⟩ := tail3 a1 b1 x1 h0
  obtain ⟨s3, r3, l3⟩ := left_loop hf (j.cols % 8 - 1) 0 (by omega) l2
  obtain ⟨s4, r4, h4⟩ := tail4 hf l3 h0
  exact ⟨s4, r1.trans (r2.trans (r3.trans r4)), h4⟩

theorem done_zero (j : RJob) : j.Done 0 j.m :=
  ⟨fun _ _ c hc => by omega, fun c hc => by omega, fun _ _ => rfl, fun _ _ => rfl, fun _ _ _ => rfl⟩

/-- For every state at the start of the statement, whatever the other registers hold. -/
theorem whole {j : RJob} (hf : Fits j) {s : St} (h : j.Start s) : ∃ s', Stops j.env drowCode s s' ∧ Result j s' := by
  have hc := hf.cols
  obtain ⟨h1, h2, h3, h4, h5, h6, h7⟩ := p0 j.env s
  have rr : ∀ l, (bif (exec j.env drow0.body s).lt then 2 else 1) = l → Reach j.env drowCode (0, s) (l, exec j.env drow0.body s) :=
    fun l hl => Reach.block (b := drow0) rfl hl
  generalize exec j.env drow0.body s = s1 at *
  rw [show s.x 58 = _ from h.cols] at h3 h4 h7
  rw [show s.x 60 = _ from h.xor] at h5 h7
  have a1 : At j 0 s1 := by
    refine ⟨?_, ?_, fun r hr => ?_, ?_, ?_, by rw [h2, h.mem]; exact done_zero j, fun b hb => ?_, fun b hb => ?_, by rw [h7, h.ok]; rfl⟩
    · rw [h1.get (by decide)]; exact h.packed
    · rw [h1.get (by decide)]; exact h.sums
    · rw [h1.get (by interval_cases r <;> decide)]; exact h.inc r hr
    · rw [h1.get (by decide)]; exact h.zp
    · rw [h1.get (by decide)]; exact h.stride
    · rw [h5]; exact nat_byte j.xor
    · rw [h6]; rfl
  have b1 : SrcAt j 0 0 s1 := fun r hr => by rw [h1.get (by interval_cases r <;> decide)]; exact h.src r hr
  change s1.x 0 = .int ((j.cols + 4294967296 - 8) % 4294967296) at h3
  change s1.lt = decide (sgn j.cols < sgn 8) at h4
  rw [sgn_of hc.2, sgn_of (by norm_num)] at h4
  by_cases hlt : j.cols < 8
  · have r1 := rr 2 (by rw [h4, decide_eq_true (by omega)]; rfl)
    obtain ⟨s2, r2, h2⟩ := finish hf (s := s1) (by rw [Nat.div_eq_of_lt hlt]; exact a1) (by rw [Nat.div_eq_of_lt hlt]; exact b1)
      (by rw [h3, Nat.mod_eq_of_lt hlt])
    exact ⟨s2, stops_of (r1.trans r2), h2⟩
  · have r1 := rr 1 (by rw [h4, decide_eq_false (by omega)]; rfl)
    obtain ⟨s2, r2, a2, b2, x2⟩ := full_blocks hf (j.cols / 8 - 1) 0 (by omega) a1 b1 (by rw [h3]; exact congrArg Val.int (by omega))
    obtain ⟨s3, r3, h3⟩ := finish hf a2 b2 x2
    exact ⟨s3, stops_of (r1.trans (r2.trans r3)), h3⟩

end Ruy.Neon.RJob

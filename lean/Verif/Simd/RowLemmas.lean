import Verif.Simd.Row
import Verif.Simd.PackRun
/-
Lemmas about the packing of row-major sources.
-/
namespace Ruy.Simd.Row
open Ruy.Mat Ruy.Mul Ruy.Simd.Pack

/-- What is required of an instruction set. -/
structure IsaOk (isa : Isa) : Prop where
  kc : isa.kc = 8 ∨ isa.kc = 16
  quad : ∀ v j i, j < isa.kc / 4 → i < 16 → isa.quad v j i = v (i % 4) (4 * j + i / 4)
  sums : ∀ s v c, c < isa.kc → (∀ r, -128 ≤ v r c ∧ v r c ≤ 127) →
    isa.sums s v c = add32 (s c) (v 0 c + v 1 c + v 2 c + v 3 c)

theorem sum16_lane {v : Nat → Reg} {c : Nat} (h : ∀ r, -128 ≤ v r c ∧ v r c ≤ 127) :
    sum16 v c = v 0 c + v 1 c + v 2 c + v 3 c := by
  have h0 := h 0; have h1 := h 1; have h2 := h 2; have h3 := h 3
  unfold sum16 map2
  rw [add16_of (a := v 0 c) (b := v 1 c) (by omega) (by omega),
    add16_of (a := v 2 c) (b := v 3 c) (by omega) (by omega), add16_of (by omega) (by omega)]
  ring

theorem quad8_lane (v : Nat → Reg) (j i : Nat) (hj : j < 2) (hi : i < 16) :
    quad8 v j i = v (i % 4) (4 * j + i / 4) := by
  interval_cases j <;> interval_cases i <;> rfl

theorem quad16_lane (v : Nat → Reg) (j i : Nat) (hj : j < 4) (hi : i < 16) :
    quad16 v j i = v (i % 4) (4 * j + i / 4) := by
  interval_cases j <;> interval_cases i <;> rfl

theorem cvt16_lane (a : Reg) (i : Nat) (hi : i < 8) : cvt16to32 a i = a i := by
  interval_cases i <;> rfl

theorem avx2Ok : IsaOk avx2 where
  kc := Or.inl rfl
  quad v j i hj hi := quad8_lane v j i hj hi
  sums s v c _ h := by
    show add32 (s c) (sum16 v c) = _
    rw [sum16_lane h]

theorem avxOk : IsaOk avx where
  kc := Or.inl rfl
  quad v j i hj hi := quad8_lane v j i hj hi
  sums s v c hc h := by
    show Pack.Avx.halves 4 4 (map2 add32) s (cvt16to32 (sum16 v)) c = _
    rw [halves_map2]
    show add32 (s c) (cvt16to32 (sum16 v) c) = _
    rw [cvt16_lane _ _ hc, sum16_lane h]

theorem avx512Ok : IsaOk avx512 where
  kc := Or.inr rfl
  quad v j i hj hi := quad16_lane v j i hj hi
  sums s v c _ h := by
    show add32 (s c) (sum16 v c) = _
    rw [sum16_lane h]

/-- What is packed at (r, c): zeros in padding columns. -/
def rval (t : Front.ScalarType) (src : Mul.Mat Int) (zp : Int) (r c : Nat) : Int :=
  if c < src.layout.cols then gval t src zp r c else 0

/-- The sums over the first `n` rows. -/
def rsum (t : Front.ScalarType) (src : Mul.Mat Int) (zp : Int) (n c : Nat) : Int :=
  ∑ k ∈ Finset.range n, rval t src zp k c

/-- Packing is between two columns: the first `n` groups of four rows are done, and in the next one
the columns before `x`. -/
structure Mid (l : PMatLayout) (V : Nat → Nat → Int) (S : Nat → Nat → Int) (lo hi : Nat)
    (d0 s0 : Buf Int) (n x : Nat) (d s : Buf Int) : Prop where
  dsize : d.size = d0.size
  ssize : s.size = s0.size
  done : ∀ r c, r < l.rows → lo ≤ c → c < hi → (r < 4 * n ∨ r < 4 * n + 4 ∧ c < x) →
    d.val (poff l r c) = V r c
  frame : ∀ o, (∀ r c, r < l.rows → lo ≤ c ∧ c < hi → o ≠ poff l r c) → d.val o = d0.val o
  sums : ∀ c, lo ≤ c → c < hi → s.val c = if c < x then S (4 * n + 4) c else S (4 * n) c
  sframe : ∀ c, ¬ (lo ≤ c ∧ c < hi) → s.val c = s0.val c

theorem mid_step {l : PMatLayout} {V : Nat → Nat → Int} {S : Nat → Nat → Int} {lo hi : Nat}
    {d0 s0 : Buf Int} {n x w base : Nat} {d s d' s' : Buf Int} (hp : PackedOk l)
    (h : Mid l V S lo hi d0 s0 n x d s) (hlo : lo ≤ x) (hx : x + w ≤ hi) (hhi : hi ≤ l.cols)
    (hn : 4 * n + 4 ≤ l.rows)
    (hbase : ∀ j c, j < 4 → c < w → poff l (4 * n + j) (x + c) = base + (4 * c + j))
    (hd : d'.size = d.size) (hv : ∀ i, i < 4 * w → d'.val (base + i) = V (4 * n + i % 4) (x + i / 4))
    (hf : ∀ o, (o < base ∨ base + 4 * w ≤ o) → d'.val o = d.val o)
    (hs : s'.size = s.size) (hsv : ∀ c, c < w → s'.val (x + c) = S (4 * n + 4) (x + c))
    (hsf : ∀ o, (o < x ∨ x + w ≤ o) → s'.val o = s.val o) :
    Mid l V S lo hi d0 s0 n (x + w) d' s' := by
  have hin : ∀ o, ¬ (o < base ∨ base + 4 * w ≤ o) →
      o = poff l (4 * n + (o - base) % 4) (x + (o - base) / 4) := by
    intro o ho
    rw [hbase _ _ (by omega) (by omega)]
    omega
  refine ⟨hd.trans h.dsize, hs.trans h.ssize, fun r c hr h1 h2 h3 => ?_, fun o ho => ?_,
    fun c h1 h2 => ?_, fun c hc => ?_⟩
  · by_cases hb : poff l r c < base ∨ base + 4 * w ≤ poff l r c
    · rw [hf _ hb]
      refine h.done r c hr h1 h2 ?_
      by_contra hcon
      have hb' := hbase (r - 4 * n) (c - x) (by omega) (by omega)
      rw [show 4 * n + (r - 4 * n) = r by omega, show x + (c - x) = c by omega] at hb'
      omega
    · have e := hin _ hb
      obtain ⟨e1, e2⟩ := poff_inj hp hr (by omega) (by omega) (by omega) e
      have hv' := hv (poff l r c - base) (by omega)
      rw [show base + (poff l r c - base) = poff l r c by omega, ← e1, ← e2] at hv'
      exact hv'
  · rw [hf, h.frame o ho]
    by_contra hcon
    exact ho _ _ (by omega) ⟨by omega, by omega⟩ (hin o hcon)
  · by_cases hc : x ≤ c ∧ c < x + w
    · rw [if_pos hc.2]
      have := hsv (c - x) (by omega)
      rwa [show x + (c - x) = c by omega] at this
    · rw [hsf c (by omega), h.sums c h1 h2]
      by_cases hcx : c < x
      · rw [if_pos hcx, if_pos (by omega)]
      · rw [if_neg hcx, if_neg (by omega)]
  · rw [hsf c (by omega), h.sframe c hc]

theorem mid_next {l : PMatLayout} {V : Nat → Nat → Int} {S : Nat → Nat → Int} {lo hi : Nat}
    {d0 s0 : Buf Int} {n : Nat} {d s : Buf Int} (h : Mid l V S lo hi d0 s0 n hi d s) :
    Mid l V S lo hi d0 s0 (n + 1) lo d s :=
  ⟨h.dsize, h.ssize, fun r c hr h1 h2 h3 => h.done r c hr h1 h2 (by omega), h.frame,
    fun c h1 h2 => by rw [h.sums c h1 h2, if_pos h2, if_neg (by omega), Nat.mul_succ], h.sframe⟩

/-! ### Assumptions -/

structure Setup (kc : Nat) (t : Front.ScalarType) (src : Mul.Mat Int) (lo hi : Nat) (p : PMat Int) :
    Prop where
  ty : Is8 t
  srcOrder : src.layout.order = .rowMajor
  order : p.layout.order = .colMajor
  kernel : p.layout.kernel = ⟨.colMajor, 4, kc⟩
  rows : p.layout.rows = (src.layout.rows + 3) / 4 * 4
  packedOk : PackedOk p.layout
  zp : Front.packInt t .int8 src.zp = p.zp
  start : lo % kc = 0
  stop : hi ≤ p.layout.cols
  ne : lo < hi
  len : (hi - lo) % kc = 0
  cover : hi ≤ (src.layout.cols + kc - 1) / kc * kc
  int : ∀ r c, r < src.layout.rows → lo ≤ c → c < hi → c < src.layout.cols →
    off src.layout r c < 2 ^ 31
  step : p.layout.stride * kc < 2 ^ 31
  pre : ∀ n c, n ≤ p.layout.rows → lo ≤ c → c < hi → Front.InI32 (rsum t src p.zp n c)

theorem xor_zero8 {x : Int} : xor8 x 128 = xor8 x (-128) := rfl

theorem xor_pack' {t : Front.ScalarType} (ht : Is8 t) (x : Int) :
    xor8 (wrap8 x) (inputXor t) = Front.packInt t .int8 x := by
  rw [← xor_pack ht x]
  rcases ht with rfl | rfl <;> rfl

theorem xor8_wrap8 (x y : Int) : xor8 (wrap8 x) y = xor8 x y := by
  unfold xor8
  have : wrap8 x % 256 = x % 256 := by unfold wrap8; omega
  rw [this]

theorem rval_range {t : Front.ScalarType} (ht : Is8 t) {src : Mul.Mat Int} {zp : Int}
    (hz : Front.packInt t .int8 src.zp = zp) (r c : Nat) :
    -128 ≤ rval t src zp r c ∧ rval t src zp r c ≤ 127 := by
  have hx : ∀ x, -128 ≤ Front.packInt t .int8 x ∧ Front.packInt t .int8 x ≤ 127 := by
    intro x; rw [← xor_pack ht]; exact wrap8_range _
  unfold rval gval
  split
  · split
    · exact hx _
    · rw [← hz]; exact hx _
  · omega

theorem sum_four {t : Front.ScalarType} {src : Mul.Mat Int} {zp : Int} (n c : Nat) :
    rsum t src zp (4 * n + 4) c = rsum t src zp (4 * n) c + (rval t src zp (4 * n) c +
      rval t src zp (4 * n + 1) c + rval t src zp (4 * n + 2) c + rval t src zp (4 * n + 3) c) := by
  unfold rsum
  rw [Finset.sum_range_succ, Finset.sum_range_succ, Finset.sum_range_succ, Finset.sum_range_succ]
  ring

theorem wrap32_of {x : Int} (h : Front.InI32 x) : wrap32 x = x := by
  obtain ⟨h1, h2⟩ := h
  unfold wrap32
  omega

section steps
variable {isa : Isa} {t : Front.ScalarType} {src : Mul.Mat Int} {lo hi : Nat} {p : PMat Int}

/-- The arguments. -/
def args (t : Front.ScalarType) (src : Mul.Mat Int) (lo hi : Nat) (p : PMat Int) : Args :=
  ⟨src.data, src.layout.stride, src.layout.rows, src.layout.cols, src.zp, inputXor t,
    p.layout.stride, lo, hi⟩

theorem src_off (hs : Setup isa.kc t src lo hi p) (r c : Nat) :
    off src.layout r c = r * src.layout.stride + c := by
  unfold off
  rw [hs.srcOrder]

theorem loadRow_of (hs : Setup isa.kc t src lo hi p) (hb : Bounds src lo hi p) {n x r : Nat}
    (hkc : 0 < isa.kc)
    (hn : 4 * n + 4 ≤ p.layout.rows) (hr : r < 4) (h1 : lo ≤ x) (h2 : x + isa.kc ≤ hi)
    (h3 : x + isa.kc ≤ src.layout.cols) :
    ∃ v, loadRow isa (args t src lo hi p) (4 * n) (4 * n * src.layout.stride + x) r = .ok v ∧
      ∀ i, i < isa.kc → v i = rval t src p.zp (4 * n + r) (x + i) := by
  unfold loadRow args
  dsimp only
  by_cases hrr : 4 * n + r < src.layout.rows
  · rw [if_pos (Or.inr hrr)]
    have e : (4 * n + r) * src.layout.stride = 4 * n * src.layout.stride + r * src.layout.stride :=
      Nat.add_mul _ _ _
    have b1 := hs.int (4 * n + r) x hrr h1 (by omega) (by omega)
    have b2 := hb.src (4 * n + r) (x + (isa.kc - 1)) hrr (by omega) (by omega) (by omega) (by omega)
    rw [src_off hs] at b1 b2
    rw [C.int_of (by omega), C.ok_bind, loadu_of (by omega), C.ok_bind]
    refine ⟨_, rfl, fun i hi => ?_⟩
    dsimp only
    rw [xor_pack' hs.ty]
    unfold rval gval Mat.at
    rw [if_pos (by omega), if_pos ⟨by omega, hrr⟩, src_off hs]
    congr 2
    omega
  · rw [if_neg (by omega)]
    refine ⟨_, rfl, fun i hi => ?_⟩
    rw [xor_pack' hs.ty, hs.zp]
    unfold rval gval
    rw [if_pos (by omega), if_neg (by omega)]

/-- The stores of one step of the vector loop. -/
theorem quad_stores (ok : IsaOk isa) {vals : Nat → Reg} {d : Buf Int} {base : Nat}
    (hd : base + 4 * isa.kc ≤ d.size) :
    ∃ d', forUpTo (isa.kc / 4) (fun j d => storeu 16 d (base + 16 * j) (isa.quad vals j)) d = .ok d' ∧
      d'.size = d.size ∧ (∀ i, i < 4 * isa.kc → d'.val (base + i) = vals (i % 4) (i / 4)) ∧
      ∀ o, (o < base ∨ base + 4 * isa.kc ≤ o) → d'.val o = d.val o := by
  have hkc : isa.kc / 4 * 4 = isa.kc := by rcases ok.kc with h | h <;> omega
  obtain ⟨d', e, h1, h2, h3⟩ := forUpTo_total (n := isa.kc / 4)
    (body := fun j (d : Buf Int) => storeu 16 d (base + 16 * j) (isa.quad vals j)) (s := d)
    (fun n (d' : Buf Int) => d'.size = d.size ∧
      (∀ i, i < 16 * n → d'.val (base + i) = vals (i % 4) (i / 4)) ∧
      ∀ o, (o < base ∨ base + 16 * n ≤ o) → d'.val o = d.val o)
    ⟨rfl, fun i h => by omega, fun _ _ => rfl⟩
    (by
      rintro n d1 hn ⟨h1, h2, h3⟩
      obtain ⟨d2, e, s, v, f⟩ := storeu_of (n := 16) (b := d1) (off := base + 16 * n)
        (r := isa.quad vals n) (by omega)
      refine ⟨d2, e, s.trans h1, fun i hi => ?_, fun o ho => ?_⟩
      · by_cases h : i < 16 * n
        · rw [f _ (by omega), h2 i h]
        · have hv := v (i - 16 * n) (by omega)
          rw [show base + 16 * n + (i - 16 * n) = base + i by omega,
            ok.quad _ _ _ hn (by omega)] at hv
          rw [hv]
          congr 1 <;> omega
      · rw [f o (by omega), h3 o (by omega)])
  exact ⟨d', e, h1, fun i hi => h2 i (by omega), fun o ho => h3 o (by omega)⟩

theorem base_off (ok : IsaOk isa) (hs : Setup isa.kc t src lo hi p) {bc c0 n : Nat}
    (hb : bc % isa.kc = 0) :
    ∀ j c, j < 4 → c0 + c < isa.kc → poff p.layout (4 * n + j) (bc + c0 + c) =
      p.layout.stride * bc + 4 * n * isa.kc + 4 * c0 + (4 * c + j) := by
  intro j c hj hc
  rw [Nat.add_assoc, poff_block hs.kernel hs.order ok.kc hb hc]
  have e1 : (4 * n + j) / 4 = n := by omega
  have e2 : (4 * n + j) % 4 = j := by omega
  rw [e1, e2]
  ring

/-- The invariant between columns, with the value of `packed_ptr`; `bc` is the start of a kernel
block. -/
def At (isa : Isa) (t : Front.ScalarType) (src : Mul.Mat Int) (lo hi : Nat) (p : PMat Int) (s0 : Buf Int)
    (n bc c0 : Nat) (st : Buf Int × Buf Int × Nat) : Prop :=
  Mid p.layout (rval t src p.zp) (rsum t src p.zp) lo hi p.data s0 n (bc + c0) st.1 st.2.1 ∧
  st.2.2 = p.layout.stride * bc + 4 * n * isa.kc + 4 * c0

theorem room (ok : IsaOk isa) (hs : Setup isa.kc t src lo hi p) (hb : Bounds src lo hi p)
    {bc c0 n w : Nat} (hm : bc % isa.kc = 0) (hn : 4 * n + 4 ≤ p.layout.rows) (hl : lo ≤ bc)
    (hw : 0 < w) (hc : c0 + w ≤ isa.kc) (hh : bc + c0 + w ≤ hi) :
    p.layout.stride * bc + 4 * n * isa.kc + 4 * c0 + 4 * w ≤ p.data.size ∧
    p.layout.stride * bc + 4 * n * isa.kc + 4 * c0 < 2 ^ 31 := by
  have b := hb.packed (4 * n + 3) (bc + c0 + (w - 1)) (by omega) (by omega) (by omega)
  rw [base_off ok hs hm 3 (w - 1) (by omega) (by omega)] at b
  omega

theorem vecStep_of (ok : IsaOk isa) (hs : Setup isa.kc t src lo hi p) (hb : Bounds src lo hi p)
    {s0 : Buf Int} (hs0 : hi ≤ s0.size) {n v : Nat} {st : Buf Int × Buf Int × Nat}
    (hn : 4 * n + 4 ≤ p.layout.rows)
    (hv1 : lo + isa.kc * v + isa.kc ≤ hi) (hv2 : lo + isa.kc * v + isa.kc ≤ src.layout.cols)
    (h : At isa t src lo hi p s0 n (lo + isa.kc * v) 0 st) :
    ∃ st', vecStep isa (args t src lo hi p) (4 * n) (4 * n * src.layout.stride + lo) v st = .ok st' ∧
      At isa t src lo hi p s0 n (lo + isa.kc * (v + 1)) 0 st' := by
  obtain ⟨hmid, hptr⟩ := h
  obtain ⟨x, hx⟩ : ∃ x, x = lo + isa.kc * v := ⟨_, rfl⟩
  have hkpos : 0 < isa.kc := by rcases ok.kc with h | h <;> omega
  have hxm : x % isa.kc = 0 := by rw [hx, Nat.add_mul_mod_self_left]; exact hs.start
  rw [← hx] at hv1 hv2 hmid hptr
  rw [Nat.add_zero] at hmid
  have hlx : lo ≤ x := by omega
  obtain ⟨v0, e0, w0⟩ := loadRow_of hs hb (r := 0) hkpos hn (by omega) hlx hv1 hv2
  obtain ⟨v1, e1, w1⟩ := loadRow_of hs hb (r := 1) hkpos hn (by omega) hlx hv1 hv2
  obtain ⟨v2, e2, w2⟩ := loadRow_of hs hb (r := 2) hkpos hn (by omega) hlx hv1 hv2
  obtain ⟨v3, e3, w3⟩ := loadRow_of hs hb (r := 3) hkpos hn (by omega) hlx hv1 hv2
  unfold vecStep
  dsimp only
  rw [show (args t src lo hi p).lo = lo from rfl,
    show (args t src lo hi p).pstride = p.layout.stride from rfl,
    show 4 * n * src.layout.stride + lo + isa.kc * v = 4 * n * src.layout.stride + x by omega, ← hx,
    e0, C.ok_bind, e1, C.ok_bind, e2, C.ok_bind, e3, C.ok_bind,
    loadu_of (by rw [hmid.ssize]; omega), C.ok_bind]
  obtain ⟨vals, hvals⟩ : ∃ vals : Nat → Reg, vals = four v0 v1 v2 v3 := ⟨_, rfl⟩
  rw [← hvals]
  have hval : ∀ r c, r < 4 → c < isa.kc → vals r c = rval t src p.zp (4 * n + r) (x + c) := by
    intro r c hr hc
    rw [hvals]
    interval_cases r
    · exact w0 c hc
    · exact w1 c hc
    · exact w2 c hc
    · exact w3 c hc
  have hrange : ∀ c, c < isa.kc → ∀ r, -128 ≤ vals r c ∧ vals r c ≤ 127 := by
    intro c hc r
    have key : vals r c = vals (min r 3) c := by
      rw [hvals]
      rcases r with _ | _ | _ | r
      · rfl
      · rfl
      · rfl
      · rw [show min (r + 1 + 1 + 1) 3 = 3 by omega]; rfl
    rw [key, hval _ c (by omega) hc]
    exact rval_range hs.ty hs.zp _ _
  obtain ⟨s', es, ss, sv, sf⟩ := storeu_of (n := isa.kc) (b := st.2.1) (off := x)
    (r := isa.sums (fun i => st.2.1.val (x + i)) vals) (by rw [hmid.ssize]; omega)
  have hroom := (room ok hs hb (c0 := 0) (w := isa.kc) hxm hn hlx hkpos (by omega) (by omega)).1
  rw [Nat.mul_zero, Nat.add_zero] at hroom hptr
  obtain ⟨d', ed, ds, dv, df⟩ := quad_stores ok (vals := vals) (d := st.1) (base := st.2.2)
    (by rw [hmid.dsize, hptr]; exact hroom)
  rw [es, C.ok_bind, ed, C.ok_bind, C.int_of hs.step, C.ok_bind]
  refine ⟨_, rfl, ?_, ?_⟩
  · dsimp only
    rw [show lo + isa.kc * (v + 1) + 0 = x + isa.kc by rw [hx]; ring]
    refine mid_step (base := st.2.2) hs.packedOk hmid hlx hv1 hs.stop hn ?_ ds ?_ df ss ?_ sf
    · intro j c hj hc
      have := base_off ok hs (c0 := 0) (n := n) hxm j c hj (by omega)
      rw [Nat.add_zero, Nat.mul_zero, Nat.add_zero] at this
      rw [hptr]
      exact this
    · intro i hi
      rw [dv i hi, hval _ _ (by omega) (by omega)]
    · intro c hc
      rw [sv c hc, ok.sums _ _ c hc (hrange c hc), hval 0 c (by omega) hc, hval 1 c (by omega) hc,
        hval 2 c (by omega) hc, hval 3 c (by omega) hc, hmid.sums (x + c) (by omega) (by omega),
        if_neg (by omega), Nat.add_zero]
      unfold add32
      rw [← sum_four]
      exact wrap32_of (hs.pre _ _ hn (by omega) (by omega))
  · dsimp only
    rw [hptr, show lo + isa.kc * (v + 1) = x + isa.kc by rw [hx]; ring]
    ring

theorem scalarVal_of (hs : Setup isa.kc t src lo hi p) (hb : Bounds src lo hi p) {n x r : Nat}
    (hn : 4 * n + 4 ≤ p.layout.rows) (hr : r < 4) (h1 : lo ≤ x) (h2 : x < hi)
    (h3 : x < src.layout.cols) :
    scalarVal (args t src lo hi p) (4 * n) (4 * n * src.layout.stride + lo + (x - lo)) r =
      .ok (rval t src p.zp (4 * n + r) x) := by
  unfold scalarVal args
  dsimp only
  rw [show 4 * n * src.layout.stride + lo + (x - lo) = 4 * n * src.layout.stride + x by omega]
  by_cases hrr : 4 * n + r < src.layout.rows
  · rw [if_pos hrr]
    have e : (4 * n + r) * src.layout.stride = 4 * n * src.layout.stride + r * src.layout.stride :=
      Nat.add_mul _ _ _
    have b1 := hs.int (4 * n + r) x hrr h1 h2 h3
    have b2 := hb.src (4 * n + r) x hrr h3 (by omega) h1 h2
    rw [src_off hs] at b1 b2
    rw [C.int_of (by omega), C.ok_bind, Buf.read_of (by omega), C.ok_bind, ← xor8_wrap8,
      xor_pack' hs.ty]
    unfold rval gval Mat.at
    rw [if_pos h3, if_pos ⟨h3, hrr⟩, src_off hs]
    congr 3
    omega
  · rw [if_neg hrr, ← xor8_wrap8, xor_pack' hs.ty, hs.zp]
    unfold rval gval
    rw [if_pos h3, if_neg (by omega)]

theorem scalarStep_of (ok : IsaOk isa) (hs : Setup isa.kc t src lo hi p) (hb : Bounds src lo hi p)
    {s0 : Buf Int} (hs0 : hi ≤ s0.size) {n bc c0 : Nat} {st : Buf Int × Buf Int × Nat}
    (hn : 4 * n + 4 ≤ p.layout.rows) (hm : bc % isa.kc = 0) (hl : lo ≤ bc) (hc : c0 + 1 ≤ isa.kc)
    (h2 : bc + c0 < hi) (h3 : bc + c0 < src.layout.cols)
    (h : At isa t src lo hi p s0 n bc c0 st) :
    ∃ st', scalarStep (args t src lo hi p) (4 * n) (4 * n * src.layout.stride + lo) (bc + c0) st =
      .ok st' ∧ At isa t src lo hi p s0 n bc (c0 + 1) st' := by
  obtain ⟨hmid, hptr⟩ := h
  have hroom := (room ok hs hb (c0 := c0) (w := 1) hm hn hl (by omega) hc (by omega)).1
  rw [← hptr, ← hmid.dsize] at hroom
  unfold scalarStep
  rw [show (args t src lo hi p).lo = lo from rfl]
  obtain ⟨r, er, r1, r2, r3, r4⟩ := forUpTo_total (n := 4)
    (body := fun r (s : Buf Int × Int) => do
      let v ← scalarVal (args t src lo hi p) (4 * n) (4 * n * src.layout.stride + lo + (bc + c0 - lo)) r
      let acc ← C.i32 (s.2 + v)
      let d ← s.1.write (st.2.2 + r) v
      .ok (d, acc)) (s := (st.1, 0))
    (fun m (s : Buf Int × Int) => s.1.size = st.1.size ∧
      (∀ i, i < m → s.1.val (st.2.2 + i) = rval t src p.zp (4 * n + i) (bc + c0)) ∧
      (∀ o, (o < st.2.2 ∨ st.2.2 + m ≤ o) → s.1.val o = st.1.val o) ∧
      s.2 = ∑ k ∈ Finset.range m, rval t src p.zp (4 * n + k) (bc + c0) ∧
        -(128 * m) ≤ s.2 ∧ s.2 ≤ 128 * m)
    ⟨rfl, fun i h => by omega, fun _ _ => rfl, by simp, by simp, by simp⟩
    (by
      rintro m s hm4 ⟨h1, h2', h3', h4, h5, h6⟩
      have hr := rval_range hs.ty hs.zp (4 * n + m) (bc + c0)
      rw [scalarVal_of hs hb hn hm4 (by omega) h2 h3, C.ok_bind,
        C.i32_of (by omega) (by omega), C.ok_bind]
      obtain ⟨d', ew⟩ : ∃ d', s.1.write (st.2.2 + m) (rval t src p.zp (4 * n + m) (bc + c0)) = .ok d' :=
        Buf.write_of (by omega)
      obtain ⟨w1, w2, w3, w4⟩ := Buf.write_ok ew
      rw [ew, C.ok_bind]
      refine ⟨_, rfl, w2.trans h1, fun i hi => ?_, fun o ho => ?_, ?_, by push_cast; omega,
        by push_cast; omega⟩
      · by_cases him : i = m
        · subst him; exact w3
        · dsimp only; rw [w4 _ (by omega), h2' i (by omega)]
      · dsimp only; rw [w4 _ (by omega), h3' o (by omega)]
      · dsimp only; rw [Finset.sum_range_succ, h4])
  rw [er, C.ok_bind, Buf.read_of (by rw [hmid.ssize]; omega), C.ok_bind]
  have hsum : st.2.1.val (bc + c0) + r.2 = rsum t src p.zp (4 * n + 4) (bc + c0) := by
    rw [hmid.sums _ (by omega) h2, if_neg (by omega), r4.1, sum_four, sum4]
    rfl
  have hpre := hs.pre (4 * n + 4) (bc + c0) hn (by omega) h2
  rw [hsum, C.i32_of hpre.1 hpre.2, C.ok_bind]
  obtain ⟨s', es⟩ : ∃ s', st.2.1.write (bc + c0) (rsum t src p.zp (4 * n + 4) (bc + c0)) = .ok s' :=
    Buf.write_of (by rw [hmid.ssize]; omega)
  obtain ⟨w1, w2, w3, w4⟩ := Buf.write_ok es
  rw [es, C.ok_bind]
  refine ⟨_, rfl, ?_, ?_⟩
  · refine mid_step (base := st.2.2) (x := bc + c0) (w := 1) hs.packedOk hmid (by omega) (by omega) hs.stop hn ?_ r1 ?_
      r3 w2 ?_ ?_
    · intro j c hj hc1
      rw [base_off ok hs hm j c hj (by omega), hptr]
    · intro i hi
      dsimp only
      rw [r2 i (by omega)]
      congr 1 <;> omega
    · intro c hc1
      have : c = 0 := by omega
      subst this
      exact w3
    · intro o ho
      exact w4 o (by omega)
  · dsimp only; rw [hptr]; ring

theorem zeroStep_of (ok : IsaOk isa) (hs : Setup isa.kc t src lo hi p) (hb : Bounds src lo hi p)
    {s0 : Buf Int} {n bc c0 : Nat} {st : Buf Int × Buf Int × Nat}
    (hn : 4 * n + 4 ≤ p.layout.rows) (hm : bc % isa.kc = 0) (hl : lo ≤ bc) (hc : c0 + 1 ≤ isa.kc)
    (h2 : bc + c0 < hi) (h3 : src.layout.cols ≤ bc + c0)
    (h : At isa t src lo hi p s0 n bc c0 st) :
    ∃ st', zeroStep st = .ok st' ∧ At isa t src lo hi p s0 n bc (c0 + 1) st' := by
  obtain ⟨hmid, hptr⟩ := h
  have hroom := (room ok hs hb (c0 := c0) (w := 1) hm hn hl (by omega) hc (by omega)).1
  rw [← hptr, ← hmid.dsize] at hroom
  unfold zeroStep
  obtain ⟨d', e, ds, dv, df⟩ := storeu_of (n := 4) (b := st.1) (off := st.2.2) (r := set1 0) (by omega)
  rw [e, C.ok_bind]
  have hz : ∀ k, rval t src p.zp k (bc + c0) = 0 := by
    intro k
    unfold rval
    rw [if_neg (by omega)]
  have hz2 : ∀ k, rsum t src p.zp k (bc + c0) = 0 := by
    intro k
    unfold rsum
    exact Finset.sum_eq_zero (fun k _ => hz k)
  refine ⟨_, rfl, ?_, ?_⟩
  · refine mid_step (base := st.2.2) (x := bc + c0) (w := 1) hs.packedOk hmid (by omega) (by omega) hs.stop hn ?_ ds ?_
      df rfl ?_ (fun _ _ => rfl)
    · intro j c hj hc1
      rw [base_off ok hs hm j c hj (by omega), hptr]
    · intro i hi
      rw [dv i (by omega), show bc + c0 + i / 4 = bc + c0 by omega, hz]
      rfl
    · intro c hc1
      have : c = 0 := by omega
      subst this
      dsimp only
      rw [Nat.add_zero, hmid.sums _ (by omega) h2, if_neg (by omega), hz2, hz2]
  · dsimp only; rw [hptr]; ring

theorem blockRow_of (ok : IsaOk isa) (hs : Setup isa.kc t src lo hi p) (hb : Bounds src lo hi p)
    {s0 : Buf Int} (hs0 : hi ≤ s0.size) {n : Nat} {st : Buf Int × Buf Int}
    (hn : 4 * n + 4 ≤ p.layout.rows)
    (h : Mid p.layout (rval t src p.zp) (rsum t src p.zp) lo hi p.data s0 n lo st.1 st.2) :
    ∃ st', blockRow isa (args t src lo hi p) (4 * n) st = .ok st' ∧
      Mid p.layout (rval t src p.zp) (rsum t src p.zp) lo hi p.data s0 (n + 1) lo st'.1 st'.2 := by
  have hkc := ok.kc
  have hkpos : 0 < isa.kc := by omega
  have hcov := hs.cover
  have hst := hs.start
  have hne := hs.ne
  have hlen := hs.len
  have hrows := hs.rows
  have hlc : lo < src.layout.cols := by
    generalize isa.kc = kc at *
    rcases hkc with rfl | rfl <;> omega
  have hlh : lo + isa.kc ≤ hi := by
    generalize isa.kc = kc at *
    rcases hkc with rfl | rfl <;> omega
  have hroom := (room ok hs hb (bc := lo) (c0 := 0) (w := 1) hst hn (Nat.le_refl _) (by omega)
    (by omega) (by omega)).2
  have hint := hs.int (4 * n) lo (by omega) (Nat.le_refl _) hne hlc
  rw [src_off hs] at hint
  unfold blockRow
  rw [show (args t src lo hi p).lo = lo from rfl, show (args t src lo hi p).hi = hi from rfl,
    show (args t src lo hi p).stride = src.layout.stride from rfl,
    show (args t src lo hi p).pstride = p.layout.stride from rfl,
    C.int_of (by omega), C.ok_bind, C.int_of (by rw [Nat.mul_comm lo]; omega), C.ok_bind,
    C.int_of (by omega), C.ok_bind]
  dsimp only
  obtain ⟨stop, hstop⟩ : ∃ stop, stop = (args t src lo hi p).stop := ⟨_, rfl⟩
  have hstop' : stop = min hi src.layout.cols := hstop
  rw [← hstop]
  obtain ⟨nv, hnv⟩ : ∃ nv, nv = (stop - lo) / isa.kc := ⟨_, rfl⟩
  rw [← hnv]
  have hnv1 : isa.kc * nv ≤ stop - lo := by
    rw [hnv, Nat.mul_comm]; exact Nat.div_mul_le_self _ _
  have hnv2 : stop - lo < isa.kc * nv + isa.kc := by
    rw [hnv, Nat.mul_comm]
    have := Nat.lt_div_mul_add (a := stop - lo) hkpos
    exact this
  -- the vector loop
  obtain ⟨st1, e1, h1⟩ := forUpTo_total (n := nv)
    (body := vecStep isa (args t src lo hi p) (4 * n) (4 * n * src.layout.stride + lo))
    (s := (st.1, st.2, lo * p.layout.stride + 4 * n * isa.kc))
    (fun v => At isa t src lo hi p s0 n (lo + isa.kc * v) 0)
    ⟨by simpa using h, by dsimp only; rw [Nat.mul_zero, Nat.add_zero, Nat.add_zero]; ring⟩
    (by
      intro v st' hv hat
      have : isa.kc * (v + 1) ≤ isa.kc * nv := Nat.mul_le_mul_left _ (by omega)
      rw [Nat.mul_succ] at this
      exact vecStep_of ok hs hb hs0 hn (by omega) (by omega) hat)
  rw [e1, C.ok_bind]
  obtain ⟨bc, hbc⟩ : ∃ bc, bc = lo + isa.kc * nv := ⟨_, rfl⟩
  rw [← hbc] at h1 ⊢
  have hbm : bc % isa.kc = 0 := by rw [hbc, Nat.add_mul_mod_self_left]; exact hst
  unfold forRange
  -- the scalar loop
  obtain ⟨st2, e2, h2⟩ := forUpTo_total (n := stop - bc)
    (body := fun i => scalarStep (args t src lo hi p) (4 * n) (4 * n * src.layout.stride + lo) (bc + i))
    (s := st1) (fun i => At isa t src lo hi p s0 n bc i) h1
    (by
      intro i st' hi' hat
      exact scalarStep_of ok hs hb hs0 hn hbm (by omega) (by omega) (by omega) (by omega) hat)
  rw [e2, C.ok_bind]
  rw [show max lo stop = stop by omega]
  have hlast : hi ≤ bc + isa.kc ∨ stop = hi := by
    by_cases hsh : stop = hi
    · exact Or.inr hsh
    · left
      have hsc : stop = src.layout.cols := by omega
      generalize isa.kc = kc at *
      rcases hkc with rfl | rfl <;> omega
  -- the padding columns
  obtain ⟨st3, e3, h3⟩ := forUpTo_total (n := hi - stop) (body := fun _ => zeroStep) (s := st2)
    (fun i => At isa t src lo hi p s0 n bc (stop - bc + i)) h2
    (by
      intro i st' hi' hat
      obtain ⟨st'', e, ha⟩ := zeroStep_of ok hs hb hn hbm (by omega) (by omega) (by omega) (by omega) hat
      exact ⟨st'', e, ha⟩)
  rw [e3, C.ok_bind]
  refine ⟨_, rfl, mid_next ?_⟩
  have := h3.1
  rwa [show bc + (stop - bc + (hi - stop)) = hi by omega] at this

theorem run_filled (ok : IsaOk isa) (hs : Setup isa.kc t src lo hi p) (hb : Bounds src lo hi p)
    (hsome : p.sums.isSome) :
    ∃ q, run isa t src lo hi p = .ok q ∧
      Filled (rval t src p.zp) (rsum t src p.zp p.layout.rows) lo hi p q := by
  obtain ⟨b, hbs⟩ := Option.isSome_iff_exists.1 hsome
  have hne := hs.ne
  have hrows := hs.rows
  have hhi : hi ≤ b.size := by
    have := hb.sums b (hi - 1) hbs (by omega) (by omega)
    omega
  unfold run
  rw [C.check_of hs.srcOrder, C.ok_bind, hbs]
  dsimp only
  obtain ⟨b0, e0, s0, v0, f0⟩ := storeu_of (n := hi - lo) (b := b) (off := lo) (r := set1 0) (by omega)
  rw [e0, C.ok_bind]
  obtain ⟨st, e, h⟩ := forUpTo_total (n := (p.layout.rows + 3) / 4)
    (body := fun n => blockRow isa (args t src lo hi p) (4 * n)) (s := (p.data, b0))
    (fun n (st : Buf Int × Buf Int) => Mid p.layout (rval t src p.zp) (rsum t src p.zp) lo hi p.data b0 n
      lo st.1 st.2)
    ⟨rfl, rfl, fun r c _ h1 h2 h3 => by omega, fun _ _ => rfl, fun c h1 h2 => by
      rw [if_neg (by omega), show c = lo + (c - lo) by omega, v0 (c - lo) (by omega)]
      rfl, fun _ _ => rfl⟩
    (fun n st hn h => blockRow_of ok hs hb (by omega) (by omega) h)
  unfold args at e
  rw [e, C.ok_bind]
  refine ⟨_, rfl, ⟨rfl, rfl, h.dsize, ?_, ?_⟩, ⟨h.frame, ?_⟩, ?_, ?_⟩
  · rw [hbs]; rfl
  · intro b1 b2 h1 h2
    rw [hbs] at h1
    cases h1; cases h2
    exact h.ssize.trans s0
  · intro b1 b2 c h1 h2 hc
    rw [hbs] at h1
    cases h1; cases h2
    rw [h.sframe c hc, f0 c (by omega)]
  · intro r c hr h1 h2
    exact h.done r c hr h1 h2 (by omega)
  · intro b1 c h1 h2 h3
    cases h1
    rw [h.sums c h2 h3, if_neg (by omega), show 4 * ((p.layout.rows + 3) / 4) = p.layout.rows by omega]

end steps
end Ruy.Simd.Row

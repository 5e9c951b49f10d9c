import Verif.Simd.PackLoop
/-
From the packers for one block of columns to PackImpl::Run.
-/
namespace Ruy.Simd.Pack
open Ruy.Mat Ruy.Mul

/-! ### Values -/

/-- The value the generic code packs at (r, c) (pack.h:118-124). -/
def gval (t : Front.ScalarType) (src : Mul.Mat Int) (zp : Int) (r c : Nat) : Int :=
  if c < src.layout.cols ∧ r < src.layout.rows then Front.packInt t .int8 (src.at r c) else zp

/-- The sum the generic code stores for column c, in wrap-around arithmetic. -/
def gsum (t : Front.ScalarType) (src : Mul.Mat Int) (zp : Int) (rows c : Nat) : Int :=
  (∑ r ∈ Finset.range rows, gval t src zp r c).bmod (2 ^ 32)

theorem eq_gsum {t : Front.ScalarType} {src : Mul.Mat Int} {zp : Int} {rows c : Nat} {x : Int}
    (h1 : Front.InI32 x)
    (h2 : (x : Z32) = ∑ r ∈ Finset.range rows, ((gval t src zp r c : Int) : Z32)) :
    x = gsum t src zp rows c := by
  refine Front.eq_of_zmod h1 (Front.bmod_range _) ?_
  unfold gsum
  rw [Front.bmod_zmod]
  push_cast
  exact h2

theorem packedVal_gval {t : Front.ScalarType} {src : Mul.Mat Int} {zp : Int} {r c : Nat} {v : Int}
    (h : packedVal Front.wrap32 (Front.packInt t .int8) src zp r c = .ok v) :
    v = gval t src zp r c := by
  unfold packedVal at h
  unfold gval
  by_cases hc : c < src.layout.cols ∧ r < src.layout.rows
  · rw [if_pos hc] at h ⊢
    obtain ⟨x, hx, h⟩ := C.bind_ok h
    cases h
    rw [elem_at hx]
  · rw [if_neg hc] at h ⊢
    cases h; rfl

theorem colSum_gsum {t : Front.ScalarType} {src : Mul.Mat Int} {zp : Int} {rows c : Nat} {s : Int}
    (h : colSum Front.wrap32 (Front.packInt t .int8) src zp rows c = .ok s) :
    s = gsum t src zp rows c := by
  unfold colSum at h
  have inv := forUpTo_inv (P := fun n (x : Int) => Front.InI32 x ∧
    (x : Z32) = ∑ r ∈ Finset.range n, ((gval t src zp r c : Int) : Z32))
    (by constructor
        · unfold Front.InI32; simp [Front.wrap32]
        · simp [Front.wrap32])
    (by
      rintro n x x' _ ⟨_, i2⟩ hstep
      obtain ⟨v, hv, hstep⟩ := C.bind_ok hstep
      cases hstep
      refine ⟨Front.bmod_range _, ?_⟩
      rw [Front.bmod_zmod, Finset.sum_range_succ, ← i2, packedVal_gval hv]
      push_cast; rfl) h
  exact eq_gsum inv.1 inv.2

theorem xor8_zero {x : Int} : xor8 x 0 = wrap8 x := by
  unfold xor8 wrap8
  rw [show ((0 : Int) % 256).toNat = 0 from rfl, Nat.xor_zero]
  omega

theorem nat_xor128 (n : Nat) (h : n < 256) : n ^^^ 128 = (n + 128) % 256 := by
  have : ∀ n : Fin 256, (n : Nat) ^^^ 128 = ((n : Nat) + 128) % 256 := by decide +kernel
  exact this ⟨n, h⟩

theorem xor8_flip {x : Int} : xor8 x (-128) = wrap8 (x - 128) := by
  unfold xor8
  rw [show ((-128 : Int) % 256).toNat = 128 from rfl, nat_xor128 _ (by omega)]
  unfold wrap8
  omega

/-- Two types only. -/
def Is8 (t : Front.ScalarType) : Prop := t = .int8 ∨ t = .uint8

theorem xor_pack {t : Front.ScalarType} (ht : Is8 t) (x : Int) :
    xor8 (wrap8 x) (inputXor t) = Front.packInt t .int8 x := by
  unfold Front.packInt Front.ScalarType.wrap
  rcases ht with rfl | rfl
  · rw [show inputXor .int8 = 0 from rfl, xor8_zero]
    show wrap8 (wrap8 x) = (x - 0 + 0 - -128) % (127 - -128 + 1) + -128
    rw [show (127 - -128 + 1 : Int) = 256 by norm_num]
    unfold wrap8; omega
  · rw [show inputXor .uint8 = -128 from rfl, xor8_flip]
    show wrap8 (wrap8 x - 128) = (x - 128 + 0 - -128) % (127 - -128 + 1) + -128
    rw [show (127 - -128 + 1 : Int) = 256 by norm_num]
    unfold wrap8; omega

theorem xor_xor {t : Front.ScalarType} (ht : Is8 t) {z : Int} (h1 : -128 ≤ z) (h2 : z ≤ 127) :
    xor8 (xor8 z (inputXor t)) (inputXor t) = z := by
  rcases ht with rfl | rfl
  · rw [show inputXor .int8 = 0 from rfl, xor8_zero, xor8_zero]
    unfold wrap8; omega
  · rw [show inputXor .uint8 = -128 from rfl, xor8_flip, xor8_flip]
    unfold wrap8; omega

/-! ### Assumptions -/

/-- The assumptions on the arguments of PackImpl::Run; `kc` is the width of kernel blocks. -/
structure Setup (kc : Nat) (t : Front.ScalarType) (src : Mul.Mat Int) (lo hi : Nat) (p : PMat Int) :
    Prop where
  ty : Is8 t
  srcOrder : src.layout.order = .colMajor
  order : p.layout.order = .colMajor
  kernel : p.layout.kernel = ⟨.colMajor, 4, kc⟩
  rows : p.layout.rows = (src.layout.rows + 3) / 4 * 4
  packedOk : PackedOk p.layout
  zp : -128 ≤ p.zp ∧ p.zp ≤ 127
  start : lo % kc = 0
  stop : hi ≤ p.layout.cols
  len : (hi - lo) % kc = 0
  /-- every block contains a source column -/
  cover : hi ≤ (src.layout.cols + kc - 1) / kc * kc
  /-- source offsets are ints -/
  int : ∀ c, lo ≤ c → c < hi → c < src.layout.cols → src.layout.stride * c < 2 ^ 31
  /-- and so are packed offsets; only an assumption when there is nothing to pack -/
  pint : p.layout.rows = 0 → ∀ c, c < hi → p.layout.stride * c < 2 ^ 31

/-- What the success of the generic code tells about the sizes of the buffers. -/
structure Bounds (src : Mul.Mat Int) (lo hi : Nat) (p : PMat Int) : Prop where
  packed : ∀ r c, r < p.layout.rows → lo ≤ c → c < hi →
    poff p.layout r c < 2 ^ 31 ∧ poff p.layout r c < p.data.size
  src : ∀ r c, r < src.layout.rows → c < src.layout.cols → r < p.layout.rows → lo ≤ c → c < hi →
    off src.layout r c < src.data.size
  sums : ∀ b c, p.sums = some b → lo ≤ c → c < hi → c < b.size

/-- The effect of packing columns [lo, hi) with values `val` and sums `sumv`. -/
structure Filled (val : Nat → Nat → Int) (sumv : Nat → Int) (lo hi : Nat) (p q : PMat Int) :
    Prop where
  shape : SameShape p q
  out : Outside (fun c => lo ≤ c ∧ c < hi) p q
  data : ∀ r c, r < p.layout.rows → lo ≤ c → c < hi → q.data.val (poff p.layout r c) = val r c
  sums : ∀ b c, q.sums = some b → lo ≤ c → c < hi → b.val c = sumv c

theorem generic_filled {t : Front.ScalarType} {src : Mul.Mat Int} {lo hi : Nat} {p q : PMat Int}
    (hp : PackedOk p.layout) (hhi : hi ≤ p.layout.cols)
    (h : runPack Front.wrap32 (Front.packInt t .int8) src lo hi p = .ok q) :
    Bounds src lo hi p ∧
    Filled (gval t src p.zp) (gsum t src p.zp p.layout.rows) lo hi p q := by
  obtain ⟨h1, h2, h3⟩ := runPack_ok hp hhi h
  have key : ∀ r c, r < p.layout.rows → lo ≤ c → c < hi →
      poff p.layout r c < 2 ^ 31 ∧ poff p.layout r c < p.data.size ∧
        q.data.val (poff p.layout r c) = gval t src p.zp r c := by
    intro r c hr hl hh
    obtain ⟨v, e1, e2⟩ := (h3 c hl hh).data r (by rw [h1.layout]; exact hr)
    rw [h1.zp] at e2
    obtain ⟨o, f1, f2, f3⟩ := elem_ok e1
    rw [h1.layout, poffset_eq hp.kernel] at f1
    obtain ⟨g1, g2⟩ := C.int_ok f1
    rw [h1.size] at f2
    subst g1
    exact ⟨g2, f2, by rw [← f3, packedVal_gval e2]⟩
  have keys : ∀ b c, q.sums = some b → lo ≤ c → c < hi →
      c < b.size ∧ b.val c = gsum t src p.zp p.layout.rows c := by
    intro b c hb hl hh
    obtain ⟨s, e1, e2⟩ := (h3 c hl hh).sums (by rw [hb]; rfl)
    rw [h1.zp, h1.layout] at e2
    unfold readSum at e1
    rw [hb] at e1
    obtain ⟨f1, f2⟩ := Buf.read_ok e1
    exact ⟨f1, by rw [← f2, colSum_gsum e2]⟩
  refine ⟨⟨fun r c hr hl hh => ⟨(key r c hr hl hh).1, (key r c hr hl hh).2.1⟩, ?_, ?_⟩,
    ⟨h1, h2, fun r c hr hl hh => (key r c hr hl hh).2.2, fun b c hb hl hh => (keys b c hb hl hh).2⟩⟩
  · intro r c hr hc hr' hl hh
    obtain ⟨v, _, e2⟩ := (h3 c hl hh).data r (by rw [h1.layout]; exact hr')
    unfold packedVal at e2
    rw [if_pos ⟨hc, hr⟩] at e2
    obtain ⟨x, hx, _⟩ := C.bind_ok e2
    unfold Mat.elem at hx
    obtain ⟨o, ho, hx⟩ := C.bind_ok hx
    rw [offset_ok ho] at hx
    exact (Buf.read_ok hx).1
  · intro b c hb hl hh
    obtain ⟨b', hb'⟩ := Option.isSome_iff_exists.1 (show q.sums.isSome by rw [h1.sums, hb]; rfl)
    rw [← h1.sumsSize b b' hb hb']
    exact (keys b' c hb' hl hh).1

theorem filled_unique {val : Nat → Nat → Int} {sumv : Nat → Int} {lo hi : Nat} {p q q' : PMat Int}
    (h : Filled val sumv lo hi p q) (h' : Filled val sumv lo hi p q') : q = q' := by
  have hd : ∀ o, q.data.val o = q'.data.val o := by
    intro o
    by_cases ho : ∃ r c, (r < p.layout.rows ∧ (lo ≤ c ∧ c < hi)) ∧ o = poff p.layout r c
    · obtain ⟨r, c, ⟨hr, hc⟩, rfl⟩ := ho
      rw [h.data r c hr hc.1 hc.2, h'.data r c hr hc.1 hc.2]
    · have hn : ∀ r c, r < p.layout.rows → lo ≤ c ∧ c < hi → o ≠ poff p.layout r c :=
        fun r c hr hc he => ho ⟨r, c, ⟨hr, hc⟩, he⟩
      rw [h.out.data o hn, h'.out.data o hn]
  have hs : q.sums = q'.sums := by
    cases hb : p.sums with
    | none =>
      have e1 := h.shape.sums; have e2 := h'.shape.sums
      rw [hb] at e1 e2
      have e1 : q.sums = none := by simpa using e1
      have e2 : q'.sums = none := by simpa using e2
      rw [e1, e2]
    | some b =>
      obtain ⟨b1, hb1⟩ := Option.isSome_iff_exists.1
        (show q.sums.isSome by rw [h.shape.sums, hb]; rfl)
      obtain ⟨b2, hb2⟩ := Option.isSome_iff_exists.1
        (show q'.sums.isSome by rw [h'.shape.sums, hb]; rfl)
      have hv : b1.val = b2.val := by
        funext c
        by_cases hc : lo ≤ c ∧ c < hi
        · rw [h.sums b1 c hb1 hc.1 hc.2, h'.sums b2 c hb2 hc.1 hc.2]
        · rw [h.out.sums b b1 c hb hb1 hc, h'.out.sums b b2 c hb hb2 hc]
      have hz : b1.size = b2.size := by
        rw [h.shape.sumsSize b b1 hb hb1, h'.shape.sumsSize b b2 hb hb2]
      rw [hb1, hb2]
      obtain ⟨z1, v1⟩ := b1
      obtain ⟨z2, v2⟩ := b2
      dsimp only at hv hz
      rw [hv, hz]
  have hl : q.layout = q'.layout := h.shape.layout.trans h'.shape.layout.symm
  have hzp : q.zp = q'.zp := h.shape.zp.trans h'.shape.zp.symm
  have hsz : q.data.size = q'.data.size := h.shape.size.trans h'.shape.size.symm
  obtain ⟨l, ⟨ds, dv⟩, su, z⟩ := q
  obtain ⟨l', ⟨ds', dv'⟩, su', z'⟩ := q'
  have : dv = dv' := funext hd
  dsimp only at hl hzp hsz hs
  subst this hl hzp hsz hs
  rfl

/-! ### Offsets in packed blocks -/

theorem poff_block {l : PMatLayout} {kc : Nat} (hk : l.kernel = ⟨.colMajor, 4, kc⟩)
    (ho : l.order = .colMajor) {bc c r : Nat} (hkc : kc = 8 ∨ kc = 16) (hb : bc % kc = 0)
    (hc : c < kc) :
    poff l r (bc + c) = l.stride * bc + (r / 4 * (4 * kc) + (c * 4 + r % 4)) := by
  unfold poff innerOff
  rw [ho, hk]
  dsimp only
  have e1 : (bc + c) / kc * kc = bc := by rcases hkc with rfl | rfl <;> omega
  have e2 : (bc + c) % kc = c := by rcases hkc with rfl | rfl <;> omega
  rw [e2, ← Nat.mul_assoc, e1, Nat.mul_comm bc]

/-- Every offset of a block belongs to one of its elements. -/
theorem block_surj {kc rows x : Nat} (hkc : kc = 8 ∨ kc = 16) (h4 : rows % 4 = 0)
    (hx : x < kc * rows) :
    ∃ r c, r < rows ∧ c < kc ∧ x = r / 4 * (4 * kc) + (c * 4 + r % 4) := by
  rcases hkc with rfl | rfl
  · exact ⟨x / 32 * 4 + x % 4, x % 32 / 4, by omega, by omega, by omega⟩
  · exact ⟨x / 64 * 4 + x % 4, x % 64 / 4, by omega, by omega, by omega⟩

/-- What packing one block of columns does. -/
structure Block (kc rows base bc : Nat) (val : Nat → Nat → Int) (sumv : Nat → Int) (d : Buf Int)
    (sums : Option (Buf Int × Nat)) (r : Buf Int × Option (Buf Int × Nat)) : Prop where
  size : r.1.size = d.size
  data : ∀ k c, k < rows → c < kc →
    r.1.val (base + (k / 4 * (4 * kc) + (c * 4 + k % 4))) = val k (bc + c)
  frame : ∀ o, (o < base ∨ base + kc * rows ≤ o) → r.1.val o = d.val o
  nosums : sums = none → r.2 = none
  sums : ∀ b, sums = some (b, bc) → ∃ b' o', r.2 = some (b', o') ∧ b'.size = b.size ∧
    (∀ c, c < kc → b'.val (bc + c) = sumv (bc + c)) ∧
    ∀ o, (o < bc ∨ bc + kc ≤ o) → b'.val o = b.val o

theorem run_filled {kc : Nat} {t : Front.ScalarType} {src : Mul.Mat Int} {lo hi : Nat} {p : PMat Int}
    {pk : Buf Int → Int → Int → Nat → Nat → Int → Nat → Nat → Buf Int →
      Option (Buf Int × Nat) → C (Buf Int × Option (Buf Int × Nat))}
    {val : Nat → Nat → Int} {sumv : Nat → Int}
    (hkc : kc = 8 ∨ kc = 16) (hs : Setup kc t src lo hi p) (hb : Bounds src lo hi p)
    (hpk : ∀ bc d sums, bc % kc = 0 → lo ≤ bc → bc + kc ≤ hi → d.size = p.data.size →
      sums.isSome = p.sums.isSome →
      (∀ b b0, sums = some b → p.sums = some b0 → b.2 = bc ∧ b.1.size = b0.size) →
      ∃ r, pk src.data (inputXor t) (xor8 p.zp (inputXor t)) (src.layout.stride * bc)
        src.layout.stride ((src.layout.cols : Int) - bc) src.layout.rows (p.layout.stride * bc) d
        sums = .ok r ∧
        Block kc p.layout.rows (p.layout.stride * bc) bc val sumv d sums r) :
    ∃ q, run kc pk t src lo hi p = .ok q ∧ Filled val sumv lo hi p q := by
  unfold run
  rw [C.check_of hs.srcOrder, C.ok_bind, C.check_of hs.order, C.ok_bind, C.check_of hs.len, C.ok_bind,
    C.check_of hs.start, C.ok_bind]
  dsimp only
  have hlen : (hi - lo) / kc * kc = hi - lo := by
    have := hs.len
    rcases hkc with rfl | rfl <;> omega
  have h4 : p.layout.rows % 4 = 0 := by rw [hs.rows]; omega
  obtain ⟨q, e, hq⟩ := forUpTo_total (n := (hi - lo) / kc) (body := fun n (w : PMat Int) => do
      let blockCol := lo + kc * n
      let off ← C.int (src.layout.stride * blockCol)
      let poff ← C.int (w.layout.stride * blockCol)
      let r ← pk src.data (inputXor t) (xor8 p.zp (inputXor t)) off src.layout.stride
        ((src.layout.cols : Int) - blockCol) src.layout.rows poff w.data
        (w.sums.map (fun b => (b, blockCol)))
      .ok { w with data := r.1, sums := r.2.map Prod.fst }) (s := p)
    (fun n q => Filled val sumv lo (lo + kc * n) p q)
    (by
      refine ⟨SameShape.refl p, ⟨fun _ _ => rfl, fun b b' c h h' _ => ?_⟩,
        fun r c _ h1 h2 => ?_, fun b c _ h1 h2 => ?_⟩
      · rw [h] at h'; cases h'; rfl
      · omega
      · omega)
    (by
      intro n q hn h
      have hn' : kc * n + kc ≤ hi - lo := by rcases hkc with rfl | rfl <;> omega
      obtain ⟨bc, hbc⟩ : ∃ bc, bc = lo + kc * n := ⟨_, rfl⟩
      have hbm : bc % kc = 0 := by
        have := hs.start
        rw [hbc]
        rcases hkc with rfl | rfl <;> omega
      dsimp only
      rw [← hbc]
      have hcol : bc < src.layout.cols := by
        have := hs.cover
        rcases hkc with rfl | rfl <;> omega
      have hkpos : 0 < kc := by omega
      rw [C.int_of (hs.int bc (by omega) (by omega) hcol), C.ok_bind, h.shape.layout, h.shape.zp]
      have hpi : p.layout.stride * bc < 2 ^ 31 := by
        by_cases h0 : 0 < p.layout.rows
        · have := (hb.packed 0 bc h0 (by omega) (by omega)).1
          have e := poff_block hs.kernel hs.order (bc := bc) (c := 0) (r := 0) hkc hbm hkpos
          rw [Nat.add_zero] at e
          rw [e] at this
          omega
        · exact hs.pint (by omega) bc (by omega)
      rw [C.int_of hpi, C.ok_bind]
      obtain ⟨r, er, hr⟩ := hpk bc q.data (q.sums.map (fun b => (b, bc))) hbm (by omega) (by omega)
        h.shape.size (by rw [Option.isSome_map, h.shape.sums])
        (by
          intro b b0 h1 h2
          obtain ⟨b1, hb1⟩ := Option.isSome_iff_exists.1
            (show q.sums.isSome by rw [h.shape.sums, h2]; rfl)
          rw [hb1] at h1
          cases h1
          exact ⟨rfl, h.shape.sumsSize b0 b1 h2 hb1⟩)
      rw [er, C.ok_bind]
      refine ⟨_, rfl, ?_⟩
      have hsum : ∀ b, q.sums = some b → ∃ b' o', r.2 = some (b', o') ∧ b'.size = b.size ∧
          (∀ c, c < kc → b'.val (bc + c) = sumv (bc + c)) ∧
          ∀ o, (o < bc ∨ bc + kc ≤ o) → b'.val o = b.val o := by
        intro b hb
        exact hr.sums b (by rw [hb]; rfl)
      refine ⟨⟨rfl, rfl, hr.size.trans h.shape.size, ?_, ?_⟩, ⟨?_, ?_⟩, ?_, ?_⟩
      · show (r.2.map Prod.fst).isSome = _
        rw [Option.isSome_map, ← h.shape.sums]
        cases hqs : q.sums with
        | none => rw [hr.nosums (by rw [hqs]; rfl)]; rfl
        | some b => obtain ⟨b', _, e1, _⟩ := hsum b hqs; rw [e1]; rfl
      · intro b b' h1 h2
        obtain ⟨b1, hb1⟩ := Option.isSome_iff_exists.1
          (show q.sums.isSome by rw [h.shape.sums, h1]; rfl)
        obtain ⟨b2, _, e1, e2, _⟩ := hsum b1 hb1
        change r.2.map Prod.fst = some b' at h2
        rw [e1] at h2
        cases h2
        exact e2.trans (h.shape.sumsSize b b1 h1 hb1)
      · intro o ho
        show r.1.val o = _
        rw [hr.frame o ?_, h.out.data o (fun r c hr hc => ho r c hr
          ⟨hc.1, by rw [Nat.mul_succ]; omega⟩)]
        by_contra hcon
        obtain ⟨k, c, hk, hc, hx⟩ := block_surj (x := o - p.layout.stride * bc) hkc h4 (by omega)
        refine ho k (bc + c) hk ⟨by omega, by rw [Nat.mul_succ]; omega⟩ ?_
        rw [poff_block hs.kernel hs.order hkc hbm hc]
        omega
      · intro b b' c h1 h2 hn2
        obtain ⟨b1, hb1⟩ := Option.isSome_iff_exists.1
          (show q.sums.isSome by rw [h.shape.sums, h1]; rfl)
        obtain ⟨b2, _, e1, _, _, e4⟩ := hsum b1 hb1
        change r.2.map Prod.fst = some b' at h2
        rw [e1] at h2
        cases h2
        rw [Nat.mul_succ] at hn2
        rw [e4 c (by omega), h.out.sums b b1 c h1 hb1 (by omega)]
      · intro k c hk h1 h2
        show r.1.val _ = _
        rw [Nat.mul_succ] at h2
        by_cases hc : c < bc
        · rw [hr.frame]
          · exact h.data k c hk h1 (by omega)
          · by_contra hcon
            obtain ⟨k', c', hk', hc', hx⟩ := block_surj
              (x := poff p.layout k c - p.layout.stride * bc) hkc h4 (by omega)
            have e1 : poff p.layout k c = poff p.layout k' (bc + c') := by
              rw [poff_block hs.kernel hs.order hkc hbm hc']
              omega
            have := (poff_inj hs.packedOk hk (by have := hs.stop; omega) hk'
              (by have := hs.stop; omega) e1).2
            omega
        · obtain ⟨c', rfl⟩ : ∃ c', c = bc + c' := ⟨c - bc, by omega⟩
          rw [poff_block hs.kernel hs.order hkc hbm (by omega)]
          exact hr.data k c' hk (by omega)
      · intro b' c h1 hl hh
        change r.2.map Prod.fst = some b' at h1
        rw [Nat.mul_succ] at hh
        cases hqs : q.sums with
        | none =>
          rw [hr.nosums (by rw [hqs]; rfl)] at h1
          cases h1
        | some b =>
          obtain ⟨b2, _, e1, e2, e3, e4⟩ := hsum b hqs
          rw [e1] at h1
          cases h1
          by_cases hc : c < bc
          · rw [e4 c (by omega)]
            exact h.sums b c hqs hl (by omega)
          · obtain ⟨c', rfl⟩ : ∃ c', c = bc + c' := ⟨c - bc, by omega⟩
            exact e3 c' (by omega))
  refine ⟨q, e, ?_⟩
  have : lo + kc * ((hi - lo) / kc) = lo + (hi - lo) := by rw [Nat.mul_comm, hlen]
  rw [this] at hq
  by_cases hlh : lo ≤ hi
  · rw [show lo + (hi - lo) = hi by omega] at hq
    exact hq
  · have conv : ∀ c, lo ≤ c ∧ c < lo + (hi - lo) ↔ lo ≤ c ∧ c < hi := by intro c; omega
    exact ⟨hq.shape, ⟨fun o ho => hq.out.data o (fun r c hr hc => ho r c hr ((conv c).1 hc)),
      fun b b' c h1 h2 hn => hq.out.sums b b' c h1 h2 (fun hc => hn ((conv c).1 hc))⟩,
      fun r c hr h1 h2 => by omega, fun b c hb h1 h2 => by omega⟩

/-! ### One block of columns -/

theorem copyTrailing_of {rows k base : Nat} {data trailing : Buf Int}
    (hd : 0 < rows % 32 → base + k * ((rows + 3) / 4 * 4) ≤ data.size)
    (ht : k * 32 ≤ trailing.size) :
    ∃ d, copyTrailing rows k base data trailing = .ok d ∧ d.size = data.size ∧
      (0 < rows % 32 → ∀ x, x < k * ((rows + 3) / 4 * 4 - (rows - rows % 32)) →
        d.val (base + k * (rows - rows % 32) + x) = trailing.val x) ∧
      ∀ o, (rows % 32 = 0 ∨ o < base + k * (rows - rows % 32) ∨
        base + k * ((rows + 3) / 4 * 4) ≤ o) → d.val o = data.val o := by
  unfold copyTrailing
  by_cases h0 : 0 < rows % 32
  · rw [if_pos h0]
    dsimp only
    have hle : rows - rows % 32 ≤ (rows + 3) / 4 * 4 := by omega
    have hk : k * ((rows + 3) / 4 * 4 - (rows - rows % 32)) ≤ k * 32 :=
      Nat.mul_le_mul_left k (by omega)
    have hs : k * (rows - rows % 32) + k * ((rows + 3) / 4 * 4 - (rows - rows % 32)) =
        k * ((rows + 3) / 4 * 4) := by
      rw [← Nat.mul_add]; congr 1; omega
    rw [loadu_of (by omega), C.ok_bind]
    obtain ⟨d, e, s, v, f⟩ := storeu_of
      (n := k * ((rows + 3) / 4 * 4 - (rows - rows % 32))) (b := data)
      (off := base + k * (rows - rows % 32)) (r := fun i => trailing.val (0 + i))
      (by have := hd h0; omega)
    refine ⟨d, e, s, fun _ x hx => ?_, fun o ho => f o ?_⟩
    · rw [v x hx, Nat.zero_add]
    · omega
  · rw [if_neg h0]
    exact ⟨data, rfl, rfl, fun h => absurd h h0, fun _ _ => rfl⟩

theorem pack8_of {isa : Isa} (ok : IsaOk isa) {src : Buf Int} {xor zp : Int} {off stride : Nat}
    {remaining : Int} {rows base bc : Nat} {d : Buf Int} {sums : Option (Buf Int × Nat)}
    {val : Nat → Nat → Int} {sumv : Nat → Int}
    (hl : LoadsOk ⟨src, xor, zp, rows, 32, base, 0⟩ (colOf off stride remaining))
    (hd : 0 < rows → base + 8 * ((rows + 3) / 4 * 4) ≤ d.size) (hs : SumsRoom sums)
    (hi : rows + 31 < 2 ^ 31)
    (hval : ∀ k c, k < (rows + 3) / 4 * 4 → c < 8 →
      pv ⟨src, xor, zp, rows, 32, base, 0⟩ (colOf off stride remaining) c k = val k (bc + c))
    (hsum : ∀ c x, c < 8 → Front.InI32 x → (x : Z32) =
      ∑ k ∈ Finset.range ((rows + 3) / 4 * 4), ((val k (bc + c) : Int) : Z32) → x = sumv (bc + c)) :
    ∃ r, pack8 isa src xor zp off stride remaining rows base d sums = .ok r ∧
      Block 8 ((rows + 3) / 4 * 4) base bc val sumv d sums r := by
  obtain ⟨r, e, h⟩ := packer_of ok (d := d) (tr := ⟨256, fun _ => 0⟩) (sums := sums) hl
    ⟨Or.inl rfl, fun h0 => by have := hd (by dsimp only at h0; omega); dsimp only at h0 ⊢; omega,
      by dsimp only; omega⟩ hs hi
  obtain ⟨d', e', s', v', f'⟩ := copyTrailing_of (rows := rows) (k := 8) (base := base)
    (data := r.1) (trailing := r.2.1)
    (fun h0 => by rw [h.dsize]; exact hd (by omega)) (by rw [h.tsize])
  refine ⟨(d', r.2.2), by unfold pack8; rw [e, C.ok_bind, e', C.ok_bind], ?_⟩
  have hdata := h.data
  have htrail := h.trail
  have hframe := h.dframe
  dsimp only at hdata htrail hframe
  refine ⟨s'.trans h.dsize, fun k c hk hc => ?_, fun o ho => ?_, h.nosums, fun b hb => ?_⟩
  · dsimp only
    rw [← hval k c hk hc]
    by_cases hk2 : k < 32 * (rows / 32)
    · rw [f' _ (by omega),
        show base + (k / 4 * (4 * 8) + (c * 4 + k % 4)) = base + k / 4 * 32 + (c * 4 + k % 4) by omega,
        hdata (k / 4) (c * 4 + k % 4) (by omega) (by omega),
        show (c * 4 + k % 4) / 4 = c by omega, show 4 * (k / 4) + (c * 4 + k % 4) % 4 = k by omega]
    · have h0 : 0 < rows % 32 := by omega
      rw [show base + (k / 4 * (4 * 8) + (c * 4 + k % 4)) = base + 8 * (rows - rows % 32) +
          (0 + (k - 32 * (rows / 32)) / 4 * 32 + (c * 4 + k % 4)) by omega,
        v' h0 _ (by omega), htrail h0 ((k - 32 * (rows / 32)) / 4) (c * 4 + k % 4) (by omega) (by omega),
        show (c * 4 + k % 4) / 4 = c by omega,
        show 32 * (rows / 32) + 4 * ((k - 32 * (rows / 32)) / 4) + (c * 4 + k % 4) % 4 = k by omega]
  · dsimp only
    rw [f' o (by omega), hframe o (fun blk i hb hi => by omega)]
  · obtain ⟨b', e1, e2, e3, e4⟩ := h.sums b bc hb
    refine ⟨b', bc, e1, e2, fun c hc => ?_, fun o ho => e4 o ho⟩
    obtain ⟨g1, g2⟩ := e3 c hc
    refine hsum c _ hc g1 (g2.trans ?_)
    exact Finset.sum_congr rfl (fun k hk => by rw [hval k c (Finset.mem_range.1 hk) hc])

theorem zeroHalf_of {rows base : Nat} {v : Int} {data : Buf Int}
    (hd : 0 < rows / 32 → base + 64 * (8 * (rows / 32) - 1) + 32 ≤ data.size) :
    ∃ d, zeroHalf rows v base data = .ok d ∧ d.size = data.size ∧
      (∀ blk i, blk < 8 * (rows / 32) → i < 32 → d.val (base + blk * 64 + i) = v) ∧
      ∀ o, (∀ blk i, blk < 8 * (rows / 32) → i < 32 → o ≠ base + blk * 64 + i) →
        d.val o = data.val o := by
  unfold zeroHalf
  obtain ⟨d, e, h⟩ := forUpTo_total (n := (rows - rows % 32) / 4)
    (body := fun k (d : Buf Int) => storeu 32 d (base + 64 * k) (set1 v)) (s := data)
    (fun n (d : Buf Int) => d.size = data.size ∧
      (∀ blk i, blk < n → i < 32 → d.val (base + blk * 64 + i) = v) ∧
      ∀ o, (∀ blk i, blk < n → i < 32 → o ≠ base + blk * 64 + i) → d.val o = data.val o)
    ⟨rfl, fun _ _ h => by omega, fun _ _ => rfl⟩
    (by
      rintro n d hn ⟨h1, h2, h3⟩
      obtain ⟨d', e, s, w, f⟩ := storeu_of (n := 32) (b := d) (off := base + 64 * n) (r := set1 v)
        (by have := hd (by omega); omega)
      refine ⟨d', e, s.trans h1, fun blk i hb hi => ?_, fun o ho => ?_⟩
      · by_cases hb2 : blk = n
        · subst hb2
          rw [show base + blk * 64 + i = base + 64 * blk + i by omega, w i hi]; rfl
        · rw [f _ (by omega), h2 blk i (by omega) hi]
      · rw [f, h3 o (fun blk i hb hi => ho blk i (by omega) hi)]
        by_contra hcon
        exact ho n (o - (base + 64 * n)) (by omega) (by omega) (by omega))
  have hn : (rows - rows % 32) / 4 = 8 * (rows / 32) := by omega
  rw [hn] at h e
  exact ⟨d, by rw [hn]; exact e, h⟩

/-- The state after both halves of a block of sixteen columns. -/
structure Halves (rows base bc : Nat) (val : Nat → Nat → Int) (sumv : Nat → Int) (d : Buf Int)
    (sums : Option (Buf Int × Nat)) (r : Buf Int × Buf Int × Option (Buf Int × Nat)) : Prop where
  dsize : r.1.size = d.size
  tsize : r.2.1.size = 512
  data : ∀ blk i, blk < 8 * (rows / 32) → i < 64 →
    r.1.val (base + blk * 64 + i) = val (4 * blk + i % 4) (bc + i / 4)
  dframe : ∀ o, (o < base ∨ base + 16 * ((rows + 3) / 4 * 4) ≤ o) → r.1.val o = d.val o
  trail : 0 < rows % 32 → ∀ j i, 32 * (rows / 32) + 4 * j + i % 4 < (rows + 3) / 4 * 4 → i < 64 →
    r.2.1.val (j * 64 + i) = val (32 * (rows / 32) + 4 * j + i % 4) (bc + i / 4)
  nosums : sums = none → r.2.2 = none
  sums : ∀ b, sums = some (b, bc) → ∃ b', r.2.2 = some (b', bc + 8) ∧ b'.size = b.size ∧
    (∀ c, c < 16 → b'.val (bc + c) = sumv (bc + c)) ∧
    ∀ o, (o < bc ∨ bc + 16 ≤ o) → b'.val o = b.val o

/-- The first half of a block of sixteen columns. -/
theorem half_first {isa : Isa} (ok : IsaOk isa) {src : Buf Int} {xor zp : Int} {cols : Nat → Col}
    {rows base : Nat} {d : Buf Int} {sums : Option (Buf Int × Nat)}
    (hl : LoadsOk ⟨src, xor, zp, rows, 64, base, 0⟩ cols)
    (hd : 0 < rows → base + 16 * ((rows + 3) / 4 * 4) ≤ d.size) (hs : SumsRoom sums)
    (hi : rows + 63 < 2 ^ 31) :
    ∃ r, halfPacker isa ⟨src, xor, zp, rows, 64, base, 0⟩ cols d ⟨512, fun _ => 0⟩ sums = .ok r ∧
      Packed8 ⟨src, xor, zp, rows, 64, base, 0⟩ cols d ⟨512, fun _ => 0⟩ sums r :=
  halfPacker_of ok hl
    ⟨Or.inr rfl, fun h0 => by have := hd (by dsimp only at h0; omega); dsimp only at h0 ⊢; omega,
      by dsimp only; omega⟩ hs hi

theorem half_second {isa : Isa} (ok : IsaOk isa) {src : Buf Int} {xor zp : Int} {cols : Nat → Col}
    {rows base : Nat} {d tr : Buf Int} {sums : Option (Buf Int × Nat)}
    (hl : LoadsOk ⟨src, xor, zp, rows, 64, base + 32, 32⟩ cols)
    (hd : 0 < rows → base + 16 * ((rows + 3) / 4 * 4) ≤ d.size) (ht : tr.size = 512)
    (hs : SumsRoom sums) (hi : rows + 63 < 2 ^ 31) :
    ∃ r, halfPacker isa ⟨src, xor, zp, rows, 64, base + 32, 32⟩ cols d tr sums = .ok r ∧
      Packed8 ⟨src, xor, zp, rows, 64, base + 32, 32⟩ cols d tr sums r :=
  halfPacker_of ok hl
    ⟨Or.inr rfl, fun h0 => by have := hd (by dsimp only at h0; omega); dsimp only at h0 ⊢; omega,
      by dsimp only; omega⟩ hs hi

theorem shiftSums_room {b : Buf Int} {bc : Nat} {b' : Buf Int} (hb : bc + 16 ≤ b.size)
    (hs : b'.size = b.size) : SumsRoom (shiftSums 8 (some (b', bc))) := by
  intro b1 off h
  change some (b', bc + 8) = some (b1, off) at h
  cases h
  omega

/-- Both halves are source columns, at least in part. -/
theorem halves_full {src : Buf Int} {xor zp : Int} {cols cols' : Nat → Col}
    {rows base bc : Nat} {d : Buf Int} {sums : Option (Buf Int × Nat)}
    {val : Nat → Nat → Int} {sumv : Nat → Int}
    {r1 r2 : Buf Int × Buf Int × Option (Buf Int × Nat)}
    (h1 : Packed8 ⟨src, xor, zp, rows, 64, base, 0⟩ cols d ⟨512, fun _ => 0⟩ sums r1)
    (h2 : Packed8 ⟨src, xor, zp, rows, 64, base + 32, 32⟩ cols' r1.1 r1.2.1
      (shiftSums 8 r1.2.2) r2)
    (v1 : ∀ k c, k < (rows + 3) / 4 * 4 → c < 8 →
      pv ⟨src, xor, zp, rows, 64, base, 0⟩ cols c k = val k (bc + c))
    (v2 : ∀ k c, k < (rows + 3) / 4 * 4 → c < 8 →
      pv ⟨src, xor, zp, rows, 64, base + 32, 32⟩ cols' c k = val k (bc + 8 + c))
    (hsum : ∀ c x, c < 16 → Front.InI32 x → (x : Z32) =
      ∑ k ∈ Finset.range ((rows + 3) / 4 * 4), ((val k (bc + c) : Int) : Z32) → x = sumv (bc + c)) :
    Halves rows base bc val sumv d sums r2 := by
  have d1 := h1.data
  have d2 := h2.data
  have f1 := h1.dframe
  have f2 := h2.dframe
  have t1 := h1.trail
  have t2 := h2.trail
  have u1 := h1.tframe
  have u2 := h2.tframe
  dsimp only at d1 d2 f1 f2 t1 t2 u1 u2
  refine ⟨h2.dsize.trans h1.dsize, h2.tsize.trans h1.tsize, fun blk i hb hi => ?_,
    fun o ho => ?_, fun h0 j i hj hi => ?_, fun hn => ?_, fun b hb => ?_⟩
  · by_cases h : i < 32
    · rw [f2 _ (fun blk' i' _ _ => by omega), d1 blk i hb h, v1 _ _ (by omega) (by omega)]
    · rw [show base + blk * 64 + i = base + 32 + blk * 64 + (i - 32) by omega,
        d2 blk (i - 32) hb (by omega), v2 _ _ (by omega) (by omega)]
      congr 1 <;> omega
  · rw [f2 o (fun blk' i' _ _ => by omega), f1 o (fun blk' i' _ _ => by omega)]
  · by_cases h : i < 32
    · rw [u2 _ (fun j' i' _ _ => by omega), show j * 64 + i = 0 + j * 64 + i by omega,
        t1 h0 j i (by omega) h, v1 _ _ (by omega) (by omega)]
    · rw [show j * 64 + i = 32 + j * 64 + (i - 32) by omega,
        t2 h0 j (i - 32) (by omega) (by omega), v2 _ _ (by omega) (by omega)]
      congr 1 <;> omega
  · rw [h2.nosums (by rw [h1.nosums hn]; rfl)]
  · obtain ⟨b1, e1, s1, w1, g1⟩ := h1.sums b bc hb
    obtain ⟨b2, e2, s2, w2, g2⟩ := h2.sums b1 (bc + 8) (by rw [e1]; rfl)
    refine ⟨b2, e2, s2.trans s1, fun c hc => ?_, fun o ho => ?_⟩
    · by_cases h : c < 8
      · rw [g2 _ (by omega)]
        obtain ⟨x1, x2⟩ := w1 c h
        refine hsum c _ hc x1 (x2.trans ?_)
        exact Finset.sum_congr rfl (fun k hk => by rw [v1 k c (Finset.mem_range.1 hk) h])
      · obtain ⟨x1, x2⟩ := w2 (c - 8) (by omega)
        rw [show bc + 8 + (c - 8) = bc + c by omega] at x1 x2
        refine hsum c _ hc x1 (x2.trans ?_)
        exact Finset.sum_congr rfl (fun k hk => by
          rw [v2 k (c - 8) (Finset.mem_range.1 hk) (by omega),
            show bc + 8 + (c - 8) = bc + c by omega])
    · rw [g2 o (by omega), g1 o (by omega)]

/-- The second half contains no source column. -/
theorem halves_empty {src : Buf Int} {xor zp : Int} {cols : Nat → Col}
    {rows base bc : Nat} {d d2 : Buf Int} {sums s2 : Option (Buf Int × Nat)}
    {val : Nat → Nat → Int} {sumv : Nat → Int}
    {r1 : Buf Int × Buf Int × Option (Buf Int × Nat)} {z zs : Int}
    (h1 : Packed8 ⟨src, xor, zp, rows, 64, base, 0⟩ cols d ⟨512, fun _ => 0⟩ sums r1)
    (hd2s : d2.size = r1.1.size)
    (hd2 : ∀ blk i, blk < 8 * (rows / 32) → i < 32 → d2.val (base + 32 + blk * 64 + i) = z)
    (hd2f : ∀ o, (∀ blk i, blk < 8 * (rows / 32) → i < 32 → o ≠ base + 32 + blk * 64 + i) →
        d2.val o = r1.1.val o)
    (hsn : shiftSums 8 r1.2.2 = none → s2 = none)
    (hss : ∀ b, shiftSums 8 r1.2.2 = some (b, bc + 8) → ∃ b', s2 = some (b', bc + 8) ∧
      b'.size = b.size ∧ (∀ c, c < 8 → b'.val (bc + 8 + c) = zs) ∧
      ∀ o, (o < bc + 8 ∨ bc + 8 + 8 ≤ o) → b'.val o = b.val o)
    (v1 : ∀ k c, k < (rows + 3) / 4 * 4 → c < 8 →
      pv ⟨src, xor, zp, rows, 64, base, 0⟩ cols c k = val k (bc + c))
    (v2 : ∀ k c, k < (rows + 3) / 4 * 4 → c < 8 →
      val k (bc + 8 + c) = if k < 32 * (rows / 32) then z else 0)
    (hsum : ∀ c x, c < 8 → Front.InI32 x → (x : Z32) =
      ∑ k ∈ Finset.range ((rows + 3) / 4 * 4), ((val k (bc + c) : Int) : Z32) → x = sumv (bc + c))
    (hsum2 : ∀ c, c < 8 → zs = sumv (bc + 8 + c)) :
    Halves rows base bc val sumv d sums (d2, r1.2.1, s2) := by
  have d1 := h1.data
  have f1 := h1.dframe
  have t1 := h1.trail
  have u1 := h1.tframe
  dsimp only at d1 f1 t1 u1
  refine ⟨hd2s.trans h1.dsize, h1.tsize, fun blk i hb hi => ?_,
    fun o ho => ?_, fun h0 j i hj hi => ?_, fun hn => ?_, fun b hb => ?_⟩
  · dsimp only
    by_cases h : i < 32
    · rw [hd2f _ (fun blk' i' _ _ => by omega), d1 blk i hb h, v1 _ _ (by omega) (by omega)]
    · rw [show base + blk * 64 + i = base + 32 + blk * 64 + (i - 32) by omega,
        hd2 blk (i - 32) hb (by omega), show bc + i / 4 = bc + 8 + (i / 4 - 8) by omega,
        v2 _ _ (by omega) (by omega), if_pos (by omega)]
  · dsimp only
    rw [hd2f o (fun blk' i' _ _ => by omega), f1 o (fun blk' i' _ _ => by omega)]
  · dsimp only
    by_cases h : i < 32
    · rw [show j * 64 + i = 0 + j * 64 + i by omega,
        t1 h0 j i (by omega) h, v1 _ _ (by omega) (by omega)]
    · rw [u1 _ (fun j' i' _ _ => by omega), show bc + i / 4 = bc + 8 + (i / 4 - 8) by omega,
        v2 _ _ hj (by omega), if_neg (by omega)]
  · exact hsn (by rw [h1.nosums hn]; rfl)
  · obtain ⟨b1, e1, s1, w1, g1⟩ := h1.sums b bc hb
    obtain ⟨b2, e2, s2', w2, g2⟩ := hss b1 (by rw [e1]; rfl)
    refine ⟨b2, e2, s2'.trans s1, fun c hc => ?_, fun o ho => ?_⟩
    · by_cases h : c < 8
      · rw [g2 _ (by omega)]
        obtain ⟨x1, x2⟩ := w1 c h
        refine hsum c _ h x1 (x2.trans ?_)
        exact Finset.sum_congr rfl (fun k hk => by rw [v1 k c (Finset.mem_range.1 hk) h])
      · rw [show bc + c = bc + 8 + (c - 8) by omega, w2 (c - 8) (by omega)]
        exact hsum2 (c - 8) (by omega)
    · rw [g2 o (by omega), g1 o (by omega)]

/-- From the halves to the block. -/
theorem halves_block {rows base bc : Nat} {d : Buf Int} {sums : Option (Buf Int × Nat)}
    {val : Nat → Nat → Int} {sumv : Nat → Int} {r : Buf Int × Buf Int × Option (Buf Int × Nat)}
    (h : Halves rows base bc val sumv d sums r)
    (hd : 0 < rows → base + 16 * ((rows + 3) / 4 * 4) ≤ d.size) :
    ∃ d', copyTrailing rows 16 base r.1 r.2.1 = .ok d' ∧
      Block 16 ((rows + 3) / 4 * 4) base bc val sumv d sums (d', r.2.2) := by
  obtain ⟨d', e', s', v', f'⟩ := copyTrailing_of (rows := rows) (k := 16) (base := base)
    (data := r.1) (trailing := r.2.1)
    (fun h0 => by rw [h.dsize]; exact hd (by omega)) (by rw [h.tsize])
  refine ⟨d', e', s'.trans h.dsize, fun k c hk hc => ?_, fun o ho => ?_, h.nosums, fun b hb => ?_⟩
  · dsimp only
    by_cases hk2 : k < 32 * (rows / 32)
    · rw [f' _ (by omega),
        show base + (k / 4 * (4 * 16) + (c * 4 + k % 4)) = base + k / 4 * 64 + (c * 4 + k % 4) by omega,
        h.data (k / 4) (c * 4 + k % 4) (by omega) (by omega),
        show (c * 4 + k % 4) / 4 = c by omega, show 4 * (k / 4) + (c * 4 + k % 4) % 4 = k by omega]
    · have h0 : 0 < rows % 32 := by omega
      rw [show base + (k / 4 * (4 * 16) + (c * 4 + k % 4)) = base + 16 * (rows - rows % 32) +
          ((k - 32 * (rows / 32)) / 4 * 64 + (c * 4 + k % 4)) by omega,
        v' h0 _ (by omega),
        h.trail h0 ((k - 32 * (rows / 32)) / 4) (c * 4 + k % 4) (by omega) (by omega),
        show (c * 4 + k % 4) / 4 = c by omega,
        show 32 * (rows / 32) + 4 * ((k - 32 * (rows / 32)) / 4) + (c * 4 + k % 4) % 4 = k by omega]
  · dsimp only
    rw [f' o (by omega), h.dframe o ho]
  · obtain ⟨b', e1, e2⟩ := h.sums b hb
    exact ⟨b', _, e1, e2⟩

theorem fillSums_of {v : Int} (hv : Front.InI32 v) {sums : Option (Buf Int × Nat)}
    (hs : SumsRoom sums) :
    ∃ s2, fillSums v sums = .ok s2 ∧ (sums = none → s2 = none) ∧
      ∀ b off, sums = some (b, off) → ∃ b', s2 = some (b', off) ∧ b'.size = b.size ∧
        (∀ c, c < 8 → b'.val (off + c) = v) ∧ ∀ o, (o < off ∨ off + 8 ≤ o) → b'.val o = b.val o := by
  cases sums with
  | none => exact ⟨none, rfl, fun _ => rfl, fun b off h => by cases h⟩
  | some bo =>
    obtain ⟨b, off⟩ := bo
    obtain ⟨b', e, s, w, f⟩ := storeu_of (n := 8) (b := b) (off := off) (r := set1 v) (hs b off rfl)
    refine ⟨some (b', off), ?_, fun h => (by cases h), fun b1 off1 h => ?_⟩
    · unfold fillSums
      dsimp only
      rw [C.i32_of hv.1 hv.2, C.ok_bind, e, C.ok_bind]
    · cases h
      exact ⟨b', rfl, s, fun c hc => by rw [w c hc]; rfl, f⟩

theorem pack16_of {isa : Isa} (ok : IsaOk isa) {src : Buf Int} {xor zp : Int} {off stride : Nat}
    {remaining : Int} {rows base bc : Nat} {d : Buf Int} {sums : Option (Buf Int × Nat)}
    {val : Nat → Nat → Int} {sumv : Nat → Int}
    (hl : LoadsOk ⟨src, xor, zp, rows, 64, base, 0⟩ (colOf off stride remaining))
    (hl2 : 8 < remaining → LoadsOk ⟨src, xor, zp, rows, 64, base + 32, 32⟩
      (colOf (off + stride * 8) stride (remaining - 8)))
    (hst : 8 < remaining → stride * 8 < 2 ^ 31)
    (hd : 0 < rows → base + 16 * ((rows + 3) / 4 * 4) ≤ d.size)
    (hs : ∀ b o, sums = some (b, o) → o = bc ∧ bc + 16 ≤ b.size)
    (hi : rows + 63 < 2 ^ 31)
    (hz : remaining ≤ 8 → Front.InI32 (xor8 zp xor * ((rows + 3) / 4 * 4 : Nat)))
    (v1 : ∀ k c, k < (rows + 3) / 4 * 4 → c < 8 →
      pv ⟨src, xor, zp, rows, 64, base, 0⟩ (colOf off stride remaining) c k = val k (bc + c))
    (v2 : 8 < remaining → ∀ k c, k < (rows + 3) / 4 * 4 → c < 8 →
      pv ⟨src, xor, zp, rows, 64, base + 32, 32⟩
        (colOf (off + stride * 8) stride (remaining - 8)) c k = val k (bc + 8 + c))
    (v2' : remaining ≤ 8 → ∀ k c, k < (rows + 3) / 4 * 4 → c < 8 →
      val k (bc + 8 + c) = if k < 32 * (rows / 32) then xor8 zp xor else 0)
    (hsum : ∀ c x, (8 < remaining ∨ c < 8) → c < 16 → Front.InI32 x → (x : Z32) =
      ∑ k ∈ Finset.range ((rows + 3) / 4 * 4), ((val k (bc + c) : Int) : Z32) → x = sumv (bc + c))
    (hsum2 : remaining ≤ 8 → ∀ c, c < 8 →
      xor8 zp xor * ((rows + 3) / 4 * 4 : Nat) = sumv (bc + 8 + c)) :
    ∃ r, pack16 isa src xor zp off stride remaining rows base d sums = .ok r ∧
      Block 16 ((rows + 3) / 4 * 4) base bc val sumv d sums r := by
  obtain ⟨r1, e1, h1⟩ := half_first ok (sums := sums) hl hd
    (fun b o h => by obtain ⟨rfl, h⟩ := hs b o h; omega) hi
  have hroom : SumsRoom (shiftSums 8 r1.2.2) := by
    cases hsm : sums with
    | none =>
      rw [h1.nosums hsm]
      intro b o h
      cases h
    | some bo =>
      obtain ⟨b, o⟩ := bo
      obtain ⟨rfl, hb⟩ := hs b o hsm
      obtain ⟨b', e, g, _⟩ := h1.sums b o hsm
      rw [e]
      exact shiftSums_room hb g
  unfold pack16
  rw [e1, C.ok_bind]
  by_cases hr : 8 < remaining
  · rw [if_pos hr, C.int_of (hst hr), C.ok_bind]
    obtain ⟨r2, e2, h2⟩ := half_second ok (d := r1.1) (tr := r1.2.1) (sums := shiftSums 8 r1.2.2)
      (hl2 hr) (fun h0 => by rw [h1.dsize]; exact hd h0) h1.tsize hroom hi
    rw [e2, C.ok_bind]
    obtain ⟨d', e3, h3⟩ := halves_block (halves_full h1 h2 v1 (v2 hr)
      (fun c x hc => hsum c x (Or.inl hr) hc)) hd
    dsimp only
    rw [e3, C.ok_bind]
    exact ⟨_, rfl, h3⟩
  · rw [if_neg hr]
    have hr : remaining ≤ 8 := by omega
    obtain ⟨d2, e2, g1, g2, g3⟩ := zeroHalf_of (rows := rows) (base := base + 32)
      (v := xor8 zp xor) (data := r1.1)
      (fun h0 => by rw [h1.dsize]; have := hd (by omega); omega)
    obtain ⟨s2, e3, k1, k2⟩ := fillSums_of (hz hr) hroom
    rw [e2, C.ok_bind, e3, C.ok_bind, C.ok_bind]
    obtain ⟨d', e4, h3⟩ := halves_block (halves_empty h1 g1 g2 g3 k1 (fun b hb => k2 b _ hb) v1
      (v2' hr) (fun c x hc => hsum c x (Or.inr hc) (by omega)) (hsum2 hr)) hd
    dsimp only at e4 ⊢
    rw [e4, C.ok_bind]
    exact ⟨_, rfl, h3⟩

/-! ### The packed values -/

theorem pv_gval {t : Front.ScalarType} (ht : Is8 t) {src : Mul.Mat Int}
    (ho : src.layout.order = .colMajor) {zp : Int} (h1 : -128 ≤ zp) (h2 : zp ≤ 127)
    {bs base toff bc c k : Nat} {rem : Int} (hrem : rem = (src.layout.cols : Int) - bc) {o : Nat}
    (hoff : o = src.layout.stride * bc) (hc : c < 8) :
    pv ⟨src.data, inputXor t, xor8 zp (inputXor t), src.layout.rows, bs, base, toff⟩
      (colOf o src.layout.stride rem) c k = gval t src zp k (bc + c) := by
  subst hrem hoff
  unfold pv colVal colOf gval
  by_cases hz : (src.layout.cols : Int) - bc < 8 ∧ ((src.layout.cols : Int) - bc ≤ c ∨ c = 7)
  · rw [if_pos hz, if_neg (by omega)]
    exact xor_xor ht h1 h2
  · rw [if_neg hz]
    dsimp only
    by_cases hk : k < src.layout.rows
    · rw [if_pos hk, if_pos ⟨by omega, hk⟩, xor_pack ht]
      unfold Mat.at off
      rw [ho]
      dsimp only
      rw [show src.layout.stride * bc + c * src.layout.stride + k =
        k + (bc + c) * src.layout.stride by ring]
    · rw [if_neg hk, if_neg (by omega)]
      exact xor_xor ht h1 h2

theorem loads_ok {kc : Nat} {t : Front.ScalarType} {src : Mul.Mat Int} {lo hi : Nat} {p : PMat Int}
    (hs : Setup kc t src lo hi p) (hb : Bounds src lo hi p) {x z : Int} {bs base toff bc o : Nat}
    {rem : Int} (hrem : rem = (src.layout.cols : Int) - bc) (hoff : o = src.layout.stride * bc)
    (h1 : lo ≤ bc) (h2 : bc + 8 ≤ hi) :
    LoadsOk ⟨src.data, x, z, src.layout.rows, bs, base, toff⟩ (colOf o src.layout.stride rem) := by
  subst hrem hoff
  intro h0 c w hc hw
  dsimp only at h0 ⊢
  unfold colOf at hw
  by_cases hz : (src.layout.cols : Int) - bc < 8 ∧ ((src.layout.cols : Int) - bc ≤ c ∨ c = 7)
  · rw [if_pos hz] at hw; cases hw
  · rw [if_neg hz] at hw
    cases hw
    have := hb.src (src.layout.rows - 1) (bc + c) (by omega) (by omega)
      (by rw [hs.rows]; omega) (by omega) (by omega)
    unfold off at this
    rw [hs.srcOrder] at this
    dsimp only at this
    have e : (bc + c) * src.layout.stride = src.layout.stride * bc + c * src.layout.stride := by ring
    omega

theorem block_room {kc : Nat} {t : Front.ScalarType} {src : Mul.Mat Int} {lo hi : Nat} {p : PMat Int}
    (hkc : kc = 8 ∨ kc = 16) (hs : Setup kc t src lo hi p) (hb : Bounds src lo hi p) {bc : Nat}
    (hm : bc % kc = 0) (h1 : lo ≤ bc) (h2 : bc + kc ≤ hi) (h0 : 0 < p.layout.rows) :
    p.layout.stride * bc + kc * p.layout.rows ≤ 2 ^ 31 ∧
    p.layout.stride * bc + kc * p.layout.rows ≤ p.data.size := by
  have h4 : p.layout.rows % 4 = 0 := by rw [hs.rows]; omega
  have := hb.packed (p.layout.rows - 1) (bc + (kc - 1)) (by omega) (by omega) (by omega)
  rw [poff_block hs.kernel hs.order hkc hm (by omega)] at this
  rcases hkc with rfl | rfl <;> omega

/-- Packing eight columns at a time does what the generic code does. -/
theorem run8_filled {isa : Isa} (ok : IsaOk isa) {t : Front.ScalarType} {src : Mul.Mat Int}
    {lo hi : Nat} {p : PMat Int} (hs : Setup 8 t src lo hi p) (hb : Bounds src lo hi p) :
    ∃ q, run 8 (pack8 isa) t src lo hi p = .ok q ∧
      Filled (gval t src p.zp) (gsum t src p.zp p.layout.rows) lo hi p q := by
  refine run_filled (Or.inl rfl) hs hb (fun bc d sums hm h1 h2 hd _ hsz => ?_)
  have room := block_room (Or.inl rfl) hs hb hm h1 h2
  rw [hs.rows] at room ⊢
  refine pack8_of ok (loads_ok hs hb rfl rfl h1 h2) (fun h0 => ?_) (fun b o hbo => ?_) ?_
    (fun k c _ hc => pv_gval hs.ty hs.srcOrder hs.zp.1 hs.zp.2 rfl rfl hc)
    (fun c x _ hx1 hx2 => eq_gsum hx1 hx2)
  · rw [hd]; exact (room (by omega)).2
  · subst hbo
    obtain ⟨b0, hb0⟩ : ∃ b0, p.sums = some b0 := by
      rename_i h; exact Option.isSome_iff_exists.1 (by rw [← h]; rfl)
    obtain ⟨rfl, e⟩ := hsz _ b0 rfl hb0
    have := hb.sums b0 (o + 7) hb0 (by omega) (by omega)
    dsimp only at e
    omega
  · by_cases h0 : 0 < src.layout.rows
    · have := (room (by omega)).1
      omega
    · omega

/-- What the AVX-512 code packs at (r, c): in a block of which only the first half contains source
columns, the trailing rows of the second half are zeros. -/
def val512 (t : Front.ScalarType) (src : Mul.Mat Int) (zp : Int) (r c : Nat) : Int :=
  if src.layout.cols ≤ c / 8 * 8 ∧ 32 * (src.layout.rows / 32) ≤ r then 0 else gval t src zp r c

theorem sum_const {n : Nat} {z : Int} : ∑ _k ∈ Finset.range n, z = z * n := by
  rw [Finset.sum_const, Finset.card_range, nsmul_eq_mul, mul_comm]

theorem gsum_pad {t : Front.ScalarType} {src : Mul.Mat Int} {zp : Int} {rows c : Nat}
    (hc : src.layout.cols ≤ c) (hz : Front.InI32 (zp * rows)) :
    zp * rows = gsum t src zp rows c := by
  refine eq_gsum hz ?_
  rw [← sum_const]
  push_cast
  refine Finset.sum_congr rfl (fun k _ => ?_)
  unfold gval
  rw [if_neg (by omega)]

/-- Packing sixteen columns at a time. -/
theorem run16_filled {isa : Isa} (ok : IsaOk isa) {t : Front.ScalarType} {src : Mul.Mat Int}
    {lo hi : Nat} {p : PMat Int} (hs : Setup 16 t src lo hi p) (hb : Bounds src lo hi p)
    (hz : Front.InI32 (p.zp * p.layout.rows)) :
    ∃ q, run 16 (pack16 isa) t src lo hi p = .ok q ∧
      Filled (val512 t src p.zp) (gsum t src p.zp p.layout.rows) lo hi p q := by
  refine run_filled (Or.inr rfl) hs hb (fun bc d sums hm h1 h2 hd hsome hsz => ?_)
  have room := block_room (Or.inr rfl) hs hb hm h1 h2
  have hcov := hs.cover
  have hcol : bc < src.layout.cols := by omega
  have hxx := xor_xor hs.ty hs.zp.1 hs.zp.2
  have hgv : ∀ k c, bc ≤ c → c < bc + 8 ∨ bc + 8 < src.layout.cols ∧ c < bc + 16 →
      val512 t src p.zp k c = gval t src p.zp k c := by
    intro k c hc1 hc2
    unfold val512
    rw [if_neg (by omega)]
  rw [hs.rows] at room hz ⊢
  refine pack16_of ok (loads_ok hs hb rfl rfl h1 (by omega))
    (fun h8 => loads_ok hs hb (bc := bc + 8) (by push_cast; omega) (by ring) (by omega) (by omega))
    (fun h8 => ?_) (fun h0 => ?_) (fun b o hbo => ?_) ?_ (fun _ => by rw [hxx]; exact hz)
    (fun k c _ hc => ?_) (fun h8 k c _ hc => ?_) (fun h8 k c hk hc => ?_) (fun c x hc hc16 hx1 hx2 => ?_)
    (fun h8 c hc => ?_)
  · have := hs.int (bc + 8) (by omega) (by omega) (by omega)
    rw [Nat.mul_add] at this
    omega
  · rw [hd]; exact (room (by omega)).2
  · subst hbo
    obtain ⟨b0, hb0⟩ : ∃ b0, p.sums = some b0 := Option.isSome_iff_exists.1 (by rw [← hsome]; rfl)
    obtain ⟨e1, e⟩ := hsz _ b0 rfl hb0
    have := hb.sums b0 (bc + 15) hb0 (by omega) (by omega)
    dsimp only at e e1
    omega
  · by_cases h0 : 0 < src.layout.rows
    · have := (room (by omega)).1
      omega
    · omega
  · rw [hgv k (bc + c) (by omega) (by omega)]
    exact pv_gval hs.ty hs.srcOrder hs.zp.1 hs.zp.2 rfl rfl hc
  · rw [hgv k (bc + 8 + c) (by omega) (by omega)]
    exact pv_gval hs.ty hs.srcOrder hs.zp.1 hs.zp.2 (by push_cast; omega) (by ring) hc
  · rw [hxx]
    unfold val512 gval
    by_cases hk2 : k < 32 * (src.layout.rows / 32)
    · rw [if_neg (by omega), if_neg (by omega), if_pos hk2]
    · rw [if_pos (by omega), if_neg hk2]
  · refine eq_gsum hx1 (hx2.trans (Finset.sum_congr rfl (fun k _ => ?_)))
    rw [hgv k (bc + c) (by omega) (by omega)]
  · rw [hxx]
    exact gsum_pad (by omega) hz

end Ruy.Simd.Pack

import Verif.Simd.Pack16Loop
/-
From HalfPack16bitAvx512 to PackImpl::Run, as `Simd/PackRun.lean` for 8-bit sources.
-/
namespace Ruy.Simd.Pack16
open Ruy.Mat Ruy.Mul
open Ruy.Simd.Pack (Col colOf loadCols zeroSums fillSums shiftSums Z32 storeu_of loadu_of SumsRoom Bounds Filled
  filled_unique poff_block block_surj Block fillSums_of shiftSums_room sum_const wrap16_of)

/-! ### Values -/

/-- The value the generic code packs at (r, c) (pack.h:118-124). -/
def gval (src : Mul.Mat Int) (zp : Int) (r c : Nat) : Int :=
  if c < src.layout.cols ∧ r < src.layout.rows then Front.packInt .int16 .int16 (src.at r c) else zp

/-- The sum the generic code stores for column c, in wrap-around arithmetic. -/
def gsum (src : Mul.Mat Int) (zp : Int) (rows c : Nat) : Int :=
  (∑ r ∈ Finset.range rows, gval src zp r c).bmod (2 ^ 32)

theorem eq_gsum {src : Mul.Mat Int} {zp : Int} {rows c : Nat} {x : Int}
    (h1 : Front.InI32 x)
    (h2 : (x : Z32) = ∑ r ∈ Finset.range rows, ((gval src zp r c : Int) : Z32)) :
    x = gsum src zp rows c := by
  refine Front.eq_of_zmod h1 (Front.bmod_range _) ?_
  unfold gsum
  rw [Front.bmod_zmod]
  push_cast
  exact h2

theorem packedVal_gval {src : Mul.Mat Int} {zp : Int} {r c : Nat} {v : Int}
    (h : packedVal Front.wrap32 (Front.packInt .int16 .int16) src zp r c = .ok v) :
    v = gval src zp r c := by
  unfold packedVal at h
  unfold gval
  by_cases hc : c < src.layout.cols ∧ r < src.layout.rows
  · rw [if_pos hc] at h ⊢
    obtain ⟨x, hx, h⟩ := C.bind_ok h
    cases h
    rw [elem_at hx]
  · rw [if_neg hc] at h ⊢
    cases h; rfl

theorem colSum_gsum {src : Mul.Mat Int} {zp : Int} {rows c : Nat} {s : Int}
    (h : colSum Front.wrap32 (Front.packInt .int16 .int16) src zp rows c = .ok s) :
    s = gsum src zp rows c := by
  unfold colSum at h
  have inv := forUpTo_inv (P := fun n (x : Int) => Front.InI32 x ∧
    (x : Z32) = ∑ r ∈ Finset.range n, ((gval src zp r c : Int) : Z32))
    (by constructor
        · unfold Front.InI32; simp [Front.wrap32]
        · simp [Front.wrap32])
    (by
      rintro n x x' _ ⟨_, i2⟩ hstep
      obtain ⟨v, hv, hstep⟩ := C.bind_ok hstep
      cases hstep
      refine ⟨Front.bmod_range _, ?_⟩
      rw [Front.bmod_zmod, Finset.sum_range_succ, ← i2, packedVal_gval hv]
      push_cast; rfl) h
  exact eq_gsum inv.1 inv.2

theorem wrap_pack (x : Int) : Front.packInt .int16 .int16 x = wrap16 x := by
  unfold Front.packInt Front.ScalarType.wrap
  show (x - 0 + 0 - -32768) % (32767 - -32768 + 1) + -32768 = _
  rw [show (32767 - -32768 + 1 : Int) = 65536 by norm_num]
  unfold wrap16; omega

/-! ### Assumptions -/

/-- The assumptions on the arguments of PackImpl::Run. -/
structure Setup (src : Mul.Mat Int) (lo hi : Nat) (p : PMat Int) : Prop where
  srcOrder : src.layout.order = .colMajor
  order : p.layout.order = .colMajor
  kernel : p.layout.kernel = ⟨.colMajor, 4, 16⟩
  rows : p.layout.rows = (src.layout.rows + 3) / 4 * 4
  packedOk : PackedOk p.layout
  zp : -32768 ≤ p.zp ∧ p.zp ≤ 32767
  start : lo % 16 = 0
  stop : hi ≤ p.layout.cols
  len : (hi - lo) % 16 = 0
  /-- every block contains a source column -/
  cover : hi ≤ (src.layout.cols + 16 - 1) / 16 * 16
  /-- source offsets are ints -/
  int : ∀ c, lo ≤ c → c < hi → c < src.layout.cols → src.layout.stride * c < 2 ^ 31
  /-- and so are packed offsets; only an assumption when there is nothing to pack -/
  pint : p.layout.rows = 0 → ∀ c, c < hi → p.layout.stride * c < 2 ^ 31

theorem generic_filled {src : Mul.Mat Int} {lo hi : Nat} {p q : PMat Int}
    (hp : PackedOk p.layout) (hhi : hi ≤ p.layout.cols)
    (h : runPack Front.wrap32 (Front.packInt .int16 .int16) src lo hi p = .ok q) :
    Bounds src lo hi p ∧
    Filled (gval src p.zp) (gsum src p.zp p.layout.rows) lo hi p q := by
  obtain ⟨h1, h2, h3⟩ := runPack_ok hp hhi h
  have key : ∀ r c, r < p.layout.rows → lo ≤ c → c < hi →
      poff p.layout r c < 2 ^ 31 ∧ poff p.layout r c < p.data.size ∧
        q.data.val (poff p.layout r c) = gval src p.zp r c := by
    intro r c hr hl hh
    obtain ⟨v, e1, e2⟩ := (h3 c hl hh).data r (by rw [h1.layout]; exact hr)
    rw [h1.zp] at e2
    obtain ⟨o, f1, f2, f3⟩ := elem_ok e1
    rw [h1.layout, poffset_eq hp.kernel] at f1
    obtain ⟨g1, g2⟩ := C.int_ok f1
    rw [h1.size] at f2
    subst g1
    exact ⟨g2, f2, by rw [← f3, packedVal_gval e2]⟩
  have keys : ∀ b c, q.sums = some b → lo ≤ c → c < hi →
      c < b.size ∧ b.val c = gsum src p.zp p.layout.rows c := by
    intro b c hb hl hh
    obtain ⟨s, e1, e2⟩ := (h3 c hl hh).sums (by rw [hb]; rfl)
    rw [h1.zp, h1.layout] at e2
    unfold readSum at e1
    rw [hb] at e1
    obtain ⟨f1, f2⟩ := Buf.read_ok e1
    exact ⟨f1, by rw [← f2, colSum_gsum e2]⟩
  refine ⟨⟨fun r c hr hl hh => ⟨(key r c hr hl hh).1, (key r c hr hl hh).2.1⟩, ?_, ?_⟩,
    ⟨h1, h2, fun r c hr hl hh => (key r c hr hl hh).2.2, fun b c hb hl hh => (keys b c hb hl hh).2⟩⟩
  · intro r c hr hc hr' hl hh
    obtain ⟨v, _, e2⟩ := (h3 c hl hh).data r (by rw [h1.layout]; exact hr')
    unfold packedVal at e2
    rw [if_pos ⟨hc, hr⟩] at e2
    obtain ⟨x, hx, _⟩ := C.bind_ok e2
    unfold Mat.elem at hx
    obtain ⟨o, ho, hx⟩ := C.bind_ok hx
    rw [offset_ok ho] at hx
    exact (Buf.read_ok hx).1
  · intro b c hb hl hh
    obtain ⟨b', hb'⟩ := Option.isSome_iff_exists.1 (show q.sums.isSome by rw [h1.sums, hb]; rfl)
    rw [← h1.sumsSize b b' hb hb']
    exact (keys b' c hb' hl hh).1

theorem run_filled {src : Mul.Mat Int} {lo hi : Nat} {p : PMat Int}
    {val : Nat → Nat → Int} {sumv : Nat → Int}
    (hs : Setup src lo hi p) (hb : Bounds src lo hi p)
    (hpk : ∀ bc d sums, bc % 16 = 0 → lo ≤ bc → bc + 16 ≤ hi → d.size = p.data.size →
      sums.isSome = p.sums.isSome →
      (∀ b b0, sums = some b → p.sums = some b0 → b.2 = bc ∧ b.1.size = b0.size) →
      ∃ r, pack16 src.data (wrap16 p.zp) (src.layout.stride * bc)
        src.layout.stride ((src.layout.cols : Int) - bc) src.layout.rows (p.layout.stride * bc) d
        sums = .ok r ∧
        Block 16 p.layout.rows (p.layout.stride * bc) bc val sumv d sums r) :
    ∃ q, run src lo hi p = .ok q ∧ Filled val sumv lo hi p q := by
  unfold run
  rw [C.check_of hs.srcOrder, C.ok_bind, C.check_of hs.order, C.ok_bind, C.check_of hs.len, C.ok_bind,
    C.check_of hs.start, C.ok_bind]
  dsimp only
  have hlen : (hi - lo) / 16 * 16 = hi - lo := by
    have := hs.len
    omega
  have h4 : p.layout.rows % 4 = 0 := by rw [hs.rows]; omega
  obtain ⟨q, e, hq⟩ := forUpTo_total (n := (hi - lo) / 16) (body := fun n (w : PMat Int) => do
      let blockCol := lo + 16 * n
      let off ← C.int (src.layout.stride * blockCol)
      let poff ← C.int (w.layout.stride * blockCol)
      let r ← pack16 src.data (wrap16 p.zp) off src.layout.stride
        ((src.layout.cols : Int) - blockCol) src.layout.rows poff w.data
        (w.sums.map (fun b => (b, blockCol)))
      .ok { w with data := r.1, sums := r.2.map Prod.fst }) (s := p)
    (fun n q => Filled val sumv lo (lo + 16 * n) p q)
    (by
      refine ⟨SameShape.refl p, ⟨fun _ _ => rfl, fun b b' c h h' _ => ?_⟩,
        fun r c _ h1 h2 => ?_, fun b c _ h1 h2 => ?_⟩
      · rw [h] at h'; cases h'; rfl
      · omega
      · omega)
    (by
      intro n q hn h
      have hn' : 16 * n + 16 ≤ hi - lo := by omega
      obtain ⟨bc, hbc⟩ : ∃ bc, bc = lo + 16 * n := ⟨_, rfl⟩
      have hbm : bc % 16 = 0 := by
        have := hs.start
        rw [hbc]
        omega
      dsimp only
      rw [← hbc]
      have hcol : bc < src.layout.cols := by
        have := hs.cover
        omega
      have hkpos : 0 < 16 := by omega
      rw [C.int_of (hs.int bc (by omega) (by omega) hcol), C.ok_bind, h.shape.layout, h.shape.zp]
      have hpi : p.layout.stride * bc < 2 ^ 31 := by
        by_cases h0 : 0 < p.layout.rows
        · have := (hb.packed 0 bc h0 (by omega) (by omega)).1
          have e := poff_block hs.kernel hs.order (bc := bc) (c := 0) (r := 0) (Or.inr rfl) hbm hkpos
          rw [Nat.add_zero] at e
          rw [e] at this
          omega
        · exact hs.pint (by omega) bc (by omega)
      rw [C.int_of hpi, C.ok_bind]
      obtain ⟨r, er, hr⟩ := hpk bc q.data (q.sums.map (fun b => (b, bc))) hbm (by omega) (by omega)
        h.shape.size (by rw [Option.isSome_map, h.shape.sums])
        (by
          intro b b0 h1 h2
          obtain ⟨b1, hb1⟩ := Option.isSome_iff_exists.1
            (show q.sums.isSome by rw [h.shape.sums, h2]; rfl)
          rw [hb1] at h1
          cases h1
          exact ⟨rfl, h.shape.sumsSize b0 b1 h2 hb1⟩)
      rw [er, C.ok_bind]
      refine ⟨_, rfl, ?_⟩
      have hsum : ∀ b, q.sums = some b → ∃ b' o', r.2 = some (b', o') ∧ b'.size = b.size ∧
          (∀ c, c < 16 → b'.val (bc + c) = sumv (bc + c)) ∧
          ∀ o, (o < bc ∨ bc + 16 ≤ o) → b'.val o = b.val o := by
        intro b hb
        exact hr.sums b (by rw [hb]; rfl)
      refine ⟨⟨rfl, rfl, hr.size.trans h.shape.size, ?_, ?_⟩, ⟨?_, ?_⟩, ?_, ?_⟩
      · show (r.2.map Prod.fst).isSome = _
        rw [Option.isSome_map, ← h.shape.sums]
        cases hqs : q.sums with
        | none => rw [hr.nosums (by rw [hqs]; rfl)]; rfl
        | some b => obtain ⟨b', _, e1, _⟩ := hsum b hqs; rw [e1]; rfl
      · intro b b' h1 h2
        obtain ⟨b1, hb1⟩ := Option.isSome_iff_exists.1
          (show q.sums.isSome by rw [h.shape.sums, h1]; rfl)
        obtain ⟨b2, _, e1, e2, _⟩ := hsum b1 hb1
        change r.2.map Prod.fst = some b' at h2
        rw [e1] at h2
        cases h2
        exact e2.trans (h.shape.sumsSize b b1 h1 hb1)
      · intro o ho
        show r.1.val o = _
        rw [hr.frame o ?_, h.out.data o (fun r c hr hc => ho r c hr
          ⟨hc.1, by rw [Nat.mul_succ]; omega⟩)]
        by_contra hcon
        obtain ⟨k, c, hk, hc, hx⟩ := block_surj (kc := 16) (x := o - p.layout.stride * bc) (Or.inr rfl) h4 (by omega)
        refine ho k (bc + c) hk ⟨by omega, by rw [Nat.mul_succ]; omega⟩ ?_
        rw [poff_block hs.kernel hs.order (Or.inr rfl) hbm hc]
        omega
      · intro b b' c h1 h2 hn2
        obtain ⟨b1, hb1⟩ := Option.isSome_iff_exists.1
          (show q.sums.isSome by rw [h.shape.sums, h1]; rfl)
        obtain ⟨b2, _, e1, _, _, e4⟩ := hsum b1 hb1
        change r.2.map Prod.fst = some b' at h2
        rw [e1] at h2
        cases h2
        rw [Nat.mul_succ] at hn2
        rw [e4 c (by omega), h.out.sums b b1 c h1 hb1 (by omega)]
      · intro k c hk h1 h2
        show r.1.val _ = _
        rw [Nat.mul_succ] at h2
        by_cases hc : c < bc
        · rw [hr.frame]
          · exact h.data k c hk h1 (by omega)
          · by_contra hcon
            obtain ⟨k', c', hk', hc', hx⟩ := block_surj (kc := 16)
              (x := poff p.layout k c - p.layout.stride * bc) (Or.inr rfl) h4 (by omega)
            have e1 : poff p.layout k c = poff p.layout k' (bc + c') := by
              rw [poff_block hs.kernel hs.order (Or.inr rfl) hbm hc']
              omega
            have := (poff_inj hs.packedOk hk (by have := hs.stop; omega) hk'
              (by have := hs.stop; omega) e1).2
            omega
        · obtain ⟨c', rfl⟩ : ∃ c', c = bc + c' := ⟨c - bc, by omega⟩
          rw [poff_block hs.kernel hs.order (Or.inr rfl) hbm (by omega)]
          exact hr.data k c' hk (by omega)
      · intro b' c h1 hl hh
        change r.2.map Prod.fst = some b' at h1
        rw [Nat.mul_succ] at hh
        cases hqs : q.sums with
        | none =>
          rw [hr.nosums (by rw [hqs]; rfl)] at h1
          cases h1
        | some b =>
          obtain ⟨b2, _, e1, e2, e3, e4⟩ := hsum b hqs
          rw [e1] at h1
          cases h1
          by_cases hc : c < bc
          · rw [e4 c (by omega)]
            exact h.sums b c hqs hl (by omega)
          · obtain ⟨c', rfl⟩ : ∃ c', c = bc + c' := ⟨c - bc, by omega⟩
            exact e3 c' (by omega))
  refine ⟨q, e, ?_⟩
  have : lo + 16 * ((hi - lo) / 16) = lo + (hi - lo) := by rw [Nat.mul_comm, hlen]
  rw [this] at hq
  by_cases hlh : lo ≤ hi
  · rw [show lo + (hi - lo) = hi by omega] at hq
    exact hq
  · have conv : ∀ c, lo ≤ c ∧ c < lo + (hi - lo) ↔ lo ≤ c ∧ c < hi := by intro c; omega
    exact ⟨hq.shape, ⟨fun o ho => hq.out.data o (fun r c hr hc => ho r c hr ((conv c).1 hc)),
      fun b b' c h1 h2 hn => hq.out.sums b b' c h1 h2 (fun hc => hn ((conv c).1 hc))⟩,
      fun r c hr h1 h2 => by omega, fun b c hb h1 h2 => by omega⟩

/-! ### One block of columns -/

theorem copyTrailing_of {rows base : Nat} {data trailing : Buf Int}
    (hd : 0 < rows % 16 → base + 16 * ((rows + 3) / 4 * 4) ≤ data.size)
    (ht : 256 ≤ trailing.size) :
    ∃ d, copyTrailing rows base data trailing = .ok d ∧ d.size = data.size ∧
      (0 < rows % 16 → ∀ x, x < 16 * ((rows + 3) / 4 * 4 - (rows - rows % 16)) →
        d.val (base + 16 * (rows - rows % 16) + x) = trailing.val x) ∧
      ∀ o, (rows % 16 = 0 ∨ o < base + 16 * (rows - rows % 16) ∨
        base + 16 * ((rows + 3) / 4 * 4) ≤ o) → d.val o = data.val o := by
  unfold copyTrailing
  by_cases h0 : 0 < rows % 16
  · rw [if_pos h0]
    dsimp only
    have hle : rows - rows % 16 ≤ (rows + 3) / 4 * 4 := by omega
    have hk : 16 * ((rows + 3) / 4 * 4 - (rows - rows % 16)) ≤ 16 * 16 :=
      Nat.mul_le_mul_left 16 (by omega)
    have hs : 16 * (rows - rows % 16) + 16 * ((rows + 3) / 4 * 4 - (rows - rows % 16)) =
        16 * ((rows + 3) / 4 * 4) := by
      rw [← Nat.mul_add]; congr 1; omega
    rw [loadu_of (by omega), C.ok_bind]
    obtain ⟨d, e, s, v, f⟩ := storeu_of
      (n := 16 * ((rows + 3) / 4 * 4 - (rows - rows % 16))) (b := data)
      (off := base + 16 * (rows - rows % 16)) (r := fun i => trailing.val (0 + i))
      (by have := hd h0; omega)
    refine ⟨d, e, s, fun _ x hx => ?_, fun o ho => f o ?_⟩
    · rw [v x hx, Nat.zero_add]
    · omega
  · rw [if_neg h0]
    exact ⟨data, rfl, rfl, fun h => absurd h h0, fun _ _ => rfl⟩

theorem zeroHalf_of {rows base : Nat} {v : Int} {data : Buf Int}
    (hd : 0 < rows / 16 → base + 64 * (4 * (rows / 16) - 1) + 32 ≤ data.size) :
    ∃ d, zeroHalf rows v base data = .ok d ∧ d.size = data.size ∧
      (∀ blk i, blk < 4 * (rows / 16) → i < 32 → d.val (base + blk * 64 + i) = v) ∧
      ∀ o, (∀ blk i, blk < 4 * (rows / 16) → i < 32 → o ≠ base + blk * 64 + i) →
        d.val o = data.val o := by
  unfold zeroHalf
  obtain ⟨d, e, h⟩ := forUpTo_total (n := (rows - rows % 16) / 4)
    (body := fun k (d : Buf Int) => storeu 32 d (base + 64 * k) (set1 v)) (s := data)
    (fun n (d : Buf Int) => d.size = data.size ∧
      (∀ blk i, blk < n → i < 32 → d.val (base + blk * 64 + i) = v) ∧
      ∀ o, (∀ blk i, blk < n → i < 32 → o ≠ base + blk * 64 + i) → d.val o = data.val o)
    ⟨rfl, fun _ _ h => by omega, fun _ _ => rfl⟩
    (by
      rintro n d hn ⟨h1, h2, h3⟩
      obtain ⟨d', e, s, w, f⟩ := storeu_of (n := 32) (b := d) (off := base + 64 * n) (r := set1 v)
        (by have := hd (by omega); omega)
      refine ⟨d', e, s.trans h1, fun blk i hb hi => ?_, fun o ho => ?_⟩
      · by_cases hb2 : blk = n
        · subst hb2
          rw [show base + blk * 64 + i = base + 64 * blk + i by omega, w i hi]; rfl
        · rw [f _ (by omega), h2 blk i (by omega) hi]
      · rw [f, h3 o (fun blk i hb hi => ho blk i (by omega) hi)]
        by_contra hcon
        exact ho n (o - (base + 64 * n)) (by omega) (by omega) (by omega))
  have hn : (rows - rows % 16) / 4 = 4 * (rows / 16) := by omega
  rw [hn] at h e
  exact ⟨d, by rw [hn]; exact e, h⟩

/-- The state after both halves of a block of sixteen columns. -/
structure Halves (rows base bc : Nat) (val : Nat → Nat → Int) (sumv : Nat → Int) (d : Buf Int)
    (sums : Option (Buf Int × Nat)) (r : Buf Int × Buf Int × Option (Buf Int × Nat)) : Prop where
  dsize : r.1.size = d.size
  tsize : r.2.1.size = 256
  data : ∀ blk i, blk < 4 * (rows / 16) → i < 64 →
    r.1.val (base + blk * 64 + i) = val (4 * blk + i % 4) (bc + i / 4)
  dframe : ∀ o, (o < base ∨ base + 16 * ((rows + 3) / 4 * 4) ≤ o) → r.1.val o = d.val o
  trail : 0 < rows % 16 → ∀ j i, 16 * (rows / 16) + 4 * j + i % 4 < (rows + 3) / 4 * 4 → i < 64 →
    r.2.1.val (j * 64 + i) = val (16 * (rows / 16) + 4 * j + i % 4) (bc + i / 4)
  nosums : sums = none → r.2.2 = none
  sums : ∀ b, sums = some (b, bc) → ∃ b', r.2.2 = some (b', bc + 8) ∧ b'.size = b.size ∧
    (∀ c, c < 16 → b'.val (bc + c) = sumv (bc + c)) ∧
    ∀ o, (o < bc ∨ bc + 16 ≤ o) → b'.val o = b.val o

/-- The first half of a block of sixteen columns. -/
theorem half_first {src : Buf Int} {zp : Int} {cols : Nat → Col}
    (hz : -32768 ≤ zp ∧ zp ≤ 32767) {rows base : Nat} {d : Buf Int} {sums : Option (Buf Int × Nat)}
    (hl : LoadsOk ⟨src, zp, rows, base, 0⟩ cols)
    (hd : 0 < rows → base + 16 * ((rows + 3) / 4 * 4) ≤ d.size) (hs : SumsRoom sums)
    (hi : rows + 31 < 2 ^ 31) :
    ∃ r, halfPacker ⟨src, zp, rows, base, 0⟩ cols d ⟨256, fun _ => 0⟩ sums = .ok r ∧
      Packed8 ⟨src, zp, rows, base, 0⟩ cols d ⟨256, fun _ => 0⟩ sums r :=
  halfPacker_of hl
    ⟨fun h0 => by have := hd (by dsimp only at h0; omega); dsimp only at h0 ⊢; omega,
      by dsimp only; omega, hz⟩ hs hi

theorem half_second {src : Buf Int} {zp : Int} {cols : Nat → Col}
    (hz : -32768 ≤ zp ∧ zp ≤ 32767) {rows base : Nat} {d tr : Buf Int} {sums : Option (Buf Int × Nat)}
    (hl : LoadsOk ⟨src, zp, rows, base + 32, 32⟩ cols)
    (hd : 0 < rows → base + 16 * ((rows + 3) / 4 * 4) ≤ d.size) (ht : tr.size = 256)
    (hs : SumsRoom sums) (hi : rows + 31 < 2 ^ 31) :
    ∃ r, halfPacker ⟨src, zp, rows, base + 32, 32⟩ cols d tr sums = .ok r ∧
      Packed8 ⟨src, zp, rows, base + 32, 32⟩ cols d tr sums r :=
  halfPacker_of hl
    ⟨fun h0 => by have := hd (by dsimp only at h0; omega); dsimp only at h0 ⊢; omega,
      by dsimp only; omega, hz⟩ hs hi

/-- Both halves are source columns, at least in part. -/
theorem halves_full {src : Buf Int} {zp : Int} {cols cols' : Nat → Col}
    {rows base bc : Nat} {d : Buf Int} {sums : Option (Buf Int × Nat)}
    {val : Nat → Nat → Int} {sumv : Nat → Int}
    {r1 r2 : Buf Int × Buf Int × Option (Buf Int × Nat)}
    (h1 : Packed8 ⟨src, zp, rows, base, 0⟩ cols d ⟨256, fun _ => 0⟩ sums r1)
    (h2 : Packed8 ⟨src, zp, rows, base + 32, 32⟩ cols' r1.1 r1.2.1
      (shiftSums 8 r1.2.2) r2)
    (v1 : ∀ k c, k < (rows + 3) / 4 * 4 → c < 8 →
      pv ⟨src, zp, rows, base, 0⟩ cols c k = val k (bc + c))
    (v2 : ∀ k c, k < (rows + 3) / 4 * 4 → c < 8 →
      pv ⟨src, zp, rows, base + 32, 32⟩ cols' c k = val k (bc + 8 + c))
    (hsum : ∀ c x, c < 16 → Front.InI32 x → (x : Z32) =
      ∑ k ∈ Finset.range ((rows + 3) / 4 * 4), ((val k (bc + c) : Int) : Z32) → x = sumv (bc + c)) :
    Halves rows base bc val sumv d sums r2 := by
  have d1 := h1.data
  have d2 := h2.data
  have f1 := h1.dframe
  have f2 := h2.dframe
  have t1 := h1.trail
  have t2 := h2.trail
  have u1 := h1.tframe
  have u2 := h2.tframe
  dsimp only at d1 d2 f1 f2 t1 t2 u1 u2
  refine ⟨h2.dsize.trans h1.dsize, h2.tsize.trans h1.tsize, fun blk i hb hi => ?_,
    fun o ho => ?_, fun h0 j i hj hi => ?_, fun hn => ?_, fun b hb => ?_⟩
  · by_cases h : i < 32
    · rw [f2 _ (fun blk' i' _ _ => by omega), d1 blk i hb h, v1 _ _ (by omega) (by omega)]
    · rw [show base + blk * 64 + i = base + 32 + blk * 64 + (i - 32) by omega,
        d2 blk (i - 32) hb (by omega), v2 _ _ (by omega) (by omega)]
      congr 1 <;> omega
  · rw [f2 o (fun blk' i' _ _ => by omega), f1 o (fun blk' i' _ _ => by omega)]
  · by_cases h : i < 32
    · rw [u2 _ (fun j' i' _ _ => by omega), show j * 64 + i = 0 + j * 64 + i by omega,
        t1 h0 j i (by omega) h, v1 _ _ (by omega) (by omega)]
    · rw [show j * 64 + i = 32 + j * 64 + (i - 32) by omega,
        t2 h0 j (i - 32) (by omega) (by omega), v2 _ _ (by omega) (by omega)]
      congr 1 <;> omega
  · rw [h2.nosums (by rw [h1.nosums hn]; rfl)]
  · obtain ⟨b1, e1, s1, w1, g1⟩ := h1.sums b bc hb
    obtain ⟨b2, e2, s2, w2, g2⟩ := h2.sums b1 (bc + 8) (by rw [e1]; rfl)
    refine ⟨b2, e2, s2.trans s1, fun c hc => ?_, fun o ho => ?_⟩
    · by_cases h : c < 8
      · rw [g2 _ (by omega)]
        obtain ⟨x1, x2⟩ := w1 c h
        refine hsum c _ hc x1 (x2.trans ?_)
        exact Finset.sum_congr rfl (fun k hk => by rw [v1 k c (Finset.mem_range.1 hk) h])
      · obtain ⟨x1, x2⟩ := w2 (c - 8) (by omega)
        rw [show bc + 8 + (c - 8) = bc + c by omega] at x1 x2
        refine hsum c _ hc x1 (x2.trans ?_)
        exact Finset.sum_congr rfl (fun k hk => by
          rw [v2 k (c - 8) (Finset.mem_range.1 hk) (by omega),
            show bc + 8 + (c - 8) = bc + c by omega])
    · rw [g2 o (by omega), g1 o (by omega)]

/-- The second half contains no source column. -/
theorem halves_empty {src : Buf Int} {zp : Int} {cols : Nat → Col}
    {rows base bc : Nat} {d d2 : Buf Int} {sums s2 : Option (Buf Int × Nat)}
    {val : Nat → Nat → Int} {sumv : Nat → Int}
    {r1 : Buf Int × Buf Int × Option (Buf Int × Nat)} {z zs : Int}
    (h1 : Packed8 ⟨src, zp, rows, base, 0⟩ cols d ⟨256, fun _ => 0⟩ sums r1)
    (hd2s : d2.size = r1.1.size)
    (hd2 : ∀ blk i, blk < 4 * (rows / 16) → i < 32 → d2.val (base + 32 + blk * 64 + i) = z)
    (hd2f : ∀ o, (∀ blk i, blk < 4 * (rows / 16) → i < 32 → o ≠ base + 32 + blk * 64 + i) →
        d2.val o = r1.1.val o)
    (hsn : shiftSums 8 r1.2.2 = none → s2 = none)
    (hss : ∀ b, shiftSums 8 r1.2.2 = some (b, bc + 8) → ∃ b', s2 = some (b', bc + 8) ∧
      b'.size = b.size ∧ (∀ c, c < 8 → b'.val (bc + 8 + c) = zs) ∧
      ∀ o, (o < bc + 8 ∨ bc + 8 + 8 ≤ o) → b'.val o = b.val o)
    (v1 : ∀ k c, k < (rows + 3) / 4 * 4 → c < 8 →
      pv ⟨src, zp, rows, base, 0⟩ cols c k = val k (bc + c))
    (v2 : ∀ k c, k < (rows + 3) / 4 * 4 → c < 8 →
      val k (bc + 8 + c) = if k < 16 * (rows / 16) then z else 0)
    (hsum : ∀ c x, c < 8 → Front.InI32 x → (x : Z32) =
      ∑ k ∈ Finset.range ((rows + 3) / 4 * 4), ((val k (bc + c) : Int) : Z32) → x = sumv (bc + c))
    (hsum2 : ∀ c, c < 8 → zs = sumv (bc + 8 + c)) :
    Halves rows base bc val sumv d sums (d2, r1.2.1, s2) := by
  have d1 := h1.data
  have f1 := h1.dframe
  have t1 := h1.trail
  have u1 := h1.tframe
  dsimp only at d1 f1 t1 u1
  refine ⟨hd2s.trans h1.dsize, h1.tsize, fun blk i hb hi => ?_,
    fun o ho => ?_, fun h0 j i hj hi => ?_, fun hn => ?_, fun b hb => ?_⟩
  · dsimp only
    by_cases h : i < 32
    · rw [hd2f _ (fun blk' i' _ _ => by omega), d1 blk i hb h, v1 _ _ (by omega) (by omega)]
    · rw [show base + blk * 64 + i = base + 32 + blk * 64 + (i - 32) by omega,
        hd2 blk (i - 32) hb (by omega), show bc + i / 4 = bc + 8 + (i / 4 - 8) by omega,
        v2 _ _ (by omega) (by omega), if_pos (by omega)]
  · dsimp only
    rw [hd2f o (fun blk' i' _ _ => by omega), f1 o (fun blk' i' _ _ => by omega)]
  · dsimp only
    by_cases h : i < 32
    · rw [show j * 64 + i = 0 + j * 64 + i by omega,
        t1 h0 j i (by omega) h, v1 _ _ (by omega) (by omega)]
    · rw [u1 _ (fun j' i' _ _ => by omega), show bc + i / 4 = bc + 8 + (i / 4 - 8) by omega,
        v2 _ _ hj (by omega), if_neg (by omega)]
  · exact hsn (by rw [h1.nosums hn]; rfl)
  · obtain ⟨b1, e1, s1, w1, g1⟩ := h1.sums b bc hb
    obtain ⟨b2, e2, s2', w2, g2⟩ := hss b1 (by rw [e1]; rfl)
    refine ⟨b2, e2, s2'.trans s1, fun c hc => ?_, fun o ho => ?_⟩
    · by_cases h : c < 8
      · rw [g2 _ (by omega)]
        obtain ⟨x1, x2⟩ := w1 c h
        refine hsum c _ h x1 (x2.trans ?_)
        exact Finset.sum_congr rfl (fun k hk => by rw [v1 k c (Finset.mem_range.1 hk) h])
      · rw [show bc + c = bc + 8 + (c - 8) by omega, w2 (c - 8) (by omega)]
        exact hsum2 (c - 8) (by omega)
    · rw [g2 o (by omega), g1 o (by omega)]

/-- From the halves to the block. -/
theorem halves_block {rows base bc : Nat} {d : Buf Int} {sums : Option (Buf Int × Nat)}
    {val : Nat → Nat → Int} {sumv : Nat → Int} {r : Buf Int × Buf Int × Option (Buf Int × Nat)}
    (h : Halves rows base bc val sumv d sums r)
    (hd : 0 < rows → base + 16 * ((rows + 3) / 4 * 4) ≤ d.size) :
    ∃ d', copyTrailing rows base r.1 r.2.1 = .ok d' ∧
      Block 16 ((rows + 3) / 4 * 4) base bc val sumv d sums (d', r.2.2) := by
  obtain ⟨d', e', s', v', f'⟩ := copyTrailing_of (rows := rows) (base := base)
    (data := r.1) (trailing := r.2.1)
    (fun h0 => by rw [h.dsize]; exact hd (by omega)) (by rw [h.tsize])
  refine ⟨d', e', s'.trans h.dsize, fun k c hk hc => ?_, fun o ho => ?_, h.nosums, fun b hb => ?_⟩
  · dsimp only
    by_cases hk2 : k < 16 * (rows / 16)
    · rw [f' _ (by omega),
        show base + (k / 4 * (4 * 16) + (c * 4 + k % 4)) = base + k / 4 * 64 + (c * 4 + k % 4) by omega,
        h.data (k / 4) (c * 4 + k % 4) (by omega) (by omega),
        show (c * 4 + k % 4) / 4 = c by omega, show 4 * (k / 4) + (c * 4 + k % 4) % 4 = k by omega]
    · have h0 : 0 < rows % 16 := by omega
      rw [show base + (k / 4 * (4 * 16) + (c * 4 + k % 4)) = base + 16 * (rows - rows % 16) +
          ((k - 16 * (rows / 16)) / 4 * 64 + (c * 4 + k % 4)) by omega,
        v' h0 _ (by omega),
        h.trail h0 ((k - 16 * (rows / 16)) / 4) (c * 4 + k % 4) (by omega) (by omega),
        show (c * 4 + k % 4) / 4 = c by omega,
        show 16 * (rows / 16) + 4 * ((k - 16 * (rows / 16)) / 4) + (c * 4 + k % 4) % 4 = k by omega]
  · dsimp only
    rw [f' o (by omega), h.dframe o ho]
  · obtain ⟨b', e1, e2⟩ := h.sums b hb
    exact ⟨b', _, e1, e2⟩

theorem pack16_of {src : Buf Int} {zp : Int} {off stride : Nat}
    {remaining : Int} {rows base bc : Nat} {d : Buf Int} {sums : Option (Buf Int × Nat)}
    {val : Nat → Nat → Int} {sumv : Nat → Int}
    (hl : LoadsOk ⟨src, zp, rows, base, 0⟩ (colOf off stride remaining))
    (hl2 : 8 < remaining → LoadsOk ⟨src, zp, rows, base + 32, 32⟩
      (colOf (off + stride * 8) stride (remaining - 8)))
    (hst : 8 < remaining → stride * 8 < 2 ^ 31)
    (hd : 0 < rows → base + 16 * ((rows + 3) / 4 * 4) ≤ d.size)
    (hs : ∀ b o, sums = some (b, o) → o = bc ∧ bc + 16 ≤ b.size)
    (hi : rows + 31 < 2 ^ 31)
    (hzp : -32768 ≤ zp ∧ zp ≤ 32767) (hz : remaining ≤ 8 → Front.InI32 (zp * ((rows + 3) / 4 * 4 : Nat)))
    (v1 : ∀ k c, k < (rows + 3) / 4 * 4 → c < 8 →
      pv ⟨src, zp, rows, base, 0⟩ (colOf off stride remaining) c k = val k (bc + c))
    (v2 : 8 < remaining → ∀ k c, k < (rows + 3) / 4 * 4 → c < 8 →
      pv ⟨src, zp, rows, base + 32, 32⟩
        (colOf (off + stride * 8) stride (remaining - 8)) c k = val k (bc + 8 + c))
    (v2' : remaining ≤ 8 → ∀ k c, k < (rows + 3) / 4 * 4 → c < 8 →
      val k (bc + 8 + c) = if k < 16 * (rows / 16) then zp else 0)
    (hsum : ∀ c x, (8 < remaining ∨ c < 8) → c < 16 → Front.InI32 x → (x : Z32) =
      ∑ k ∈ Finset.range ((rows + 3) / 4 * 4), ((val k (bc + c) : Int) : Z32) → x = sumv (bc + c))
    (hsum2 : remaining ≤ 8 → ∀ c, c < 8 →
      zp * ((rows + 3) / 4 * 4 : Nat) = sumv (bc + 8 + c)) :
    ∃ r, pack16 src zp off stride remaining rows base d sums = .ok r ∧
      Block 16 ((rows + 3) / 4 * 4) base bc val sumv d sums r := by
  obtain ⟨r1, e1, h1⟩ := half_first (sums := sums) hzp hl hd
    (fun b o h => by obtain ⟨rfl, h⟩ := hs b o h; omega) hi
  have hroom : SumsRoom (shiftSums 8 r1.2.2) := by
    cases hsm : sums with
    | none =>
      rw [h1.nosums hsm]
      intro b o h
      cases h
    | some bo =>
      obtain ⟨b, o⟩ := bo
      obtain ⟨rfl, hb⟩ := hs b o hsm
      obtain ⟨b', e, g, _⟩ := h1.sums b o hsm
      rw [e]
      exact shiftSums_room hb g
  unfold pack16
  rw [e1, C.ok_bind]
  by_cases hr : 8 < remaining
  · rw [if_pos hr, C.int_of (hst hr), C.ok_bind]
    obtain ⟨r2, e2, h2⟩ := half_second (d := r1.1) (tr := r1.2.1) (sums := shiftSums 8 r1.2.2)
      hzp (hl2 hr) (fun h0 => by rw [h1.dsize]; exact hd h0) h1.tsize hroom hi
    rw [e2, C.ok_bind]
    obtain ⟨d', e3, h3⟩ := halves_block (halves_full h1 h2 v1 (v2 hr)
      (fun c x hc => hsum c x (Or.inl hr) hc)) hd
    dsimp only
    rw [e3, C.ok_bind]
    exact ⟨_, rfl, h3⟩
  · rw [if_neg hr]
    have hr : remaining ≤ 8 := by omega
    obtain ⟨d2, e2, g1, g2, g3⟩ := zeroHalf_of (rows := rows) (base := base + 32)
      (v := zp) (data := r1.1)
      (fun h0 => by rw [h1.dsize]; have := hd (by omega); omega)
    obtain ⟨s2, e3, k1, k2⟩ := fillSums_of (hz hr) hroom
    rw [e2, C.ok_bind, e3, C.ok_bind, C.ok_bind]
    obtain ⟨d', e4, h3⟩ := halves_block (halves_empty h1 g1 g2 g3 k1 (fun b hb => k2 b _ hb) v1
      (v2' hr) (fun c x hc => hsum c x (Or.inr hc) (by omega)) (hsum2 hr)) hd
    dsimp only at e4 ⊢
    rw [e4, C.ok_bind]
    exact ⟨_, rfl, h3⟩

/-! ### The packed values -/

theorem pv_gval {src : Mul.Mat Int}
    (ho : src.layout.order = .colMajor) {zp : Int} 
    {base toff bc c k : Nat} {rem : Int} (hrem : rem = (src.layout.cols : Int) - bc) {o : Nat}
    (hoff : o = src.layout.stride * bc) (hc : c < 8) :
    pv ⟨src.data, zp, src.layout.rows, base, toff⟩
      (colOf o src.layout.stride rem) c k = gval src zp k (bc + c) := by
  subst hrem hoff
  unfold pv colOf gval
  by_cases hz : (src.layout.cols : Int) - bc < 8 ∧ ((src.layout.cols : Int) - bc ≤ c ∨ c = 7)
  · rw [if_pos hz, if_neg (by omega)]
  · rw [if_neg hz]
    dsimp only
    by_cases hk : k < src.layout.rows
    · rw [if_pos hk, if_pos ⟨by omega, hk⟩, ← wrap_pack]
      unfold Mat.at off
      rw [ho]
      dsimp only
      rw [show src.layout.stride * bc + c * src.layout.stride + k =
        k + (bc + c) * src.layout.stride by ring]
    · rw [if_neg hk, if_neg (by omega)]

theorem loads_ok {src : Mul.Mat Int} {lo hi : Nat} {p : PMat Int}
    (hs : Setup src lo hi p) (hb : Bounds src lo hi p) {z : Int} {base toff bc o : Nat}
    {rem : Int} (hrem : rem = (src.layout.cols : Int) - bc) (hoff : o = src.layout.stride * bc)
    (h1 : lo ≤ bc) (h2 : bc + 8 ≤ hi) :
    LoadsOk ⟨src.data, z, src.layout.rows, base, toff⟩ (colOf o src.layout.stride rem) := by
  subst hrem hoff
  intro h0 c w hc hw
  dsimp only at h0 ⊢
  unfold colOf at hw
  by_cases hz : (src.layout.cols : Int) - bc < 8 ∧ ((src.layout.cols : Int) - bc ≤ c ∨ c = 7)
  · rw [if_pos hz] at hw; cases hw
  · rw [if_neg hz] at hw
    cases hw
    have := hb.src (src.layout.rows - 1) (bc + c) (by omega) (by omega)
      (by rw [hs.rows]; omega) (by omega) (by omega)
    unfold off at this
    rw [hs.srcOrder] at this
    dsimp only at this
    have e : (bc + c) * src.layout.stride = src.layout.stride * bc + c * src.layout.stride := by ring
    omega

theorem block_room {src : Mul.Mat Int} {lo hi : Nat} {p : PMat Int}
    (hs : Setup src lo hi p) (hb : Bounds src lo hi p) {bc : Nat}
    (hm : bc % 16 = 0) (h1 : lo ≤ bc) (h2 : bc + 16 ≤ hi) (h0 : 0 < p.layout.rows) :
    p.layout.stride * bc + 16 * p.layout.rows ≤ 2 ^ 31 ∧
    p.layout.stride * bc + 16 * p.layout.rows ≤ p.data.size := by
  have h4 : p.layout.rows % 4 = 0 := by rw [hs.rows]; omega
  have := hb.packed (p.layout.rows - 1) (bc + (16 - 1)) (by omega) (by omega) (by omega)
  rw [poff_block hs.kernel hs.order (Or.inr rfl) hm (by omega)] at this
  omega

/-- What the AVX-256 code packs at (r, c): in a block of which only the first half contains source
columns, the trailing rows of the second half are zeros. -/
def val512 (src : Mul.Mat Int) (zp : Int) (r c : Nat) : Int :=
  if src.layout.cols ≤ c / 8 * 8 ∧ 16 * (src.layout.rows / 16) ≤ r then 0 else gval src zp r c

theorem gsum_pad {src : Mul.Mat Int} {zp : Int} {rows c : Nat}
    (hc : src.layout.cols ≤ c) (hz : Front.InI32 (zp * rows)) :
    zp * rows = gsum src zp rows c := by
  refine eq_gsum hz ?_
  rw [← sum_const]
  push_cast
  refine Finset.sum_congr rfl (fun k _ => ?_)
  unfold gval
  rw [if_neg (by omega)]

/-- Packing sixteen columns at a time. -/
theorem run16_filled {src : Mul.Mat Int}
    {lo hi : Nat} {p : PMat Int} (hs : Setup src lo hi p) (hb : Bounds src lo hi p)
    (hz : Front.InI32 (p.zp * p.layout.rows)) :
    ∃ q, run src lo hi p = .ok q ∧
      Filled (val512 src p.zp) (gsum src p.zp p.layout.rows) lo hi p q := by
  refine run_filled hs hb (fun bc d sums hm h1 h2 hd hsome hsz => ?_)
  have room := block_room hs hb hm h1 h2
  have hcov := hs.cover
  have hcol : bc < src.layout.cols := by omega
  have hxx := wrap16_of hs.zp.1 hs.zp.2
  have hgv : ∀ k c, bc ≤ c → c < bc + 8 ∨ bc + 8 < src.layout.cols ∧ c < bc + 16 →
      val512 src p.zp k c = gval src p.zp k c := by
    intro k c hc1 hc2
    unfold val512
    rw [if_neg (by omega)]
  rw [hs.rows] at room hz ⊢
  rw [hxx]
  refine pack16_of (loads_ok hs hb rfl rfl h1 (by omega))
    (fun h8 => loads_ok hs hb (bc := bc + 8) (by push_cast; omega) (by ring) (by omega) (by omega))
    (fun h8 => ?_) (fun h0 => ?_) (fun b o hbo => ?_) ?_ hs.zp (fun _ => hz)
    (fun k c _ hc => ?_) (fun h8 k c _ hc => ?_) (fun h8 k c hk hc => ?_) (fun c x hc hc16 hx1 hx2 => ?_)
    (fun h8 c hc => ?_)
  · have := hs.int (bc + 8) (by omega) (by omega) (by omega)
    rw [Nat.mul_add] at this
    omega
  · rw [hd]; exact (room (by omega)).2
  · subst hbo
    obtain ⟨b0, hb0⟩ : ∃ b0, p.sums = some b0 := Option.isSome_iff_exists.1 (by rw [← hsome]; rfl)
    obtain ⟨e1, e⟩ := hsz _ b0 rfl hb0
    have := hb.sums b0 (bc + 15) hb0 (by omega) (by omega)
    dsimp only at e e1
    omega
  · by_cases h0 : 0 < src.layout.rows
    · have := (room (by omega)).1
      omega
    · omega
  · rw [hgv k (bc + c) (by omega) (by omega)]
    exact pv_gval hs.srcOrder rfl rfl hc
  · rw [hgv k (bc + 8 + c) (by omega) (by omega)]
    exact pv_gval hs.srcOrder (by push_cast; omega) (by ring) hc
  · unfold val512 gval
    by_cases hk2 : k < 16 * (src.layout.rows / 16)
    · rw [if_neg (by omega), if_neg (by omega), if_pos hk2]
    · rw [if_pos (by omega), if_neg hk2]
  · refine eq_gsum hx1 (hx2.trans (Finset.sum_congr rfl (fun k _ => ?_)))
    rw [hgv k (bc + c) (by omega) (by omega)]
  · exact gsum_pad (by omega) hz

end Ruy.Simd.Pack16

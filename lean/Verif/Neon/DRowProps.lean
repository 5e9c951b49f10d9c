import Verif.Neon.DRowLoop
import Verif.Neon.DPackProps
/-
Property C67: packing of row-major 8-bit matrices for the AArch64 dot-product kernels.

  c67_asm        the `asm` statement: it stops, accesses only its buffers, and stores four packed rows and the
                 updated sums
  c67_pack       `PackImpl::Run` around it: every run ends without a fault and leaves the packed columns and
                 their sums
  c67_layout     packed entries are where the layout of the packed matrix says
  c67_generic    the portable packing code stores the same entries and sums
  c67_orders     packing a column-major matrix with the same elements (C66) leaves the same packed matrix
  c67_padding    rows and columns beyond the source hold the zero point
  c67_null_sums  what happens without sums
  c67_overflow   what happens if `src_stride * block_row` does not fit an int
-/
namespace Ruy.Neon.DRowCall
open Simd (wrap8 wrap32)
open PackCall (int8 packInt_shift)

/-- C67, one group of rows: for every state at the start of the statement, whatever the other registers hold. -/
theorem c67_asm {j : RJob} (hf : j.Fits) {s : St} (h : j.Start s) : ∃ s', Stops j.env drowCode s s' ∧ j.Result s' :=
  RJob.whole hf h

variable {p : DRowCall} {start stop : Nat} {m : Region → Nat → Byte}

/-- C67: packing columns [start, stop).  There is a run, and every run ends without a fault, with the columns
and their sums in memory. -/
theorem c67_pack (hf : p.Fits start stop) :
    (∃ r, p.Run start stop m r) ∧ ∀ r, p.Run start stop m r → ∃ m', r = .ok m' ∧ p.Packed start stop m m' := by
  have ha := hf.aligned
  have ho := hf.order
  unfold Run
  simp only [if_pos hf.aligned.1, if_pos (show p.hasSums = true ∧ start ≤ stop ∧ 4 * stop ≤ p.size .sums from
    ⟨hf.sums.1, by omega, hf.sums.2⟩)]
  refine loop_ok hf (p.packedRows / 4) 0 (p.cleared start stop m) (by have := hf.depth.1; omega) rfl ?_ (fun o _ => ?_)
  · refine ⟨fun c h1 h2 k hk => by omega, fun c h1 h2 b hb => ?_, fun o _ => ?_, fun o h => ?_, fun r h1 h2 h3 => ?_⟩
    · unfold cleared
      rw [if_neg (by decide), if_pos rfl, if_pos (by omega), Finset.sum_range_zero]
      interval_cases b <;> rfl
    · unfold cleared; rw [if_neg (by decide), if_neg (by decide)]
    · unfold cleared; rw [if_neg (by decide), if_pos rfl, if_neg (by omega)]
    · unfold cleared; rw [if_neg h3, if_neg h2]
  · unfold cleared; rw [if_pos rfl]

/-- Entries are where `Offset` (mat.h:338-347) puts them in a column-major packed matrix with kernel layout
`FixedKernelLayout<kColMajor, 4, 8>`. -/
theorem c67_layout {l : Mat.PMatLayout} (ho : l.order = .colMajor) (hk : l.kernel = ⟨.colMajor, 4, 8⟩)
    (hs : l.stride = p.packedStride) {k c : Nat} (h : p.spot k c < 2 ^ 31) :
    Mat.poffset l k c = .ok (p.spot k c) := by
  have e : Mat.poff l k c = p.spot k c := by
    unfold Mat.poff Mat.innerOff spot
    rw [ho, hk, hs]
    dsimp only
    ring
  rw [Mat.poffset_eq (by rw [hk]; exact ⟨⟨2, rfl⟩, ⟨3, rfl⟩⟩), e]
  exact C.int_of h

/-- A matrix of the generic model whose entries are the bytes of the source. -/
structure Mirrors (p : DRowCall) (m : Region → Nat → Byte) (t : Front.ScalarType) (src : Mul.Mat Int)
    (q : Mul.PMat Int) : Prop where
  ty : t = if p.unsigned then .uint8 else .int8
  rows : src.layout.rows = p.rows
  cols : src.layout.cols = p.cols
  values : ∀ k c, k < p.rows → c < p.cols → src.at k c = p.element m k c
  zp : q.zp = Front.packInt t .int8 p.zp
  layout : Mat.createPackedLayout src.layout ⟨.colMajor, 4, 8⟩ = .ok q.layout
  packedRows : q.layout.rows = p.packedRows
  stride : q.layout.stride = p.packedStride

/-- C67: agreement with the portable packing code (pack.h:104-151).  If that packs the same columns of the
same matrix, it stores the same entries and sums. -/
theorem c67_generic (hf : p.Fits start stop) {t : Front.ScalarType} {src : Mul.Mat Int} {q q' : Mul.PMat Int}
    (hm : p.Mirrors m t src q) (hh : stop ≤ q.layout.cols)
    (hg : Mul.runPack Front.wrap32 (Front.packInt t .int8) src start stop q = .ok q')
    {m' : Region → Nat → Byte} (h : p.Run start stop m (.ok m')) :
    (∀ c, start ≤ c → c < stop → ∀ k, k < q.layout.rows → q'.data.val (Mat.poff q.layout k c) =
      int8 (m' .packed (p.spot k c)) ∧ Mat.poff q.layout k c = p.spot k c) ∧
    ∀ sums, q'.sums = some sums → ∀ c, start ≤ c → c < stop → ∀ b, b < 4 →
      m' .sums (4 * c + b) = byteOf (sums.val c) b := by
  obtain ⟨m1, e1, hp⟩ := (c67_pack hf).2 _ h
  cases e1
  obtain ⟨hok, l1, l2, l3, l4, l5, l6, l7⟩ := Mat.createPackedLayout_ok hm.layout
  obtain ⟨_, hfl⟩ := Simd.Pack.generic_filled hok hh hg
  have hr : q.layout.rows = p.packedRows := hm.packedRows
  have ew : ∀ k c, k < q.layout.rows → Simd.Pack.gval t src q.zp k c = p.wanted m k c := by
    intro k c hk
    have ps : ∀ {v : Int}, (if p.unsigned then 0 ≤ v ∧ v ≤ 255 else -128 ≤ v ∧ v ≤ 127) → Front.packInt t .int8 v = v - p.shift :=
      fun {v} hv => packInt_shift (p := ⟨false, p.unsigned, p.rows, p.cols, p.stride, p.zp, p.packedStride, p.hasSums, p.size⟩) hm.ty hv
    unfold Simd.Pack.gval wanted
    rw [hm.cols, hm.rows]
    by_cases hkc : k < p.rows ∧ c < p.cols
    · rw [if_pos hkc, if_pos hkc.symm, hm.values k c hkc.1 hkc.2, ps]
      unfold element
      cases p.unsigned <;> simp only [Bool.false_eq_true, if_false, if_true]
      · have h1 := BitVec.toInt_lt (x := m .src (p.stride * k + c))
        have h2 := BitVec.le_toInt (x := m .src (p.stride * k + c))
        norm_num at h1 h2
        omega
      · have := byte_lt (m .src (p.stride * k + c))
        omega
    · rw [if_neg hkc, if_neg (fun x => hkc x.symm), hm.zp, ps hf.zp]
  have ep : ∀ k c, Mat.poff q.layout k c = p.spot k c := by
    intro k c
    unfold Mat.poff Mat.innerOff spot
    rw [l1, l3, hm.stride]
    dsimp only
    ring
  refine ⟨fun c h1 h2 k hk => ⟨?_, ep k c⟩, fun sums hs c h1 h2 b hb => ?_⟩
  · rw [hfl.data k c hk h1 h2, ew k c hk, hp.entry c h1 h2 k (hr ▸ hk)]
  · rw [hfl.sums sums c hs h1 h2, hp.sum c h1 h2 b hb]
    congr 1
    unfold Simd.Pack.gsum
    rw [← hr, Finset.sum_congr rfl (fun k hk => (ew k c (Finset.mem_range.1 hk)).symm)]
    unfold wrap32 Int.bmod
    norm_num
    generalize (∑ k ∈ Finset.range q.layout.rows, Simd.Pack.gval t src q.zp k c) = x
    split <;> omega

/-- C67: the order of the source does not matter.  If the column-major matrix of `q` has the same elements, then
packing it with either function for column-major matrices leaves the same packed columns and sums. -/
theorem c67_orders {q : PackCall} (hf : p.Fits start stop) (hq : DPack.CallFits q start stop)
    (hu : q.unsigned = p.unsigned) (hr : q.rows = p.rows) (hc : q.cols = p.cols) (hz : q.zp = p.zp)
    (hk : p.packedRows = DPack.packedRows q) (hst : q.packedStride = p.packedStride) (hs : q.hasSums = true)
    {m2 : Region → Nat → Byte} (he : ∀ k c, k < p.rows → c < p.cols → q.element m2 k c = p.element m k c)
    (hpk : m2 .packed = m .packed) (hsm : m2 .sums = m .sums) {r r' : Region → Nat → Byte}
    (h : p.Run start stop m (.ok r)) (h' : DPack.Run q start stop m2 (.ok r')) :
    r .packed = r' .packed ∧ r .sums = r' .sums := by
  obtain ⟨m3, e1, h1⟩ := (c67_pack hf).2 _ h
  obtain ⟨m4, e2, h2⟩ := (DPack.c66_pack hq).2 _ h'
  cases e1; cases e2
  have w : ∀ k c, q.wanted m2 k c = p.wanted m k c := by
    intro k c
    unfold wanted PackCall.wanted shift PackCall.shift
    rw [hu, hr, hc, hz]
    by_cases hkc : k < p.rows ∧ c < p.cols
    · rw [if_pos hkc, if_pos hkc, he k c hkc.1 hkc.2]
    · rw [if_neg hkc, if_neg hkc]
  have pl : ∀ k c, DPack.spot q k c = p.spot k c := by
    intro k c; unfold DPack.spot spot; rw [hst]
  constructor
  · funext o
    by_cases ho : ∀ c, start ≤ c → c < stop → ∀ k, k < p.packedRows → o ≠ p.spot k c
    · rw [h1.restPacked o ho, h2.restPacked o (fun c c1 c2 k k1 => by rw [pl]; exact ho c c1 c2 k (by rw [hk]; exact k1)), hpk]
    · push Not at ho
      obtain ⟨c, c1, c2, k, k1, rfl⟩ := ho
      have a := h1.entry c c1 c2 k k1
      have b := h2.entry c c1 c2 k (by rw [← hk]; exact k1)
      rw [w, pl] at b
      exact BitVec.eq_of_toInt_eq (a.trans b.symm)
  · funext o
    by_cases ho : o < 4 * start ∨ 4 * stop ≤ o
    · rw [h1.restSums o ho, h2.restSums o (fun _ => ho), hsm]
    · have a := h1.sum (o / 4) (by omega) (by omega) (o % 4) (by omega)
      have b := h2.sum hs (o / 4) (by omega) (by omega) (o % 4) (by omega)
      rw [show 4 * (o / 4) + o % 4 = o by omega] at a b
      rw [a, b, hk, Finset.sum_congr rfl (fun k _ => w k (o / 4))]

/-- Rows and columns beyond the source hold the zero point, shifted like the elements. -/
theorem c67_padding (hf : p.Fits start stop) {m' : Region → Nat → Byte} (h : p.Run start stop m (.ok m')) {k c : Nat}
    (h1 : start ≤ c) (h2 : c < stop) (hk : k < p.packedRows) (ho : p.rows ≤ k ∨ p.cols ≤ c) :
    int8 (m' .packed (p.spot k c)) = p.zp - p.shift := by
  obtain ⟨m1, e1, hp⟩ := (c67_pack hf).2 _ h
  cases e1
  rw [hp.entry c h1 h2 k hk]
  unfold wanted
  rw [if_neg (by omega)]

/-- Without sums, unlike the packing of column-major matrices, every call is undefined. -/
theorem c67_null_sums (hs : p.hasSums = false) (ha : start % 8 = 0) (r : C (Region → Nat → Byte)) :
    p.Run start stop m r ↔ r = .error .ub := by
  unfold Run
  rw [if_pos ha, if_neg (fun h => by rw [hs] at h; exact absurd h.1 (by decide))]

/-- A matrix with rows 2^29 bytes apart: the offset of row 4 is computed in `int` and overflows, although all
buffers fit in memory. -/
theorem c67_overflow : ∃ p : DRowCall, p.rows = 8 ∧ p.cols = 8 ∧ p.packedRows = 8 ∧
    p.stride * (p.rows - 1) + p.cols ≤ p.size .src ∧ p.size .src < 2 ^ 33 ∧
    ∀ m, ¬∃ m', p.Run 0 8 m (.ok m') := by
  refine ⟨⟨false, 8, 8, 2 ^ 29, 0, 8, 8, true, fun _ => 2 ^ 33 - 1⟩, rfl, rfl, rfl, by norm_num, by norm_num, fun m => ?_⟩
  rintro ⟨m', h⟩
  unfold Run at h
  rw [if_pos (by decide), if_pos (by decide)] at h
  have two : ∀ m m', ¬Loop ⟨false, 8, 8, 2 ^ 29, 0, 8, 8, true, fun _ => 2 ^ 33 - 1⟩ 0 8 4 m (.ok m') := by
    intro m m' h
    cases h with
    | done h => exact absurd h (by decide)
    | next h e => cases e
  cases h with
  | done h => exact absurd h (by decide)
  | next h e hst hsp hok hl => exact two _ _ hl

/-! ### Examples -/

/-- A 6 × 13 uint8 matrix with stride 17 and zero point 100, packed into 8 × 16. -/
def exCall : DRowCall :=
  ⟨true, 6, 13, 17, 100, 8, 8, true, fun r => match r with | .src => 98 | .packed => 128 | .sums => 64 | _ => 0⟩

theorem exCall_fits : exCall.Fits 0 16 := by
  refine ⟨by decide, by decide, by decide, by decide, by decide, by decide, fun k hk c hc => ?_,
    by decide, by decide, fun k hk => ?_, by decide⟩
  · show 17 * k + c < 98
    have hc : c < 13 := hc
    have hk : k < 6 := hk
    omega
  · show 17 * k < _
    have hk : k < 8 := hk
    omega

def exMem (r : Region) (o : Nat) : Byte := if r = .src then BitVec.ofNat 8 (3 * o + 7) else 0xee

example : ∃ m', exCall.Run 0 16 exMem (.ok m') := by
  obtain ⟨⟨r, h⟩, h2⟩ := c67_pack (m := exMem) exCall_fits
  obtain ⟨m', rfl, _⟩ := h2 r h
  exact ⟨m', h⟩

example {m' : Region → Nat → Byte} (h : exCall.Run 0 16 exMem (.ok m')) :
    int8 (m' .packed 0) = -121 ∧ int8 (m' .packed 1) = -70 ∧ int8 (m' .packed 4) = -118 ∧ int8 (m' .packed 34) = -28 ∧
      int8 (m' .packed 84) = -28 := by
  obtain ⟨m1, e1, hp⟩ := (c67_pack exCall_fits).2 _ h
  cases e1
  have e1 := hp.entry 0 (by decide) (by decide) 0 (by decide)
  have e2 := hp.entry 0 (by decide) (by decide) 1 (by decide)
  have e3 := hp.entry 1 (by decide) (by decide) 0 (by decide)
  have e4 := hp.entry 0 (by decide) (by decide) 6 (by decide)
  have e5 := hp.entry 13 (by decide) (by decide) 0 (by decide)
  exact ⟨e1.trans (by decide), e2.trans (by decide), e3.trans (by decide), e4.trans (by decide), e5.trans (by decide)⟩

/-- The hypotheses of `c67_asm`: the second group of rows of the same call. -/
example : (exCall.job 0 16 4 exMem).Fits ∧ (exCall.job 0 16 4 exMem).Start (exCall.job 0 16 4 exMem).begin :=
  ⟨job_fits exCall_fits (by decide) (by decide), RJob.begin_ok _⟩

/-- The same matrix in the generic model. -/
def exSrc : Mul.Mat Int := ⟨⟨6, 13, 17, .rowMajor⟩, ⟨98, fun o => ((3 * o + 7) % 256 : Nat)⟩, 100⟩
def exPacked : Mul.PMat Int := ⟨⟨8, 16, 8, .colMajor, ⟨.colMajor, 4, 8⟩⟩, ⟨128, fun _ => 0⟩, some ⟨16, fun _ => 0⟩, -28⟩

example : exCall.Mirrors exMem .uint8 exSrc exPacked ∧
    (Mul.runPack Front.wrap32 (Front.packInt .uint8 .int8) exSrc 0 16 exPacked).toOption.isSome := by
  refine ⟨⟨rfl, rfl, rfl, fun k c hk hc => ?_, rfl, by decide, rfl, rfl⟩, by decide +kernel⟩
  have e : Mat.off exSrc.layout k c = 17 * k + c := by
    unfold Mat.off exSrc
    dsimp only
    ring
  unfold Mul.Mat.at
  rw [e]
  show (((3 * (17 * k + c) + 7) % 256 : Nat) : Int) = ((BitVec.ofNat 8 (3 * (17 * k + c) + 7)).toNat : Int)
  rw [BitVec.toNat_ofNat]

/-- The hypotheses of `c67_orders`: the same elements by columns, with stride 7. -/
def exCols : PackCall :=
  ⟨true, true, 6, 13, 7, 100, 8, true, fun r => match r with | .src => 91 | .packed => 128 | .sums => 64 | _ => 0⟩

def exMemCols (r : Region) (o : Nat) : Byte := if r = .src then BitVec.ofNat 8 (3 * (17 * (o % 7) + o / 7) + 7) else 0xee

example : DPack.CallFits exCols 0 16 ∧ exCall.packedRows = DPack.packedRows exCols ∧
    ∀ k c, k < 6 → c < 13 → exCols.element exMemCols k c = exCall.element exMem k c := by
  refine ⟨⟨by decide, by decide, by decide, by decide, by decide, fun c hc k hk => ?_, by decide, fun _ => by decide, fun c hc => ?_⟩,
    rfl, fun k c hk hc => ?_⟩
  · show 7 * c + k < 91
    have hc : c < 13 := hc
    have hk : k < 6 := hk
    omega
  · show 7 * c < _ ∧ 8 * c < _
    omega
  · show ((BitVec.ofNat 8 (3 * (17 * ((7 * c + k) % 7) + (7 * c + k) / 7) + 7)).toNat : Int) = ((BitVec.ofNat 8 (3 * (17 * k + c) + 7)).toNat : Int)
    rw [show (7 * c + k) % 7 = k by omega, show (7 * c + k) / 7 = c by omega]

end Ruy.Neon.DRowCall

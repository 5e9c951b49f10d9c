import Verif.Arm8.RowLoop
import Verif.Arm8.PackProps
import Verif.Neon.RowProps
/-
Property C86: packing of row-major 8-bit matrices on 32-bit ARM.

  c86_four               with four kernel columns (LHS) this is what AArch64 does: all of C56 applies
  c86_pack               two kernel columns (RHS): the call returns, accesses only its buffers, and leaves the packed
                         columns and their sums; nothing else changes
  c86_layout             packed entries are where the layout of the packed matrix says
  c86_generic_partial    source columns are packed as by the portable code; missing: columns beyond the
                         source, where this is false
  c86_generic_false      a concrete matrix for which they differ there
  c86_padding            columns beyond the source: 0 instead of the zero point, and sum 0
  c86_order              source columns are packed as from a column-major matrix with the same elements (C84)
  c86_null_sums          the pointer to the sums is not tested
  c86_overflow           an offset in the source that does not fit an int
-/
namespace Ruy.Arm8.Row
open Ruy.Neon (RowCall PackCall Memory Region Vec Byte byteOf wr)
open Ruy.Neon.RowCall (wanted element upto wrap32_bmod byteOf_wrap32 st_of)
open Simd (wrap8 wrap32)

variable {a : RowCall} {lo hi : Nat} {m m' : Memory}

theorem two (f : Nat → Memory → C Memory) (m : Memory) : forUpTo 2 f m = f 0 m >>= f 1 := by
  simp only [forUpTo, C.ok_bind]

theorem four (f : Nat → Memory → C Memory) (m : Memory) : forUpTo 4 f m = f 0 m >>= fun m => f 1 m >>= fun m => f 2 m >>= f 3 := by
  simp only [forUpTo, C.ok_bind, bind_assoc]

/-- For four kernel columns two stores of two vectors are one of four. -/
theorem store4_eq (a : RowCall) (p : Nat) (w : Nat → Vec) (k : Memory → C (Memory × Nat)) (m : Memory) :
    (store2 a m p w 0 >>= fun m => store2 a m (p + 32) w 2 >>= k) =
      forUpTo 4 (fun i m => a.st m .packed (p + 16 * i) 16 (RowCall.combine (w i) (w (i + 8)))) m >>= k ∧
    (store2 a m p w 4 >>= fun m => store2 a m (p + 32) w 6 >>= k) =
      forUpTo 4 (fun i m => a.st m .packed (p + 16 * i) 16 (RowCall.combine (w (i + 4)) (w (i + 12)))) m >>= k := by
  unfold store2
  simp only [two, four, bind_assoc]
  trivial

theorem vecStep_four (a : RowCall) : vecStep 4 a = a.vecStep := by
  funext br srcOff lo v s
  unfold vecStep RowCall.vecStep
  simp only [show ¬(4 = 2) by decide, if_false, C.ok_bind]
  simp only [store4_eq]

/-- C86, LHS: with four kernel columns the code is the one of AArch64. -/
theorem c86_four : run 4 = RowCall.run := by
  have e1 : advance 4 = RowCall.advance := rfl
  have e2 : scalarStep 4 = RowCall.scalarStep := rfl
  have e3 : zeroStep 4 = RowCall.zeroStep := rfl
  have e4 : blockRow 4 = RowCall.blockRow := by
    funext a lo hi br m
    unfold blockRow RowCall.blockRow
    rw [vecStep_four, e2, e3]
  funext a lo hi m
  unfold run RowCall.run
  rw [e4]

/-- C86, RHS: packing columns [lo, hi) for two kernel columns. -/
theorem c86_pack (hf : Fits a lo hi) : ∃ m', run 2 a lo hi m = .ok m' ∧ Packed a lo hi m m' := by
  obtain ⟨m', e, h⟩ := run_ok (m0 := m) hf
  have hd := hf.depth.1
  have u : ∀ c, lo ≤ c → upto (a.packedRows / 16) lo c = a.packedRows := fun c hc => by
    unfold upto; rw [if_neg (by omega)]; omega
  refine ⟨m', e, fun c c1 c2 k hk => ?_, fun c c1 c2 b hb => ?_, h.restPacked, h.restSums, h.rest⟩
  · rw [h.entry c c1 c2 k (by rw [u c c1]; exact hk), byteAt_toInt hf]
  · rw [h.sum c c1 c2 b hb, u c c1, Finset.sum_congr rfl (fun k _ => byteAt_toInt hf k c)]

/-- Entries are where `Offset` (mat.h:338-347) puts them in a column-major packed matrix with kernel layout
`FixedKernelLayout<kColMajor, 16, 2>`. -/
theorem c86_layout {l : Mat.PMatLayout} (ho : l.order = .colMajor) (hk : l.kernel = ⟨.colMajor, 16, 2⟩)
    (hs : l.stride = a.packedStride) {k c : Nat} (h : place a k c < 2 ^ 31) :
    Mat.poffset l k c = .ok (place a k c) := by
  have e : Mat.poff l k c = place a k c := by
    unfold Mat.poff Mat.innerOff place
    rw [ho, hk, hs]
    dsimp only
    ring
  rw [Mat.poffset_eq (by rw [hk]; exact ⟨⟨4, rfl⟩, ⟨1, rfl⟩⟩), e]
  exact C.int_of h

/-- A matrix of the generic model whose entries are the bytes of the source. -/
structure Mirrors (a : RowCall) (m : Memory) (t : Front.ScalarType) (src : Mul.Mat Int) (q : Mul.PMat Int) : Prop where
  ty : t = if a.unsigned then .uint8 else .int8
  rows : src.layout.rows = a.rows
  cols : src.layout.cols = a.cols
  values : ∀ k c, k < a.rows → c < a.cols → src.at k c = a.element m k c
  zp : q.zp = a.packedZp
  layout : Mat.createPackedLayout src.layout ⟨.colMajor, 16, 2⟩ = .ok q.layout
  prows : q.layout.rows = a.packedRows
  stride : q.layout.stride = a.packedStride

/-- What the generic code stores in source columns. -/
theorem gval_wanted {t : Front.ScalarType} {src : Mul.Mat Int} {q : Mul.PMat Int} (hm : Mirrors a m t src q) (k : Nat)
    {c : Nat} (hc : c < a.cols) : Simd.Pack.gval t src q.zp k c = a.wanted m k c := by
  have ht := hm.ty
  unfold Simd.Pack.gval wanted
  rw [hm.cols, hm.rows, if_pos hc]
  by_cases hk : k < a.rows
  · rw [if_pos ⟨hc, hk⟩, if_pos hk, hm.values k c hk hc]
    unfold element
    cases hu : a.unsigned <;> rw [hu] at ht <;> simp only [Bool.false_eq_true, if_false, if_true] at ht ⊢ <;> subst ht
    · have := RowCall.toInt_range (m .src (a.stride * k + c))
      rw [Front.packInt_of (by decide) this.1 this.2]
      show _ - (0 : Int) + 0 = _
      omega
    · have := Neon.byte_lt (m .src (a.stride * k + c))
      rw [Front.packInt_of (by decide) (show (0 : Int) ≤ _ by omega) (show _ ≤ (255 : Int) by omega)]
      show _ - (128 : Int) + 0 = _
      omega
  · rw [if_neg (fun h => hk h.2), if_neg hk, hm.zp]

/-- C86, agreement with the portable packing code (pack.h:104-151): if that packs the same columns of the same
matrix, it stores the same entries and sums in all source columns.

The full statement would drop `c < a.cols`; `c86_padding` shows that it would be false. -/
theorem c86_generic_partial (hf : Fits a lo hi) {t : Front.ScalarType} {src : Mul.Mat Int} {q q' : Mul.PMat Int}
    (hm : Mirrors a m t src q) (hh : hi ≤ q.layout.cols)
    (hg : Mul.runPack Front.wrap32 (Front.packInt t .int8) src lo hi q = .ok q') (h : run 2 a lo hi m = .ok m')
    {c : Nat} (c1 : lo ≤ c) (c2 : c < hi) (hc : c < a.cols) :
    (∀ k, k < q.layout.rows → q'.data.val (Mat.poff q.layout k c) = (m' .packed (place a k c)).toInt ∧
      Mat.poff q.layout k c = place a k c) ∧
    ∀ sums, q'.sums = some sums → ∀ b, b < 4 → m' .sums (4 * c + b) = byteOf (sums.val c) b := by
  obtain ⟨m1, e1, hp⟩ := c86_pack (m := m) hf
  obtain rfl : m1 = m' := by rw [e1] at h; exact Except.ok.inj h
  obtain ⟨hok, l1, l2, l3, _⟩ := Mat.createPackedLayout_ok hm.layout
  obtain ⟨_, hfl⟩ := Simd.Pack.generic_filled hok hh hg
  have ep : ∀ k, Mat.poff q.layout k c = place a k c := by
    intro k
    unfold Mat.poff Mat.innerOff place
    rw [l1, l3, hm.stride]
    dsimp only
    ring
  refine ⟨fun k hk => ⟨?_, ep k⟩, fun sums hs b hb => ?_⟩
  · rw [hfl.data k c hk c1 c2, gval_wanted hm k hc, hp.entry c c1 c2 k (hm.prows ▸ hk)]
  · rw [hfl.sums sums c hs c1 c2, hp.sum c c1 c2 b hb]
    unfold Simd.Pack.gsum
    rw [wrap32_bmod, byteOf_wrap32 _ hb, hm.prows, Finset.sum_congr rfl (fun k _ => (gval_wanted hm k hc).symm)]

/-- Columns beyond the source: entries and sum are 0.  The portable code stores the zero point there. -/
theorem c86_padding (hf : Fits a lo hi) (h : run 2 a lo hi m = .ok m') {c : Nat} (c1 : lo ≤ c) (c2 : c < hi) (hc : a.cols ≤ c) :
    (∀ k, k < a.packedRows → (m' .packed (place a k c)).toInt = 0) ∧ ∀ b, b < 4 → m' .sums (4 * c + b) = 0 := by
  obtain ⟨m1, e1, hp⟩ := c86_pack (m := m) hf
  obtain rfl : m1 = m' := by rw [e1] at h; exact Except.ok.inj h
  have z : ∀ k, a.wanted m k c = 0 := fun k => by unfold wanted; rw [if_neg (by omega)]
  refine ⟨fun k hk => by rw [hp.entry c c1 c2 k hk, z], fun b hb => ?_⟩
  rw [hp.sum c c1 c2 b hb, Finset.sum_congr rfl (fun k _ => z k), Finset.sum_const_zero]
  interval_cases b <;> rfl

/-- A row-major and a column-major matrix with the same elements are packed alike in source columns, for two
kernel columns. -/
theorem c86_order (hf : Fits a lo hi) {p : PackCall} (hfp : Pack.CallFits 2 p lo hi) (h1 : p.unsigned = a.unsigned) (h2 : p.rows = a.rows)
    (h3 : p.cols = a.cols) (h4 : p.packedStride = a.packedStride) (h5 : p.packedRows = a.packedRows)
    (h6 : a.packedZp = p.zp - p.shift) (h7 : p.hasSums = true) {mp mp' : Memory}
    (hsame : ∀ k c, k < a.rows → c < a.cols → mp .src (p.stride * c + k) = m .src (a.stride * k + c))
    (hp : Pack.Run false p lo hi mp (.ok mp')) (ha : run 2 a lo hi m = .ok m') {c : Nat} (c1 : lo ≤ c) (c2 : c < hi) (hc : c < a.cols) :
    (∀ k, k < a.packedRows → Pack.place 2 p k c = place a k c ∧ mp' .packed (place a k c) = m' .packed (place a k c)) ∧
    ∀ b, b < 4 → mp' .sums (4 * c + b) = m' .sums (4 * c + b) := by
  obtain ⟨x, e, hP⟩ := (Pack.c84_pack (wide := false) hfp).2 _ hp
  cases e
  obtain ⟨m1, e1, hA⟩ := c86_pack (m := m) hf
  obtain rfl : m1 = m' := by rw [e1] at ha; exact Except.ok.inj ha
  have pl : ∀ k, Pack.place 2 p k c = place a k c := fun k => by unfold Pack.place place; rw [h4]
  have w : ∀ k, p.wanted mp k c = a.wanted m k c := fun k => by
    unfold PackCall.wanted wanted PackCall.element element
    rw [if_pos hc, h2, h3, h1]
    by_cases hk : k < a.rows
    · rw [if_pos ⟨hk, hc⟩, if_pos hk, hsame k c hk hc]
      unfold PackCall.shift
      rw [h1]
    · rw [if_neg (fun x => hk x.1), if_neg hk, h6]
  refine ⟨fun k hk => ⟨pl k, ?_⟩, fun b hb => ?_⟩
  · have e1 := hP.entry c c1 c2 k (by rw [h5]; exact hk)
    have e2 := hA.entry c c1 c2 k hk
    rw [show Pack.place (Pack.width false) p k c = place a k c from pl k, w k, ← e2] at e1
    exact BitVec.eq_of_toInt_eq e1
  · rw [hP.sum h7 c c1 c2 b hb, hA.sum c c1 c2 b hb, byteOf_wrap32 _ hb, h5, Finset.sum_congr rfl (fun k _ => w k)]

/-- Without sums the call is undefined (`memset` on a null pointer), unlike for column-major matrices. -/
theorem c86_null_sums (h : a.hasSums = false) (h4 : (hi - lo) % 2 = 0) : run 2 a lo hi m = .error .ub := by
  unfold run
  rw [C.check_of h4, C.ok_bind, if_neg (by rw [h]; decide)]

/-- Rows 2^27 bytes apart. -/
def exWide (rows packedRows : Nat) : RowCall := ⟨false, rows, 4, 2 ^ 27, 0, packedRows, 32, true, fun _ => 2 ^ 32 - 1⟩

/-- With 17 rows `block_row * src_stride` is 2^31 and overflows, although all buffers fit in memory.  With 16
rows the call is fine. -/
theorem c86_overflow : ((exWide 17 32).stride * 16 + 4 ≤ (exWide 17 32).size .src ∧ (exWide 17 32).size .src < 2 ^ 32) ∧
    (∀ m, run 2 (exWide 17 32) 0 4 m = .error .ub) ∧ Fits (exWide 16 16) 0 4 := by
  have f : ∀ r, r ≤ 17 → Fits (exWide r 16) 0 4 := fun r hr => by
    refine ⟨by decide, by decide, show 16 % 16 = 0 ∧ 16 < 2 ^ 24 by decide, show -128 ≤ (0 : Int) ∧ (0 : Int) ≤ 127 by decide,
      show 16 ≤ 32 by decide, fun k hk c hc => ?_, show 32 * 4 ≤ 2 ^ 32 - 1 by decide,
      ⟨rfl, show 4 * 4 ≤ 2 ^ 32 - 1 by decide⟩, fun k hk => ?_, show 32 * 4 < 2 ^ 31 by decide⟩
    · change k < r at hk
      change c < 4 at hc
      show 2 ^ 27 * k + c < 2 ^ 32 - 1
      omega
    · change k < 16 at hk
      show 2 ^ 27 * k < 2 ^ 31
      omega
  refine ⟨by decide, fun m => ?_, f 16 (by decide)⟩
  obtain ⟨m', e, _⟩ := run_ok (m0 := m) (f 17 le_rfl)
  unfold run at e ⊢
  rw [C.check_of (by decide), C.ok_bind, if_pos (by rfl), st_of (by decide), C.ok_bind] at e ⊢
  rw [show ((exWide 17 32).packedRows + 15) / 16 = 1 + 1 from rfl, forUpTo]
  have e' : forUpTo 1 (fun n => blockRow 2 (exWide 17 32) 0 4 (16 * n)) (wr m .sums (4 * 0) (4 * (4 - 0)) fun _ => 0) =
    .ok m' := e
  rw [e']
  rfl

/-! ### Examples -/

/-- A 21 × 13 uint8 matrix with stride 15 and zero point 100, packed into 32 × 14; columns 2 to 13: eight at a time,
then three single ones, then one beyond the source. -/
def exCall : RowCall :=
  ⟨true, 21, 13, 15, -28, 32, 32, true, fun r => match r with | .src => 314 | .packed => 448 | .sums => 56 | _ => 0⟩

theorem exCall_fits : Fits exCall 2 14 := by
  refine ⟨by decide, by decide, by decide, by decide, by decide, fun k hk c hc => ?_, by decide, by decide,
    fun k hk => ?_, by decide⟩
  · show 15 * k + c < 314
    have hc : c < 13 := hc
    have hk : k < 21 := hk
    omega
  · show 15 * k < _
    have hk : k < 32 := hk
    omega

def exMem : Memory := fun r o => if r = .src then BitVec.ofNat 8 (3 * o + 7) else 0xee

example : ∃ m', run 2 exCall 2 14 exMem = .ok m' ∧ (m' .packed 0).toInt = -18 ∧ (m' .packed 64).toInt = -115 ∧
    (m' .packed 101).toInt = -28 ∧ (m' .packed 131).toInt = 26 ∧ (m' .packed 400).toInt = 0 := by
  obtain ⟨m', e, h⟩ := c86_pack (m := exMem) exCall_fits
  refine ⟨m', e, ?_, (h.entry 2 (by decide) (by decide) 0 (by decide)).trans (by decide),
    (h.entry 2 (by decide) (by decide) 21 (by decide)).trans (by decide), ?_,
    (h.entry 13 (by decide) (by decide) 0 (by decide)).trans (by decide)⟩
  · rw [h.restPacked 0 (fun c c1 c2 k hk he => by
      have he : 0 = 32 * (2 * (c / 2)) + 32 * (k / 16) + 16 * (c % 2) + k % 16 := he
      omega)]
    decide
  · exact (h.entry 4 (by decide) (by decide) 3 (by decide)).trans (by decide)

/-- The same matrix in the generic model. -/
def exSrc : Mul.Mat Int := ⟨⟨21, 13, 15, .rowMajor⟩, ⟨314, fun o => ((3 * o + 7) % 256 : Nat)⟩, 100⟩
def exPacked : Mul.PMat Int := ⟨⟨32, 14, 32, .colMajor, ⟨.colMajor, 16, 2⟩⟩, ⟨448, fun _ => 0⟩, some ⟨14, fun _ => 0⟩, -28⟩

example : Mirrors exCall exMem .uint8 exSrc exPacked ∧
    (Mul.runPack Front.wrap32 (Front.packInt .uint8 .int8) exSrc 2 14 exPacked).toOption.isSome := by
  refine ⟨⟨rfl, rfl, rfl, fun k c hk hc => ?_, rfl, by decide, rfl, rfl⟩, by decide +kernel⟩
  have e : Mat.off exSrc.layout k c = 15 * k + c := by
    unfold Mat.off exSrc
    dsimp only
    ring
  unfold Mul.Mat.at
  rw [e]
  show (((3 * (15 * k + c) + 7) % 256 : Nat) : Int) = ((BitVec.ofNat 8 (3 * (15 * k + c) + 7)).toNat : Int)
  rw [BitVec.toNat_ofNat]

/-- The portable code stores the zero point -28 in column 13 of that matrix, where this code stores 0. -/
theorem c86_generic_false : ∃ q' m', Mul.runPack Front.wrap32 (Front.packInt .uint8 .int8) exSrc 2 14 exPacked = .ok q' ∧
    run 2 exCall 2 14 exMem = .ok m' ∧ q'.data.val (Mat.poff exPacked.layout 0 13) = -28 ∧
    (m' .packed (place exCall 0 13)).toInt = 0 := by
  obtain ⟨m', e, _⟩ := c86_pack (m := exMem) exCall_fits
  cases h : Mul.runPack Front.wrap32 (Front.packInt .uint8 .int8) exSrc 2 14 exPacked with
  | error _ =>
    have hs : (Mul.runPack Front.wrap32 (Front.packInt .uint8 .int8) exSrc 2 14 exPacked).toOption.isSome := by decide +kernel
    rw [h] at hs
    cases hs
  | ok q' =>
    obtain ⟨hok, _⟩ := Mat.createPackedLayout_ok (src := exSrc.layout) (k := ⟨.colMajor, 16, 2⟩) (l := exPacked.layout) (by decide)
    refine ⟨q', m', rfl, e, ?_, (c86_padding exCall_fits e (by decide) (by decide) (by decide)).1 0 (by decide)⟩
    exact ((Simd.Pack.generic_filled hok (by decide) h).2.data 0 13 (by decide) (by decide) (by decide)).trans (by decide)

/-- The same matrix stored by columns, for `c86_order`. -/
def exCol : PackCall :=
  ⟨false, true, 21, 13, 25, 100, 32, true, fun r => match r with | .src => 350 | .packed => 448 | .sums => 56 | _ => 0⟩

def exColMem : Memory := fun r o => if r = .src then BitVec.ofNat 8 (3 * (15 * (o % 25) + o / 25) + 7) else 0x11

example : Pack.CallFits 2 exCol 2 14 ∧ (∀ k c, k < 21 → c < 13 →
    exColMem .src (25 * c + k) = exMem .src (15 * k + c)) ∧ exCall.packedZp = exCol.zp - exCol.shift ∧
    exCol.packedRows = exCall.packedRows := by
  refine ⟨?_, fun k c hk hc => ?_, by decide, by decide⟩
  · refine ⟨by decide, by decide, by decide, by decide, by decide, fun c hc k hk => ?_, by decide, fun _ => by decide,
      fun c hc _ => ?_⟩
    · show 25 * c + k < 350
      have hc : c < 13 := hc
      have hk : k < 21 := hk
      omega
    · show 25 * c < _ ∧ 32 * c < _
      omega
  · unfold exColMem exMem
    rw [if_pos rfl, if_pos rfl, show (25 * c + k) % 25 = k by omega, show (25 * c + k) / 25 = c by omega]

end Ruy.Arm8.Row

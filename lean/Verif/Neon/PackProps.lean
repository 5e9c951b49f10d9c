import Verif.Neon.PackLoop
import Verif.Simd.PackRun
/-
Property C55: packing of column-major 8-bit matrices on AArch64.

  c55_asm        the two `asm` statements: they stop in every case, access only their buffers, and store
                 four packed columns and their sums
  c55_pack       `PackImpl::Run` around them: every run ends without a fault and leaves the packed columns
                 and their sums
  c55_tuning     the two functions leave the same packed matrix and sums
  c55_layout     packed entries are where the layout of the packed matrix says
  c55_padding    rows and columns beyond the source hold the zero point
  c55_overflow   what happens if `packed_stride * block_col` does not fit an int
-/
namespace Ruy.Neon
open Simd (wrap8 wrap32)

/-- C55, one block: for every state at the start of either statement, whatever the other registers hold. -/
theorem c55_asm (a55 : Bool) {j : PJob} (hf : j.Fits) {s : St} (h : j.Start s) :
    ∃ s', Stops j.env (if a55 then packACode else packCode) s s' ∧ PJob.Result j s' := by
  cases a55
  · exact PJob.generic.whole hf h
  · exact PJob.a55ish.whole hf h

namespace PackCall
variable {p : PackCall} {start stop : Nat} {m : Region → Nat → Byte}

/-- C55: packing columns [start, stop).  There is a run, and every run ends without a fault, with the columns
and their sums in memory. -/
theorem c55_pack (hf : p.Fits start stop) :
    (∃ r, p.Run start stop m r) ∧ ∀ r, p.Run start stop m r → ∃ m', r = .ok m' ∧ p.Packed start stop m m' := by
  unfold Run
  simp only [if_pos hf.aligned.1]
  have ha := hf.aligned
  have ho := hf.order
  refine loop_ok hf ((stop - start) / 4) start (p.cleared m) le_rfl (by omega) ha.1 ?_ (fun o _ => ?_)
  · refine ⟨fun c h1 h2 => by omega, fun _ c h1 h2 => by omega, fun o _ => ?_, fun o _ => ?_, fun r _ _ h => ?_⟩
    · unfold cleared; rw [if_neg (by decide)]
    · unfold cleared; rw [if_neg (by decide)]
    · unfold cleared; rw [if_neg h]
  · unfold cleared; rw [if_pos rfl]

/-- Both functions leave the same packed columns, the same sums and the same other bytes. -/
theorem c55_tuning {q : PackCall} (hq : q = { p with a55 := !p.a55 }) (hf : p.Fits start stop)
    {r r' : Region → Nat → Byte} (h : p.Run start stop m (.ok r)) (h' : q.Run start stop m (.ok r')) :
    ∀ g, g ≠ .zeros → r g = r' g := by
  have hf' : q.Fits start stop := by subst hq; exact ⟨hf.1, hf.2, hf.3, hf.4, hf.5, hf.6, hf.7, hf.8, hf.9⟩
  obtain ⟨m1, e1, h1⟩ := (c55_pack hf).2 _ h
  obtain ⟨m2, e2, h2⟩ := (c55_pack hf').2 _ h'
  cases e1; cases e2
  have w : q.wanted = p.wanted := by subst hq; rfl
  have pl : q.place = p.place := by subst hq; rfl
  have pr : q.packedRows = p.packedRows := by subst hq; rfl
  have hs : q.hasSums = p.hasSums := by subst hq; rfl
  intro g hg
  by_cases g1 : g = .packed
  · subst g1
    funext o
    by_cases ho : ∀ c, start ≤ c → c < stop → ∀ k, k < p.packedRows → o ≠ p.place k c
    · rw [h1.restPacked o ho, h2.restPacked o (by rw [pl, pr]; exact ho)]
    · push Not at ho
      obtain ⟨c, c1, c2, k, k1, rfl⟩ := ho
      have a := h1.entry c c1 c2 k k1
      have b := h2.entry c c1 c2 k (by rw [pr]; exact k1)
      rw [w, pl] at b
      exact BitVec.eq_of_toInt_eq (a.trans b.symm)
  · by_cases g2 : g = .sums
    · subst g2
      funext o
      by_cases ho : p.hasSums = true → o < 4 * start ∨ 4 * stop ≤ o
      · rw [h1.restSums o ho, h2.restSums o (by rw [hs]; exact ho)]
      · push Not at ho
        obtain ⟨hh, o1, o2⟩ := ho
        have a := h1.sum hh (o / 4) (by omega) (by omega) (o % 4) (by omega)
        have b := h2.sum (by rw [hs]; exact hh) (o / 4) (by omega) (by omega) (o % 4) (by omega)
        rw [show 4 * (o / 4) + o % 4 = o by omega] at a b
        rw [a, b, w, pr]
    · rw [h1.rest g g1 g2 hg, h2.rest g g1 g2 hg]

/-- Entries are where `Offset` (mat.h:338-347) puts them in a column-major packed matrix with kernel layout
`FixedKernelLayout<kColMajor, 16, 4>`. -/
theorem c55_layout {l : Mat.PMatLayout} (ho : l.order = .colMajor) (hk : l.kernel = ⟨.colMajor, 16, 4⟩)
    (hs : l.stride = p.packedStride) {k c : Nat} (h : p.place k c < 2 ^ 31) :
    Mat.poffset l k c = .ok (p.place k c) := by
  have e : Mat.poff l k c = p.place k c := by
    unfold Mat.poff Mat.innerOff place
    rw [ho, hk, hs]
    dsimp only
    ring
  rw [Mat.poffset_eq (by rw [hk]; exact ⟨⟨4, rfl⟩, ⟨2, rfl⟩⟩), e]
  exact C.int_of h

/-- A matrix of the generic model whose entries are the bytes of the source. -/
structure Mirrors (p : PackCall) (m : Region → Nat → Byte) (t : Front.ScalarType) (src : Mul.Mat Int)
    (q : Mul.PMat Int) : Prop where
  ty : t = if p.unsigned then .uint8 else .int8
  rows : src.layout.rows = p.rows
  cols : src.layout.cols = p.cols
  values : ∀ k c, k < p.rows → c < p.cols → src.at k c = p.element m k c
  zp : q.zp = Front.packInt t .int8 p.zp
  layout : Mat.createPackedLayout src.layout ⟨.colMajor, 16, 4⟩ = .ok q.layout
  stride : q.layout.stride = p.packedStride

theorem packInt_shift {t : Front.ScalarType} (ht : t = if p.unsigned then .uint8 else .int8) {x : Int}
    (h : if p.unsigned then 0 ≤ x ∧ x ≤ 255 else -128 ≤ x ∧ x ≤ 127) : Front.packInt t .int8 x = x - p.shift := by
  unfold shift
  cases hu : p.unsigned <;> rw [hu] at h ht <;> simp only [Bool.false_eq_true, if_false, if_true] at h ht ⊢ <;> subst ht
  · rw [Front.packInt_of (by decide) h.1 h.2]
    show x - 0 + 0 = _
    omega
  · rw [Front.packInt_of (by decide) h.1 h.2]
    show x - 128 + 0 = _
    omega

/-- C55: agreement with the portable packing code (pack.h:104-151).  If that packs the same columns of the
same matrix, it stores the same entries and sums. -/
theorem c55_generic (hf : p.Fits start stop) {t : Front.ScalarType} {src : Mul.Mat Int} {q q' : Mul.PMat Int}
    (hm : p.Mirrors m t src q) (hh : stop ≤ q.layout.cols)
    (hg : Mul.runPack Front.wrap32 (Front.packInt t .int8) src start stop q = .ok q')
    {m' : Region → Nat → Byte} (h : p.Run start stop m (.ok m')) :
    (∀ c, start ≤ c → c < stop → ∀ k, k < q.layout.rows → q'.data.val (Mat.poff q.layout k c) =
      int8 (m' .packed (p.place k c)) ∧ Mat.poff q.layout k c = p.place k c) ∧
    ∀ sums, q'.sums = some sums → p.hasSums = true → ∀ c, start ≤ c → c < stop → ∀ b, b < 4 →
      m' .sums (4 * c + b) = byteOf (sums.val c) b := by
  obtain ⟨m1, e1, hp⟩ := (c55_pack hf).2 _ h
  cases e1
  obtain ⟨hok, l1, l2, l3, l4, l5, l6, l7⟩ := Mat.createPackedLayout_ok hm.layout
  obtain ⟨_, hfl⟩ := Simd.Pack.generic_filled hok hh hg
  have hr : q.layout.rows = p.packedRows := by
    have hd := hok.rows
    rw [l3] at hd
    rw [hm.rows] at l4 l5
    obtain ⟨d, hd⟩ := hd
    unfold packedRows
    dsimp only at *
    omega
  have ew : ∀ k c, k < q.layout.rows → Simd.Pack.gval t src q.zp k c = p.wanted m k c := by
    intro k c hk
    unfold Simd.Pack.gval wanted
    rw [hm.cols, hm.rows]
    by_cases hkc : k < p.rows ∧ c < p.cols
    · rw [if_pos hkc, if_pos hkc.symm, hm.values k c hkc.1 hkc.2, packInt_shift hm.ty]
      unfold element
      cases p.unsigned <;> simp only [Bool.false_eq_true, if_false, if_true]
      · have h1 := BitVec.toInt_lt (x := m .src (p.stride * c + k))
        have h2 := BitVec.le_toInt (x := m .src (p.stride * c + k))
        norm_num at h1 h2
        omega
      · have := byte_lt (m .src (p.stride * c + k))
        omega
    · rw [if_neg hkc, if_neg (fun x => hkc x.symm), hm.zp, packInt_shift hm.ty hf.zp]
  have ep : ∀ k c, Mat.poff q.layout k c = p.place k c := by
    intro k c
    unfold Mat.poff Mat.innerOff place
    rw [l1, l3, hm.stride]
    dsimp only
    ring
  refine ⟨fun c h1 h2 k hk => ⟨?_, ep k c⟩, fun sums hs hps c h1 h2 b hb => ?_⟩
  · rw [hfl.data k c hk h1 h2, ew k c hk, hp.entry c h1 h2 k (hr ▸ hk)]
  · rw [hfl.sums sums c hs h1 h2, hp.sum hps c h1 h2 b hb]
    congr 1
    unfold Simd.Pack.gsum
    rw [← hr, Finset.sum_congr rfl (fun k hk => (ew k c (Finset.mem_range.1 hk)).symm)]
    unfold wrap32 Int.bmod
    norm_num
    generalize (∑ k ∈ Finset.range q.layout.rows, Simd.Pack.gval t src q.zp k c) = x
    split <;> omega

/-- Rows and columns beyond the source hold the zero point, shifted like the elements. -/
theorem c55_padding (hf : p.Fits start stop) {m' : Region → Nat → Byte} (h : p.Run start stop m (.ok m')) {k c : Nat}
    (h1 : start ≤ c) (h2 : c < stop) (hk : k < p.packedRows) (ho : p.rows ≤ k ∨ p.cols ≤ c) :
    int8 (m' .packed (p.place k c)) = p.zp - p.shift := by
  obtain ⟨m1, e1, hp⟩ := (c55_pack hf).2 _ h
  cases e1
  rw [hp.entry c h1 h2 k hk]
  unfold wanted
  rw [if_neg (by omega)]

/-- A matrix with columns 2^30 bytes apart: the offset of the block at column 4 is computed in `int` and
overflows, although all buffers fit in memory. -/
theorem c55_overflow (a55 : Bool) : ∃ p : PackCall, p.a55 = a55 ∧ p.rows = 16 ∧ p.cols = 8 ∧
    p.stride * (p.cols - 1) + p.rows ≤ p.size .src ∧ p.size .src < 2 ^ 33 ∧
    ∀ m, p.Run 4 8 m (.error .ub) := by
  refine ⟨⟨a55, false, 16, 8, 2 ^ 30, 0, 16, true, fun _ => 2 ^ 33 - 1⟩, rfl, rfl, rfl, by norm_num, by norm_num, fun m => ?_⟩
  unfold Run
  rw [if_pos (by decide)]
  exact .overflow (by decide) (by cases a55 <;> rfl)

/-! ### Examples -/

/-- A 21 × 6 uint8 matrix with stride 25 and zero point 100, packed into 32 × 8. -/
def exCall (a55 : Bool) : PackCall :=
  ⟨a55, true, 21, 6, 25, 100, 32, true, fun r => match r with | .src => 146 | .packed => 256 | .sums => 32 | _ => 0⟩

theorem exCall_fits (a55 : Bool) : (exCall a55).Fits 0 8 := by
  refine ⟨by decide, by decide, by cases a55 <;> decide, by cases a55 <;> decide, by cases a55 <;> decide, fun c hc k hk => ?_,
    by cases a55 <;> decide, fun _ => by cases a55 <;> decide, fun c hc => ?_⟩
  · show 25 * c + k < 146
    have hc : c < 6 := hc
    have hk : k < 21 := hk
    omega
  · show 25 * c < _ ∧ 32 * c < _
    omega

def exMem (r : Region) (o : Nat) : Byte := if r = .src then BitVec.ofNat 8 (3 * o + 7) else 0xee

example (a55 : Bool) : ∃ m', (exCall a55).Run 0 8 exMem (.ok m') := by
  obtain ⟨⟨r, h⟩, h2⟩ := c55_pack (m := exMem) (exCall_fits a55)
  obtain ⟨m', rfl, _⟩ := h2 r h
  exact ⟨m', h⟩

example (a55 : Bool) {m' : Region → Nat → Byte} (h : (exCall a55).Run 0 8 exMem (.ok m')) :
    int8 (m' .packed 0) = -121 ∧ int8 (m' .packed 64) = -73 ∧ int8 (m' .packed 69) = -28 ∧ int8 (m' .packed 178) = -28 := by
  obtain ⟨m1, e1, hp⟩ := (c55_pack (exCall_fits a55)).2 _ h
  cases e1
  have e1 := hp.entry 0 (by decide) (by decide) 0 (by cases a55 <;> decide)
  have e2 := hp.entry 0 (by decide) (by decide) 16 (by cases a55 <;> decide)
  have e3 := hp.entry 0 (by decide) (by decide) 21 (by cases a55 <;> decide)
  have e4 := hp.entry 7 (by decide) (by decide) 2 (by cases a55 <;> decide)
  exact ⟨e1.trans (by cases a55 <;> decide), e2.trans (by cases a55 <;> decide), e3.trans (by cases a55 <;> decide),
    e4.trans (by cases a55 <;> decide)⟩

/-- The hypotheses of `c55_asm`: the second block of the same call. -/
example (a55 : Bool) : ((exCall a55).job 4 exMem).Fits ∧ ((exCall a55).job 4 exMem).Start ((exCall a55).job 4 exMem).begin :=
  ⟨job_fits (exCall_fits a55) (by decide), PJob.begin_ok _⟩

/-- The same matrix in the generic model. -/
def exSrc : Mul.Mat Int := ⟨⟨21, 6, 25, .colMajor⟩, ⟨146, fun o => ((3 * o + 7) % 256 : Nat)⟩, 100⟩
def exPacked : Mul.PMat Int := ⟨⟨32, 8, 32, .colMajor, ⟨.colMajor, 16, 4⟩⟩, ⟨256, fun _ => 0⟩, some ⟨8, fun _ => 0⟩, -28⟩

example (a55 : Bool) : (exCall a55).Mirrors exMem .uint8 exSrc exPacked ∧
    (Mul.runPack Front.wrap32 (Front.packInt .uint8 .int8) exSrc 0 8 exPacked).toOption.isSome := by
  refine ⟨⟨rfl, rfl, rfl, fun k c hk hc => ?_, rfl, by decide, rfl⟩, by decide +kernel⟩
  have e : Mat.off exSrc.layout k c = 25 * c + k := by
    unfold Mat.off exSrc
    dsimp only
    ring
  unfold Mul.Mat.at
  rw [e]
  show (((3 * (25 * c + k) + 7) % 256 : Nat) : Int) = ((BitVec.ofNat 8 (3 * (25 * c + k) + 7)).toNat : Int)
  rw [BitVec.toNat_ofNat]

end PackCall
end Ruy.Neon

import Verif.Neon.DPackLoop
import Verif.Neon.PackProps
/-
Property C66: packing of column-major 8-bit matrices for the AArch64 dot-product kernels.

  c66_asm        the two `asm` statements: they stop in every case, access only their buffers, and store
                 four packed columns and their sums
  c66_pack       `PackImpl::Run` around them: every run ends without a fault and leaves the packed columns
                 and their sums
  c66_tuning     the two functions leave the same packed matrix and sums
  c66_layout     packed entries are where the layout of the packed matrix says
  c66_generic    the portable packing code stores the same entries and sums
  c66_padding    rows and columns beyond the source hold the zero point
  c66_overflow   what happens if `src_stride * block_col` does not fit an int
-/
namespace Ruy.Neon.DPack
open Simd (wrap8 wrap32)
open PackCall (int8 packInt_shift)

/-- C66, one block: for every state at the start of either statement, whatever the other registers hold. -/
theorem c66_asm (a55 : Bool) {j : PJob} (hf : Fits j) {s : St} (h : j.Start s) :
    ∃ s', Stops j.env (if a55 then dpackACode else dpackCode) s s' ∧ Result j s' := by
  cases a55
  · exact generic hf h
  · exact a55ish hf h

variable {p : PackCall} {start stop : Nat} {m : Region → Nat → Byte}

/-- C66: packing columns [start, stop).  There is a run, and every run ends without a fault, with the columns
and their sums in memory. -/
theorem c66_pack (hf : CallFits p start stop) :
    (∃ r, Run p start stop m r) ∧ ∀ r, Run p start stop m r → ∃ m', r = .ok m' ∧ Packed p start stop m m' := by
  unfold Run
  simp only [if_pos hf.aligned.1]
  have ha := hf.aligned
  have ho := hf.order
  refine loop_ok hf ((stop - start) / 4) start (p.cleared m) le_rfl (by omega) (by omega) ?_ (fun o _ => ?_)
  · refine ⟨fun c h1 h2 => by omega, fun _ c h1 h2 => by omega, fun o _ => ?_, fun o _ => ?_, fun r _ _ h => ?_⟩
    · unfold PackCall.cleared; rw [if_neg (by decide)]
    · unfold PackCall.cleared; rw [if_neg (by decide)]
    · unfold PackCall.cleared; rw [if_neg h]
  · unfold PackCall.cleared; rw [if_pos rfl]

/-- Both functions leave the same packed columns, the same sums and the same other bytes. -/
theorem c66_tuning {q : PackCall} (hq : q = { p with a55 := !p.a55 }) (hf : CallFits p start stop)
    {r r' : Region → Nat → Byte} (h : Run p start stop m (.ok r)) (h' : Run q start stop m (.ok r')) :
    ∀ g, g ≠ .zeros → r g = r' g := by
  have hf' : CallFits q start stop := by subst hq; exact ⟨hf.1, hf.2, hf.3, hf.4, hf.5, hf.6, hf.7, hf.8, hf.9⟩
  obtain ⟨m1, e1, h1⟩ := (c66_pack hf).2 _ h
  obtain ⟨m2, e2, h2⟩ := (c66_pack hf').2 _ h'
  cases e1; cases e2
  have w : q.wanted = p.wanted := by subst hq; rfl
  have pl : spot q = spot p := by subst hq; rfl
  have pr : packedRows q = packedRows p := by subst hq; rfl
  have hs : q.hasSums = p.hasSums := by subst hq; rfl
  intro g hg
  by_cases g1 : g = .packed
  · subst g1
    funext o
    by_cases ho : ∀ c, start ≤ c → c < stop → ∀ k, k < packedRows p → o ≠ spot p k c
    · rw [h1.restPacked o ho, h2.restPacked o (by rw [pl, pr]; exact ho)]
    · push Not at ho
      obtain ⟨c, c1, c2, k, k1, rfl⟩ := ho
      have a := h1.entry c c1 c2 k k1
      have b := h2.entry c c1 c2 k (by rw [pr]; exact k1)
      rw [w, pl] at b
      exact BitVec.eq_of_toInt_eq (a.trans b.symm)
  · by_cases g2 : g = .sums
    · subst g2
      funext o
      by_cases ho : p.hasSums = true → o < 4 * start ∨ 4 * stop ≤ o
      · rw [h1.restSums o ho, h2.restSums o (by rw [hs]; exact ho)]
      · push Not at ho
        obtain ⟨hh, o1, o2⟩ := ho
        have a := h1.sum hh (o / 4) (by omega) (by omega) (o % 4) (by omega)
        have b := h2.sum (by rw [hs]; exact hh) (o / 4) (by omega) (by omega) (o % 4) (by omega)
        rw [show 4 * (o / 4) + o % 4 = o by omega] at a b
        rw [a, b, w, pr]
    · rw [h1.rest g g1 g2 hg, h2.rest g g1 g2 hg]

/-- Entries are where `Offset` (mat.h:338-347) puts them in a column-major packed matrix with kernel layout
`FixedKernelLayout<kColMajor, 4, 8>`. -/
theorem c66_layout {l : Mat.PMatLayout} (ho : l.order = .colMajor) (hk : l.kernel = ⟨.colMajor, 4, 8⟩)
    (hs : l.stride = p.packedStride) {k c : Nat} (h : spot p k c < 2 ^ 31) :
    Mat.poffset l k c = .ok (spot p k c) := by
  have e : Mat.poff l k c = spot p k c := by
    unfold Mat.poff Mat.innerOff spot
    rw [ho, hk, hs]
    dsimp only
    ring
  rw [Mat.poffset_eq (by rw [hk]; exact ⟨⟨2, rfl⟩, ⟨3, rfl⟩⟩), e]
  exact C.int_of h

/-- A matrix of the generic model whose entries are the bytes of the source. -/
structure Mirrors (p : PackCall) (m : Region → Nat → Byte) (t : Front.ScalarType) (src : Mul.Mat Int)
    (q : Mul.PMat Int) : Prop where
  ty : t = if p.unsigned then .uint8 else .int8
  rows : src.layout.rows = p.rows
  cols : src.layout.cols = p.cols
  values : ∀ k c, k < p.rows → c < p.cols → src.at k c = p.element m k c
  zp : q.zp = Front.packInt t .int8 p.zp
  layout : Mat.createPackedLayout src.layout ⟨.colMajor, 4, 8⟩ = .ok q.layout
  stride : q.layout.stride = p.packedStride

/-- C66: agreement with the portable packing code (pack.h:104-151).  If that packs the same columns of the
same matrix, it stores the same entries and sums. -/
theorem c66_generic (hf : CallFits p start stop) {t : Front.ScalarType} {src : Mul.Mat Int} {q q' : Mul.PMat Int}
    (hm : Mirrors p m t src q) (hh : stop ≤ q.layout.cols)
    (hg : Mul.runPack Front.wrap32 (Front.packInt t .int8) src start stop q = .ok q')
    {m' : Region → Nat → Byte} (h : Run p start stop m (.ok m')) :
    (∀ c, start ≤ c → c < stop → ∀ k, k < q.layout.rows → q'.data.val (Mat.poff q.layout k c) =
      int8 (m' .packed (spot p k c)) ∧ Mat.poff q.layout k c = spot p k c) ∧
    ∀ sums, q'.sums = some sums → p.hasSums = true → ∀ c, start ≤ c → c < stop → ∀ b, b < 4 →
      m' .sums (4 * c + b) = byteOf (sums.val c) b := by
  obtain ⟨m1, e1, hp⟩ := (c66_pack hf).2 _ h
  cases e1
  obtain ⟨hok, l1, l2, l3, l4, l5, l6, l7⟩ := Mat.createPackedLayout_ok hm.layout
  obtain ⟨_, hfl⟩ := Simd.Pack.generic_filled hok hh hg
  have hr : q.layout.rows = packedRows p := by
    have hd := hok.rows
    rw [l3] at hd
    rw [hm.rows] at l4 l5
    obtain ⟨d, hd⟩ := hd
    unfold packedRows
    dsimp only at *
    omega
  have ew : ∀ k c, k < q.layout.rows → Simd.Pack.gval t src q.zp k c = p.wanted m k c := by
    intro k c hk
    unfold Simd.Pack.gval PackCall.wanted
    rw [hm.cols, hm.rows]
    by_cases hkc : k < p.rows ∧ c < p.cols
    · rw [if_pos hkc, if_pos hkc.symm, hm.values k c hkc.1 hkc.2, packInt_shift hm.ty]
      unfold PackCall.element
      cases p.unsigned <;> simp only [Bool.false_eq_true, if_false, if_true]
      · have h1 := BitVec.toInt_lt (x := m .src (p.stride * c + k))
        have h2 := BitVec.le_toInt (x := m .src (p.stride * c + k))
        norm_num at h1 h2
        omega
      · have := byte_lt (m .src (p.stride * c + k))
        omega
    · rw [if_neg hkc, if_neg (fun x => hkc x.symm), hm.zp, packInt_shift hm.ty hf.zp]
  have ep : ∀ k c, Mat.poff q.layout k c = spot p k c := by
    intro k c
    unfold Mat.poff Mat.innerOff spot
    rw [l1, l3, hm.stride]
    dsimp only
    ring
  refine ⟨fun c h1 h2 k hk => ⟨?_, ep k c⟩, fun sums hs hps c h1 h2 b hb => ?_⟩
  · rw [hfl.data k c hk h1 h2, ew k c hk, hp.entry c h1 h2 k (hr ▸ hk)]
  · rw [hfl.sums sums c hs h1 h2, hp.sum hps c h1 h2 b hb]
    congr 1
    unfold Simd.Pack.gsum
    rw [← hr, Finset.sum_congr rfl (fun k hk => (ew k c (Finset.mem_range.1 hk)).symm)]
    unfold wrap32 Int.bmod
    norm_num
    generalize (∑ k ∈ Finset.range q.layout.rows, Simd.Pack.gval t src q.zp k c) = x
    split <;> omega

/-- Rows and columns beyond the source hold the zero point, shifted like the elements. -/
theorem c66_padding (hf : CallFits p start stop) {m' : Region → Nat → Byte} (h : Run p start stop m (.ok m')) {k c : Nat}
    (h1 : start ≤ c) (h2 : c < stop) (hk : k < packedRows p) (ho : p.rows ≤ k ∨ p.cols ≤ c) :
    int8 (m' .packed (spot p k c)) = p.zp - p.shift := by
  obtain ⟨m1, e1, hp⟩ := (c66_pack hf).2 _ h
  cases e1
  rw [hp.entry c h1 h2 k hk]
  unfold PackCall.wanted
  rw [if_neg (by omega)]

/-- A matrix with columns 2^28 bytes apart: the offset of the block at column 8 is computed in `int` and
overflows, although all buffers fit in memory. -/
theorem c66_overflow (a55 : Bool) : ∃ p : PackCall, p.a55 = a55 ∧ p.rows = 16 ∧ p.cols = 16 ∧
    p.stride * (p.cols - 1) + p.rows ≤ p.size .src ∧ p.size .src < 2 ^ 33 ∧
    ∀ m, Run p 8 16 m (.error .ub) := by
  refine ⟨⟨a55, false, 16, 16, 2 ^ 28, 0, 16, true, fun _ => 2 ^ 33 - 1⟩, rfl, rfl, rfl, by norm_num, by norm_num, fun m => ?_⟩
  unfold Run
  rw [if_pos (by decide)]
  exact .overflow (by decide) (by cases a55 <;> rfl)

/-! ### Examples -/

/-- A 21 × 6 uint8 matrix with stride 25 and zero point 100, packed into 24 × 8. -/
def exCall (a55 : Bool) : PackCall :=
  ⟨a55, true, 21, 6, 25, 100, 24, true, fun r => match r with | .src => 146 | .packed => 192 | .sums => 32 | _ => 0⟩

theorem exCall_fits (a55 : Bool) : CallFits (exCall a55) 0 8 := by
  refine ⟨by decide, by decide, by cases a55 <;> decide, by cases a55 <;> decide, by cases a55 <;> decide, fun c hc k hk => ?_,
    by cases a55 <;> decide, fun _ => by cases a55 <;> decide, fun c hc => ?_⟩
  · show 25 * c + k < 146
    have hc : c < 6 := hc
    have hk : k < 21 := hk
    omega
  · show 25 * c < _ ∧ 24 * c < _
    omega

def exMem (r : Region) (o : Nat) : Byte := if r = .src then BitVec.ofNat 8 (3 * o + 7) else 0xee

example (a55 : Bool) : ∃ m', Run (exCall a55) 0 8 exMem (.ok m') := by
  obtain ⟨⟨r, h⟩, h2⟩ := c66_pack (m := exMem) (exCall_fits a55)
  obtain ⟨m', rfl, _⟩ := h2 r h
  exact ⟨m', h⟩

example (a55 : Bool) {m' : Region → Nat → Byte} (h : Run (exCall a55) 0 8 exMem (.ok m')) :
    int8 (m' .packed 0) = -121 ∧ int8 (m' .packed 128) = -73 ∧ int8 (m' .packed 161) = -28 ∧ int8 (m' .packed 30) = -28 := by
  obtain ⟨m1, e1, hp⟩ := (c66_pack (exCall_fits a55)).2 _ h
  cases e1
  have e1 := hp.entry 0 (by decide) (by decide) 0 (by cases a55 <;> decide)
  have e2 := hp.entry 0 (by decide) (by decide) 16 (by cases a55 <;> decide)
  have e3 := hp.entry 0 (by decide) (by decide) 21 (by cases a55 <;> decide)
  have e4 := hp.entry 7 (by decide) (by decide) 2 (by cases a55 <;> decide)
  exact ⟨e1.trans (by cases a55 <;> decide), e2.trans (by cases a55 <;> decide), e3.trans (by cases a55 <;> decide),
    e4.trans (by cases a55 <;> decide)⟩

/-- The hypotheses of `c66_asm`: the second block of the same call. -/
example (a55 : Bool) : Fits (job (exCall a55) 4 exMem) ∧ (job (exCall a55) 4 exMem).Start (job (exCall a55) 4 exMem).begin :=
  ⟨job_fits (exCall_fits a55) (by decide) (by decide), PJob.begin_ok _⟩

/-- The same matrix in the generic model. -/
def exSrc : Mul.Mat Int := ⟨⟨21, 6, 25, .colMajor⟩, ⟨146, fun o => ((3 * o + 7) % 256 : Nat)⟩, 100⟩
def exPacked : Mul.PMat Int := ⟨⟨24, 8, 24, .colMajor, ⟨.colMajor, 4, 8⟩⟩, ⟨192, fun _ => 0⟩, some ⟨8, fun _ => 0⟩, -28⟩

example (a55 : Bool) : Mirrors (exCall a55) exMem .uint8 exSrc exPacked ∧
    (Mul.runPack Front.wrap32 (Front.packInt .uint8 .int8) exSrc 0 8 exPacked).toOption.isSome := by
  refine ⟨⟨rfl, rfl, rfl, fun k c hk hc => ?_, rfl, by decide, rfl⟩, by decide +kernel⟩
  have e : Mat.off exSrc.layout k c = 25 * c + k := by
    unfold Mat.off exSrc
    dsimp only
    ring
  unfold Mul.Mat.at
  rw [e]
  show (((3 * (25 * c + k) + 7) % 256 : Nat) : Int) = ((BitVec.ofNat 8 (3 * (25 * c + k) + 7)).toNat : Int)
  rw [BitVec.toNat_ofNat]

end Ruy.Neon.DPack

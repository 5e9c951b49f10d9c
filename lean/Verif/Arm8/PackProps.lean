import Verif.Arm8.PackLoop
import Verif.Arm8.Props
import Verif.Neon.FlowSteps
import Verif.Simd.PackRun
/-
C84: packing of column-major 8-bit matrices on 32-bit ARM, for the kernel layouts with four columns (LHS) and two (RHS).

  c84_asm            the `asm` statements stop in every case, access only their buffers, and store packed columns and
                     their sums
  c84_pack           `PackImpl::Run` around them: every run ends without a fault and leaves the packed columns and sums
  c84_layout         packed entries are where the layout of the packed matrix says
  c84_generic        the portable packing code leaves the same
  c84_padding        rows and columns beyond the source hold the zero point
  c84_offsets        no offset overflows if all buffers are below 2^31 bytes
  c84_overflow       one can if they are not
  c84_registers      registers changed: declared ones, and `packed_ptr`, q14, q15
  c84_clobber_false  the function for four columns loses what is in q14 and q15
  c84_operand_false  `packed_ptr`, declared as an input, is changed
  c84_multiply       packing both sides, then the kernel of C83
-/
namespace Ruy.Arm8.Pack
open Ruy.Neon (PJob PackCall St Val Region Byte byteOf put put_apart le4)
open Ruy.Neon.PackCall (int8 xor_value wrap8_toInt)
open Simd (wrap8 wrap32)

/-- C84, one block: for every state at the start of the statement, whatever the other registers hold. -/
theorem c84_asm {wide : Bool} {j : PJob} (hf : Fits wide j) {s : St} (h : Start wide j s) :
    ∃ s', Stops (env j) (code wide) s s' ∧ Result wide j s' := by
  obtain ⟨s', h1, h2, _⟩ := whole hf h
  exact ⟨s', h1, h2⟩

section
variable {wide : Bool} {p : PackCall} {start stop : Nat} {m : Region → Nat → Byte}

/-- C84: packing columns [start, stop).  There is a run, and every run ends without a fault, with the columns
and their sums in memory. -/
theorem c84_pack (hf : CallFits (width wide) p start stop) :
    (∃ r, Run wide p start stop m r) ∧
      ∀ r, Run wide p start stop m r → ∃ m', r = .ok m' ∧ Packed (width wide) p start stop m m' := by
  unfold Run
  simp only [if_pos hf.aligned.1]
  have ha := hf.aligned
  have ho := hf.order
  refine loop_ok hf ((stop - start) / width wide) start (p.cleared m) le_rfl ?_ ha.1 ?_ (fun o _ => ?_)
  · rcases width_or wide with hw | hw <;> rw [hw] at ha ⊢ <;> omega
  · refine ⟨fun c h1 h2 => by omega, fun _ c h1 h2 => by omega, fun o _ => ?_, fun o _ => ?_, fun r _ _ h => ?_⟩
    · unfold PackCall.cleared; rw [if_neg (by decide)]
    · unfold PackCall.cleared; rw [if_neg (by decide)]
    · unfold PackCall.cleared; rw [if_neg h]
  · unfold PackCall.cleared; rw [if_pos rfl]

theorem poff_place {n : Nat} {l : Mat.PMatLayout} (ho : l.order = .colMajor) (hk : l.kernel = ⟨.colMajor, 16, n⟩)
    (hs : l.stride = p.packedStride) (k c : Nat) : Mat.poff l k c = place n p k c := by
  unfold Mat.poff Mat.innerOff place
  rw [ho, hk, hs]
  dsimp only
  ring

/-- Entries are where `Offset` (mat.h:338-347) puts them in a column-major packed matrix with kernel layout
`FixedKernelLayout<kColMajor, 16, 4>`, respectively `<kColMajor, 16, 2>`. -/
theorem c84_layout {l : Mat.PMatLayout} (ho : l.order = .colMajor) (hk : l.kernel = ⟨.colMajor, 16, width wide⟩)
    (hs : l.stride = p.packedStride) {k c : Nat} (h : place (width wide) p k c < 2 ^ 31) :
    Mat.poffset l k c = .ok (place (width wide) p k c) := by
  have hK : Mat.KernelOk l.kernel := by
    rw [hk]
    cases wide
    · exact ⟨⟨4, rfl⟩, ⟨1, rfl⟩⟩
    · exact ⟨⟨4, rfl⟩, ⟨2, rfl⟩⟩
  rw [Mat.poffset_eq hK, poff_place ho hk hs]
  exact C.int_of h

/-- A matrix of the generic model whose entries are the bytes of the source. -/
structure Mirrors (n : Nat) (p : PackCall) (m : Region → Nat → Byte) (t : Front.ScalarType) (src : Mul.Mat Int)
    (q : Mul.PMat Int) : Prop where
  ty : t = if p.unsigned then .uint8 else .int8
  rows : src.layout.rows = p.rows
  cols : src.layout.cols = p.cols
  values : ∀ k c, k < p.rows → c < p.cols → src.at k c = p.element m k c
  zp : q.zp = Front.packInt t .int8 p.zp
  layout : Mat.createPackedLayout src.layout ⟨.colMajor, 16, n⟩ = .ok q.layout
  stride : q.layout.stride = p.packedStride

theorem packInt_shift {t : Front.ScalarType} (ht : t = if p.unsigned then .uint8 else .int8) {x : Int}
    (h : if p.unsigned then 0 ≤ x ∧ x ≤ 255 else -128 ≤ x ∧ x ≤ 127) : Front.packInt t .int8 x = x - p.shift := by
  unfold PackCall.shift
  cases hu : p.unsigned <;> rw [hu] at h ht <;> simp only [Bool.false_eq_true, if_false, if_true] at h ht ⊢ <;> subst ht
  · rw [Front.packInt_of (by decide) h.1 h.2]
    show x - 0 + 0 = _
    omega
  · rw [Front.packInt_of (by decide) h.1 h.2]
    show x - 128 + 0 = _
    omega

/-- C84: agreement with the portable packing code (pack.h:104-151).  If that packs the same columns of the
same matrix, it stores the same entries and sums. -/
theorem c84_generic (hf : CallFits (width wide) p start stop) {t : Front.ScalarType} {src : Mul.Mat Int} {q q' : Mul.PMat Int}
    (hm : Mirrors (width wide) p m t src q) (hh : stop ≤ q.layout.cols)
    (hg : Mul.runPack Front.wrap32 (Front.packInt t .int8) src start stop q = .ok q')
    {m' : Region → Nat → Byte} (h : Run wide p start stop m (.ok m')) :
    (∀ c, start ≤ c → c < stop → ∀ k, k < q.layout.rows → q'.data.val (Mat.poff q.layout k c) =
      int8 (m' .packed (place (width wide) p k c)) ∧ Mat.poff q.layout k c = place (width wide) p k c) ∧
    ∀ sums, q'.sums = some sums → p.hasSums = true → ∀ c, start ≤ c → c < stop → ∀ b, b < 4 →
      m' .sums (4 * c + b) = byteOf (sums.val c) b := by
  obtain ⟨m1, e1, hp⟩ := (c84_pack hf).2 _ h
  cases e1
  obtain ⟨hok, l1, l2, l3, l4, l5, l6, l7⟩ := Mat.createPackedLayout_ok hm.layout
  obtain ⟨_, hfl⟩ := Simd.Pack.generic_filled hok hh hg
  have hr : q.layout.rows = p.packedRows := by
    have hd := hok.rows
    rw [l3] at hd
    rw [hm.rows] at l4 l5
    obtain ⟨d, hd⟩ := hd
    unfold PackCall.packedRows
    dsimp only at *
    omega
  have ew : ∀ k c, k < q.layout.rows → Simd.Pack.gval t src q.zp k c = p.wanted m k c := by
    intro k c hk
    unfold Simd.Pack.gval PackCall.wanted
    rw [hm.cols, hm.rows]
    by_cases hkc : k < p.rows ∧ c < p.cols
    · rw [if_pos hkc, if_pos hkc.symm, hm.values k c hkc.1 hkc.2, packInt_shift hm.ty]
      unfold PackCall.element
      cases p.unsigned <;> simp only [Bool.false_eq_true, if_false, if_true]
      · have h1 := BitVec.toInt_lt (x := m .src (p.stride * c + k))
        have h2 := BitVec.le_toInt (x := m .src (p.stride * c + k))
        norm_num at h1 h2
        omega
      · have := Neon.byte_lt (m .src (p.stride * c + k))
        omega
    · rw [if_neg hkc, if_neg (fun x => hkc x.symm), hm.zp, packInt_shift hm.ty hf.zp]
  refine ⟨fun c h1 h2 k hk => ⟨?_, poff_place l1 l3 hm.stride k c⟩, fun sums hs hps c h1 h2 b hb => ?_⟩
  · rw [hfl.data k c hk h1 h2, ew k c hk, hp.entry c h1 h2 k (hr ▸ hk)]
  · rw [hfl.sums sums c hs h1 h2, hp.sum hps c h1 h2 b hb]
    congr 1
    unfold Simd.Pack.gsum
    rw [← hr, Finset.sum_congr rfl (fun k hk => (ew k c (Finset.mem_range.1 hk)).symm)]
    unfold wrap32 Int.bmod
    norm_num
    generalize (∑ k ∈ Finset.range q.layout.rows, Simd.Pack.gval t src q.zp k c) = x
    split <;> omega

/-- Rows and columns beyond the source hold the zero point, shifted like the elements. -/
theorem c84_padding (hf : CallFits (width wide) p start stop) {m' : Region → Nat → Byte} (h : Run wide p start stop m (.ok m'))
    {k c : Nat} (h1 : start ≤ c) (h2 : c < stop) (hk : k < p.packedRows) (ho : p.rows ≤ k ∨ p.cols ≤ c) :
    int8 (m' .packed (place (width wide) p k c)) = p.zp - p.shift := by
  obtain ⟨m1, e1, hp⟩ := (c84_pack hf).2 _ h
  cases e1
  rw [hp.entry c h1 h2 k hk]
  unfold PackCall.wanted
  rw [if_neg (by omega)]

/-- If all buffers are below 2^31 bytes, no offset overflows: only the rest of `CallFits` is needed. -/
theorem c84_offsets (h0 : 0 < p.rows) (hr : p.rows < 2 ^ 31) (ho : start ≤ stop)
    (ha : start % width wide = 0 ∧ stop % width wide = 0) (hc : stop < p.cols + width wide)
    (hz : if p.unsigned then 0 ≤ p.zp ∧ p.zp ≤ 255 else -128 ≤ p.zp ∧ p.zp ≤ 127) (hst : p.packedRows ≤ p.packedStride)
    (hs : ∀ c, c < p.cols → ∀ k, k < p.rows → p.stride * c + k < p.size .src) (hp : p.packedStride * stop ≤ p.size .packed)
    (hu : p.hasSums = true → 4 * stop ≤ p.size .sums) (hm : ∀ r, p.size r ≤ 2 ^ 31) : CallFits (width wide) p start stop := by
  refine ⟨ho, ha, hr, hz, hst, hs, hp, hu, fun c h1 h2 => ⟨?_, ?_⟩⟩
  · have a1 := hs c (by rcases width_or wide with hw | hw <;> rw [hw] at ha hc h2 <;> omega) 0 h0
    have a2 := hm .src
    omega
  · have a1 : p.packedStride * (c + 1) ≤ p.packedStride * stop := Nat.mul_le_mul_left _ (by omega)
    rw [Nat.mul_succ] at a1
    have a2 := hm .packed
    have a3 : 0 < p.packedRows := by unfold PackCall.packedRows; omega
    omega

/-- C84: a matrix with columns 2^29, or 2^30 bytes apart, within 32-bit memory: the offset of the second block is
computed in `int` and overflows. -/
theorem c84_overflow (wide : Bool) : ∃ p : PackCall, p.rows = 16 ∧ p.cols = width wide + 1 ∧
    p.stride * (p.cols - 1) + p.rows ≤ p.size .src ∧ (∀ r, p.size r < 2 ^ 32) ∧
    ∀ m, Run wide p (width wide) (2 * width wide) m (.error .ub) ∧
      ∀ r, Run wide p (width wide) (2 * width wide) m r → r = .error .ub := by
  refine ⟨⟨false, false, 16, width wide + 1, 2 ^ 31 / width wide, 0, 16, true, fun _ => 2 ^ 32 - 1⟩, rfl, rfl, ?_,
    fun _ => ?_, fun m => ?_⟩
  · show 2 ^ 31 / width wide * (width wide + 1 - 1) + 16 ≤ 2 ^ 32 - 1
    cases wide
    · show 2 ^ 31 / 2 * (2 + 1 - 1) + 16 ≤ 2 ^ 32 - 1
      norm_num
    · show 2 ^ 31 / 4 * (4 + 1 - 1) + 16 ≤ 2 ^ 32 - 1
      norm_num
  · show 2 ^ 32 - 1 < 2 ^ 32
    norm_num
  · have hb : ∀ (p : PackCall), p.stride = 2 ^ 31 / width wide → ∀ m, block wide p (width wide) m = .error .ub := by
      intro p hp m
      have : ¬p.stride * width wide < 2 ^ 31 := by
        rw [hp]
        cases wide
        · show ¬2 ^ 31 / 2 * 2 < 2 ^ 31
          norm_num
        · show ¬2 ^ 31 / 4 * 4 < 2 ^ 31
          norm_num
      unfold block
      simp only [C.int, if_neg this]
      rfl
    have hw := width_or wide
    unfold Run
    simp only [Nat.mod_self, if_true]
    refine ⟨.overflow (by omega) (hb _ rfl _), fun r hr => ?_⟩
    cases hr with
    | done h => omega
    | overflow h e => rw [hb _ rfl] at e; cases e; rfl
    | fault => rfl
    | stuck h e => rw [hb _ rfl] at e; cases e
    | next h e => rw [hb _ rfl] at e; cases e

end

/-! ### Registers -/

/-- Output operands and clobber lists: pack_arm.cc:463-469 and 604-608. -/
def declaredX (wide : Bool) : List Nat := [48, 49] ++ (if wide then [50, 51] else []) ++ [1, 2, 3]
def declaredQ : List Nat := [0, 1, 2, 3, 4, 5, 6, 7, 8, 9, 10, 11, 12, 13]

/-- C84: at no time are registers changed other than those declared and, beyond these, `packed_ptr` (52) and, for four
columns, q14 and q15 — whatever the state at the start, the parameters and the sizes of the buffers are. -/
theorem c84_registers (wide : Bool) (e : Env) (s : St) (n r : Nat) :
    (r ∉ declaredX wide → r ≠ 52 → (run e (code wide) n (0, s)).2.x r = s.x r) ∧
      (r ∉ declaredQ → (wide = true → r ≠ 14 ∧ r ≠ 15) → (run e (code wide) n (0, s)).2.v r = s.v r) := by
  cases wide
  · have h := run_covers (P := code false) (X := 52 :: declaredX false) (V := declaredQ) (by decide +kernel) e n s r
    exact ⟨fun h1 h2 => h.1 (by simp [h1, h2]), fun h1 _ => h.2 h1⟩
  · have h := run_covers (P := code true) (X := 52 :: declaredX true) (V := 14 :: 15 :: declaredQ) (by decide +kernel) e n s r
    exact ⟨fun h1 h2 => h.1 (by simp [h1, h2]), fun h1 h2 => h.2 (by simp [h1, h2 rfl])⟩

/-- The first block forgets q14 and q15. -/
theorem forget (e : Env) {s t : St} (hx : s.x = t.x) (hm : s.m = t.m) (hb : s.bad = t.bad)
    (hv : ∀ r, r ≠ 14 → r ≠ 15 → s.v r = t.v r) : exec e (start true).body s = exec e (start true).body t := by
  cases s with
  | mk x v m z lt bad =>
  cases t with
  | mk x' v' m' z' lt' bad' =>
  dsimp only at hx hm hb hv
  subst hx hm hb
  have key : ∀ a : Neon.Vec, put (put (put (put (put v 11 a) 12 (fun _ => 0)) 13 (fun _ => 0)) 14 (fun _ => 0)) 15 (fun _ => 0) =
      put (put (put (put (put v' 11 a) 12 (fun _ => 0)) 13 (fun _ => 0)) 14 (fun _ => 0)) 15 (fun _ => 0) := by
    intro a
    funext r
    by_cases h15 : r = 15
    · subst h15; rfl
    by_cases h14 : r = 14
    · subst h14; rfl
    by_cases h13 : r = 13
    · subst h13; rfl
    by_cases h12 : r = 12
    · subst h12; rfl
    by_cases h11 : r = 11
    · subst h11; rfl
    rw [put_apart _ _ h15, put_apart _ _ h14, put_apart _ _ h13, put_apart _ _ h12, put_apart _ _ h11,
      put_apart _ _ h15, put_apart _ _ h14, put_apart _ _ h13, put_apart _ _ h12, put_apart _ _ h11]
    exact hv r h14 h15
  have hk := key (Neon.ofB fun _ => (e.field .packXor).num)
  show St.mk _ _ _ _ _ _ = St.mk _ _ _ _ _ _
  congr 1

/-- C84: `Pack8bitColMajorForNeon4Cols` uses q14 and q15 as accumulators but does not declare them.  Starting with
different values in them leads to the same final state, so at least one of the two values is lost. -/
theorem c84_clobber_false {e : Env} {s t s' t' : St} (hx : s.x = t.x) (hm : s.m = t.m) (hb : s.bad = t.bad)
    (hv : ∀ r, r ≠ 14 → r ≠ 15 → s.v r = t.v r) (hs : Stops e (code true) s s') (ht : Stops e (code true) t t') :
    14 ∉ declaredQ ∧ 15 ∉ declaredQ ∧ s' = t' ∧ (s.v 14 ≠ t.v 14 → s'.v 14 ≠ s.v 14 ∨ t'.v 14 ≠ t.v 14) ∧
      (s.v 15 ≠ t.v 15 → s'.v 15 ≠ s.v 15 ∨ t'.v 15 ≠ t.v 15) := by
  have e1 : bstep e (code true) (0, s) = bstep e (code true) (0, t) := by
    rw [bstep_eq (b := start true) rfl, bstep_eq (b := start true) rfl, forget e hx hm hb hv]
  have e2 : s' = t' := by
    obtain ⟨a, ha⟩ := hs
    obtain ⟨b, hb⟩ := ht
    have h1 := ha (a + b + 1) (by omega)
    have h2 := hb (a + b + 1) (by omega)
    have e3 : run e (code true) (a + b + 1) (0, s) = run e (code true) (a + b + 1) (0, t) := by
      show run e (code true) (a + b) (bstep e (code true) (0, s)) = run e (code true) (a + b) (bstep e (code true) (0, t))
      rw [e1]
    rw [e3, h2] at h1
    exact (congrArg Prod.snd h1).symm
  refine ⟨by decide, by decide, e2, fun hne => ?_, fun hne => ?_⟩
  · by_contra hc
    push Not at hc
    exact hne (hc.1.symm.trans ((congrArg (fun q : St => q.v 14) e2).trans hc.2))
  · by_contra hc
    push Not at hc
    exact hne (hc.1.symm.trans ((congrArg (fun q : St => q.v 15) e2).trans hc.2))

/-- C84: in both functions `packed_ptr` is declared as an input only, but `[%[packed_ptr]]!` leaves it behind the packed
block. -/
theorem c84_operand_false {wide : Bool} {j : PJob} (hf : Fits wide j) (h0 : 0 < j.rows) {s : St} (h : Start wide j s) :
    52 ∉ declaredX wide ∧ ∃ s', Stops (env j) (code wide) s s' ∧
      s'.x 52 = .ptr .packed (j.packedBase + 16 * width wide * ((j.rows + 15) / 16)) ∧ s'.x 52 ≠ s.x 52 := by
  obtain ⟨s', h1, _, h3⟩ := whole hf h
  refine ⟨by cases wide <;> decide, s', h1, h3, ?_⟩
  rw [h3, h.packed]
  intro hh
  have hh := congrArg Val.off hh
  have hh : j.packedBase + 16 * width wide * ((j.rows + 15) / 16) = j.packedBase := hh
  rcases width_or wide with hw | hw <;> rw [hw] at hh <;> omega

/-! ### Packing and kernel together -/

/-- Both sides have been packed for a call `j` of the kernel: `l` has packed columns [l0, l1) of the LHS (rows of the
destination), from memory `ml` to `ml'`, and `r` columns [r0, r1) of the RHS; the call reads what they have left. -/
structure Joined (l r : PackCall) (l0 l1 r0 r1 : Nat) (ml ml' mr mr' : Region → Nat → Byte) (j : Job) : Prop where
  lhs : Run true l l0 l1 ml (.ok ml')
  rhs : Run false r r0 r1 mr (.ok mr')
  lhsFits : CallFits 4 l l0 l1
  rhsFits : CallFits 2 r r0 r1
  depth : l.rows = r.rows ∧ j.depth = l.packedRows
  strides : j.lhsStride = l.packedStride ∧ j.rhsStride = r.packedStride
  /-- kernel_common.h:149-151 -/
  bases : j.lhsBase = j.startRow * j.lhsStride ∧ j.rhsBase = j.startCol * j.rhsStride
  aligned : j.startRow % 4 = 0 ∧ j.startCol % 2 = 0
  rows : l0 ≤ j.startRow ∧ j.lastRow + 4 ≤ l1
  cols : r0 ≤ j.startCol ∧ j.lastCol + 2 ≤ r1
  dst : j.dstRows = l.cols ∧ j.dstCols = r.cols
  memory : j.m .lhs = ml' .packed ∧ j.m .rhs = mr' .packed
  zps : j.lhsZp = l.zp - l.shift ∧ j.rhsZp = r.zp - r.shift
  lhsSums : if j.hasLhsSums then l.hasSums = true ∧ j.m .lhsSums = ml' .sums else j.rhsZp = 0
  rhsSums : if j.hasRhsSums then r.hasSums = true ∧ j.m .rhsSums = mr' .sums else j.lhsZp = 0
  prod : j.prodZp = wrap32 (j.lhsZp * j.rhsZp * j.depth)

section
variable {l r : PackCall} {l0 l1 r0 r1 : Nat} {ml ml' mr mr' : Region → Nat → Byte} {j : Job}

theorem Joined.lhsAt (h : Joined l r l0 l1 r0 r1 ml ml' mr mr' j) {x c k : Nat} (hi : j.Inside x c) (hk : k < j.depth) :
    j.lhsAt x k = l.wanted ml k (j.startRow + x) := by
  obtain ⟨m1, e1, hp⟩ := (c84_pack (wide := true) h.lhsFits).2 _ h.lhs
  cases e1
  have h1 := h.rows
  obtain ⟨i1, i2, i3, i4⟩ := hi
  have := hp.entry (j.startRow + x) (by omega) (by unfold Job.lastRow at h1; omega) k (by rw [← h.depth.2]; exact hk)
  rw [← this]
  unfold Job.lhsAt int8
  rw [wrap8_toInt, h.memory.1, h.bases.1]
  have ha := h.aligned.1
  congr 2
  show _ = place 4 l k (j.startRow + x)
  unfold place
  rw [← h.strides.1, show (j.startRow + x) % 4 = x % 4 by omega, show (j.startRow + x) / 4 = j.startRow / 4 + x / 4 by omega]
  have e2 : j.startRow * j.lhsStride = j.lhsStride * (4 * (j.startRow / 4)) := by
    rw [show 4 * (j.startRow / 4) = j.startRow by omega]; ring
  rw [e2]
  ring

theorem Joined.rhsAt (h : Joined l r l0 l1 r0 r1 ml ml' mr mr' j) {x c k : Nat} (hi : j.Inside x c) (hk : k < j.depth) :
    j.rhsAt c k = r.wanted mr k (j.startCol + c) := by
  obtain ⟨m1, e1, hp⟩ := (c84_pack (wide := false) h.rhsFits).2 _ h.rhs
  cases e1
  have h1 := h.cols
  obtain ⟨i1, i2, i3, i4⟩ := hi
  have hd : j.depth = r.packedRows := by
    rw [h.depth.2]; unfold PackCall.packedRows; rw [h.depth.1]
  have := hp.entry (j.startCol + c) (by omega) (by unfold Job.lastCol at h1; omega) k (by rw [← hd]; exact hk)
  rw [← this]
  unfold Job.rhsAt int8
  rw [wrap8_toInt, h.memory.2, h.bases.2]
  have ha := h.aligned.2
  congr 2
  show _ = place 2 r k (j.startCol + c)
  unfold place
  rw [← h.strides.2, show (j.startCol + c) % 2 = c % 2 by omega, show (j.startCol + c) / 2 = j.startCol / 2 + c / 2 by omega]
  have e2 : j.startCol * j.rhsStride = j.rhsStride * (2 * (j.startCol / 2)) := by
    rw [show 2 * (j.startCol / 2) = j.startCol by omega]; ring
  rw [e2]
  ring

theorem wrap_twice (x : Int) : wrap32 (wrap32 x) = wrap32 x := by unfold wrap32; omega

theorem Joined.sums (h : Joined l r l0 l1 r0 r1 ml ml' mr mr' j) : j.SumsOk := by
  refine ⟨?_, ?_, h.prod⟩
  · have hs := h.lhsSums
    cases hl : j.hasLhsSums
    · rw [hl] at hs; exact hs
    rw [hl] at hs
    intro x c hi
    obtain ⟨m1, e1, hp⟩ := (c84_pack (wide := true) h.lhsFits).2 _ h.lhs
    cases e1
    have h1 := h.rows
    have i1 := hi.1
    have e := hp.sum hs.1 (j.startRow + x) (by omega) (by unfold Job.lastRow at h1; omega)
    unfold Job.word
    rw [hs.2, Neon.Flow.word_of e, wrap_twice, ← h.depth.2]
    congr 1
    exact Finset.sum_congr rfl fun k hk => (h.lhsAt hi (Finset.mem_range.1 hk)).symm
  · have hs := h.rhsSums
    cases hl : j.hasRhsSums
    · rw [hl] at hs; exact hs
    rw [hl] at hs
    intro x c hi
    obtain ⟨m1, e1, hp⟩ := (c84_pack (wide := false) h.rhsFits).2 _ h.rhs
    cases e1
    have h1 := h.cols
    have i1 := hi.2.1
    have hd : j.depth = r.packedRows := by
      rw [h.depth.2]; unfold PackCall.packedRows; rw [h.depth.1]
    have e := hp.sum hs.1 (j.startCol + c) (by omega) (by unfold Job.lastCol at h1; omega)
    unfold Job.word
    rw [hs.2, Neon.Flow.word_of e, wrap_twice, ← hd]
    congr 1
    exact Finset.sum_congr rfl fun k hk => (h.rhsAt hi (Finset.mem_range.1 hk)).symm

/-- Bias plus sum of the products of the source elements of a row and a column, with the zero points taken off. -/
def accumulated (l r : PackCall) (ml mr : Region → Nat → Byte) (j : Job) (x c : Nat) : Int :=
  j.biasOf x c + ∑ k ∈ Finset.range l.rows,
    (l.element ml k (j.startRow + x) - l.zp) * (r.element mr k (j.startCol + c) - r.zp)

theorem sum_cut (f : Nat → Int) {a b : Nat} (hab : a ≤ b) (h : ∀ k, a ≤ k → k < b → f k = 0) :
    ∑ k ∈ Finset.range b, f k = ∑ k ∈ Finset.range a, f k := by
  induction b with
  | zero => rw [show a = 0 by omega]
  | succ b ih =>
    by_cases e : a = b + 1
    · rw [e]
    · rw [Finset.sum_range_succ, h b (by omega) (by omega), add_zero]
      exact ih (by omega) fun k h1 h2 => h k h1 (by omega)

theorem Joined.acc (h : Joined l r l0 l1 r0 r1 ml ml' mr mr' j) {x c : Nat} (hi : j.Inside x c) :
    j.accOf (j.dotOf x c) x c = wrap32 (accumulated l r ml mr j x c) := by
  rw [c83_accumulator h.sums hi]
  unfold accumulated
  congr 2
  obtain ⟨i1, i2, i3, i4⟩ := hi
  have hle : l.rows ≤ j.depth := by rw [h.depth.2]; unfold PackCall.packedRows; omega
  rw [sum_cut _ hle fun k h1 h2 => ?_]
  · refine Finset.sum_congr rfl fun k hk => ?_
    have hk := Finset.mem_range.1 hk
    rw [h.lhsAt ⟨i1, i2, i3, i4⟩ (by omega), h.rhsAt ⟨i1, i2, i3, i4⟩ (by omega), h.zps.1, h.zps.2]
    unfold PackCall.wanted
    rw [if_pos ⟨hk, by rw [← h.dst.1]; exact i3⟩, if_pos ⟨by rw [← h.depth.1]; exact hk, by rw [← h.dst.2]; exact i4⟩]
    ring
  · rw [h.lhsAt ⟨i1, i2, i3, i4⟩ h2, h.zps.1]
    unfold PackCall.wanted
    rw [if_neg (by omega)]
    ring

/-- C84: packing both sides and running the kernel on them stores, in every entry of the call that is inside the
destination, the sum of products of the source elements without their zero points, modulo 2^32 and put through the output
stage, and changes nothing else in the destination.  Packed entries of the LHS must not be -128: see `c83_int16`. -/
theorem c84_multiply (h : Joined l r l0 l1 r0 r1 ml ml' mr mr' j) (hf : j.Fits) (ha : j.Args)
    (ht : j.dt = .i32 → j.hasLhsSums = true) (hn : ∀ k c, k < j.depth → c < l.cols → l.wanted ml k c ≠ -128) {s : St}
    (hs : j.Start s) : ∃ s', Stops j.env kernel s s' ∧ s'.bad = false ∧
      (∀ x c, j.Inside x c → ∀ b, b < j.dt.size → s'.m .dst (j.addr j.dt x c + b) =
        byteOf (j.outOf j.dt (wrap32 (accumulated l r ml mr j x c)) x c) b) ∧
      ∀ o, (∀ x c, j.Inside x c → ∀ b, b < j.dt.size → o ≠ j.addr j.dt x c + b) → s'.m .dst o = j.m .dst o := by
  have np : ∀ x c, j.Inside x c → j.NoPair x c := by
    intro x c hi t ht i hi' hh
    have hd : 16 * t + i < j.depth := by unfold Job.depth; omega
    refine hn (16 * t + i) (j.startRow + x) hd (by rw [← h.dst.1]; exact hi.2.2.1) ?_
    rw [← h.lhsAt hi hd]
    exact hh.1
  obtain ⟨s', h1, h2⟩ := c83_partial hf ha ht np hs
  refine ⟨s', h1, h2.ok, fun x c hi b hb => ?_, h2.rest⟩
  refine Eq.trans (h2.entry x c hi b hb) ?_
  rw [h.acc hi]

end

/-! ### Examples -/

/-- A 21 × 6 uint8 matrix with stride 25 and zero point 100, packed with stride 32. -/
def exCall : PackCall :=
  ⟨false, true, 21, 6, 25, 100, 32, true, fun r => match r with | .src => 146 | .packed => 256 | .sums => 32 | _ => 0⟩

theorem exCall_fits (wide : Bool) : CallFits (width wide) exCall 0 8 := by
  refine ⟨by decide, by cases wide <;> decide, by decide, by decide, by decide, fun c hc k hk => ?_,
    by decide, fun _ => by decide, fun c hc _ => ?_⟩
  · show 25 * c + k < 146
    have hc : c < 6 := hc
    have hk : k < 21 := hk
    omega
  · show 25 * c < _ ∧ 32 * c < _
    omega

def exBytes (r : Region) (o : Nat) : Byte := if r = .src then BitVec.ofNat 8 (o % 200 + 7) else 0xee

theorem exRun (wide : Bool) : ∃ m', Run wide exCall 0 8 exBytes (.ok m') := by
  obtain ⟨⟨r, h⟩, h2⟩ := c84_pack (m := exBytes) (exCall_fits wide)
  obtain ⟨m', rfl, _⟩ := h2 r h
  exact ⟨m', h⟩

/-- Entries (0, 0), (16, 0), and the zero point below column 0 and in column 7. -/
example {m' : Region → Nat → Byte} (h : Run true exCall 0 8 exBytes (.ok m')) :
    int8 (m' .packed 0) = -121 ∧ int8 (m' .packed 64) = -105 ∧ int8 (m' .packed 69) = -28 ∧ int8 (m' .packed 178) = -28 := by
  obtain ⟨m1, e1, hp⟩ := (c84_pack (exCall_fits true)).2 _ h
  cases e1
  have e1 := hp.entry 0 (by decide) (by decide) 0 (by decide)
  have e2 := hp.entry 0 (by decide) (by decide) 16 (by decide)
  have e3 := hp.entry 0 (by decide) (by decide) 21 (by decide)
  have e4 := hp.entry 7 (by decide) (by decide) 2 (by decide)
  exact ⟨e1.trans (by decide), e2.trans (by decide), e3.trans (by decide), e4.trans (by decide)⟩

example {m' : Region → Nat → Byte} (h : Run false exCall 0 8 exBytes (.ok m')) :
    int8 (m' .packed 0) = -121 ∧ int8 (m' .packed 32) = -105 ∧ int8 (m' .packed 37) = -28 ∧ int8 (m' .packed 210) = -28 := by
  obtain ⟨m1, e1, hp⟩ := (c84_pack (exCall_fits false)).2 _ h
  cases e1
  have e1 := hp.entry 0 (by decide) (by decide) 0 (by decide)
  have e2 := hp.entry 0 (by decide) (by decide) 16 (by decide)
  have e3 := hp.entry 0 (by decide) (by decide) 21 (by decide)
  have e4 := hp.entry 7 (by decide) (by decide) 2 (by decide)
  exact ⟨e1.trans (by decide), e2.trans (by decide), e3.trans (by decide), e4.trans (by decide)⟩

/-- The hypotheses of `c84_asm` and `c84_operand_false`: the block at column 4. -/
example (wide : Bool) : Fits wide (job wide exCall 4 exBytes) ∧ 0 < (job wide exCall 4 exBytes).rows ∧
    Start wide (job wide exCall 4 exBytes) (begin' (job wide exCall 4 exBytes)) :=
  ⟨job_fits (exCall_fits wide) (by cases wide <;> decide), by show 0 < 21; decide, begin_ok _ _⟩

/-- The hypotheses of `c84_clobber_false`: two states that differ in q14, and lead to a stop. -/
example : ∃ (e : Env) (s t s' t' : St), s.x = t.x ∧ s.m = t.m ∧ s.bad = t.bad ∧ (∀ r, r ≠ 14 → r ≠ 15 → s.v r = t.v r) ∧
    s.v 14 ≠ t.v 14 ∧ Stops e (code true) s s' ∧ Stops e (code true) t t' := by
  let j := job true exCall 4 exBytes
  let t : St := { begin' j with v := put (begin' j).v 14 (fun _ => 1) }
  have hf : Fits true j := job_fits (exCall_fits true) (by decide)
  have h0 : Start true j (begin' j) := begin_ok _ _
  have h1 : Start true j t := ⟨h0.src, h0.packed, h0.inc, h0.mem, h0.ok⟩
  obtain ⟨s', a, -⟩ := c84_asm hf h0
  obtain ⟨t', b, -⟩ := c84_asm hf h1
  refine ⟨env j, begin' j, t, s', t', rfl, rfl, rfl, fun r h14 _ => (put_apart _ _ h14).symm, fun h => ?_, a, b⟩
  have := congrFun h 0
  exact absurd this (by decide)

/-- The hypotheses of `c84_generic`. -/
def exSrc : Mul.Mat Int := ⟨⟨21, 6, 25, .colMajor⟩, ⟨146, fun o => ((o % 200 + 7) % 256 : Nat)⟩, 100⟩
def exPacked (n : Nat) : Mul.PMat Int := ⟨⟨32, 8, 32, .colMajor, ⟨.colMajor, 16, n⟩⟩, ⟨256, fun _ => 0⟩, some ⟨8, fun _ => 0⟩, -28⟩

example : Mirrors 4 exCall exBytes .uint8 exSrc (exPacked 4) ∧
    (Mul.runPack Front.wrap32 (Front.packInt .uint8 .int8) exSrc 0 8 (exPacked 4)).toOption.isSome := by
  refine ⟨⟨rfl, rfl, rfl, fun k c hk hc => ?_, rfl, by decide, rfl⟩, by decide +kernel⟩
  have e : Mat.off exSrc.layout k c = 25 * c + k := by
    unfold Mat.off exSrc
    dsimp only
    ring
  unfold Mul.Mat.at
  rw [e]
  show ((((25 * c + k) % 200 + 7) % 256 : Nat) : Int) = ((BitVec.ofNat 8 ((25 * c + k) % 200 + 7)).toNat : Int)
  rw [BitVec.toNat_ofNat]

/-- Rows 4, 5 and columns 4, 5 of the product of the example's transpose with itself. -/
def exKernel (m : Region → Nat → Byte) : Job where
  dt := .i32
  startRow := 4
  startCol := 4
  rowSteps := 0
  colSteps := 0
  depthSteps := 1
  lhsBase := 128
  rhsBase := 128
  dstBase := 112
  lhsStride := 32
  rhsStride := 32
  dstStride := 24
  dstRows := 6
  dstCols := 6
  lhsZp := -28
  rhsZp := -28
  dstZp := 0
  prodZp := 25088
  clampMin := -2 ^ 31
  clampMax := 2 ^ 31 - 1
  hasBias := false
  hasLhsSums := true
  hasRhsSums := true
  perChannel := false
  chanCol := false
  size := fun _ => 256
  m := m

/-- The hypotheses of `c84_multiply`; entry (5, 4) of the destination. -/
example : ∃ (ml' mr' : Region → Nat → Byte) (j : Job) (s s' : St),
    Joined exCall exCall 0 8 0 8 exBytes ml' exBytes mr' j ∧ j.Fits ∧ j.Args ∧ j.Start s ∧
    (∀ k c, k < j.depth → c < exCall.cols → exCall.wanted exBytes k c ≠ -128) ∧ Stops j.env kernel s s' ∧
    ∀ b, b < 4 → s'.m .dst (116 + b) = byteOf 15764 b := by
  obtain ⟨ml', hl⟩ := exRun true
  obtain ⟨mr', hr⟩ := exRun false
  let M : Region → Nat → Byte := fun g => match g with
    | .lhs => ml' .packed | .rhs => mr' .packed | .lhsSums => ml' .sums | .rhsSums => mr' .sums | _ => fun _ => 0
  have hJ : Joined exCall exCall 0 8 0 8 exBytes ml' exBytes mr' (exKernel M) :=
    ⟨hl, hr, exCall_fits true, exCall_fits false, ⟨rfl, rfl⟩, ⟨rfl, rfl⟩, ⟨rfl, rfl⟩, ⟨show 4 % 4 = 0 from rfl, show 4 % 2 = 0 from rfl⟩,
      ⟨by show 0 ≤ 4; decide, by show 4 + 4 * 0 + 4 ≤ 8; decide⟩, ⟨by show 0 ≤ 4; decide, by show 4 + 2 * 0 + 2 ≤ 8; decide⟩,
      ⟨rfl, rfl⟩, ⟨rfl, rfl⟩, ⟨rfl, rfl⟩, ⟨rfl, rfl⟩, ⟨rfl, rfl⟩,
      show (25088 : Int) = wrap32 (-28 * -28 * ((32 : Nat) : Int)) by decide⟩
  have hF : (exKernel M).Fits := by
    constructor
    case dst =>
      intro r c h1 h2 h3 h4
      simp only [exKernel, Neon.Dt.size] at *
      omega
    all_goals simp [exKernel, Job.lastRow, Job.lastCol, Job.depth, Neon.Dt.size]
  have hA : (exKernel M).Args := ⟨fun _ i _ => by simp [Job.word, exKernel, M, le4, Neon.le2, wrap32], fun _ i _ => rfl, fun _ i _ => rfl⟩
  have hN : ∀ k c, k < (exKernel M).depth → c < exCall.cols → exCall.wanted exBytes k c ≠ -128 := by
    intro k c _ _
    unfold PackCall.wanted
    split
    · show ((BitVec.ofNat 8 ((25 * c + k) % 200 + 7)).toNat : Int) - 128 ≠ -128
      rw [BitVec.toNat_ofNat]
      omega
    · decide
  obtain ⟨s', a1, -, a3, -⟩ := c84_multiply hJ hF hA (fun _ => rfl) hN (exStart_ok _)
  have hi : (exKernel M).Inside 1 0 := show 1 < 4 * (0 + 1) ∧ 0 < 2 * (0 + 1) ∧ 4 + 1 < 6 ∧ 4 + 0 < 6 by decide
  refine ⟨ml', mr', _, _, s', hJ, hF, hA, exStart_ok _, hN, a1, fun b hb => (a3 1 0 hi b hb).trans ?_⟩
  have e : accumulated exCall exCall exBytes exBytes (exKernel M) 1 0 = 15764 := by
    show (0 : Int) + ∑ k ∈ Finset.range 21, (exCall.element exBytes k 5 - 100) * (exCall.element exBytes k 4 - 100) = _
    decide +kernel
  rw [e]
  rfl

/-- The hypotheses of `c84_offsets`. -/
example : 0 < exCall.rows ∧ 8 < exCall.cols + width true ∧ exCall.packedStride * 8 ≤ exCall.size .packed ∧
    ∀ r, exCall.size r ≤ 2 ^ 31 := by
  refine ⟨by decide, by decide, by decide, fun r => ?_⟩
  cases r <;> decide

end Ruy.Arm8.Pack

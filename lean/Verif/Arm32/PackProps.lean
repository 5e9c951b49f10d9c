import Verif.Arm32.PackLoop
import Verif.Arm32.Props
import Verif.Float.Props
/-
C82: packing of float matrices on 32-bit ARM, for the kernel layouts with eight columns (LHS) and four (RHS).

  c82_asm            the `asm` statement stops in every case, accesses only its buffers, and stores four packed columns
  c82_registers      it changes only declared registers
  c82_pack           `PackImpl::Run`: every run ends without a fault and leaves the packed columns
  c82_layout         packed entries are where the layout of the packed matrix says
  c82_memcpy         packing a row-major matrix with the same elements (memcpy, pack_common.h) leaves the same entries
  c82_narrow         for the RHS no offset overflows in a 32-bit address space
  c82_overflow       for the LHS one can, in a block without columns of the matrix
  c82_multiply       packing both sides, then the kernel of C81: the products of the source elements
  c82_product        the same in exact arithmetic: the matrix product
-/
namespace Ruy.Arm32.Pack
open Ruy.NeonF (St Val Region Ops Exact foldl_sum sum_range intOps intOps_exact)
open PJob
open Ruy.Mat Ruy.Mul
variable {A : Type}

/-- C82, one block: for every state at the start of the statement, whatever the other registers hold. -/
theorem c82_asm {j : PJob A} (hf : Fits j) {s : St A} (h : j.Start s) : ∃ s', Stops j.env code s s' ∧ Result j s' :=
  pack_ok hf h

/-- Output operands and clobber list, pack_arm.cc:2055-2061. -/
def outs : List Nat := [48, 49, 50, 51, 52, 0, 1, 2, 3]
def clobbered : List Nat := [0, 1, 2, 3, 4, 5, 6, 7, 8, 9, 10, 11]

/-- C82: at no time are other registers changed, whatever the state at the start and the sizes of the buffers are. -/
theorem c82_registers (e : Env A) (s : St A) (n r : Nat) :
    (r ∉ outs → (run e code n (0, s)).2.x r = s.x r) ∧ (r ∉ clobbered → (run e code n (0, s)).2.v r = s.v r) :=
  run_covers (by decide +kernel) e n s r

section
variable {p : Call A} {start stop : Nat} {m : Region → Nat → A}

/-- C82: packing columns [start, stop).  There is a run, and every run ends without a fault, with the columns in
memory. -/
theorem c82_pack (hf : CallFits p start stop) :
    (∃ r, Run p start stop m r) ∧ ∀ r, Run p start stop m r → ∃ m', r = .ok m' ∧ Packed p start stop m m' :=
  run_ok hf

theorem poff_spot {l : PMatLayout} (ho : l.order = .colMajor) (hk : l.kernel = ⟨.rowMajor, 1, p.width⟩)
    (hs : l.stride = p.packedStride) (k c : Nat) : poff l k c = spot p k c := by
  rw [Float.poff_row l ho hk, hs]
  unfold spot
  ring

/-- Entries are where `Offset` (mat.h:338-347) puts them in a column-major packed matrix with kernel layout
`FixedKernelLayout<kRowMajor, 1, 8>`, respectively `<kRowMajor, 1, 4>`. -/
theorem c82_layout {l : PMatLayout} (ho : l.order = .colMajor) (hk : l.kernel = ⟨.rowMajor, 1, p.width⟩)
    (hs : l.stride = p.packedStride) {k c : Nat} (h : spot p k c < 2 ^ 31) : poffset l k c = .ok (spot p k c) := by
  have hK : KernelOk l.kernel := by
    rw [hk]
    rcases width_or p with e | e <;> rw [e]
    · exact ⟨⟨0, rfl⟩, ⟨2, rfl⟩⟩
    · exact ⟨⟨0, rfl⟩, ⟨3, rfl⟩⟩
  rw [poffset_eq hK, poff_spot ho hk hs]
  exact C.int_of h

/-- A matrix of the generic model whose elements are the floats of the source. -/
structure Mirrors (p : Call A) (m : Region → Nat → A) (src : Mul.Mat A) (q : PMat A) : Prop where
  rows : src.layout.rows = p.rows
  cols : src.layout.cols = p.cols
  values : ∀ k c, k < p.rows → c < p.cols → src.at k c = m .src (p.stride * c + k)
  layout : createPackedLayout src.layout ⟨.rowMajor, 1, p.width⟩ = .ok q.layout
  stride : q.layout.stride = p.packedStride

/-- C82: `MemcpyRowMajorFloatPackImpl` (pack_common.h:101-139, used for both kernel layouts: pack_arm.h:39-42) on a
row-major matrix with the same elements leaves the same packed entries. -/
theorem c82_memcpy (hf : CallFits p start stop) {src : Mul.Mat A} {q q' : PMat A} (hm : Mirrors p m src q)
    (hr : src.layout.order = .rowMajor) (hh : stop ≤ q.layout.cols)
    (hg : Float.memcpyPack p.ops.zero p.width src start stop q = .ok q') {m' : Region → Nat → A}
    (h : Run p start stop m (.ok m')) :
    ∀ c, start ≤ c → c < stop → ∀ k, k < q.layout.rows → q'.data.val (poff q.layout k c) = m' .packed (spot p k c) ∧
      poff q.layout k c = spot p k c := by
  obtain ⟨m1, e1, hp⟩ := (c82_pack hf).2 _ h
  cases e1
  obtain ⟨-, l1, -, l3, -⟩ := createPackedLayout_ok hm.layout
  have fits : Float.Fits p.width src q.layout start stop :=
    ⟨hr, hm.layout, Nat.dvd_of_mod_eq_zero hf.aligned.1, Nat.dvd_of_mod_eq_zero hf.aligned.2, hh⟩
  obtain ⟨-, -, -, -, hv, -⟩ := Float.memcpyPack_ok fits hg
  intro c h1 h2 k hk
  have hk' : k < src.layout.rows := by rw [← fits.rows]; exact hk
  refine ⟨?_, poff_spot l1 l3 hm.stride k c⟩
  rw [hv k c hk' h1 h2, hp.entry c h1 h2 k (by rw [← hm.rows]; exact hk')]
  unfold Float.rowVal wanted
  rw [hm.cols]
  split
  · rename_i hc
    exact hm.values k c (by rw [← hm.rows]; exact hk') hc
  · rfl

/-- Four columns (RHS), and all buffers are in a 32-bit address space: then no offset overflows. -/
theorem c82_narrow (hw : p.wide = false) (h0 : 0 < p.rows) (hr : p.rows < 2 ^ 31) (ho : start ≤ stop)
    (ha : start % 4 = 0 ∧ stop % 4 = 0) (hc : stop < p.cols + 4) (hst : p.rows ≤ p.packedStride)
    (hs : ∀ c, c < p.cols → ∀ k, k < p.rows → p.stride * c + k < p.size .src) (hp : p.packedStride * stop ≤ p.size .packed)
    (hm : ∀ r, 4 * p.size r ≤ 2 ^ 32) : CallFits p start stop := by
  refine ⟨ho, by unfold Call.width; rw [hw]; exact ha, hr, hst, hs, hp, fun c h1 h2 => ⟨?_, ?_⟩⟩
  · have a1 := hs c (by omega) 0 h0
    have a2 := hm .src
    omega
  · have a1 : p.packedStride * c ≤ p.packedStride * stop := Nat.mul_le_mul_left _ (by omega)
    have a2 := hm .packed
    omega

theorem overflow_run {p : Call A} (e1 : p.stride = 2 ^ 29) (e2 : p.packedStride = 16) (e3 : p.rows = 16) (e4 : p.cols = 1)
    (e5 : p.size .src = 16) (e6 : p.size .packed = 128) (e7 : p.width = 8) (m : Region → Nat → A) :
    (∃ r, Run p 0 8 m r) ∧ ∀ r, Run p 0 8 m r → r = .error .ub := by
  have hb : ∀ m, block p 4 m = .error .ub := fun m => by
    unfold block
    have : ¬p.stride * 4 < 2 ^ 31 := by rw [e1]; norm_num
    simp only [C.int, if_neg this]
    rfl
  have ha : block p 0 (cleared p m) = .ok (job p 0 (cleared p m)) :=
    block_ok (by decide) (by rw [Nat.mul_zero]; norm_num) (by rw [Nat.zero_div, Nat.mul_zero, Nat.mul_zero]; norm_num)
  have hf : Fits (job p 0 (cleared p m)) := by
    refine ⟨by show p.rows < _; omega, width_or p, fun c hc => ?_, fun c hc k hk => ?_, fun k hk => ?_⟩
    · show (if fromZero p.cols 0 c then Region.zeros else .src) ≠ _
      split <;> decide
    · have hk : k < 16 := by rw [← e3]; exact hk
      show (if fromZero p.cols 0 c then 0 else p.stride * 0 + p.stride * c) + (if !fromZero p.cols 0 c then 4 else 0) * (k / 4) + k % 4 <
        (if (if fromZero p.cols 0 c then Region.zeros else .src) = .zeros then 4 else p.size (if fromZero p.cols 0 c then Region.zeros else .src))
      rw [fromZero_of hc, e4]
      interval_cases c
      · simp [e5]; omega
      all_goals simp; omega
    · have hk : k < 16 := by rw [← e3]; exact hk
      show p.packedStride * (p.width * (0 / p.width)) + 0 % p.width + p.width * k + 4 ≤ p.size .packed
      rw [e2, e6, e7]
      omega
  unfold Run
  rw [e7]
  simp only [Nat.zero_mod, if_true]
  have over : ∀ m r, Loop p 8 4 m r → r = .error .ub := fun m r hr => by
    cases hr with
    | done h => omega
    | overflow h e => rw [hb] at e; cases e; rfl
    | fault => rfl
    | stuck h e => rw [hb] at e; cases e
    | next h e => rw [hb] at e; cases e
  refine ⟨?_, fun r hr => ?_⟩
  · obtain ⟨s', w1, w2⟩ := pack_ok hf (begin_ok _)
    exact ⟨_, .next (by decide) ha (begin_ok _) w1 w2.ok (.overflow (by decide) (hb _))⟩
  · cases hr with
    | done h => omega
    | overflow h e => rw [ha] at e; cases e
    | fault => rfl
    | stuck h e hst hno =>
      rw [ha] at e; cases e
      obtain ⟨s2, w1, _⟩ := pack_ok hf hst
      exact absurd w1 (hno s2)
    | next h e hst hsp hok hl => exact over _ _ hl

/-- Eight columns (LHS): a matrix with one column and stride 2^29.  The offset of the second block, which has no
column of the matrix, is computed in `int` and overflows, although all buffers are small. -/
theorem c82_overflow (o : Ops A) : ∃ p : Call A, p.wide = true ∧ p.rows = 16 ∧ p.cols = 1 ∧ p.packedStride = 16 ∧
    p.size .src = 16 ∧ p.size .packed = 128 ∧
    ∀ m, (∃ r, Run p 0 8 m r) ∧ ∀ r, Run p 0 8 m r → r = .error .ub := by
  refine ⟨⟨true, 16, 1, 2 ^ 29, 16, fun r => match r with | .src => 16 | _ => 128, o⟩, rfl, rfl, rfl, rfl, rfl, rfl,
    fun m => overflow_run rfl rfl rfl rfl rfl rfl rfl m⟩

end

/-! ### Packing and kernel together -/

/-- Both sides have been packed for a call `j` of the kernel: `l` has packed columns [l0, l1) of the LHS (rows of the
destination), from memory `ml` to `ml'`, and `r` columns [r0, r1) of the RHS; the call reads what they have left. -/
structure Joined (l r : Call A) (l0 l1 r0 r1 : Nat) (ml ml' mr mr' : Region → Nat → A) (j : Job A) : Prop where
  lhs : Run l l0 l1 ml (.ok ml')
  rhs : Run r r0 r1 mr (.ok mr')
  lhsFits : CallFits l l0 l1
  rhsFits : CallFits r r0 r1
  kinds : l.wide = true ∧ r.wide = false
  depth : j.depth = l.rows ∧ j.depth = r.rows
  strides : j.lhsStride = l.packedStride ∧ j.rhsStride = r.packedStride
  /-- kernel_common.h:243-246 -/
  bases : j.lhsBase = j.startRow * j.lhsStride ∧ j.rhsBase = j.startCol * j.rhsStride
  aligned : j.startRow % 8 = 0 ∧ j.startCol % 4 = 0
  rows : l0 ≤ j.startRow ∧ j.lastRow + 8 ≤ l1
  cols : r0 ≤ j.startCol ∧ j.lastCol + 4 ≤ r1
  dst : j.dstRows = l.cols ∧ j.dstCols = r.cols
  memory : j.m .lhs = ml' .packed ∧ j.m .rhs = mr' .packed

variable {l r : Call A} {l0 l1 r0 r1 : Nat} {ml ml' mr mr' : Region → Nat → A} {j : Job A}

theorem Joined.lhsAt (h : Joined l r l0 l1 r0 r1 ml ml' mr mr' j) {x c k : Nat} (hi : j.Inside x c) (hk : k < j.depth) :
    j.lhsAt x k = ml .src (l.stride * (j.startRow + x) + k) := by
  obtain ⟨m1, e1, hp⟩ := (c82_pack h.lhsFits).2 _ h.lhs
  cases e1
  have h1 := h.rows
  obtain ⟨i1, i2, i3, i4⟩ := hi
  have w : l.width = 8 := by unfold Call.width; rw [h.kinds.1]; rfl
  have := hp.entry (j.startRow + x) (by omega) (by unfold Job.lastRow at h1; omega) k (by rw [← h.depth.1]; exact hk)
  unfold wanted at this
  rw [if_pos (by rw [← h.dst.1]; exact i3)] at this
  rw [← this]
  unfold Job.lhsAt spot
  have ha := h.aligned.1
  rw [h.memory.1, h.bases.1, w, ← h.strides.1, show (j.startRow + x) % 8 = x % 8 by omega,
    show (j.startRow + x) / 8 = j.startRow / 8 + x / 8 by omega]
  congr 2
  have e : j.startRow = 8 * (j.startRow / 8) := by omega
  have e2 : j.startRow * j.lhsStride = j.lhsStride * (8 * (j.startRow / 8)) := by rw [← e]; ring
  rw [e2]
  ring

theorem Joined.rhsAt (h : Joined l r l0 l1 r0 r1 ml ml' mr mr' j) {x c k : Nat} (hi : j.Inside x c) (hk : k < j.depth) :
    j.rhsAt c k = mr .src (r.stride * (j.startCol + c) + k) := by
  obtain ⟨m1, e1, hp⟩ := (c82_pack h.rhsFits).2 _ h.rhs
  cases e1
  have h1 := h.cols
  obtain ⟨i1, i2, i3, i4⟩ := hi
  have w : r.width = 4 := by unfold Call.width; rw [h.kinds.2]; rfl
  have := hp.entry (j.startCol + c) (by omega) (by unfold Job.lastCol at h1; omega) k (by rw [← h.depth.2]; exact hk)
  unfold wanted at this
  rw [if_pos (by rw [← h.dst.2]; exact i4)] at this
  rw [← this]
  unfold Job.rhsAt spot
  have ha := h.aligned.2
  rw [h.memory.2, h.bases.2, w, ← h.strides.2, show (j.startCol + c) % 4 = c % 4 by omega,
    show (j.startCol + c) / 4 = j.startCol / 4 + c / 4 by omega]
  congr 2
  have e : j.startCol = 4 * (j.startCol / 4) := by omega
  have e2 : j.startCol * j.rhsStride = j.rhsStride * (4 * (j.startCol / 4)) := by rw [← e]; ring
  rw [e2]
  ring

/-- Products of the source elements of a row and a column, by increasing depth, with bias and clamped. -/
def entryOf (l r : Call A) (ml mr : Region → Nat → A) (j : Job A) (x c : Nat) : A :=
  j.ops.min (j.ops.max (j.ops.add
    ((List.range j.depth).foldl (fun d k => j.ops.fma d (ml .src (l.stride * (j.startRow + x) + k))
      (mr .src (r.stride * (j.startCol + c) + k))) j.ops.zero) (j.biasOf x c)) j.clampMin) j.clampMax

theorem foldl_same {B : Type} (f g : A → B → A) : ∀ (L : List B) (a : A), (∀ a, ∀ b ∈ L, f a b = g a b) →
    L.foldl f a = L.foldl g a
  | [], _, _ => rfl
  | b :: L, a, h => by
    rw [List.foldl_cons, List.foldl_cons, h a b List.mem_cons_self]
    exact foldl_same f g L _ fun a b hb => h a b (List.mem_cons_of_mem _ hb)

/-- C82: packing both sides and running the kernel on them stores, in every entry of the call that is inside the
destination, the sum of products of the source elements, and changes nothing else in the destination. -/
theorem c82_multiply (h : Joined l r l0 l1 r0 r1 ml ml' mr mr' j) (hf : j.Fits) (hb : j.NoBias) {s : St A}
    (hs : j.Start s) : ∃ s', Stops j.env kernel s s' ∧ s'.bad = false ∧
      (∀ x c, j.Inside x c → s'.m .dst (j.addr x c) = entryOf l r ml mr j x c) ∧
      ∀ o, (∀ x c, j.Inside x c → o ≠ j.addr x c) → s'.m .dst o = j.m .dst o := by
  obtain ⟨s', h1, h2⟩ := c81_kernel hf hb hs
  refine ⟨s', h1, h2.ok, fun x c hi => ?_, h2.rest⟩
  rw [h2.entry x c hi]
  unfold Job.outOf Job.sumOf entryOf
  rw [foldl_same _ _ _ _ fun a k hk => ?_]
  have hk := List.mem_range.mp hk
  show j.ops.fma a _ _ = j.ops.fma a _ _
  rw [h.lhsAt hi hk, h.rhsAt hi hk]

/-- C82: in exact arithmetic, that is the matrix product plus the bias, clamped. -/
theorem c82_product {R : Type} [CommSemiring R] {l r : Call R} {ml mr : Region → Nat → R} {j : Job R}
    (ho : Exact j.ops) (x c : Nat) : entryOf l r ml mr j x c = j.ops.min (j.ops.max
      ((∑ k ∈ Finset.range j.depth, ml .src (l.stride * (j.startRow + x) + k) * mr .src (r.stride * (j.startCol + c) + k)) +
        j.biasOf x c) j.clampMin) j.clampMax := by
  unfold entryOf
  have e : (fun (d : R) k => j.ops.fma d (ml .src (l.stride * (j.startRow + x) + k)) (mr .src (r.stride * (j.startCol + c) + k))) =
      fun d k => d + ml .src (l.stride * (j.startRow + x) + k) * mr .src (r.stride * (j.startCol + c) + k) := by
    funext d k
    exact ho.fma _ _ _
  rw [e, foldl_sum, sum_range, ho.add, ho.zero, zero_add]

/-! ### Examples -/

/-- A 7 × 10 matrix with stride 9, packed with stride 8. -/
def exCall (wide : Bool) : Call Int :=
  ⟨wide, 7, 10, 9, 8, fun r => match r with | .src => 90 | .packed => 128 | _ => 0, intOps⟩

theorem exCall_fits (wide : Bool) : CallFits (exCall wide) 0 16 := by
  refine ⟨by decide, by cases wide <;> decide, by show 7 < _; omega, by show 7 ≤ 8; omega, fun c hc k hk => ?_,
    by show 8 * 16 ≤ 128; omega, fun c hc => ?_⟩
  · show 9 * c + k < 90
    have hc : c < 10 := hc
    have hk : k < 7 := hk
    omega
  · intro _
    show 9 * c < _ ∧ 8 * c < _
    omega

def exMem (r : Region) (o : Nat) : Int := if r = .src then 3 * o + 7 else -1

theorem exRun (wide : Bool) : ∃ m', Run (exCall wide) 0 16 exMem (.ok m') := by
  obtain ⟨⟨r, h⟩, h2⟩ := c82_pack (m := exMem) (exCall_fits wide)
  obtain ⟨m', rfl, _⟩ := h2 r h
  exact ⟨m', h⟩

/-- Row 6 of column 9, the padding beside it, and the unused last row of the packed matrix. -/
example {m' : Region → Nat → Int} (h : Run (exCall true) 0 16 exMem (.ok m')) :
    m' .packed 113 = 268 ∧ m' .packed 114 = 0 ∧ m' .packed 120 = -1 := by
  obtain ⟨m1, e1, hp⟩ := (c82_pack (exCall_fits true)).2 _ h
  cases e1
  refine ⟨hp.entry 9 (by omega) (by omega) 6 (by show 6 < 7; omega), hp.entry 10 (by omega) (by omega) 6 (by show 6 < 7; omega),
    hp.restPacked 120 (fun c _ hc k hk => ?_)⟩
  have hk : k < 7 := hk
  show 120 ≠ 8 * (8 * (c / 8)) + 8 * k + c % 8
  omega

example {m' : Region → Nat → Int} (h : Run (exCall false) 0 16 exMem (.ok m')) :
    m' .packed 89 = 268 ∧ m' .packed 90 = 0 ∧ m' .packed 92 = -1 := by
  obtain ⟨m1, e1, hp⟩ := (c82_pack (exCall_fits false)).2 _ h
  cases e1
  refine ⟨hp.entry 9 (by omega) (by omega) 6 (by show 6 < 7; omega), hp.entry 10 (by omega) (by omega) 6 (by show 6 < 7; omega),
    hp.restPacked 92 (fun c _ hc k hk => ?_)⟩
  have hk : k < 7 := hk
  show 92 ≠ 8 * (4 * (c / 4)) + 4 * k + c % 4
  omega

/-- The hypotheses of `c82_asm`: the third block of the same call, two columns of which come from `zerobuf`. -/
example (wide : Bool) : Fits (job (exCall wide) 8 exMem) ∧ (job (exCall wide) 8 exMem).Start (begin (job (exCall wide) 8 exMem)) ∧
    (job (exCall wide) 8 exMem).reg 1 = .src ∧ (job (exCall wide) 8 exMem).reg 2 = .zeros ∧
    (job (exCall wide) 8 exMem).srcInc = 3 :=
  ⟨job_fits (exCall_fits wide) (by decide) (by decide), begin_ok _, rfl, rfl, rfl⟩

/-- The hypotheses of `c82_memcpy`. -/
def exSmall : Call Int := ⟨false, 2, 3, 2, 2, fun r => match r with | .src => 6 | .packed => 8 | _ => 0, intOps⟩
def exSrc : Mul.Mat Int := ⟨⟨2, 3, 3, .rowMajor⟩, ⟨6, fun o => 3 * (2 * (o % 3) + o / 3 : Nat) + 7⟩, 0⟩
def exPacked : PMat Int := ⟨⟨2, 4, 2, .colMajor, ⟨.rowMajor, 1, 4⟩⟩, ⟨8, fun _ => 0⟩, none, 0⟩

example : CallFits exSmall 0 4 ∧ Mirrors exSmall exMem exSrc exPacked ∧
    (Float.memcpyPack 0 4 exSrc 0 4 exPacked).toOption.isSome := by
  refine ⟨⟨by decide, by decide, by show 2 < _; omega, le_rfl, fun c hc k hk => ?_, by decide, fun c hc => ?_⟩,
    ⟨rfl, rfl, fun k c hk hc => ?_, by decide, rfl⟩, by decide +kernel⟩
  · have hk : k < 2 := hk
    have hc : c < 3 := hc
    show 2 * c + k < 6
    omega
  · intro _
    show 2 * c < _ ∧ 2 * c < _
    omega
  · have hk : k < 2 := hk
    have hc : c < 3 := hc
    interval_cases k <;> interval_cases c <;> rfl

/-- Rows 8, 9 and columns 4, …, 9 of the product of the example's transpose with itself. -/
def exKernel (m : Region → Nat → Int) : Job Int where
  startRow := 8
  startCol := 4
  rowSteps := 0
  colSteps := 1
  depth := 7
  lhsBase := 64
  rhsBase := 32
  dstBase := 48
  lhsStride := 8
  rhsStride := 8
  dstStride := 10
  dstRows := 10
  dstCols := 10
  clampMin := -1000000
  clampMax := 1000000
  hasBias := false
  chanCol := false
  size := fun _ => 128
  m := m
  ops := intOps

/-- The hypotheses of `c82_multiply`; entry (9, 6) of the destination. -/
example : ∃ (ml' mr' : Region → Nat → Int) (j : Job Int) (s s' : St Int),
    Joined (exCall true) (exCall false) 0 16 0 16 exMem ml' exMem mr' j ∧ j.Fits ∧ j.NoBias ∧ j.Start s ∧
    Stops j.env kernel s s' ∧ s'.m .dst 69 = 322966 := by
  obtain ⟨ml', hl⟩ := exRun true
  obtain ⟨mr', hr⟩ := exRun false
  let M : Region → Nat → Int := fun g => match g with
    | .lhs => ml' .packed | .rhs => mr' .packed | _ => fun _ => 0
  have hJ : Joined (exCall true) (exCall false) 0 16 0 16 exMem ml' exMem mr' (exKernel M) :=
    ⟨hl, hr, exCall_fits true, exCall_fits false, ⟨rfl, rfl⟩, ⟨rfl, rfl⟩, ⟨rfl, rfl⟩, ⟨rfl, rfl⟩, ⟨show 8 % 8 = 0 from rfl, show 4 % 4 = 0 from rfl⟩,
      ⟨by show 0 ≤ 8; decide, by show 8 + 8 * 0 + 8 ≤ 16; decide⟩, ⟨by show 0 ≤ 4; decide, by show 4 + 4 * 1 + 4 ≤ 16; decide⟩, ⟨rfl, rfl⟩, ⟨rfl, rfl⟩⟩
  have hF : (exKernel M).Fits := by
    constructor
    case dst =>
      intro r c h1 h2 h3 h4
      simp only [exKernel] at *
      omega
    all_goals simp [exKernel, Job.lastRow, Job.lastCol]
  have hN : (exKernel M).NoBias := fun _ _ _ => rfl
  obtain ⟨s', a1, -, a3, -⟩ := c82_multiply hJ hF hN (exStart_ok _ fun _ _ => 0)
  have hi : (exKernel M).Inside 1 2 := show 1 < 8 * (0 + 1) ∧ 2 < 4 * (1 + 1) ∧ 8 + 1 < 10 ∧ 4 + 2 < 10 by decide
  refine ⟨ml', mr', _, _, s', hJ, hF, hN, exStart_ok _ fun _ _ => 0, a1, (a3 1 2 hi).trans ?_⟩
  rw [c82_product intOps_exact]
  show intOps.min (intOps.max ((∑ k ∈ Finset.range 7, exMem .src (9 * (8 + 1) + k) * exMem .src (9 * (4 + 2) + k)) + 0)
    (-1000000)) 1000000 = 322966
  decide +kernel

/-- The hypotheses of `c82_narrow`. -/
example : (exCall false).wide = false ∧ 0 < (exCall false).rows ∧ 12 < (exCall false).cols + 4 ∧
    (exCall false).packedStride * 12 ≤ (exCall false).size .packed ∧ ∀ r, 4 * (exCall false).size r ≤ 2 ^ 32 := by
  refine ⟨rfl, by decide, by decide, by decide, fun r => ?_⟩
  cases r <;> decide

end Ruy.Arm32.Pack

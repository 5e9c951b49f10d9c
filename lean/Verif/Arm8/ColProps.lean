import Verif.Arm8.ColWhole
import Verif.Arm8.PackProps
/-
C85: `Kernel8bitNeon1Col` for 32-bit ARM (kernel_arm32.cc:1634-2491), which is called instead of `Kernel8bitNeon` for
destinations of one column with channels in rows (kernel_arm.h:96-99).

Model: `One.kernel` (`ColCode.lean`).  Specification: that of C83 (`Arm8/Job.lean`).

  c85_pairs          stops, nothing undefined, result up to the reduction of pairs of products to int16
  c85_partial        the exact result
  c85_agrees         the same destination as from `Kernel8bitNeon`
  c85_int16          a case where the int16 reduction shows
  c85_raw            int32 destinations without sums of the LHS: written as if they were uint8
  c85_raw_false      a case of it
  c85_multiply       packing both sides, then the kernel that the library calls
  c85_second         the second column of the packed RHS is not read
  c85_registers      registers changed, with q11 beyond the clobber list
  c85_clobber_false  every call changes q11
  c85_depth0         depth 0: reads beyond an empty packed matrix
-/
namespace Ruy.Arm8.One
open Ruy.Arm8
open Ruy.Neon (St Val Region Vec Byte Dt le4 byteOf)
open Simd (wrap8 wrap16 wrap32)

/-- C85 (what the code does unless the destination is int32 and the LHS has no sums): as `c83_pairs`, for calls with a
destination of one column and channels in rows. -/
theorem c85_pairs {j : Job} (hf : j.Fits) (ho : Single j) (ha : j.Args) (ht : j.dt = .i32 → j.hasLhsSums = true) {s : St}
    (h : j.Start s) : ∃ s', Stops j.env kernel s s' ∧
      j.Result j.dt (fun r c => j.outOf j.dt (j.accOf (j.dot16Of r c) r c) r c) s' := by
  obtain ⟨s', h1, h2, -⟩ := finished hf ho h
  have e : j.ty = j.dt := by
    unfold Job.ty
    refine if_neg (fun hh => ?_)
    rw [ht hh.1] at hh
    exact absurd hh.2 (by decide)
  have e2 : entryAt j = fun r c => j.outOf j.dt (j.accOf (j.dot16Of r c) r c) r c :=
    funext fun r => funext fun c => by rw [entry_eq ha, e]
  rw [e, e2] at h2
  exact ⟨s', h1, h2⟩

/-- C85 (partial): the exact sum of products.  Missing from the full statement: operands that have -128 in both a row
and the column at depths `k` and `k + 8` of a group of 16 (`c85_int16`), and int32 destinations for an LHS without sums
(`c85_raw_false`). -/
theorem c85_partial {j : Job} (hf : j.Fits) (ho : Single j) (ha : j.Args) (ht : j.dt = .i32 → j.hasLhsSums = true)
    (hn : ∀ r c, j.Inside r c → j.NoPair r c) {s : St} (h : j.Start s) :
    ∃ s', Stops j.env kernel s s' ∧
      j.Result j.dt (fun r c => j.outOf j.dt (j.accOf (j.dotOf r c) r c) r c) s' := by
  obtain ⟨s', h1, h2⟩ := c85_pairs hf ho ha ht h
  refine ⟨s', h1, h2.ok, h2.sp, h2.inputs, fun r c hi b hb => ?_, h2.rest⟩
  rw [h2.entry r c hi b hb, dot16_exact (hn r c hi)]

/-- Results of the same job agree on the destination. -/
theorem result_unique {j : Job} {ty : Dt} {f : Nat → Nat → Int} {s s' : St} (h : j.Result ty f s) (h' : j.Result ty f s')
    {r : Region} (hr : r ≠ .tmp) : s.m r = s'.m r := by
  by_cases hd : r = .dst
  · subst hd
    funext o
    by_cases ho : ∃ r c, j.Inside r c ∧ ∃ b, b < ty.size ∧ o = j.addr ty r c + b
    · obtain ⟨r, c, hi, b, hb, rfl⟩ := ho
      rw [h.entry r c hi b hb, h'.entry r c hi b hb]
    · have : ∀ r c, j.Inside r c → ∀ b, b < ty.size → o ≠ j.addr ty r c + b :=
        fun r c hi b hb e => ho ⟨r, c, hi, b, hb, e⟩
      rw [h.rest o this, h'.rest o this]
  · rw [h.inputs r hd hr, h'.inputs r hd hr]

/-- C85: the two kernels leave the same memory, but for the temporary buffer, whatever the job. -/
theorem c85_agrees {j : Job} (hf : j.Fits) (ho : Single j) {s t : St} (hs : j.Start s) (ht : j.Start t) :
    ∃ s' t', Stops j.env kernel s s' ∧ Stops j.env Arm8.kernel t t' ∧ s'.bad = false ∧ t'.bad = false ∧
      ∀ r, r ≠ .tmp → s'.m r = t'.m r := by
  obtain ⟨s', h1, h2, -⟩ := finished hf ho hs
  obtain ⟨t', h3, h4, -⟩ := Arm8.finished hf ht
  exact ⟨s', t', h1, h3, h2.ok, h4.ok, fun r hr => result_unique h2 h4 hr⟩

/-- The kernel that is called: kernel_arm.h:96-102. -/
def chosen (j : Job) : List Block := if !j.chanCol && j.dstCols == 1 then kernel else Arm8.kernel

/-- C85: packing both sides as in C84 and running the kernel that `Kernel::Run` chooses stores, in every entry of the
call that is inside the destination, the sum of products of the source elements without their zero points, modulo 2^32
and put through the output stage, and changes nothing else in the destination. -/
theorem c85_multiply {l r : Neon.PackCall} {l0 l1 r0 r1 : Nat} {ml ml' mr mr' : Region → Nat → Byte} {j : Job}
    (h : Pack.Joined l r l0 l1 r0 r1 ml ml' mr mr' j) (hf : j.Fits) (ha : j.Args)
    (ht : j.dt = .i32 → j.hasLhsSums = true) (hn : ∀ k c, k < j.depth → c < l.cols → l.wanted ml k c ≠ -128) {s : St}
    (hs : j.Start s) : ∃ s', Stops j.env (chosen j) s s' ∧ s'.bad = false ∧
      (∀ x c, j.Inside x c → ∀ b, b < j.dt.size → s'.m .dst (j.addr j.dt x c + b) =
        byteOf (j.outOf j.dt (wrap32 (Pack.accumulated l r ml mr j x c)) x c) b) ∧
      ∀ o, (∀ x c, j.Inside x c → ∀ b, b < j.dt.size → o ≠ j.addr j.dt x c + b) → s'.m .dst o = j.m .dst o := by
  obtain ⟨t', h3, h4, h5, h6⟩ := Pack.c84_multiply h hf ha ht hn hs
  unfold chosen
  cases hc : !j.chanCol && j.dstCols == 1
  · exact ⟨t', h3, h4, h5, h6⟩
  · rw [Bool.and_eq_true, Bool.not_eq_true', beq_iff_eq] at hc
    obtain ⟨s', t'', k1, k2, k3, -, k5⟩ := c85_agrees hf ⟨hc.2, hc.1⟩ hs hs
    obtain rfl := stops_unique h3 k2
    refine ⟨s', k1, k3, fun x c hi b hb => ?_, fun o hh => ?_⟩
    · rw [k5 .dst (by decide)]; exact h5 x c hi b hb
    · rw [k5 .dst (by decide)]; exact h6 o hh

/-- C85: an int32 destination for an LHS without sums, as `c83_raw`: the jump at kernel_arm32.cc:1952-1956 is skipped
together with the sums. -/
theorem c85_raw {j : Job} (hf : j.Fits) (ho : Single j) (ha : j.Args) (ht : j.dt = .i32) (hl : j.hasLhsSums = false)
    {s : St} (h : j.Start s) : ∃ s', Stops j.env kernel s s' ∧
      j.Result .u8 (fun r c => j.outOf .u8 (j.accOf (j.dot16Of r c) r c) r c) s' := by
  obtain ⟨s', h1, h2, -⟩ := finished hf ho h
  have e : j.ty = .u8 := if_pos ⟨ht, hl⟩
  have e2 : entryAt j = fun r c => j.outOf .u8 (j.accOf (j.dot16Of r c) r c) r c :=
    funext fun r => funext fun c => by rw [entry_eq ha, e]
  rw [e, e2] at h2
  exact ⟨s', h1, h2⟩

/-- C85: the second column of the packed RHS makes no difference.  `j'` differs from `j` only in bytes of the RHS that
belong to column 1 of the block. -/
theorem c85_second {j : Job} (hf : j.Fits) (ho : Single j) {m' : Nat → Byte}
    (hm : ∀ t i, i < 16 → m' (j.rhsBase + 32 * t + i) = j.m .rhs (j.rhsBase + 32 * t + i)) {s t : St}
    (hs : j.Start s) (ht : { j with m := fun r => if r = .rhs then m' else j.m r : Job }.Start t) :
    ∃ s' t', Stops j.env kernel s s' ∧ Stops j.env kernel t t' ∧ s'.bad = false ∧ t'.bad = false ∧
      s'.m .dst = t'.m .dst := by
  obtain ⟨st1, st2⟩ := ho.steps hf
  set j' : Job := { j with m := fun r => if r = .rhs then m' else j.m r } with hj
  have hf' : j'.Fits := { hf with }
  have ho' : Single j' := ⟨ho.cols, ho.chan⟩
  obtain ⟨s', h1, h2, -⟩ := finished hf ho hs
  obtain ⟨t', h3, h4, -⟩ := finished hf' ho' ht
  refine ⟨s', t', h1, h3, h2.ok, h4.ok, ?_⟩
  have mo : ∀ r, r ≠ .rhs → j'.m r = j.m r := fun r hr => if_neg hr
  have md : j'.m .rhs = m' := by rw [hj]; rfl
  have hw : ∀ r, r ≠ .rhs → ∀ i, j'.word r i = j.word r i := fun r hr i => by unfold Job.word; rw [mo r hr]
  have he : ∀ r c, j.Inside r c → entryAt j' r c = entryAt j r c := by
    intro r c hi
    have c0 : c = 0 := by
      have h1 := hi.2.1; have h2 := hi.2.2.2; have h3 := ho.cols; omega
    subst c0
    have hd : blockDot j' (lhsBlk j' (r / 4)) (rhsBlk j' 0) (r % 4) 0 (j'.depthSteps + 1) =
        blockDot j (lhsBlk j (r / 4)) (rhsBlk j 0) (r % 4) 0 (j.depthSteps + 1) := by
      unfold blockDot
      refine Finset.sum_congr rfl (fun g _ => Finset.sum_congr rfl (fun i hi => ?_))
      rw [Finset.mem_range] at hi
      have hv : ∀ i, i < 16 → Neon.getB (j'.vec .rhs (rhsBlk j' 0 + 32 * g + 16 * 0)) i =
          Neon.getB (j.vec .rhs (rhsBlk j 0 + 32 * g + 16 * 0)) i := by
        intro i hi
        unfold Neon.getB Job.vec
        rw [md]
        show wrap8 (m' (rhsBlk j 0 + 32 * g + 16 * 0 + i)).toNat = _
        rw [show rhsBlk j 0 + 32 * g + 16 * 0 + i = j.rhsBase + 32 * g + i by unfold rhsBlk; omega, hm g i hi]
      unfold Neon.pair
      rw [hv i (by omega), hv (8 + i) (by omega)]
      have hl : ∀ o, j'.vec .lhs o = j.vec .lhs o := fun o => by unfold Job.vec; rw [mo _ (by decide)]
      rw [hl]
      rfl
    have hacc : accInt j' (r / 4) (0 / 2) (r % 4) (0 % 2) = accInt j (r / 4) (0 / 2) (r % 4) (0 % 2) := by
      unfold accInt acc2 acc1 rsumAt lsumAt
      rw [hw _ (by decide), hw _ (by decide), hw _ (by decide)]
      rw [show blockDot j' (lhsBlk j' (r / 4)) (rhsBlk j' (0 / 2)) (r % 4) (0 % 2) (j'.depthSteps + 1) = _ from hd]
      rfl
    unfold entryAt valAt scaledAt
    rw [hacc, hw _ (by decide), hw _ (by decide)]
    rfl
  have h4' : j.Result j.ty (entryAt j) { t' with m := fun r => if r = .rhs then j.m .rhs else t'.m r } := by
    refine ⟨h4.ok, h4.sp, fun r hd htmp => ?_, fun r c hi b hb => ?_, fun o hh => ?_⟩
    · show (if r = .rhs then j.m .rhs else t'.m r) = j.m r
      by_cases hr : r = .rhs
      · rw [if_pos hr, hr]
      · rw [if_neg hr, h4.inputs r hd htmp]; exact mo r hr
    · refine Eq.trans (h4.entry r c hi b hb) ?_
      rw [he r c hi]
    · exact (h4.rest o hh).trans (congrFun (mo .dst (by decide)) o)
  exact result_unique h2 h4' (by decide)

/-- C85: depth 0.  The first instruction reads beyond a packed matrix of depth 0. -/
theorem c85_depth0 {j : Job} {s : St} (h : j.Start s) (h0 : j.size .lhs = 0) :
    (run j.env kernel 1 (0, s)).2.bad = true := by
  show (exec j.env k0.body s).bad = true
  have ho : Neon.out j.env.base (s.x 34) 0 16 = true := by
    rw [show s.x 34 = _ from h.lhsP]
    have : j.env.base.size .lhs = 0 := h0
    simp [Neon.out, Val.isPtr, Val.region, Val.off, this]
  rw [(k0x j.env s).2.1, ho]
  simp

/-! ### Registers -/

/-- Output operands and clobber list: kernel_arm32.cc:2483-2490. -/
def declaredX : List Nat := [lp, rp, 0, 1, 2, 3, 4, 5, 6, 8, 10]
def declaredQ : List Nat := [0, 1, 2, 3, 4, 5, 6, 7, 8, 9, 10, 12, 13, 14, 15]

/-- C85: at no time are registers changed other than those declared, the frame, and `q11` — whatever the state at the
start, the parameters and the sizes of the buffers are. -/
theorem c85_registers (e : Env) (s : St) (n r : Nat) :
    (r ∉ declaredX → r ∉ frame → (run e kernel n (0, s)).2.x r = s.x r) ∧
      (r ∉ declaredQ → r ≠ 11 → (run e kernel n (0, s)).2.v r = s.v r) := by
  have h := run_covers (P := kernel) (X := declaredX ++ frame) (V := 11 :: declaredQ) (by decide +kernel) e n s r
  refine ⟨fun h1 h2 => h.1 (by simp [h1, h2]), fun h1 h2 => h.2 (by simp [h1, h2])⟩

/-- C85: every call leaves zeros in `q11`, which is not declared. -/
theorem c85_clobber_false {j : Job} (hf : j.Fits) (ho : Single j) {s : St} (h : j.Start s) :
    11 ∉ declaredQ ∧ ∃ s', Stops j.env kernel s s' ∧ (s'.v 11 = fun _ => 0) ∧ (s.v 11 ≠ (fun _ => 0) → s'.v 11 ≠ s.v 11) := by
  obtain ⟨s', h1, -, h3⟩ := finished hf ho h
  exact ⟨by decide, s', h1, h3, fun hv he => hv (he.symm.trans h3)⟩

/-! ### Examples -/

/-- 8 entries from row 4 of a destination of 11 rows, of which 7 are inside; depth 32. -/
def exJob (dt : Dt) (m : Region → Nat → Byte) : Job :=
  { Arm8.exJob dt false m with startCol := 0, colSteps := 0, dstCols := 1 }

theorem exFits (dt : Dt) (m : Region → Nat → Byte) : (exJob dt m).Fits := by
  constructor
  case dst =>
    intro r c h1 h2 h3 h4
    simp only [exJob, Arm8.exJob] at *
    cases dt <;> simp only [Dt.size] <;> omega
  case columns => cases dt <;> simp [exJob, Arm8.exJob, Dt.size]
  all_goals simp [exJob, Arm8.exJob, Job.lastRow, Job.lastCol, Job.depth, Job.channels]

theorem exSingle (dt : Dt) (m : Region → Nat → Byte) : Single (exJob dt m) := ⟨rfl, rfl⟩

theorem exArgs (dt : Dt) (m : Region → Nat → Byte) : (exJob dt m).Args :=
  ⟨fun h => absurd h (by simp [exJob, Arm8.exJob]), fun h => absurd h (by simp [exJob, Arm8.exJob]),
    fun h => absurd h (by simp [exJob, Arm8.exJob])⟩

/-- The hypotheses are met for each type of destination. -/
example (dt : Dt) : ∃ s', Stops (exJob dt exMem).env kernel (exStart (exJob dt exMem)) s' ∧ s'.bad = false :=
  have ⟨s', h1, h2⟩ := c85_pairs (exFits dt exMem) (exSingle dt exMem) (exArgs dt exMem) (fun _ => rfl) (exStart_ok _)
  ⟨s', h1, h2.ok⟩

/-- No -128 in the LHS, so `c85_partial` applies. -/
example (dt : Dt) : ∀ r c, (exJob dt exMem').Inside r c → (exJob dt exMem').NoPair r c := by
  intro r c _ t _ i _ hh
  have : (exJob dt exMem').lhsAt r (16 * t + i) ≠ -128 := by
    simp only [Job.lhsAt, exJob, Arm8.exJob, exMem', wrap8, BitVec.toNat_ofNat]
    omega
  exact this hh.1

/-- Other contents of the second column. -/
example (dt : Dt) : ∃ m' : Nat → Byte, m' ≠ (exJob dt exMem).m .rhs ∧
    ∀ t i, i < 16 → m' ((exJob dt exMem).rhsBase + 32 * t + i) = (exJob dt exMem).m .rhs ((exJob dt exMem).rhsBase + 32 * t + i) := by
  refine ⟨fun o => if o % 32 < 16 then (exJob dt exMem).m .rhs o else 77, fun h => ?_, fun t i hi => if_pos ?_⟩
  · exact absurd (congrFun h 16) (by show ¬((77 : Byte) = BitVec.ofNat 8 (16 * 16 + 5)); decide)
  · show (288 + 32 * t + i) % 32 < 16
    omega

example (dt : Dt) : (exStart (exJob dt exMem)).v 11 ≠ fun _ => 0 :=
  fun h => absurd (congrFun h 0) (by show ¬((99 : Byte) = 0); decide)

/-- A call with depth 0 and nothing packed. -/
example : ∃ (j : Job) (s : St), j.Start s ∧ j.size .lhs = 0 :=
  ⟨{ exJob .u8 exMem with size := fun r => if r = .lhs then 0 else 1000 }, _, exStart_ok _, rfl⟩

/-- A packed matrix of one column, and the product of the example of C84 with it. -/
def exCol : Neon.PackCall := { Pack.exCall with cols := 1 }

theorem exCol_fits : Pack.CallFits 2 exCol 0 2 := by
  refine ⟨by decide, by decide, by decide, by decide, by decide, fun c hc k hk => ?_,
    by decide, fun _ => by decide, fun c hc _ => ?_⟩
  · show 25 * c + k < 146
    have hc : c < 1 := hc
    have hk : k < 21 := hk
    omega
  · show 25 * c < _ ∧ 32 * c < _
    omega

def exKernel (m : Region → Nat → Byte) : Job :=
  { Pack.exKernel m with startCol := 0, rhsBase := 0, dstBase := 16, dstCols := 1 }

/-- The hypotheses of `c85_multiply`; entry (5, 0) of the destination. -/
example : ∃ (ml' mr' : Region → Nat → Byte) (j : Job) (s s' : St),
    Pack.Joined Pack.exCall exCol 0 8 0 2 Pack.exBytes ml' Pack.exBytes mr' j ∧ j.Fits ∧ j.Args ∧ j.Start s ∧
    (∀ k c, k < j.depth → c < Pack.exCall.cols → Pack.exCall.wanted Pack.exBytes k c ≠ -128) ∧
    chosen j = kernel ∧ Stops j.env (chosen j) s s' ∧
    ∀ b, b < 4 → s'.m .dst (20 + b) = byteOf (-72436) b := by
  obtain ⟨ml', hl⟩ := Pack.exRun true
  obtain ⟨⟨q, hq⟩, h2⟩ := Pack.c84_pack (wide := false) (m := Pack.exBytes) exCol_fits
  obtain ⟨mr', rfl, _⟩ := h2 q hq
  let M : Region → Nat → Byte := fun g => match g with
    | .lhs => ml' .packed | .rhs => mr' .packed | .lhsSums => ml' .sums | .rhsSums => mr' .sums | _ => fun _ => 0
  have hJ : Pack.Joined Pack.exCall exCol 0 8 0 2 Pack.exBytes ml' Pack.exBytes mr' (exKernel M) :=
    ⟨hl, hq, Pack.exCall_fits true, exCol_fits, ⟨rfl, rfl⟩, ⟨rfl, rfl⟩, ⟨rfl, rfl⟩, ⟨show 4 % 4 = 0 from rfl, show 0 % 2 = 0 from rfl⟩,
      ⟨by show 0 ≤ 4; decide, by show 4 + 4 * 0 + 4 ≤ 8; decide⟩, ⟨by show 0 ≤ 0; decide, by show 0 + 2 * 0 + 2 ≤ 2; decide⟩,
      ⟨rfl, rfl⟩, ⟨rfl, rfl⟩, ⟨rfl, rfl⟩, ⟨rfl, rfl⟩, ⟨rfl, rfl⟩,
      show (25088 : Int) = wrap32 (-28 * -28 * ((32 : Nat) : Int)) by decide⟩
  have hF : (exKernel M).Fits := by
    constructor
    case dst =>
      intro r c h1 h2 h3 h4
      simp only [exKernel, Pack.exKernel, Neon.Dt.size] at *
      omega
    all_goals simp [exKernel, Pack.exKernel, Job.lastRow, Job.lastCol, Job.depth, Neon.Dt.size]
  have hA : (exKernel M).Args :=
    ⟨fun _ i _ => by simp [Job.word, exKernel, Pack.exKernel, M, le4, Neon.le2, wrap32], fun _ i _ => rfl, fun _ i _ => rfl⟩
  have hN : ∀ k c, k < (exKernel M).depth → c < Pack.exCall.cols → Pack.exCall.wanted Pack.exBytes k c ≠ -128 := by
    intro k c _ _
    unfold Neon.PackCall.wanted
    split
    · show ((BitVec.ofNat 8 ((25 * c + k) % 200 + 7)).toNat : Int) - 128 ≠ -128
      rw [BitVec.toNat_ofNat]
      omega
    · decide
  obtain ⟨s', a1, -, a3, -⟩ := c85_multiply hJ hF hA (fun _ => rfl) hN (exStart_ok _)
  have hi : (exKernel M).Inside 1 0 := show 1 < 4 * (0 + 1) ∧ 0 < 2 * (0 + 1) ∧ 4 + 1 < 6 ∧ 0 + 0 < 1 by decide
  refine ⟨ml', mr', _, _, s', hJ, hF, hA, exStart_ok _, hN, rfl, a1, fun b hb => (a3 1 0 hi b hb).trans ?_⟩
  have e : Pack.accumulated Pack.exCall exCol Pack.exBytes Pack.exBytes (exKernel M) 1 0 = -72436 := by
    show (0 : Int) + ∑ k ∈ Finset.range 21, (Pack.exCall.element Pack.exBytes k 5 - 100) * (exCol.element Pack.exBytes k 0 - 100) = _
    decide +kernel
  rw [e]
  rfl

/-! ### The cases where the property fails -/

/-- One block of one column, depth 16, -128 everywhere. -/
def badJob : Job := { Arm8.badJob with dstCols := 1 }

theorem badFits : badJob.Fits := by
  constructor
  case memory => intro r; exact (by decide : 64 ≤ 2 ^ 32)
  case dst =>
   intro r c h1 h2 h3 h4
   simp only [badJob, Arm8.badJob, Dt.size] at *
   omega
  all_goals decide

theorem badArgs : badJob.Args :=
  ⟨fun _ i _ => by simp [Job.word, badJob, Arm8.badJob, le4, Neon.le2, wrap32], fun _ i _ => rfl, fun _ i _ => rfl⟩

/-- C85 fails as stated: the product is 262144, the kernel stores -262144. -/
theorem c85_int16 : ∃ s s', badJob.Fits ∧ Single badJob ∧ badJob.Args ∧ badJob.Start s ∧ Stops badJob.env kernel s s' ∧
    badJob.dotOf 0 0 = 262144 ∧ badJob.accOf (badJob.dotOf 0 0) 0 0 = 262144 ∧
    ∀ b, b < 4 → s'.m .dst (badJob.addr .i32 0 0 + b) = byteOf (-262144) b := by
  obtain ⟨s', h1, h2⟩ := c85_pairs badFits ⟨rfl, rfl⟩ badArgs (fun _ => rfl) (exStart_ok badJob)
  refine ⟨_, s', badFits, ⟨rfl, rfl⟩, badArgs, exStart_ok badJob, h1, by decide +kernel, by decide +kernel, fun b hb => ?_⟩
  refine Eq.trans (h2.entry 0 0 (by unfold Job.Inside; decide) b hb) ?_
  exact congrArg (byteOf · b) (by decide +kernel)

/-- One block of one column, depth 16, all entries 1, no zero points, no sums. -/
def rawJob : Job := { Arm8.rawJob with dstCols := 1 }

theorem rawFits : rawJob.Fits := by
  constructor
  case memory => intro r; exact (by decide : 64 ≤ 2 ^ 32)
  case dst =>
   intro r c h1 h2 h3 h4
   simp only [rawJob, Arm8.rawJob, Arm8.badJob, Dt.size] at *
   omega
  all_goals decide

theorem rawArgs : rawJob.Args :=
  ⟨fun _ i _ => by simp [Job.word, rawJob, Arm8.rawJob, le4, Neon.le2, wrap32], fun _ i _ => rfl, fun _ i _ => rfl⟩

/-- C85 fails as stated: every entry of the product is 16, the kernel stores 0 in entry (0, 0). -/
theorem c85_raw_false : ∃ s s', rawJob.Fits ∧ Single rawJob ∧ rawJob.Args ∧ rawJob.SumsOk ∧ rawJob.Start s ∧
    Stops rawJob.env kernel s s' ∧ rawJob.accOf (rawJob.dotOf 0 0) 0 0 = 16 ∧
    s'.m .dst (rawJob.addr .i32 0 0) = 0 ∧
    ¬rawJob.Result .i32 (fun r c => rawJob.outOf .i32 (rawJob.accOf (rawJob.dotOf r c) r c) r c) s' := by
  obtain ⟨s', h1, h2⟩ := c85_raw rawFits ⟨rfl, rfl⟩ rawArgs rfl rfl (exStart_ok rawJob)
  have hi : rawJob.Inside 0 0 := by unfold Job.Inside; decide
  have e := h2.entry 0 0 hi 0 (by decide)
  have e0 : s'.m .dst (rawJob.addr .i32 0 0) = 0 := by
    refine Eq.trans e ?_
    decide +kernel
  refine ⟨_, s', rawFits, ⟨rfl, rfl⟩, rawArgs, ⟨rfl, rfl, by decide⟩, exStart_ok rawJob, h1, by decide +kernel, e0, fun hr => ?_⟩
  have := hr.entry 0 0 hi 0 (by decide)
  rw [Nat.add_zero, e0] at this
  exact absurd this (by decide +kernel)

end Ruy.Arm8.One

import Verif.Arm32.ThreadsProps
import Verif.NeonF.Top
/-
From ruy::Mul to TrMul on 32-bit ARM (path kNeon), float matrices.  As `NeonF/Top.lean`, whose task and memory are used here, but
packed LHS matrices have eight columns per kernel block, packed RHS matrices four; what the front end sets up is handed to the
machine of `Arm32/Flow.lean`.
-/
namespace Ruy.Arm32.Top
open Ruy.Mat Ruy.Mul
open Ruy.Front (Scalars MulParams Junk newPacked ensureBuffers validate channelSide)
open Ruy.TrMul (Mem MapFor)
open Ruy.Simd.Flow (control)
open Ruy.NeonF (Ops)
open Ruy.NeonF.Flow (Mach shape XState elem)
open Ruy.NeonF.Top (task mach at_off elem_of bias_of place_off Entry)
open Ruy.Arm32.Flow
open Ruy.Neon.Flow (at')
open Ruy.XFloat.Top (UserOk CoreOk SizeOk BiasOk Same)

variable {A : Type}

/-! ### Model -/

/-- kernel_arm.h:173-174 (`LhsLayout`, `RhsLayout`). -/
def layout (s : Side) : KernelLayout := ⟨.rowMajor, 1, cols s⟩

/-- create_trmul_params.h:405-442 + prepare_packed_matrices.cc:70-95 without caching (`Front.createColMajor`). -/
def create (sc : Scalars A) (lhs rhs dst : Mul.Mat A) (mp : MulParams A) (ch : ChannelDim) (junk : Junk A) :
    C (XFloat.Job A × Mem A) := do
  C.check (dst.layout.order = .colMajor)
  let pl ← newPacked sc.packZp.lhs (layout .lhs) lhs junk.data.lhs junk.sums.lhs
  let pr ← newPacked sc.packZp.rhs (layout .rhs) rhs junk.data.rhs junk.sums.rhs
  let packed : SidePair (PMat A) := ⟨pl, pr⟩
  let src : SidePair (Mul.Mat A) := ⟨lhs, rhs⟩
  let e ← ensureBuffers sc { mp with channelDim := ch } (src.get (channelSide ch)).layout.cols
    (packed.get (channelSide ch)).layout.cols
  .ok (⟨src, e.1, fun _ _ _ => sc.ar.zero⟩, ⟨packed, dst⟩)

/-- frontend.h:47-71 and create_trmul_params.h:465-480 (`Front.frontEnd`). -/
def setup (sc : Scalars A) (ops : Ops A) (lhs rhs dst : Mul.Mat A) (mp : MulParams A) (junk : Junk A) : C (Flow.Task A × Mach A) := do
  validate .float .float .float lhs.zp rhs.zp dst.zp
  let r ← if dst.layout.order = .colMajor then create sc lhs.transpose rhs dst mp mp.channelDim junk
    else create sc rhs lhs.transpose dst.transpose mp mp.channelDim.transpose junk
  .ok (task false ops r.1 r.2, mach ops r.1 r.2)

/-- The memory TrMul may end with: simple loop, blocks by one thread, or any execution of several threads (trmul.cc:337-422). -/
inductive Ends (t : Flow.Task A) (m : Mach A) : Mach A → Prop
  | simple {m' : Mach A} : Runs t (simpleOps t) m (.ok m') → Ends t m m'
  | blocks {m' : Mach A} {bm : BlockMap.BlockMap} (pre : SidePair Bool) : MapFor (shape t) bm →
      BlockLoop t pre bm m (.ok m') → Ends t m m'
  | threads {x : XState A} {bm : BlockMap.BlockMap} (pre : SidePair Bool) (threads : Nat) (sched : List Nat) :
      MapFor (shape t) bm → 0 < threads → Exec t pre bm threads sched m (.ok x) →
      TrMul.Finished (control pre bm threads) x.ctl → Ends t m x.mem

/-- `d` is a destination that ruy::Mul (ruy.h:36-48, frontend.h:80-95) may end with: the user's matrix with the memory TrMul has
left. -/
def Mul (sc : Scalars A) (ops : Ops A) (lhs rhs dst : Mul.Mat A) (mp : MulParams A) (d : Mul.Mat A) : Prop :=
  ∃ junk t m m', setup sc ops lhs rhs dst mp junk = .ok (t, m) ∧ Ends t m m' ∧ d = { dst with data := ⟨dst.data.size, m'.dst⟩ }

/-! ### Specification -/

/-- Entry (i, j): products added to zero by increasing depth, then the bias, then clamped.  For row-major destinations the factors
are exchanged. -/
def entry (ops : Ops A) (order : Mat.Order) (lhs rhs : Mul.Mat A) (mp : MulParams A) (i j : Nat) : A :=
  ops.min (ops.max (ops.add
    (match order with
      | .colMajor => (List.range lhs.layout.cols).foldl (fun d k => ops.fma d (lhs.at i k) (rhs.at k j)) ops.zero
      | .rowMajor => (List.range lhs.layout.cols).foldl (fun d k => ops.fma d (rhs.at k j) (lhs.at i k)) ops.zero)
    (XFloat.biasAt ops.zero mp (channelOf mp.channelDim i j))) mp.clampMin) mp.clampMax

/-- A float matrix in a 32-bit address space, which also has room for it when packed, `depth` by `width`. -/
structure RoomOk (a : Mul.Mat A) (depth width : Nat) : Prop where
  data : 4 * a.data.size ≤ 2 ^ 32
  packed : 4 * (depth * (width + 8)) ≤ 2 ^ 32

/-- Float matrices ruy::Mul accepts, in a 32-bit address space; offsets of the columns of the last block are ints, too. -/
structure ArmOk (sc : Scalars A) (lhs rhs dst : Mul.Mat A) (mp : MulParams A) : Prop where
  user : UserOk sc 8 lhs rhs dst mp
  lroom : RoomOk lhs lhs.layout.cols lhs.layout.rows
  rroom : RoomOk rhs rhs.layout.rows rhs.layout.cols
  droom : 4 * dst.data.size ≤ 2 ^ 32
  broom : ∀ b, mp.bias = some b → 4 * b.size ≤ 2 ^ 32
  lcols : lhs.layout.order = .rowMajor → lhs.layout.stride * (lhs.layout.rows + 8) < 2 ^ 31
  rcols : rhs.layout.order = .colMajor → rhs.layout.stride * (rhs.layout.cols + 8) < 2 ^ 31

/-! ### TrMul is called as C89 and C90 assume -/

theorem four_of {r c : Nat} (h : SizeOk 8 r c) (s : Side) : SizeOk (cols s) r c := by
  cases s
  · exact h
  · have h1 := h.pack
    have h2 := h.flat
    have c1 := h1.cols
    have f1 := h1.flat
    change c + 8 < 2 ^ 31 at c1
    change (r + 1 - 1) * (c + 8 - 1) ≤ 2 ^ 31 at f1
    refine ⟨⟨⟨⟨0, rfl⟩, ⟨2, rfl⟩⟩, h1.rows_pos, h1.cols_pos, h1.rows, ?_, ?_⟩, ?_⟩
    · show c + 4 < _
      omega
    · show (r + 1 - 1) * (c + 4 - 1) ≤ _
      exact (Nat.mul_le_mul_left _ (by omega)).trans f1
    · exact (Nat.mul_le_mul_left r (by show c + 4 ≤ c + 8; omega)).trans_lt h2

/-- The bias buffer is the user's or has the required size. -/
theorem ensured_size {sc : Scalars A} {mp : MulParams A} {n req : Nat} {r : MulParams A × Bool} (h : ensureBuffers sc mp n req = .ok r)
    {b : Buf A} (hb : r.1.bias = some b) : mp.bias = some b ∨ b.size = req := by
  unfold ensureBuffers at h
  obtain ⟨cap, _, h⟩ := C.bind_ok h
  obtain ⟨_, _, h⟩ := C.bind_ok h
  obtain ⟨_, _, h⟩ := C.bind_ok h
  split at h
  · cases h; exact .inl hb
  · obtain ⟨b', e, h⟩ := C.bind_ok h
    obtain ⟨q, _, h⟩ := C.bind_ok h
    cases h
    change b' = some b at hb
    subst hb
    unfold Front.growBuffer at e
    split at e
    · cases e
    · obtain ⟨_, _, e⟩ := C.bind_ok e
      cases e
      exact .inr rfl

theorem create_ok {sc : Scalars A} {lhs rhs dst : Mul.Mat A} {mp : MulParams A} {ch : ChannelDim} (ops : Ops A)
    (h : CoreOk sc 8 lhs rhs dst mp ch) (hl : RoomOk lhs lhs.layout.rows lhs.layout.cols)
    (hr : RoomOk rhs rhs.layout.rows rhs.layout.cols) (hd : 4 * dst.data.size ≤ 2 ^ 32)
    (hb : ∀ b, mp.bias = some b → 4 * b.size ≤ 2 ^ 32)
    (hc : ∀ s : Side, ((SidePair.mk lhs rhs).get s).layout.order = .colMajor →
      ((SidePair.mk lhs rhs).get s).layout.stride * (((SidePair.mk lhs rhs).get s).layout.cols + 8) < 2 ^ 31) (junk : Junk A) :
    ∃ jb m n, create sc lhs rhs dst mp ch junk = .ok (jb, m) ∧ TaskOk (task false ops jb m) ∧ m.dst = dst ∧ jb.src = ⟨lhs, rhs⟩ ∧
      Same ((SidePair.mk lhs rhs).get (channelSide ch)).layout.cols n { mp with channelDim := ch } jb.mp := by
  obtain ⟨pl, e1, s1⟩ := XFloat.Top.side_of (f := sc.packZp.lhs) (data := junk.data.lhs) (sums := junk.sums.lhs)
    (four_of h.lsize .lhs) h.sources.1
  obtain ⟨pr, e2, s2⟩ := XFloat.Top.side_of (f := sc.packZp.rhs) (data := junk.data.rhs) (sums := junk.sums.rhs)
    (four_of h.rsize .rhs) h.sources.2
  change newPacked _ (layout .lhs) _ _ _ = _ at e1
  change newPacked _ (layout .rhs) _ _ _ = _ at e2
  have hb' : BiasOk sc { mp with channelDim := ch } ((SidePair.mk lhs rhs).get (channelSide ch)).layout.cols :=
    ⟨h.bias.rounding, h.bias.size, h.bias.quant, h.bias.tail⟩
  obtain ⟨r, e3, sm⟩ := XFloat.Top.ensured ((SidePair.mk pl pr).get (channelSide ch)).layout.cols hb'
  have side : ∀ (s : Side) (src : Mul.Mat A) (p : PMat A), XFloat.SideOk (cols s) src p → p.data.size = pflatSize p.layout →
      RoomOk src src.layout.rows src.layout.cols → 0 < src.layout.rows →
      (src.layout.order = .colMajor → src.layout.stride * (src.layout.cols + 8) < 2 ^ 31) →
      p.layout.cols ≤ src.layout.cols + 8 ∧ SideOk (cols s) ⟨src.layout, src.data.size⟩ ⟨p.layout, p.data.size⟩ := by
    intro s src p k ks room h0 hcol
    obtain ⟨-, l1, l2, l3, l4, l5, l6, l7⟩ := k.facts
    have hw : cols s ≤ 8 := by cases s <;> decide
    have k2 := k.data
    unfold pflatSize at k2 ks
    rw [l1] at k2 ks
    dsimp only at k2 ks
    have hcols : p.layout.cols ≤ src.layout.cols + 8 := by omega
    refine ⟨hcols, ⟨h0, k.layout, k2, fun i c hi hcc => ?_, ⟨room.data, ?_⟩, fun ho c hcc _ => ?_⟩⟩
    · show at' src.layout i c < _
      rw [at_off]
      exact (k.source i c hi hcc).2
    · show 4 * p.data.size ≤ _
      have h1 := room.packed
      have h2 : p.layout.stride * p.layout.cols ≤ src.layout.rows * (src.layout.cols + 8) := Nat.mul_le_mul (by omega) hcols
      omega
    · have hcc : c < p.layout.cols := hcc
      exact lt_of_le_of_lt (Nat.mul_le_mul_left _ (by omega)) (hcol ho)
  have h0 : 0 < lhs.layout.rows := h.lsize.pack.rows_pos
  have h0' : 0 < rhs.layout.rows := h.rsize.pack.rows_pos
  obtain ⟨c1, t1⟩ := side .lhs lhs pl s1 (Front.newPacked_ok e1).data hl h0 (hc .lhs)
  obtain ⟨c2, t2⟩ := side .rhs rhs pr s2 (Front.newPacked_ok e2).data hr h0' (hc .rhs)
  refine ⟨⟨⟨lhs, rhs⟩, r.1, fun _ _ _ => sc.ar.zero⟩, ⟨⟨pl, pr⟩, dst⟩, _, ?_, ⟨fun s => ?_, h.depth, h.drows, h.dcols, h.dstride,
    fun i j hi hj => ?_, h.stride4, hd, fun n hn => ?_⟩, rfl, rfl, sm⟩
  · unfold create
    rw [C.check_of h.dorder, C.ok_bind, e1, C.ok_bind, e2, C.ok_bind]
    dsimp only
    rw [e3]
    rfl
  · cases s
    · exact t1
    · exact t2
  · have := (h.dfits i j hi hj).2
    unfold off at this
    rw [h.dorder] at this
    dsimp only at this
    show j * dst.layout.stride + i < dst.data.size
    omega
  · change r.1.bias.map (fun b => b.size) = some n at hn
    have room : ∀ {d w : Nat}, 0 < d → 4 * (d * (w + 8)) ≤ 2 ^ 32 → 4 * (w + 8) ≤ 2 ^ 32 := by
      intro d w h1 h2
      have : 1 * (w + 8) ≤ d * (w + 8) := Nat.mul_le_mul_right _ h1
      omega
    have r1 := room h0 hl.packed
    have r2 := room h0' hr.packed
    cases hbb : r.1.bias with
    | none => rw [hbb] at hn; cases hn
    | some b =>
      rw [hbb] at hn
      cases hn
      have hch : r.1.channelDim = ch := sm.channel
      refine ⟨?_, ?_⟩
      · have := sm.size b hbb
        show NeonF.Flow.channels (task false ops ⟨⟨lhs, rhs⟩, r.1, fun _ _ _ => sc.ar.zero⟩ ⟨⟨pl, pr⟩, dst⟩) ≤ b.size
        unfold NeonF.Flow.channels
        show (match r.1.channelDim with | .row => _ | .col => _) ≤ _
        rw [hch]
        cases ch <;> exact this
      · rcases ensured_size e3 hbb with h1 | h1
        · exact hb b h1
        · show 4 * b.size ≤ _
          rw [h1]
          cases ch
          · show 4 * pl.layout.cols ≤ _
            omega
          · show 4 * pr.layout.cols ≤ _
            omega

/-- The task and memory that TrMul gets. -/
structure SetUp (ops : Ops A) (lhs rhs dst : Mul.Mat A) (mp : MulParams A) (t : Flow.Task A) (m : Mach A) : Prop where
  ok : TaskOk t
  pos : 0 < t.dst.layout.rows ∧ 0 < t.dst.layout.cols
  arith : t.ops = ops
  depth : NeonF.Flow.depth t = lhs.layout.cols
  lo : t.mp.clampMin = mp.clampMin
  hi : t.mp.clampMax = mp.clampMax
  start : m.dst = dst.data.val
  entries : ∀ i j, i < dst.layout.rows → j < dst.layout.cols → ∃ r c, Entry ops t m lhs rhs dst mp i j r c
  covers : ∀ r c, r < t.dst.layout.rows → c < t.dst.layout.cols →
    ∃ i j, i < dst.layout.rows ∧ j < dst.layout.cols ∧ NeonF.Flow.place t r c = off dst.layout i j

theorem setup_ok {sc : Scalars A} {lhs rhs dst : Mul.Mat A} {mp : MulParams A} (h : ArmOk sc lhs rhs dst mp)
    (ops : Ops A) (junk : Junk A) :
    ∃ t m, setup sc ops lhs rhs dst mp junk = .ok (t, m) ∧ SetUp ops lhs rhs dst mp t m := by
  have hv : validate .float .float .float lhs.zp rhs.zp dst.zp = .ok () := by
    obtain ⟨a, b, c⟩ := h.user.valid
    rw [a, b, c]
    decide
  have hu := h.user
  have hrow : 0 < dst.layout.rows := by rw [hu.rows]; exact hu.lsize.pack.cols_pos
  have hcol : 0 < dst.layout.cols := by rw [hu.cols]; exact hu.rsize.pack.cols_pos
  have hlT : lhs.transpose.layout.order = .colMajor → lhs.layout.order = .rowMajor := by
    intro ho
    change lhs.layout.transpose.order = _ at ho
    cases hd : lhs.layout.order
    · unfold MatLayout.transpose at ho; rw [hd] at ho; cases ho
    · rfl
  have hlr : RoomOk lhs.transpose lhs.transpose.layout.rows lhs.transpose.layout.cols := ⟨h.lroom.data, h.lroom.packed⟩
  unfold setup
  rw [hv, C.ok_bind]
  by_cases ho : dst.layout.order = .colMajor
  · rw [if_pos ho]
    obtain ⟨jb, m, n, e, ok, e1, e3, sm⟩ := create_ok ops (hu.core ho) hlr h.rroom h.droom h.broom (fun s hs => by
      cases s
      · exact h.lcols (hlT hs)
      · exact h.rcols hs) junk
    rw [e, C.ok_bind]
    have hd : (task false ops jb m).dst.layout = dst.layout := by show m.dst.layout = _; rw [e1]
    refine ⟨_, _, rfl, ok, ?_, rfl, ?_, sm.lo, sm.hi, ?_, fun i j hi hj => ⟨i, j, ?_, ?_, ?_, ?_, .inl ⟨ho, ⟨rfl, rfl⟩, fun k => ?_⟩⟩,
      fun r c hr hc => ⟨r, c, ?_, ?_, ?_⟩⟩
    · rw [hd]; exact ⟨hrow, hcol⟩
    · show jb.src.lhs.layout.rows = _; rw [e3]; rfl
    · show m.dst.data.val = _; rw [e1]
    · rw [hd]; exact hi
    · rw [hd]; exact hj
    · rw [place_off (by rw [hd]; exact ho), hd]
    · have hch : (task false ops jb m).mp.chan = mp.channelDim := sm.channel
      rw [bias_of, hch]
      refine sm.bias _ _ ?_
      cases mp.channelDim
      · show i < lhs.layout.rows
        rw [← hu.rows]; exact hi
      · show j < rhs.layout.cols
        rw [← hu.cols]; exact hj
    · rw [elem_of, elem_of, e3]
      exact ⟨Front.at_transpose _ _ _, rfl⟩
    · rw [hd] at hr; exact hr
    · rw [hd] at hc; exact hc
    · rw [place_off (by rw [hd]; exact ho), hd]
  · rw [if_neg ho]
    have ho' : dst.layout.order = .rowMajor := by
      cases hd : dst.layout.order
      · exact absurd hd ho
      · rfl
    obtain ⟨jb, m, n, e, ok, e1, e3, sm⟩ := create_ok ops (hu.swapped ho) h.rroom hlr h.droom h.broom (fun s hs => by
      cases s
      · exact h.rcols hs
      · exact h.lcols (hlT hs)) junk
    rw [e, C.ok_bind]
    have hd : (task false ops jb m).dst.layout = dst.layout.transpose := by show m.dst.layout = _; rw [e1]; rfl
    have hd' : (task false ops jb m).dst.layout.order = .colMajor := by rw [hd]; exact (hu.swapped ho).dorder
    refine ⟨_, _, rfl, ok, ?_, rfl, ?_, sm.lo, sm.hi, ?_, fun i j hi hj => ⟨j, i, ?_, ?_, ?_, ?_, .inr ⟨ho', ⟨rfl, rfl⟩, fun k => ?_⟩⟩,
      fun r c hr hc => ⟨c, r, ?_, ?_, ?_⟩⟩
    · rw [hd]; exact ⟨hcol, hrow⟩
    · show jb.src.lhs.layout.rows = _; rw [e3]; exact hu.depth.symm
    · show m.dst.data.val = _; rw [e1]; rfl
    · rw [hd]; exact hj
    · rw [hd]; exact hi
    · rw [place_off hd', hd, off_transpose]
    · have hch : (task false ops jb m).mp.chan = mp.channelDim.transpose := sm.channel
      rw [bias_of, hch, Front.channelOf_transpose]
      refine sm.bias _ _ ?_
      cases mp.channelDim
      · show i < lhs.layout.rows
        rw [← hu.rows]; exact hi
      · show j < rhs.layout.cols
        rw [← hu.cols]; exact hj
    · rw [elem_of, elem_of, e3]
      exact ⟨rfl, Front.at_transpose _ _ _⟩
    · rw [hd] at hc; exact hc
    · rw [hd] at hr; exact hr
    · rw [place_off hd', hd, off_transpose]

theorem ends_of {t : Flow.Task A} {m m' : Mach A} (h : TaskOk t)
    (hp : 0 < t.dst.layout.rows ∧ 0 < t.dst.layout.cols) (he : Ends t m m') : Multiplied t m m' := by
  cases he with
  | simple e =>
    obtain ⟨m1, e', M⟩ := (c89_simple_loop h hp.1 hp.2).2 _ e
    cases e'
    exact M
  | blocks pre hm e =>
    obtain ⟨m1, e', M⟩ := (c90_block_loop h hm pre m).2 _ e
    cases e'
    exact M
  | threads pre n sched hm ht e hf =>
    obtain ⟨x, e', M⟩ := (c90_threads h hm pre ht sched m).2 _ e
    cases e'
    exact M hf

/-- What the kernel stores is the entry of the specification. -/
theorem SetUp.stored {ops : Ops A} {lhs rhs dst : Mul.Mat A} {mp : MulParams A} {t : Flow.Task A} {m : Mach A}
    (hs : SetUp ops lhs rhs dst mp t m) {i j r c : Nat} (he : Entry ops t m lhs rhs dst mp i j r c) :
    Flow.stored t m r c = entry ops dst.layout.order lhs rhs mp i j := by
  unfold Flow.stored entry NeonF.Flow.sumIn
  rw [he.bias, hs.arith, hs.depth, hs.lo, hs.hi]
  rcases he.elems with ⟨ho, ⟨rfl, rfl⟩, h⟩ | ⟨ho, ⟨rfl, rfl⟩, h⟩
  · simp only [ho, (h _).1, (h _).2]
  · simp only [ho, (h _).1, (h _).2]

end Ruy.Arm32.Top

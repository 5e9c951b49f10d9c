import Verif.NeonF.ThreadsProps
import Verif.XFloat.Top
/-
From ruy::Mul to TrMul on the AArch64 paths kNeon and kNeonDotprod, float matrices.  The front end is the one of
`XFloat/Top.lean`, with packed matrices of eight columns per kernel block; what it sets up is handed to the machine of
`NeonF/Flow.lean`, whose memory is an array of floats for each buffer.
-/
namespace Ruy.NeonF.Top
open Ruy.Mat Ruy.Mul
open Ruy.Front (Scalars MulParams Junk validate userView channelSide)
open Ruy.TrMul (Mem MapFor)
open Ruy.Tune (Tuning)
open Ruy.Simd.Flow (control)
open Ruy.NeonF.Flow
open Ruy.Neon.Flow (at')
open Ruy.XFloat.Top (UserOk Same)

variable {A : Type}

/-! ### Model -/

/-- What stays constant while TrMul runs (trmul_params.h:72-89). -/
def task (dot : Bool) (ops : Ops A) (jb : XFloat.Job A) (m : Mem A) : Flow.Task A where
  dot := dot
  src := ⟨⟨jb.src.lhs.layout, jb.src.lhs.data.size⟩, ⟨jb.src.rhs.layout, jb.src.rhs.data.size⟩⟩
  packed := ⟨⟨m.packed.lhs.layout, m.packed.lhs.data.size⟩, ⟨m.packed.rhs.layout, m.packed.rhs.data.size⟩⟩
  dst := ⟨m.dst.layout, m.dst.data.size⟩
  mp := ⟨jb.mp.bias.map (fun b => b.size), jb.mp.channelDim, jb.mp.clampMin, jb.mp.clampMax⟩
  ops := ops

/-- The memory TrMul starts with. -/
def mach (ops : Ops A) (jb : XFloat.Job A) (m : Mem A) : Mach A where
  src := ⟨jb.src.lhs.data.val, jb.src.rhs.data.val⟩
  packed := ⟨m.packed.lhs.data.val, m.packed.rhs.data.val⟩
  bias := match jb.mp.bias with
    | some b => b.val
    | none => fun _ => ops.zero
  dst := m.dst.data.val

/-- frontend.h:47-71, create_trmul_params.h:405-480 with the layouts of kernel_arm.h:147-148, kernel_arm.h:196-197. -/
def setup (sc : Scalars A) (dot : Bool) (ops : Ops A) (lhs rhs dst : Mul.Mat A) (mp : MulParams A) (junk : Junk A) :
    C (Flow.Task A × Mach A) := do
  let r ← XFloat.Top.setup sc 8 lhs rhs dst mp junk (fun _ _ _ => sc.ar.zero)
  .ok (task dot ops r.1 r.2, mach ops r.1 r.2)

/-- The memory TrMul may end with, all calls with tunings in `U`: simple loop, blocks by one thread, or any execution of several
threads (trmul.cc:337-422). -/
inductive Ends (U : Tuning → Prop) (t : Flow.Task A) (m : Mach A) : Mach A → Prop
  | simple {m' : Mach A} (u : Tuning) : U u → Runs t (simpleOps t u) m (.ok m') → Ends U t m m'
  | blocks {m' : Mach A} {bm : BlockMap.BlockMap} (pre : SidePair Bool) : MapFor (shape t) bm →
      BlockLoop U t pre bm m (.ok m') → Ends U t m m'
  | threads {x : XState A} {bm : BlockMap.BlockMap} (pre : SidePair Bool) (threads : Nat) (sched : List Nat) :
      MapFor (shape t) bm → 0 < threads → Exec U t pre bm threads sched m (.ok x) →
      TrMul.Finished (control pre bm threads) x.ctl → Ends U t m x.mem

/-- `d` is a destination that ruy::Mul (ruy.h:36-48, frontend.h:80-95) may end with: the user's matrix with the memory TrMul has
left. -/
def Mul (U : Tuning → Prop) (sc : Scalars A) (dot : Bool) (ops : Ops A) (lhs rhs dst : Mul.Mat A) (mp : MulParams A)
    (d : Mul.Mat A) : Prop :=
  ∃ junk t m m', setup sc dot ops lhs rhs dst mp junk = .ok (t, m) ∧ Ends U t m m' ∧
    d = { dst with data := ⟨dst.data.size, m'.dst⟩ }

/-! ### Specification -/

/-- Entry (i, j): products added to zero in the order of the kernel, then the bias, then clamped.  For row-major destinations
kernels see the transposed problem. -/
def entry (ops : Ops A) (u : Tuning) (order : Mat.Order) (lhs rhs : Mul.Mat A) (mp : MulParams A) (i j : Nat) : A :=
  ops.min (ops.max (ops.add
    (match order with
      | .colMajor => (Flow.levels u lhs.layout.cols i j).foldl (fun d k => ops.fma d (lhs.at i k) (rhs.at k j)) ops.zero
      | .rowMajor => (Flow.levels u lhs.layout.cols j i).foldl (fun d k => ops.fma d (rhs.at k j) (lhs.at i k)) ops.zero)
    (XFloat.biasAt ops.zero mp (channelOf mp.channelDim i j))) mp.clampMin) mp.clampMax

/-- Float matrices ruy::Mul accepts; offsets of the columns of the last block are ints, too. -/
structure ArmOk (sc : Scalars A) (lhs rhs dst : Mul.Mat A) (mp : MulParams A) : Prop where
  user : UserOk sc 8 lhs rhs dst mp
  lcols : lhs.layout.order = .rowMajor → lhs.layout.stride * (lhs.layout.rows + 8) < 2 ^ 31
  rcols : rhs.layout.order = .colMajor → rhs.layout.stride * (rhs.layout.cols + 8) < 2 ^ 31

/-! ### TrMul is called as C73 and C74 assume -/

theorem at_off (l : MatLayout) (k c : Nat) : at' l k c = off l k c := by
  unfold at' off
  cases l.order
  · dsimp only; rw [Nat.mul_comm]; omega
  · dsimp only; rw [Nat.mul_comm]

theorem task_ok {jb : XFloat.Job A} {m : Mem A} (dot : Bool) (ops : Ops A) (h : XFloat.JobOk 8 jb m)
    (h0 : 0 < jb.src.lhs.layout.rows) (hp : 0 < m.dst.layout.rows)
    (hc : ∀ s : Side, (jb.src.get s).layout.order = .colMajor → (jb.src.get s).layout.stride * ((jb.src.get s).layout.cols + 8) < 2 ^ 31) :
    TaskOk (task dot ops jb m) ∧ DstInts (task dot ops jb m) := by
  have side : ∀ s : Side, 0 < (jb.src.get s).layout.rows →
      Flow.SideOk ⟨(jb.src.get s).layout, (jb.src.get s).data.size⟩ ⟨(m.packed.get s).layout, (m.packed.get s).data.size⟩ := by
    intro s hr
    have k := h.side s
    obtain ⟨-, l1, l2, l3, l4, l5, l6, l7⟩ := k.facts
    have k1 := k.int
    have k2 := k.data
    unfold pflatSize at k1 k2
    rw [l1] at k1 k2
    refine ⟨hr, k.layout, k2, k1, fun i c hi hcc => ?_, fun ho c hcc => ?_⟩
    · show at' (jb.src.get s).layout i c < _ ∧ _
      rw [at_off]
      have := k.source i c hi hcc
      exact ⟨this.2, this.1⟩
    · have hcc : c < (m.packed.get s).layout.cols := hcc
      refine lt_of_le_of_lt (Nat.mul_le_mul_left _ ?_) (hc s ho)
      omega
  have hd : ∀ i j, i < m.dst.layout.rows → j < m.dst.layout.cols →
      j * m.dst.layout.stride + i < 2 ^ 31 ∧ j * m.dst.layout.stride + i < m.dst.data.size := by
    intro i j hi hj
    have := h.dfits i j hi hj
    unfold off at this
    rw [h.dorder] at this
    dsimp only at this
    omega
  refine ⟨⟨fun s => ?_, h.depth, h.drows, h.dcols, h.dstride, fun i j hi hj => (hd i j hi hj).2, ⟨h.stride4, fun j hj => ?_⟩,
    fun n hn => ?_⟩, fun i j hi hj => (hd i j hi hj).1⟩
  · cases s
    · exact side .lhs h0
    · exact side .rhs (by show 0 < jb.src.rhs.layout.rows; rw [h.depth]; exact h0)
  · exact (hd 0 j hp hj).1
  · change jb.mp.bias.map (fun b => b.size) = some n at hn
    cases hb : jb.mp.bias with
    | none => rw [hb] at hn; cases hn
    | some b =>
      rw [hb] at hn
      cases hn
      exact h.bias b hb

/-- How entry (i, j) of the user's destination appears as entry (r, c) of the task. -/
structure Entry (ops : Ops A) (t : Flow.Task A) (m : Mach A) (lhs rhs dst : Mul.Mat A) (mp : MulParams A) (i j r c : Nat) : Prop where
  row : r < t.dst.layout.rows
  col : c < t.dst.layout.cols
  place : place t r c = off dst.layout i j
  bias : Flow.biasAt t m (channelOf t.mp.chan r c) = XFloat.biasAt ops.zero mp (channelOf mp.channelDim i j)
  elems : (dst.layout.order = .colMajor ∧ (r = i ∧ c = j) ∧
      ∀ k, elem t m .lhs k r = lhs.at i k ∧ elem t m .rhs k c = rhs.at k j) ∨
    (dst.layout.order = .rowMajor ∧ (r = j ∧ c = i) ∧
      ∀ k, elem t m .lhs k r = rhs.at k j ∧ elem t m .rhs k c = lhs.at i k)

/-- The task and memory that TrMul gets. -/
structure SetUp (ops : Ops A) (lhs rhs dst : Mul.Mat A) (mp : MulParams A) (t : Flow.Task A) (m : Mach A) : Prop where
  ok : TaskOk t
  ints : DstInts t
  pos : 0 < t.dst.layout.rows ∧ 0 < t.dst.layout.cols
  arith : t.ops = ops
  depth : Flow.depth t = lhs.layout.cols
  lo : t.mp.clampMin = mp.clampMin
  hi : t.mp.clampMax = mp.clampMax
  start : m.dst = dst.data.val
  entries : ∀ i j, i < dst.layout.rows → j < dst.layout.cols → ∃ r c, Entry ops t m lhs rhs dst mp i j r c
  covers : ∀ r c, r < t.dst.layout.rows → c < t.dst.layout.cols →
    ∃ i j, i < dst.layout.rows ∧ j < dst.layout.cols ∧ Flow.place t r c = off dst.layout i j

theorem elem_of (dot : Bool) (ops : Ops A) (jb : XFloat.Job A) (m : Mem A) (s : Side) (k c : Nat) :
    elem (task dot ops jb m) (mach ops jb m) s k c = (jb.src.get s).at k c := by
  cases s <;> (unfold elem Mat.at; rw [at_off]; rfl)

theorem bias_of (dot : Bool) (ops : Ops A) (jb : XFloat.Job A) (m : Mem A) (ch : Nat) :
    Flow.biasAt (task dot ops jb m) (mach ops jb m) ch = XFloat.biasAt ops.zero jb.mp ch := by
  unfold Flow.biasAt XFloat.biasAt task mach
  cases jb.mp.bias <;> rfl

theorem place_off {t : Flow.Task A} (h : t.dst.layout.order = .colMajor) (r c : Nat) : Flow.place t r c = off t.dst.layout r c := by
  unfold Flow.place off
  rw [h]
  dsimp only
  omega

theorem setup_ok {sc : Scalars A} {lhs rhs dst : Mul.Mat A} {mp : MulParams A} (h : ArmOk sc lhs rhs dst mp) (dot : Bool)
    (ops : Ops A) (junk : Junk A) :
    ∃ t m, setup sc dot ops lhs rhs dst mp junk = .ok (t, m) ∧ SetUp ops lhs rhs dst mp t m := by
  have hv : validate .float .float .float lhs.zp rhs.zp dst.zp = .ok () := by
    obtain ⟨a, b, c⟩ := h.user.valid
    rw [a, b, c]
    decide
  have hu := h.user
  have hrow : 0 < dst.layout.rows := by rw [hu.rows]; exact hu.lsize.pack.cols_pos
  have hcol : 0 < dst.layout.cols := by rw [hu.cols]; exact hu.rsize.pack.cols_pos
  have hdep : 0 < lhs.layout.cols := hu.lsize.pack.rows_pos
  have hlT : lhs.transpose.layout.order = .colMajor → lhs.layout.order = .rowMajor := by
    intro ho
    change lhs.layout.transpose.order = _ at ho
    cases hd : lhs.layout.order
    · unfold MatLayout.transpose at ho; rw [hd] at ho; cases ho
    · rfl
  unfold setup XFloat.Top.setup
  rw [hv, C.ok_bind]
  by_cases ho : dst.layout.order = .colMajor
  · rw [if_pos ho]
    obtain ⟨jb, m, n, e, ok, e1, e3, sm⟩ := XFloat.Top.create_ok (hu.core ho) junk (fun _ _ _ => sc.ar.zero)
    rw [e, C.ok_bind]
    obtain ⟨k1, k2⟩ := task_ok dot ops ok (by rw [e3]; exact hdep) (by rw [e1]; exact hrow) (fun s hs => by
      rw [e3] at hs ⊢
      cases s
      · exact h.lcols (hlT hs)
      · exact h.rcols hs)
    have hd : (task dot ops jb m).dst.layout = dst.layout := by show m.dst.layout = _; rw [e1]
    refine ⟨_, _, rfl, k1, k2, ?_, rfl, ?_, sm.lo, sm.hi, ?_, fun i j hi hj => ⟨i, j, ?_, ?_, ?_, ?_, .inl ⟨ho, ⟨rfl, rfl⟩, fun k => ?_⟩⟩,
      fun r c hr hc => ⟨r, c, ?_, ?_, ?_⟩⟩
    · rw [hd]; exact ⟨hrow, hcol⟩
    · show jb.src.lhs.layout.rows = _; rw [e3]; rfl
    · show m.dst.data.val = _; rw [e1]
    · rw [hd]; exact hi
    · rw [hd]; exact hj
    · rw [place_off (by rw [hd]; exact ho), hd]
    · have hch : (task dot ops jb m).mp.chan = mp.channelDim := sm.channel
      rw [bias_of, hch]
      refine sm.bias _ _ ?_
      cases mp.channelDim
      · show i < lhs.layout.rows
        rw [← hu.rows]; exact hi
      · show j < rhs.layout.cols
        rw [← hu.cols]; exact hj
    · rw [elem_of, elem_of, e3]
      exact ⟨Front.at_transpose _ _ _, rfl⟩
    · rw [hd] at hr; exact hr
    · rw [hd] at hc; exact hc
    · rw [place_off (by rw [hd]; exact ho), hd]
  · rw [if_neg ho]
    have ho' : dst.layout.order = .rowMajor := by
      cases hd : dst.layout.order
      · exact absurd hd ho
      · rfl
    obtain ⟨jb, m, n, e, ok, e1, e3, sm⟩ := XFloat.Top.create_ok (hu.swapped ho) junk (fun _ _ _ => sc.ar.zero)
    rw [e, C.ok_bind]
    obtain ⟨k1, k2⟩ := task_ok dot ops ok (by rw [e3]; show 0 < rhs.layout.rows; rw [← hu.depth]; exact hdep) (by rw [e1]; exact hcol)
      (fun s hs => by
        rw [e3] at hs ⊢
        cases s
        · exact h.rcols hs
        · exact h.lcols (hlT hs))
    have hd : (task dot ops jb m).dst.layout = dst.layout.transpose := by show m.dst.layout = _; rw [e1]; rfl
    have hd' : (task dot ops jb m).dst.layout.order = .colMajor := ok.dorder
    refine ⟨_, _, rfl, k1, k2, ?_, rfl, ?_, sm.lo, sm.hi, ?_, fun i j hi hj => ⟨j, i, ?_, ?_, ?_, ?_, .inr ⟨ho', ⟨rfl, rfl⟩, fun k => ?_⟩⟩,
      fun r c hr hc => ⟨c, r, ?_, ?_, ?_⟩⟩
    · rw [hd]; exact ⟨hcol, hrow⟩
    · show jb.src.lhs.layout.rows = _; rw [e3]; exact hu.depth.symm
    · show m.dst.data.val = _; rw [e1]; rfl
    · rw [hd]; exact hj
    · rw [hd]; exact hi
    · rw [place_off hd', hd, off_transpose]
    · have hch : (task dot ops jb m).mp.chan = mp.channelDim.transpose := sm.channel
      rw [bias_of, hch, Front.channelOf_transpose]
      refine sm.bias _ _ ?_
      cases mp.channelDim
      · show i < lhs.layout.rows
        rw [← hu.rows]; exact hi
      · show j < rhs.layout.cols
        rw [← hu.cols]; exact hj
    · rw [elem_of, elem_of, e3]
      exact ⟨rfl, Front.at_transpose _ _ _⟩
    · rw [hd] at hc; exact hc
    · rw [hd] at hr; exact hr
    · rw [place_off hd', hd, off_transpose]

theorem ends_of {U : Tuning → Prop} {t : Flow.Task A} {m m' : Mach A} (h : TaskOk t) (hd : DstInts t)
    (hp : 0 < t.dst.layout.rows ∧ 0 < t.dst.layout.cols) (hU : ∃ u, U u) (he : Ends U t m m') : Multiplied U t m m' := by
  cases he with
  | simple u hu e =>
    obtain ⟨m1, e', M⟩ := (c73_simple_loop u h hp.1 hp.2).2 _ e
    cases e'
    refine ⟨M.src, M.bias, fun i j hi hj => ?_, M.rest⟩
    obtain ⟨v, rfl, ev⟩ := M.entry i j hi hj
    exact ⟨v, hu, ev⟩
  | blocks pre hm e =>
    obtain ⟨m1, e', M⟩ := (c74_block_loop h hm hU pre m).2 _ e
    cases e'
    exact M
  | threads pre n sched hm ht e hf =>
    obtain ⟨x, e', M⟩ := (c74_threads h hd hm hU pre ht sched m).2 _ e
    cases e'
    exact M hf

/-- What the kernels store is the entry of the specification. -/
theorem SetUp.stored {ops : Ops A} {lhs rhs dst : Mul.Mat A} {mp : MulParams A} {t : Flow.Task A} {m : Mach A}
    (hs : SetUp ops lhs rhs dst mp t m) {i j r c : Nat} (he : Entry ops t m lhs rhs dst mp i j r c) (u : Tuning) :
    Flow.stored t m u r c = entry ops u dst.layout.order lhs rhs mp i j := by
  unfold Flow.stored entry sumIn
  rw [he.bias, hs.arith, hs.depth, hs.lo, hs.hi]
  rcases he.elems with ⟨ho, ⟨rfl, rfl⟩, h⟩ | ⟨ho, ⟨rfl, rfl⟩, h⟩
  · simp only [ho, (h _).1, (h _).2]
  · simp only [ho, (h _).1, (h _).2]

end Ruy.NeonF.Top

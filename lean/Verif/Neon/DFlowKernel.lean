import Verif.Neon.DFlowSteps
/-
A call of an AArch64 dot-product kernel on packed matrices: lemmas for property C68.
-/
namespace Ruy.Neon.DFlow
open Ruy.Mat Ruy.Mul
open Ruy.TrMul (setSide)
open Ruy.Simd.Flow (Op Covered Written)
open Ruy.Neon.Flow (Source Target Dest Params Task Mach sideMem putSide putKernel at' elem wordAt biasAt fixedAt exponentAt
  depth exact output place channels word_of setSide_get set_same wrap32_id zp_mul Kept)
open Ruy.Tune (Tuning)
open Simd (wrap8 wrap16 wrap32)

variable {t : Task} {m0 m : Mach} {start stop : SidePair Nat}

/-- What MakeKernelParams8bit gives if nothing fails. -/
def jobOf (t : Task) (m : Mach) (start stop : SidePair Nat) : Job :=
  { dt := t.dst.dt
    startRow := start.lhs
    startCol := start.rhs
    rowSteps := (stop.lhs - start.lhs) / 8 - 1
    colSteps := (stop.rhs - start.rhs) / 8 - 1
    depthSteps := t.packed.lhs.layout.rows / 4 - 1
    lhsBase := start.lhs * t.packed.lhs.layout.stride
    rhsBase := start.rhs * t.packed.rhs.layout.stride
    dstBase := (start.rhs * t.dst.layout.stride + start.lhs) * t.dst.dt.size
    lhsStride := t.packed.lhs.layout.stride
    rhsStride := t.packed.rhs.layout.stride
    dstStride := t.dst.dt.size * t.dst.layout.stride
    dstRows := t.dst.layout.rows
    dstCols := t.dst.layout.cols
    lhsZp := t.packed.lhs.zp
    rhsZp := t.packed.rhs.zp
    dstZp := t.dst.zp
    prodZp := t.packed.lhs.zp * t.packed.rhs.zp * t.packed.lhs.layout.rows
    clampMin := t.mp.clampMin
    clampMax := t.mp.clampMax
    hasBias := t.mp.bias.isSome
    perChannel := t.mp.fixedBuf.isSome
    chanCol := decide (t.mp.chan = .col)
    size := fun r => match r with
      | .lhs => t.packed.lhs.size
      | .rhs => t.packed.rhs.size
      | .lhsSums => t.packed.lhs.sumsSize
      | .rhsSums => t.packed.rhs.sumsSize
      | .bias => t.mp.bias.getD 32
      | .mulFix => t.mp.fixedBuf.getD 32
      | .mulExp => if t.mp.fixedBuf.isSome then t.mp.exponentBuf.getD 0 else 32
      | .dst => t.dst.size
      | .tmp => 256
      | _ => 0
    m := fun r => match r with
      | .lhs => m.packed.lhs
      | .rhs => m.packed.rhs
      | .lhsSums => m.sums.lhs
      | .rhsSums => m.sums.rhs
      | .bias => if t.mp.bias.isSome then m.bias else fun _ => 0
      | .mulFix => if t.mp.fixedBuf.isSome then m.fixed else fun o => byteOf t.mp.fixed (o % 4)
      | .mulExp => if t.mp.fixedBuf.isSome then m.exponent else fun o => byteOf t.mp.exponent (o % 4)
      | .dst => m.dst
      | _ => fun _ => 0 }

/-- The blocks of a call, in numbers. -/
structure Ranges (t : Task) (start stop : SidePair Nat) : Prop where
  lhs : Simd.Flow.Block 8 t.packed.lhs.layout.cols start.lhs stop.lhs
  rhs : Simd.Flow.Block 8 t.packed.rhs.layout.cols start.rhs stop.rhs

theorem pos_rows (h : TaskOk t) : 0 < t.packed.lhs.layout.rows ∧ t.packed.rhs.layout.rows = t.packed.lhs.layout.rows ∧
    t.packed.lhs.layout.rows % 4 = 0 ∧ depth t ≤ t.packed.lhs.layout.rows := by
  have hl := h.side .lhs
  have hr := h.side .rhs
  simp only [SidePair.get_lhs, SidePair.get_rhs] at hl hr
  have e1 := hl.facts.2.1
  have e2 := hr.facts.2.1
  have := hl.rows
  have := h.depth
  unfold depth
  omega

theorem cols_lt {s : Source} {p : Target} (h : SideOk s p) : p.layout.cols < 2 ^ 31 := by
  obtain ⟨l1, l2, -⟩ := h.facts
  have := h.int
  have := h.rows
  have : p.layout.cols ≤ p.layout.stride * p.layout.cols := Nat.le_mul_of_pos_left _ (by omega)
  omega

theorem makeJob_ok (h : TaskOk t) (hb : Ranges t start stop) : makeJob t m start stop = .ok (jobOf t m start stop) := by
  have hl := h.side .lhs
  have hr := h.side .rhs
  simp only [SidePair.get_lhs, SidePair.get_rhs] at hl hr
  obtain ⟨l1, l2, l3, l4, l5, l6⟩ := hl.facts
  obtain ⟨r1, r2, r3, r4, r5, r6⟩ := hr.facts
  obtain ⟨a1, a2, a3, a4⟩ := hb.lhs
  obtain ⟨b1, b2, b3, b4⟩ := hb.rhs
  have i1 := hl.int
  have i2 := hr.int
  have i3 : start.lhs * t.packed.lhs.layout.stride ≤ t.packed.lhs.layout.stride * t.packed.lhs.layout.cols := by
    rw [Nat.mul_comm]; exact Nat.mul_le_mul_left _ (by omega)
  have i4 : start.rhs * t.packed.rhs.layout.stride ≤ t.packed.rhs.layout.stride * t.packed.rhs.layout.cols := by
    rw [Nat.mul_comm]; exact Nat.mul_le_mul_left _ (by omega)
  have z := zp_mul l6 r6
  have hd := h.drows
  have hc := h.dcols
  have hp := h.prod
  unfold makeJob
  rw [C.check_of a1, C.ok_bind, C.check_of b1, C.ok_bind, C.check_of a2, C.ok_bind, C.check_of b2, C.ok_bind,
    C.int_of (by omega), C.ok_bind, C.int_of (by omega), C.ok_bind, C.int_of h.dint.1, C.ok_bind,
    C.i32_of z.1 z.2, C.ok_bind, C.i32_of hp.1 hp.2, C.ok_bind,
    C.check_of (fun hf => by
      obtain ⟨n, hn⟩ := Option.isSome_iff_exists.1 hf
      obtain ⟨_, n', e, _⟩ := h.fixedBuf n hn
      rw [e]; rfl), C.ok_bind,
    C.check_of (by omega), C.ok_bind, C.check_of (by omega), C.ok_bind,
    C.int_of (h.dint.2 _ (by omega)), C.ok_bind, if_pos ⟨(pos_rows h).1, a3, b3⟩]
  rfl

theorem job_depth (h : TaskOk t) : Dot.depth (jobOf t m start stop) = t.packed.lhs.layout.rows := by
  obtain ⟨h1, -, h3, -⟩ := pos_rows h
  show 4 * (t.packed.lhs.layout.rows / 4 - 1 + 1) = _
  omega

theorem job_lastRow (hb : Ranges t start stop) : Dot.lastRow (jobOf t m start stop) + 8 = stop.lhs := by
  obtain ⟨a1, a2, a3, a4⟩ := hb.lhs
  show start.lhs + 8 * ((stop.lhs - start.lhs) / 8 - 1) + 8 = _
  omega

theorem job_lastCol (hb : Ranges t start stop) : Dot.lastCol (jobOf t m start stop) + 8 = stop.rhs := by
  obtain ⟨a1, a2, a3, a4⟩ := hb.rhs
  show start.rhs + 8 * ((stop.rhs - start.rhs) / 8 - 1) + 8 = _
  omega

theorem job_rows (hb : Ranges t start stop) :
    8 * ((jobOf t m start stop).rowSteps + 1) = stop.lhs - start.lhs ∧
      8 * ((jobOf t m start stop).colSteps + 1) = stop.rhs - start.rhs := by
  obtain ⟨a1, a2, a3, a4⟩ := hb.lhs
  obtain ⟨b1, b2, b3, b4⟩ := hb.rhs
  show 8 * ((stop.lhs - start.lhs) / 8 - 1 + 1) = _ ∧ 8 * ((stop.rhs - start.rhs) / 8 - 1 + 1) = _
  omega

theorem job_channels (hb : Ranges t start stop) : Dot.channels (jobOf t m start stop) ≤ channels t := by
  unfold Dot.channels channels
  rw [job_lastRow hb, job_lastCol hb]
  show (if decide (t.mp.chan = .col) = true then stop.rhs else stop.lhs) ≤ _
  cases t.mp.chan
  · exact hb.lhs.2.2.2
  · exact hb.rhs.2.2.2

theorem addr_eq (r c : Nat) : addr (jobOf t m start stop) r c = place t (start.lhs + r) (start.rhs + c) := by
  unfold addr place
  show (start.rhs * t.dst.layout.stride + start.lhs) * t.dst.dt.size + c * (t.dst.dt.size * t.dst.layout.stride) +
    r * t.dst.dt.size = _
  ring

theorem job_fits (h : TaskOk t) (hb : Ranges t start stop) : Dot.Fits (jobOf t m start stop) := by
  have hl := h.side .lhs
  have hr := h.side .rhs
  simp only [SidePair.get_lhs, SidePair.get_rhs] at hl hr
  obtain ⟨l1, l2, l3, l4, l5, l6⟩ := hl.facts
  obtain ⟨r1, r2, r3, r4, r5, r6⟩ := hr.facts
  have g1 := job_lastRow (m := m) hb
  have g2 := job_lastCol (m := m) hb
  have g3 := job_depth (m := m) (start := start) (stop := stop) h
  obtain ⟨g4, g5⟩ := job_rows (m := m) hb
  have g6 := job_channels (m := m) hb
  have n1 := cols_lt hl
  have n2 := cols_lt hr
  obtain ⟨p1, p2, p3, p4⟩ := pos_rows h
  obtain ⟨a1, a2, a3, a4⟩ := hb.lhs
  obtain ⟨b1, b2, b3, b4⟩ := hb.rhs
  have d1 := h.drows
  have d2 := h.dcols
  have hdl : t.packed.lhs.layout.stride ≤ t.packed.lhs.layout.stride * t.packed.lhs.layout.cols :=
    Nat.le_mul_of_pos_right _ (by omega)
  have hdr : t.packed.rhs.layout.stride ≤ t.packed.rhs.layout.stride * t.packed.rhs.layout.cols :=
    Nat.le_mul_of_pos_right _ (by omega)
  have hil := hl.int
  have hir := hr.int
  have hsl := hl.size
  have hsr := hr.size
  have hul := hl.sums
  have hur := hr.sums
  have m1 : stop.lhs * t.packed.lhs.layout.stride ≤ t.packed.lhs.layout.stride * t.packed.lhs.layout.cols := by
    rw [Nat.mul_comm]; exact Nat.mul_le_mul_left _ a4
  have m2 : stop.rhs * t.packed.rhs.layout.stride ≤ t.packed.rhs.layout.stride * t.packed.rhs.layout.cols := by
    rw [Nat.mul_comm]; exact Nat.mul_le_mul_left _ b4
  constructor
  case row => omega
  case col => omega
  case rowIn => show _ < t.dst.layout.rows; omega
  case colIn => show _ < t.dst.layout.cols; omega
  case rows => show t.dst.layout.rows < _; omega
  case cols => show t.dst.layout.cols < _; omega
  case lstride => show t.packed.lhs.layout.stride < _; omega
  case rstride => show t.packed.rhs.layout.stride < _; omega
  case dstride => exact h.dint.1
  case deep => omega
  case lhsDepth => show _ ≤ t.packed.lhs.layout.stride; omega
  case rhsDepth => show _ ≤ t.packed.rhs.layout.stride; omega
  case lhsSize =>
    show start.lhs * t.packed.lhs.layout.stride + ((jobOf t m start stop).rowSteps + 1) * (8 * t.packed.lhs.layout.stride) ≤
      t.packed.lhs.size
    have : ((jobOf t m start stop).rowSteps + 1) * (8 * t.packed.lhs.layout.stride) =
        (stop.lhs - start.lhs) * t.packed.lhs.layout.stride := by rw [← g4]; ring
    rw [this, ← Nat.add_mul, show start.lhs + (stop.lhs - start.lhs) = stop.lhs by omega]
    omega
  case rhsSize =>
    show start.rhs * t.packed.rhs.layout.stride + ((jobOf t m start stop).colSteps + 1) * (8 * t.packed.rhs.layout.stride) ≤
      t.packed.rhs.size
    have : ((jobOf t m start stop).colSteps + 1) * (8 * t.packed.rhs.layout.stride) =
        (stop.rhs - start.rhs) * t.packed.rhs.layout.stride := by rw [← g5]; ring
    rw [this, ← Nat.add_mul, show start.rhs + (stop.rhs - start.rhs) = stop.rhs by omega]
    omega
  case lsums => rw [g1]; show _ ≤ t.packed.lhs.sumsSize; omega
  case rsums => rw [g2]; show _ ≤ t.packed.rhs.sumsSize; omega
  case bias =>
    show if t.mp.bias.isSome = true then 4 * Dot.channels (jobOf t m start stop) ≤ t.mp.bias.getD 32 else 32 ≤ t.mp.bias.getD 32
    cases hn : t.mp.bias with
    | none => simp
    | some n =>
      have := h.bias n hn
      simp only [Option.isSome_some, if_true, Option.getD_some]
      omega
  case mfix =>
    show if t.mp.fixedBuf.isSome = true then 4 * Dot.channels (jobOf t m start stop) ≤ t.mp.fixedBuf.getD 32 else
      32 ≤ t.mp.fixedBuf.getD 32
    cases hn : t.mp.fixedBuf with
    | none => simp
    | some n =>
      have := (h.fixedBuf n hn).1
      simp only [Option.isSome_some, if_true, Option.getD_some]
      omega
  case mexp =>
    show if t.mp.fixedBuf.isSome = true then
        4 * Dot.channels (jobOf t m start stop) ≤ (if t.mp.fixedBuf.isSome = true then t.mp.exponentBuf.getD 0 else 32) else
      32 ≤ (if t.mp.fixedBuf.isSome = true then t.mp.exponentBuf.getD 0 else 32)
    cases hn : t.mp.fixedBuf with
    | none => simp
    | some n =>
      obtain ⟨_, n', e, _⟩ := h.fixedBuf n hn
      simp only [Option.isSome_some, if_true, e, Option.getD_some]
      omega
  case tmp => exact Nat.le_refl 256
  case dst =>
    intro r c hr' hc' _ _
    have := h.dsize (start.lhs + r) (start.rhs + c) hr' hc'
    rw [← addr_eq (m := m) (stop := stop)] at this
    exact this
  case columns =>
    show (t.dst.layout.rows - start.lhs) * t.dst.dt.size ≤ t.dst.dt.size * t.dst.layout.stride
    rw [Nat.mul_comm]
    exact Nat.mul_le_mul_left _ (by have := h.dstride; omega)

theorem job_args : Dot.Args (jobOf t m start stop) := by
  refine ⟨fun h i _ => ?_, fun h i _ => ?_, fun h i _ => ?_⟩
  · have e : (jobOf t m start stop).m .bias = fun _ => 0 := if_neg (by rw [show t.mp.bias.isSome = false from h]; decide)
    unfold Job.word
    rw [e]
    simp [le4, le2, wrap32]
  · have e : (jobOf t m start stop).m .mulFix = fun o => byteOf t.mp.fixed (o % 4) :=
      if_neg (by rw [show t.mp.fixedBuf.isSome = false from h]; decide)
    unfold Job.word
    rw [e, word_of (x := t.mp.fixed) (fun b hb => by rw [show (4 * i + b) % 4 = b by omega]),
      word_of (x := t.mp.fixed) (fun b hb => by rw [show (4 * 0 + b) % 4 = b by omega])]
  · have e : (jobOf t m start stop).m .mulExp = fun o => byteOf t.mp.exponent (o % 4) :=
      if_neg (by rw [show t.mp.fixedBuf.isSome = false from h]; decide)
    unfold Job.word
    rw [e, word_of (x := t.mp.exponent) (fun b hb => by rw [show (4 * i + b) % 4 = b by omega]),
      word_of (x := t.mp.exponent) (fun b hb => by rw [show (4 * 0 + b) % 4 = b by omega])]

theorem job_inside (hb : Ranges t start stop) {r c : Nat} : Dot.Inside (jobOf t m start stop) r c ↔
    start.lhs + r < stop.lhs ∧ start.rhs + c < stop.rhs ∧ start.lhs + r < t.dst.layout.rows ∧ start.rhs + c < t.dst.layout.cols := by
  obtain ⟨g4, g5⟩ := job_rows (m := m) hb
  obtain ⟨a1, a2, a3, a4⟩ := hb.lhs
  obtain ⟨b1, b2, b3, b4⟩ := hb.rhs
  unfold Dot.Inside
  rw [g4, g5]
  show r < _ ∧ c < _ ∧ start.lhs + r < t.dst.layout.rows ∧ start.rhs + c < t.dst.layout.cols ↔ _
  omega

section
variable (h : TaskOk t) (hb : Ranges t start stop)
include h hb

omit h in
theorem lhsAt_eq {r k : Nat} (hc : ColOk t m0 m .lhs (start.lhs + r)) (hk : k < t.packed.lhs.layout.rows) :
    Dot.lhsAt (jobOf t m start stop) r k = small t m0 .lhs k (start.lhs + r) := by
  have e := hc.entry k hk
  rw [← e]
  unfold Dot.lhsAt
  rw [PackCall.wrap8_toInt]
  refine congrArg (fun o => (m.packed.lhs o).toInt) ?_
  unfold pplace
  show start.lhs * t.packed.lhs.layout.stride + r / 8 * (8 * t.packed.lhs.layout.stride) + 32 * (k / 4) + 4 * (r % 8) + k % 4 =
    t.packed.lhs.layout.stride * (8 * ((start.lhs + r) / 8)) + 32 * (k / 4) + 4 * ((start.lhs + r) % 8) + k % 4
  obtain ⟨a1, -⟩ := hb.lhs
  rw [show (start.lhs + r) % 8 = r % 8 by omega, show 8 * ((start.lhs + r) / 8) = start.lhs + 8 * (r / 8) by omega]
  ring

theorem rhsAt_eq {r k : Nat} (hc : ColOk t m0 m .rhs (start.rhs + r)) (hk : k < t.packed.lhs.layout.rows) :
    Dot.rhsAt (jobOf t m start stop) r k = small t m0 .rhs k (start.rhs + r) := by
  have e := hc.entry k (by show k < t.packed.rhs.layout.rows; rw [(pos_rows h).2.1]; exact hk)
  rw [← e]
  unfold Dot.rhsAt
  rw [PackCall.wrap8_toInt]
  refine congrArg (fun o => (m.packed.rhs o).toInt) ?_
  unfold pplace
  show start.rhs * t.packed.rhs.layout.stride + r / 8 * (8 * t.packed.rhs.layout.stride) + 32 * (k / 4) + 4 * (r % 8) + k % 4 =
    t.packed.rhs.layout.stride * (8 * ((start.rhs + r) / 8)) + 32 * (k / 4) + 4 * ((start.rhs + r) % 8) + k % 4
  obtain ⟨a1, -⟩ := hb.rhs
  rw [show (start.rhs + r) % 8 = r % 8 by omega, show 8 * ((start.rhs + r) / 8) = start.rhs + 8 * (r / 8) by omega]
  ring

omit h hb in
theorem bias_eq (hk : Kept m0 m) (r c : Nat) :
    biasOf (jobOf t m start stop) r c = biasAt t m0 (channelOf t.mp.chan (start.lhs + r) (start.rhs + c)) := by
  unfold biasOf biasAt Job.word wordAt chanOf
  show (if t.mp.bias.isSome = true then wrap32 (le4 (if t.mp.bias.isSome = true then m.bias else fun _ => 0)
    (4 * if decide (t.mp.chan = .col) = true then start.rhs + c else start.lhs + r)) else 0) = _
  split
  · rw [hk.bias]
    cases t.mp.chan <;> rfl
  · rfl

omit hb in
theorem out_eq (hk : Kept m0 m) (x : Int) (r c : Nat) :
    outOf (jobOf t m start stop) x r c = output t m0 (start.lhs + r) (start.rhs + c) x := by
  have e1 : fixOf (jobOf t m start stop) r c = fixedAt t m0 (channelOf t.mp.chan (start.lhs + r) (start.rhs + c)) := by
    unfold fixOf fixedAt Job.word wordAt chanOf
    show wrap32 (le4 (if t.mp.fixedBuf.isSome = true then m.fixed else fun o => byteOf t.mp.fixed (o % 4))
      (4 * if t.mp.fixedBuf.isSome = true then if decide (t.mp.chan = .col) = true then start.rhs + c else start.lhs + r else 0)) = _
    split
    · rw [hk.fixed]
      cases t.mp.chan <;> rfl
    · rw [word_of (x := t.mp.fixed) (fun b hb => by rw [show (4 * 0 + b) % 4 = b by omega])]
      exact wrap32_id h.fixed
  have e2 : expOf (jobOf t m start stop) r c = exponentAt t m0 (channelOf t.mp.chan (start.lhs + r) (start.rhs + c)) := by
    unfold expOf exponentAt Job.word wordAt chanOf
    show wrap32 (le4 (if t.mp.fixedBuf.isSome = true then m.exponent else fun o => byteOf t.mp.exponent (o % 4))
      (4 * if t.mp.fixedBuf.isSome = true then if decide (t.mp.chan = .col) = true then start.rhs + c else start.lhs + r else 0)) = _
    split
    · rw [hk.exponent]
      cases t.mp.chan <;> rfl
    · rw [word_of (x := t.mp.exponent) (fun b hb => by rw [show (4 * 0 + b) % 4 = b by omega])]
      exact wrap32_id h.exponent
  unfold outOf output
  rw [e1, e2]
  rfl

end

/-- All columns that a call needs are packed. -/
def Ready (t : Task) (m0 m : Mach) (start stop : SidePair Nat) : Prop :=
  ∀ (s : Side) (c : Nat), start.get s ≤ c → c < stop.get s → c < (t.src.get s).layout.cols → ColOk t m0 m s c

theorem offset_small (h : TaskOk t) (s : Side) (k c : Nat) :
    small t m0 s k c - (t.packed.get s).zp = if k < depth t then elem t m0 s k c - (t.src.get s).zp else 0 := by
  rw [(h.side s).zp]
  unfold small
  split <;> omega

section
variable (h : TaskOk t) (hb : Ranges t start stop)
include h hb

theorem acc_eq (hk : Kept m0 m) (hr : Ready t m0 m start stop) {r c : Nat} (hi : Dot.Inside (jobOf t m start stop) r c) :
    accOf (jobOf t m start stop) (Dot.dotOf (jobOf t m start stop) r c) r c =
      wrap32 (exact t m0 (start.lhs + r) (start.rhs + c)) := by
  have cl : ∀ {r c}, Dot.Inside (jobOf t m start stop) r c → ColOk t m0 m .lhs (start.lhs + r) := fun hi => by
    obtain ⟨i1, -, i3, -⟩ := (job_inside hb).1 hi
    exact hr .lhs _ (Nat.le_add_right _ _) i1 (by rw [h.drows] at i3; exact i3)
  have cr : ∀ {r c}, Dot.Inside (jobOf t m start stop) r c → ColOk t m0 m .rhs (start.rhs + c) := fun hi => by
    obtain ⟨-, i1, -, i3⟩ := (job_inside hb).1 hi
    exact hr .rhs _ (Nat.le_add_right _ _) i1 (by rw [h.dcols] at i3; exact i3)
  obtain ⟨p1, p2, p3, p4⟩ := pos_rows h
  have hdep := job_depth (m := m) (start := start) (stop := stop) h
  have hs : Dot.SumsOk (jobOf t m start stop) := by
    refine ⟨fun r c hi => ?_, fun r c hi => ?_, ?_⟩
    · rw [hdep]
      unfold Job.word
      show wrap32 (le4 (m.sums.get .lhs) (4 * (start.lhs + r))) = _
      rw [word_of ((cl hi).sum)]
      exact congrArg wrap32 (Finset.sum_congr rfl (fun k hk => (lhsAt_eq hb (cl hi) (Finset.mem_range.1 hk)).symm))
    · rw [hdep]
      unfold Job.word
      show wrap32 (le4 (m.sums.get .rhs) (4 * (start.rhs + c))) = _
      rw [word_of ((cr hi).sum)]
      refine congrArg wrap32 ?_
      show ∑ k ∈ Finset.range t.packed.rhs.layout.rows, _ = _
      rw [p2]
      exact Finset.sum_congr rfl (fun k hk => (rhsAt_eq h hb (cr hi) (Finset.mem_range.1 hk)).symm)
    · rw [hdep]
      exact (wrap32_id h.prod).symm
  rw [Dot.c63_accumulator hs hi]
  refine congrArg wrap32 ?_
  rw [bias_eq hk, hdep]
  unfold exact
  rw [← Simd.Flow.sum_pad (N := t.packed.lhs.layout.rows) (n := depth t) p4]
  refine congrArg _ (Finset.sum_congr rfl (fun k hk => ?_))
  have hk := Finset.mem_range.1 hk
  rw [lhsAt_eq hb (cl hi) hk, rhsAt_eq h hb (cr hi) hk]
  have o1 := offset_small (m0 := m0) h .lhs k (start.lhs + r)
  have o2 := offset_small (m0 := m0) h .rhs k (start.rhs + c)
  simp only [SidePair.get_lhs, SidePair.get_rhs] at o1 o2
  show (_ - t.packed.lhs.zp) * (_ - t.packed.rhs.zp) = _
  rw [o1, o2]
  split
  · rfl
  · rfl

/-- Memory after a kernel call. -/
structure KernelDone (t : Task) (m0 : Mach) (start stop : SidePair Nat) (m m' : Mach) : Prop where
  kept : m'.src = m.src ∧ m'.packed = m.packed ∧ m'.sums = m.sums ∧ m'.bias = m.bias ∧ m'.fixed = m.fixed ∧ m'.exponent = m.exponent
  entry : ∀ i j, start.lhs ≤ i → i < stop.lhs → start.rhs ≤ j → j < stop.rhs → i < t.dst.layout.rows → j < t.dst.layout.cols →
    ∀ b, b < t.dst.dt.size → m'.dst (place t i j + b) = byteOf (stored t m0 i j) b
  rest : ∀ o, (∀ i j, start.lhs ≤ i → i < stop.lhs → start.rhs ≤ j → j < stop.rhs → i < t.dst.layout.rows →
    j < t.dst.layout.cols → ∀ b, b < t.dst.dt.size → o ≠ place t i j + b) → m'.dst o = m.dst o

theorem kernel_ok (u : Tuning) (hk : Kept m0 m) (hr : Ready t m0 m start stop) :
    (∃ r, RunKernel t u start stop m r) ∧ ∀ r, RunKernel t u start stop m r → ∃ m', r = .ok m' ∧
      KernelDone t m0 start stop m m' := by
  unfold RunKernel
  rw [makeJob_ok h hb]
  have hf := job_fits (m := m) h hb
  have ha := job_args (t := t) (m := m) (start := start) (stop := stop)
  have key : ∀ s', Dot.Result (jobOf t m start stop)
      (fun r c => outOf (jobOf t m start stop) (accOf (jobOf t m start stop) (Dot.dotOf (jobOf t m start stop) r c) r c) r c) s' →
      KernelDone t m0 start stop m (putKernel t m s'.m) := by
    intro s' hs
    refine ⟨⟨rfl, ?_, ?_, ?_, ?_, ?_⟩, fun i j i1 i2 j1 j2 i3 j3 b hb' => ?_, fun o ho => ?_⟩
    · show (⟨s'.m .lhs, s'.m .rhs⟩ : SidePair _) = _
      rw [hs.inputs .lhs (by decide) (by decide), hs.inputs .rhs (by decide) (by decide)]
      rfl
    · show (⟨s'.m .lhsSums, s'.m .rhsSums⟩ : SidePair _) = _
      rw [hs.inputs .lhsSums (by decide) (by decide), hs.inputs .rhsSums (by decide) (by decide)]
      rfl
    · show (if t.mp.bias.isSome = true then s'.m .bias else m.bias) = _
      split
      · rename_i hn
        rw [hs.inputs .bias (by decide) (by decide)]
        exact if_pos hn
      · rfl
    · show (if t.mp.fixedBuf.isSome = true then s'.m .mulFix else m.fixed) = _
      split
      · rename_i hn
        rw [hs.inputs .mulFix (by decide) (by decide)]
        exact if_pos hn
      · rfl
    · show (if t.mp.fixedBuf.isSome = true then s'.m .mulExp else m.exponent) = _
      split
      · rename_i hn
        rw [hs.inputs .mulExp (by decide) (by decide)]
        exact if_pos hn
      · rfl
    · obtain ⟨r, rfl⟩ := Nat.exists_eq_add_of_le i1
      obtain ⟨c, rfl⟩ := Nat.exists_eq_add_of_le j1
      have hi : Dot.Inside (jobOf t m start stop) r c := (job_inside hb).2 ⟨i2, j2, i3, j3⟩
      have := hs.entry r c hi b hb'
      rw [addr_eq] at this
      show s'.m .dst _ = _
      rw [this, acc_eq h hb hk hr hi, out_eq h hk]
      rfl
    · show s'.m .dst o = _
      refine hs.rest o (fun r c hi b hb' => ?_)
      obtain ⟨i1, i2, i3, i4⟩ := (job_inside hb).1 hi
      rw [addr_eq]
      exact ho _ _ (Nat.le_add_right _ _) i1 (Nat.le_add_right _ _) i2 i3 i4 b hb'
  have all := fun s hs => Dot.c65_all u hf ha (s := s) hs
  refine ⟨?_, ?_⟩
  · obtain ⟨⟨s', h1⟩, -⟩ := all _ (exStart_ok _)
    exact ⟨_, _, exStart_ok _, .inl ⟨s', h1, rfl⟩⟩
  · rintro r ⟨s, hs, ⟨s', h1, rfl⟩ | ⟨hno, -⟩⟩
    · have := (all s hs).2 s' h1
      rw [this.ok]
      exact ⟨_, rfl, key s' this⟩
    · obtain ⟨⟨s', h1⟩, -⟩ := all s hs
      exact absurd h1 (hno s')

end
end Ruy.Neon.DFlow

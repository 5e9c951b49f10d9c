import Verif.Arm32.Flow
/-
Single calls of the packing functions and of the kernel on float matrices, 32-bit ARM: lemmas for property C89.
-/
namespace Ruy.Arm32.Flow
open Ruy.Mat Ruy.Mul
open Ruy.TrMul (setSide)
open Ruy.Simd.Flow (Op Covered Written)
open Ruy.Neon.Flow (at' setSide_get set_same)
open Ruy.NeonF (St Region Ops)
open Ruy.NeonF.Flow (Source Target Dest Params Mach sideMem putSide srcMat packedMat putKernel elem depth biasAt sumIn
  place channels Kept foldl_congr)
variable {A : Type}

theorem cols_pos (s : Side) : 4 ≤ cols s := by cases s <;> decide

theorem width_eq (t : Task A) (s : Side) : (packCall t s).width = cols s := by cases s <;> rfl

/-- What CreatePackedLayout gives. -/
theorem SideOk.facts {w : Nat} {s : Source} {p : Target} (h : SideOk w s p) :
    p.layout.stride = p.layout.rows ∧ p.layout.rows = s.layout.rows ∧
      s.layout.cols ≤ p.layout.cols ∧ p.layout.cols < s.layout.cols + w ∧ p.layout.cols % w = 0 := by
  obtain ⟨hp, l1, l2, l3, l4, l5, l6, l7⟩ := createPackedLayout_ok h.layout
  have d2 := hp.cols
  rw [l3] at d2
  dsimp only at d2 l5 l7
  exact ⟨l2, by omega, l6, l7, Nat.mod_eq_zero_of_dvd d2⟩

/-- Where row `k` and column `c` of a packed matrix are. -/
def pplace (w : Nat) (p : Target) (k c : Nat) : Nat := p.layout.stride * (w * (c / w)) + w * k + c % w

/-- Column `c` of a side has been packed. -/
def ColOk (t : Task A) (m0 m : Mach A) (s : Side) (c : Nat) : Prop :=
  ∀ k, k < (t.packed.get s).layout.rows → m.packed.get s (pplace (cols s) (t.packed.get s) k c) = elem t m0 s k c

/-- Places of columns of different groups. -/
theorem pplace_ne {w : Nat} {s : Source} {p : Target} (h : SideOk w s p) (hw : 0 < w) {k c k' c' : Nat} (hk : k < p.layout.rows)
    (hk' : k' < p.layout.rows) (hc : c / w ≠ c' / w) : pplace w p k c ≠ pplace w p k' c' := by
  obtain ⟨l1, l2, -⟩ := h.facts
  have key : ∀ {k c k' c' : Nat}, k < p.layout.rows → c / w < c' / w → pplace w p k c < pplace w p k' c' := by
    intro k c k' c' hk hc
    unfold pplace
    have h1 : p.layout.stride * (w * (c / w)) + p.layout.stride * w ≤ p.layout.stride * (w * (c' / w)) := by
      rw [← Nat.mul_add]
      refine Nat.mul_le_mul_left _ ?_
      rw [← Nat.mul_succ]
      exact Nat.mul_le_mul_left _ hc
    have h2 : w * k + w ≤ p.layout.stride * w := by
      rw [l1, Nat.mul_comm _ w, ← Nat.mul_succ]
      exact Nat.mul_le_mul_left _ hk
    have := Nat.mod_lt c hw
    omega
  rcases Nat.lt_or_gt_of_ne hc with h' | h'
  · exact Nat.ne_of_lt (key hk h')
  · exact (Nat.ne_of_lt (key hk' h')).symm

theorem poff_pplace {w : Nat} {s : Source} {p : Target} (h : SideOk w s p) (k c : Nat) : poff p.layout k c = pplace w p k c := by
  obtain ⟨hp, l1, l2, l3, -⟩ := createPackedLayout_ok h.layout
  rw [Float.poff_row _ l1 l3]
  unfold pplace
  ring

/-- Only the packed columns of one side have changed. -/
structure PackFrame (t : Task A) (s : Side) (lo hi : Nat) (m m' : Mach A) : Prop where
  src : m'.src = m.src
  bias : m'.bias = m.bias
  dst : m'.dst = m.dst
  other : ∀ s', s' ≠ s → m'.packed.get s' = m.packed.get s'
  packed : ∀ o, (∀ c, lo ≤ c → c < hi → ∀ k, k < (t.packed.get s).layout.rows → o ≠ pplace (cols s) (t.packed.get s) k c) →
    m'.packed.get s o = m.packed.get s o

/-- A call of RunPack. -/
theorem pack_ok {t : Task A} (h : TaskOk t) {s : Side} {lo hi : Nat}
    (hb : Simd.Flow.Block (cols s) (t.packed.get s).layout.cols lo hi) {m0 m : Mach A} (hsrc : m.src = m0.src) :
    (∃ r, RunPack t s lo hi m r) ∧ ∀ r, RunPack t s lo hi m r → ∃ m', r = .ok m' ∧
      PackFrame t s lo hi m m' ∧ ∀ c, lo ≤ c → c < hi → c < (t.src.get s).layout.cols → ColOk t m0 m' s c := by
  have hs := h.side s
  obtain ⟨l1, l2, l3, l4, l5⟩ := hs.facts
  obtain ⟨b1, b2, b3, b4⟩ := hb
  have hsz : (t.packed.get s).layout.stride * hi ≤ (t.packed.get s).layout.stride * (t.packed.get s).layout.cols :=
    Nat.mul_le_mul_left _ b4
  have h5 := hs.size
  obtain ⟨h6, h7⟩ := hs.memory
  have h4 : (t.packed.get s).layout.stride * (t.packed.get s).layout.cols < 2 ^ 31 := by omega
  have hrow : (t.packed.get s).layout.stride ≤ (t.packed.get s).layout.stride * (t.packed.get s).layout.cols :=
    Nat.le_mul_of_pos_right _ (by omega)
  have sp : ∀ k c, Pack.spot (packCall t s) k c = pplace (cols s) (t.packed.get s) k c := fun k c => by
    unfold Pack.spot pplace
    rw [width_eq]
    rfl
  have key : ∀ (y : SidePair (Nat → A)) (x : Nat → A), y = m.src →
      (∀ c, lo ≤ c → c < hi → c < (t.src.get s).layout.cols → ∀ k, k < (t.packed.get s).layout.rows →
        x (pplace (cols s) (t.packed.get s) k c) = elem t m0 s k c) →
      (∀ o, (∀ c, lo ≤ c → c < hi → ∀ k, k < (t.packed.get s).layout.rows → o ≠ pplace (cols s) (t.packed.get s) k c) →
        x o = m.packed.get s o) →
      PackFrame t s lo hi m { m with src := y, packed := setSide m.packed s x } ∧
        ∀ c, lo ≤ c → c < hi → c < (t.src.get s).layout.cols → ColOk t m0 { m with src := y, packed := setSide m.packed s x } s c := by
    intro y x k0 k1 k3
    refine ⟨⟨k0, rfl, rfl, fun s' hs' => ?_, fun o ho => ?_⟩, fun c c1 c2 c3 k hk => ?_⟩
    · show (setSide _ _ _).get _ = _
      rw [setSide_get, if_neg hs']
    · show (setSide m.packed s x).get s o = _
      rw [setSide_get, if_pos rfl, k3 o ho]
    · show (setSide m.packed s x).get s _ = _
      rw [setSide_get, if_pos rfl, k1 c c1 c2 c3 k hk]
  unfold RunPack
  cases ho : (t.src.get s).layout.order with
  | colMajor =>
    simp only [if_true]
    have hf : Pack.CallFits (packCall t s) lo hi := {
      order := by omega
      aligned := by rw [width_eq]; exact ⟨b1, b2⟩
      rows := by show (t.src.get s).layout.rows < _; omega
      stride := by show (t.src.get s).layout.rows ≤ (t.packed.get s).layout.stride; omega
      src := fun c hc k hk => by
        have := hs.source k c hk hc
        unfold at' at this
        rw [ho] at this
        exact this
      packed := by show (t.packed.get s).layout.stride * hi ≤ (t.packed.get s).size; omega
      offsets := fun c hc h40 => ⟨hs.columns ho c (by omega) h40, by
        show (t.packed.get s).layout.stride * c < 2 ^ 31
        have : (t.packed.get s).layout.stride * c ≤ (t.packed.get s).layout.stride * hi := Nat.mul_le_mul_left _ (by omega)
        omega⟩ }
    obtain ⟨⟨x, hx⟩, hall⟩ := Pack.c82_pack (m := sideMem t m s) hf
    refine ⟨⟨_, x, hx, rfl⟩, ?_⟩
    rintro r ⟨y, hy, rfl⟩
    obtain ⟨m', rfl, hp⟩ := hall y hy
    have pr : (packCall t s).rows = (t.packed.get s).layout.rows := l2.symm
    refine ⟨_, rfl, key (setSide m.src s (m' .src)) (m' .packed) ?_ (fun c c1 c2 c3 k hk => ?_)
      (fun o ho => hp.restPacked o (fun c c1 c2 k hk => by rw [sp]; exact ho c c1 c2 k (by rw [← pr]; exact hk)))⟩
    · rw [hp.rest .src (by decide) (by decide)]
      exact set_same _ _
    · rw [← sp]
      refine (hp.entry c c1 c2 k (by rw [pr]; exact hk)).trans ?_
      unfold Pack.wanted
      rw [if_pos (show c < (packCall t s).cols from c3)]
      unfold elem at'
      rw [ho, ← hsrc]
      rfl
  | rowMajor =>
    simp only [reduceCtorEq, if_false]
    have hf : Float.Fits (cols s) (srcMat t m s) (packedMat t m s).layout lo hi :=
      ⟨ho, hs.layout, Nat.dvd_of_mod_eq_zero b1, Nat.dvd_of_mod_eq_zero b2, b4⟩
    have fl : pflatSize (t.packed.get s).layout = (t.packed.get s).layout.stride * (t.packed.get s).layout.cols := by
      unfold pflatSize
      rw [(createPackedLayout_ok hs.layout).2.1]
    have at_off : ∀ k c, off (t.src.get s).layout k c = at' (t.src.get s).layout k c := fun k c => by
      unfold off at'
      rw [ho]
      dsimp only
      rw [Nat.mul_comm]
    obtain ⟨q, hq⟩ := Float.memcpyPack_total (z := t.ops.zero) (p := packedMat t m s) hf b3 (by rw [packedMat, fl]; exact h4)
      (by rw [packedMat, fl]; exact h5) (fun k c hk hc => by
        show off (t.src.get s).layout k c < _ ∧ off (t.src.get s).layout k c < (t.src.get s).size
        rw [at_off]
        have := hs.source k c hk hc
        exact ⟨by omega, this⟩)
    rw [hq]
    refine ⟨⟨_, rfl⟩, ?_⟩
    rintro r rfl
    obtain ⟨-, -, -, -, hv, hrest⟩ := Float.memcpyPack_ok hf hq
    refine ⟨_, rfl, key m.src q.data.val rfl (fun c c1 c2 c3 k hk => ?_) (fun o ho => hrest o (fun k c hk c1 c2 => ?_))⟩
    · have := hv k c (by show k < (t.src.get s).layout.rows; omega) c1 c2
      rw [show poff (packedMat t m s).layout k c = pplace (cols s) (t.packed.get s) k c from poff_pplace hs k c] at this
      rw [this]
      unfold Float.rowVal
      rw [if_pos (show c < (srcMat t m s).layout.cols from c3)]
      show m.src.get s (off (t.src.get s).layout k c) = _
      rw [at_off, hsrc]
      rfl
    · rw [show poff (packedMat t m s).layout k c = pplace (cols s) (t.packed.get s) k c from poff_pplace hs k c]
      have hk : k < (t.src.get s).layout.rows := hk
      exact ho c c1 c2 k (by omega)

theorem ne_of_block {w lo hi c c' : Nat} (h1 : lo % w = 0) (h2 : hi % w = 0) (hn : ¬(lo ≤ c ∧ c < hi)) (c1 : lo ≤ c')
    (c2 : c' < hi) : c / w ≠ c' / w := by
  obtain ⟨a, rfl⟩ := Nat.dvd_of_mod_eq_zero h1
  obtain ⟨b, rfl⟩ := Nat.dvd_of_mod_eq_zero h2
  rcases Nat.eq_zero_or_pos w with rfl | hw
  · omega
  intro e
  have e1 : a ≤ c' / w := (Nat.le_div_iff_mul_le hw).2 (by rw [Nat.mul_comm]; exact c1)
  have e2 : c' / w < b := (Nat.div_lt_iff_lt_mul hw).2 (by rw [Nat.mul_comm]; exact c2)
  rw [← e] at e1 e2
  have f1 := (Nat.le_div_iff_mul_le hw).1 e1
  have f2 := (Nat.div_lt_iff_lt_mul hw).1 e2
  exact hn ⟨by rw [Nat.mul_comm]; exact f1, by rw [Nat.mul_comm]; exact f2⟩

/-- A column that was packed before stays packed. -/
theorem ColOk.frame {t : Task A} (h : TaskOk t) {s s' : Side} {lo hi c : Nat}
    (hb : Simd.Flow.Block (cols s) (t.packed.get s).layout.cols lo hi) {m0 m m' : Mach A} (hf : PackFrame t s lo hi m m')
    (hc : ColOk t m0 m s' c) (hn : s' = s → ¬(lo ≤ c ∧ c < hi)) : ColOk t m0 m' s' c := by
  obtain ⟨b1, b2, b3, b4⟩ := hb
  by_cases hs : s' = s
  · subst hs
    have hn := hn rfl
    intro k hk
    rw [hf.packed _ (fun c' c1 c2 k' hk' => pplace_ne (h.side s') (Nat.lt_of_lt_of_le (by decide) (cols_pos s')) hk hk' (ne_of_block b1 b2 hn c1 c2))]
    exact hc k hk
  · intro k hk
    rw [hf.other s' hs]
    exact hc k hk

/-! ### Kernel -/

variable {t : Task A} {m0 m : Mach A} {start stop : SidePair Nat}

/-- What MakeKernelParamsFloat gives if nothing fails. -/
def jobOf (t : Task A) (m : Mach A) (start stop : SidePair Nat) : Job A :=
  { startRow := start.lhs
    startCol := start.rhs
    rowSteps := (stop.lhs - start.lhs) / 8 - 1
    colSteps := (stop.rhs - start.rhs) / 4 - 1
    depth := t.packed.lhs.layout.rows
    lhsBase := start.lhs * t.packed.lhs.layout.stride
    rhsBase := start.rhs * t.packed.rhs.layout.stride
    dstBase := start.rhs * t.dst.layout.stride + start.lhs
    lhsStride := t.packed.lhs.layout.stride
    rhsStride := t.packed.rhs.layout.stride
    dstStride := t.dst.layout.stride
    dstRows := t.dst.layout.rows
    dstCols := t.dst.layout.cols
    clampMin := t.mp.clampMin
    clampMax := t.mp.clampMax
    hasBias := t.mp.bias.isSome
    chanCol := decide (t.mp.chan = .col)
    size := fun r => match r with
      | .lhs => t.packed.lhs.size
      | .rhs => t.packed.rhs.size
      | .bias => t.mp.bias.getD 8
      | .dst => t.dst.size
      | .tmp => 32
      | _ => 0
    m := fun r => match r with
      | .lhs => m.packed.lhs
      | .rhs => m.packed.rhs
      | .bias => if t.mp.bias.isSome then m.bias else fun _ => t.ops.zero
      | .dst => m.dst
      | _ => fun _ => t.ops.zero
    ops := t.ops }

/-- The blocks of a call, in numbers. -/
structure Ranges (t : Task A) (start stop : SidePair Nat) : Prop where
  lhs : Simd.Flow.Block 8 t.packed.lhs.layout.cols start.lhs stop.lhs
  rhs : Simd.Flow.Block 4 t.packed.rhs.layout.cols start.rhs stop.rhs

theorem pos_rows (h : TaskOk t) : 0 < t.packed.lhs.layout.rows ∧ t.packed.rhs.layout.rows = t.packed.lhs.layout.rows ∧
    t.packed.lhs.layout.rows = depth t := by
  have hl := h.side .lhs
  have hr := h.side .rhs
  simp only [SidePair.get_lhs, SidePair.get_rhs, cols] at hl hr
  have e1 := hl.facts.2.1
  have e2 := hr.facts.2.1
  have := hl.rows
  have := h.depth
  unfold depth
  omega

theorem flat_le {w : Nat} {s : Source} {p : Target} (h : SideOk w s p) : p.layout.stride * p.layout.cols ≤ 2 ^ 30 := by
  have := h.size
  have := h.memory
  omega

theorem cols_lt {w : Nat} {s : Source} {p : Target} (h : SideOk w s p) : p.layout.cols ≤ 2 ^ 30 := by
  obtain ⟨l1, l2, -⟩ := h.facts
  have := flat_le h
  have := h.rows
  have : p.layout.cols ≤ p.layout.stride * p.layout.cols := Nat.le_mul_of_pos_left _ (by omega)
  omega

theorem stride_lt {w : Nat} {s : Source} {p : Target} (h : SideOk w s p) (hw : 4 ≤ w) (hc : 0 < p.layout.cols) :
    4 * p.layout.stride < 2 ^ 31 := by
  obtain ⟨-, -, -, -, l5⟩ := h.facts
  have := flat_le h
  have : 4 * p.layout.stride ≤ p.layout.stride * p.layout.cols := by
    rw [Nat.mul_comm]
    exact Nat.mul_le_mul_left _ (Nat.le_trans hw (Nat.le_of_dvd hc (Nat.dvd_of_mod_eq_zero l5)))
  omega

theorem dst_lt (h : TaskOk t) (h0 : 0 < t.dst.layout.rows) {j : Nat} (hj : j < t.dst.layout.cols) :
    j * t.dst.layout.stride < 2 ^ 31 := by
  have a := h.dsize 0 j h0 hj
  have b := h.dmem
  unfold place at a
  omega

theorem makeJob_ok (h : TaskOk t) (hb : Ranges t start stop) : makeJob t m start stop = .ok (jobOf t m start stop) := by
  have hl := h.side .lhs
  have hr := h.side .rhs
  simp only [SidePair.get_lhs, SidePair.get_rhs, cols] at hl hr
  obtain ⟨l1, l2, l3, l4, l5⟩ := hl.facts
  obtain ⟨r1, r2, r3, r4, r5⟩ := hr.facts
  obtain ⟨a1, a2, a3, a4⟩ := hb.lhs
  obtain ⟨b1, b2, b3, b4⟩ := hb.rhs
  have i1 := flat_le hl
  have i2 := flat_le hr
  have i3 : start.lhs * t.packed.lhs.layout.stride ≤ t.packed.lhs.layout.stride * t.packed.lhs.layout.cols := by
    rw [Nat.mul_comm]; exact Nat.mul_le_mul_left _ (by omega)
  have i4 : start.rhs * t.packed.rhs.layout.stride ≤ t.packed.rhs.layout.stride * t.packed.rhs.layout.cols := by
    rw [Nat.mul_comm]; exact Nat.mul_le_mul_left _ (by omega)
  have hd := h.drows
  have hc := h.dcols
  unfold makeJob
  rw [C.check_of a1, C.ok_bind, C.check_of b1, C.ok_bind, C.check_of a2, C.ok_bind, C.check_of b2, C.ok_bind,
    C.int_of (by omega), C.ok_bind, C.int_of (by omega), C.ok_bind, C.int_of (dst_lt h (by omega) (by omega)), C.ok_bind,
    C.int_of (stride_lt hl (by decide) (by omega)), C.ok_bind, C.int_of (stride_lt hr (by decide) (by omega)), C.ok_bind, C.int_of h.dint, C.ok_bind,
    C.check_of (by omega), C.ok_bind, C.check_of (by omega), C.ok_bind, if_pos ⟨(pos_rows h).1, a3, b3⟩]
  rfl

theorem job_lastRow (hb : Ranges t start stop) : (jobOf t m start stop).lastRow + 8 = stop.lhs := by
  obtain ⟨a1, a2, a3, a4⟩ := hb.lhs
  show start.lhs + 8 * ((stop.lhs - start.lhs) / 8 - 1) + 8 = _
  omega

theorem job_lastCol (hb : Ranges t start stop) : (jobOf t m start stop).lastCol + 4 = stop.rhs := by
  obtain ⟨a1, a2, a3, a4⟩ := hb.rhs
  show start.rhs + 4 * ((stop.rhs - start.rhs) / 4 - 1) + 4 = _
  omega

theorem job_rows (hb : Ranges t start stop) :
    8 * ((jobOf t m start stop).rowSteps + 1) = stop.lhs - start.lhs ∧
      4 * ((jobOf t m start stop).colSteps + 1) = stop.rhs - start.rhs := by
  obtain ⟨a1, a2, a3, a4⟩ := hb.lhs
  obtain ⟨b1, b2, b3, b4⟩ := hb.rhs
  show 8 * ((stop.lhs - start.lhs) / 8 - 1 + 1) = _ ∧ 4 * ((stop.rhs - start.rhs) / 4 - 1 + 1) = _
  omega

theorem job_channels (hb : Ranges t start stop) : (jobOf t m start stop).channels ≤ channels t := by
  unfold Job.channels channels
  rw [job_lastRow hb, job_lastCol hb]
  show (if decide (t.mp.chan = .col) = true then stop.rhs else stop.lhs) ≤ _
  cases t.mp.chan
  · exact hb.lhs.2.2.2
  · exact hb.rhs.2.2.2

theorem addr_eq (r c : Nat) : (jobOf t m start stop).addr r c = place t (start.lhs + r) (start.rhs + c) := by
  unfold Job.addr place
  show start.rhs * t.dst.layout.stride + start.lhs + c * t.dst.layout.stride + r = _
  ring

theorem job_fits (h : TaskOk t) (hb : Ranges t start stop) : (jobOf t m start stop).Fits := by
  have hl := h.side .lhs
  have hr := h.side .rhs
  simp only [SidePair.get_lhs, SidePair.get_rhs, cols] at hl hr
  obtain ⟨l1, l2, l3, l4, l5⟩ := hl.facts
  obtain ⟨r1, r2, r3, r4, r5⟩ := hr.facts
  have g1 := job_lastRow (m := m) hb
  have g2 := job_lastCol (m := m) hb
  obtain ⟨g4, g5⟩ := job_rows (m := m) hb
  have g6 := job_channels (m := m) hb
  have n1 := cols_lt hl
  have n2 := cols_lt hr
  obtain ⟨p1, p2, p3⟩ := pos_rows h
  obtain ⟨a1, a2, a3, a4⟩ := hb.lhs
  obtain ⟨b1, b2, b3, b4⟩ := hb.rhs
  have d1 := h.drows
  have d2 := h.dcols
  have hsl := hl.size
  have hsr := hr.size
  have m1 : stop.lhs * t.packed.lhs.layout.stride ≤ t.packed.lhs.layout.stride * t.packed.lhs.layout.cols := by
    rw [Nat.mul_comm]; exact Nat.mul_le_mul_left _ a4
  have m2 : stop.rhs * t.packed.rhs.layout.stride ≤ t.packed.rhs.layout.stride * t.packed.rhs.layout.cols := by
    rw [Nat.mul_comm]; exact Nat.mul_le_mul_left _ b4
  constructor
  case row => omega
  case col => omega
  case rowIn => show _ < t.dst.layout.rows; omega
  case colIn => show _ < t.dst.layout.cols; omega
  case rows => show t.dst.layout.rows < _; omega
  case cols => show t.dst.layout.cols < _; omega
  case lstride => exact stride_lt hl (by decide) (by omega)
  case rstride => exact stride_lt hr (by decide) (by omega)
  case dstride => exact h.dint
  case pos => exact p1
  case lhsDepth => show t.packed.lhs.layout.rows ≤ t.packed.lhs.layout.stride; omega
  case rhsDepth => show t.packed.lhs.layout.rows ≤ t.packed.rhs.layout.stride; omega
  case lhsSize =>
    show start.lhs * t.packed.lhs.layout.stride + ((jobOf t m start stop).rowSteps + 1) * (8 * t.packed.lhs.layout.stride) ≤
      t.packed.lhs.size
    have : ((jobOf t m start stop).rowSteps + 1) * (8 * t.packed.lhs.layout.stride) =
        (stop.lhs - start.lhs) * t.packed.lhs.layout.stride := by rw [← g4]; ring
    rw [this, ← Nat.add_mul, show start.lhs + (stop.lhs - start.lhs) = stop.lhs by omega]
    omega
  case rhsSize =>
    show start.rhs * t.packed.rhs.layout.stride + ((jobOf t m start stop).colSteps + 1) * (4 * t.packed.rhs.layout.stride) ≤
      t.packed.rhs.size
    have : ((jobOf t m start stop).colSteps + 1) * (4 * t.packed.rhs.layout.stride) =
        (stop.rhs - start.rhs) * t.packed.rhs.layout.stride := by rw [← g5]; ring
    rw [this, ← Nat.add_mul, show start.rhs + (stop.rhs - start.rhs) = stop.rhs by omega]
    omega
  case bias =>
    show if t.mp.bias.isSome = true then (jobOf t m start stop).channels ≤ t.mp.bias.getD 8 else 8 ≤ t.mp.bias.getD 8
    cases hn : t.mp.bias with
    | none => simp
    | some n =>
      have := (h.bias n hn).1
      simp only [Option.isSome_some, if_true, Option.getD_some]
      omega
  case tmp => exact Nat.le_refl 32
  case dst =>
    intro r c hr' hc' _ _
    have := h.dsize (start.lhs + r) (start.rhs + c) hr' hc'
    rw [← addr_eq (m := m) (stop := stop)] at this
    exact this
  case memory =>
    intro r
    cases r
    case lhs => exact hl.memory.2
    case rhs => exact hr.memory.2
    case dst => exact h.dmem
    case bias =>
      show 4 * t.mp.bias.getD 8 ≤ 2 ^ 32
      cases hn : t.mp.bias with
      | none => decide
      | some n => exact (h.bias n hn).2
    all_goals exact Nat.le_of_ble_eq_true rfl
  case columns =>
    show t.dst.layout.rows - start.lhs ≤ t.dst.layout.stride
    have := h.dstride
    omega

theorem job_noBias : (jobOf t m start stop).NoBias := fun h i _ => by
  have e : (jobOf t m start stop).m .bias = fun _ => t.ops.zero := if_neg (by rw [show t.mp.bias.isSome = false from h]; decide)
  rw [e]
  rfl

theorem job_inside (hb : Ranges t start stop) {r c : Nat} : (jobOf t m start stop).Inside r c ↔
    start.lhs + r < stop.lhs ∧ start.rhs + c < stop.rhs ∧ start.lhs + r < t.dst.layout.rows ∧ start.rhs + c < t.dst.layout.cols := by
  obtain ⟨g4, g5⟩ := job_rows (m := m) hb
  obtain ⟨a1, a2, a3, a4⟩ := hb.lhs
  obtain ⟨b1, b2, b3, b4⟩ := hb.rhs
  unfold Job.Inside
  rw [g4, g5]
  show r < _ ∧ c < _ ∧ start.lhs + r < t.dst.layout.rows ∧ start.rhs + c < t.dst.layout.cols ↔ _
  omega

section
variable (h : TaskOk t) (hb : Ranges t start stop)
include h hb

omit h in
theorem lhsAt_eq {r k : Nat} (hc : ColOk t m0 m .lhs (start.lhs + r)) (hk : k < t.packed.lhs.layout.rows) :
    (jobOf t m start stop).lhsAt r k = elem t m0 .lhs k (start.lhs + r) := by
  rw [← hc k hk]
  unfold Job.lhsAt
  refine congrArg (fun o => m.packed.lhs o) ?_
  unfold pplace
  show start.lhs * t.packed.lhs.layout.stride + r / 8 * (8 * t.packed.lhs.layout.stride) + 8 * k + r % 8 =
    t.packed.lhs.layout.stride * (8 * ((start.lhs + r) / 8)) + 8 * k + (start.lhs + r) % 8
  obtain ⟨a1, -⟩ := hb.lhs
  rw [show (start.lhs + r) % 8 = r % 8 by omega, show 8 * ((start.lhs + r) / 8) = start.lhs + 8 * (r / 8) by omega]
  ring

theorem rhsAt_eq {r k : Nat} (hc : ColOk t m0 m .rhs (start.rhs + r)) (hk : k < t.packed.lhs.layout.rows) :
    (jobOf t m start stop).rhsAt r k = elem t m0 .rhs k (start.rhs + r) := by
  rw [← hc k (by show k < t.packed.rhs.layout.rows; rw [(pos_rows h).2.1]; exact hk)]
  unfold Job.rhsAt
  refine congrArg (fun o => m.packed.rhs o) ?_
  unfold pplace
  show start.rhs * t.packed.rhs.layout.stride + r / 4 * (4 * t.packed.rhs.layout.stride) + 4 * k + r % 4 =
    t.packed.rhs.layout.stride * (4 * ((start.rhs + r) / 4)) + 4 * k + (start.rhs + r) % 4
  obtain ⟨a1, -⟩ := hb.rhs
  rw [show (start.rhs + r) % 4 = r % 4 by omega, show 4 * ((start.rhs + r) / 4) = start.rhs + 4 * (r / 4) by omega]
  ring

omit h hb in
theorem bias_eq (hk : Kept m0 m) (r c : Nat) :
    (jobOf t m start stop).biasOf r c = biasAt t m0 (channelOf t.mp.chan (start.lhs + r) (start.rhs + c)) := by
  unfold Job.biasOf biasAt
  show (if t.mp.bias.isSome = true then (if t.mp.bias.isSome = true then m.bias else fun _ => t.ops.zero)
    (if decide (t.mp.chan = .col) = true then start.rhs + c else start.lhs + r) else t.ops.zero) = _
  split
  · rw [hk.bias]
    cases t.mp.chan <;> rfl
  · rfl

end

/-- All columns that a call needs are packed. -/
def Ready (t : Task A) (m0 m : Mach A) (start stop : SidePair Nat) : Prop :=
  ∀ (s : Side) (c : Nat), start.get s ≤ c → c < stop.get s → c < (t.src.get s).layout.cols → ColOk t m0 m s c

section
variable (h : TaskOk t) (hb : Ranges t start stop)
include h hb

theorem entry_eq (hk : Kept m0 m) (hr : Ready t m0 m start stop) {r c : Nat}
    (hi : (jobOf t m start stop).Inside r c) :
    (jobOf t m start stop).outOf r c = stored t m0 (start.lhs + r) (start.rhs + c) := by
  obtain ⟨i1, i2, i3, i4⟩ := (job_inside hb).1 hi
  have cl : ColOk t m0 m .lhs (start.lhs + r) := hr .lhs _ (Nat.le_add_right _ _) i1 (by rw [h.drows] at i3; exact i3)
  have cr : ColOk t m0 m .rhs (start.rhs + c) := hr .rhs _ (Nat.le_add_right _ _) i2 (by rw [h.dcols] at i4; exact i4)
  unfold Job.outOf stored
  rw [bias_eq hk]
  have e : (jobOf t m start stop).sumOf r c = sumIn t m0 (List.range (depth t)) (start.lhs + r) (start.rhs + c) := by
    unfold Job.sumOf sumIn
    rw [show (jobOf t m start stop).depth = depth t from (pos_rows h).2.2]
    refine foldl_congr _ (fun d k hk => ?_) _
    have : k < t.packed.lhs.layout.rows := by
      rw [(pos_rows h).2.2]
      exact List.mem_range.1 hk
    rw [lhsAt_eq hb cl this, rhsAt_eq h hb cr this]
    rfl
  rw [e]
  rfl

/-- Memory after a kernel call. -/
structure KernelDone (t : Task A) (m0 : Mach A) (start stop : SidePair Nat) (m m' : Mach A) : Prop where
  kept : m'.src = m.src ∧ m'.packed = m.packed ∧ m'.bias = m.bias
  entry : ∀ i j, start.lhs ≤ i → i < stop.lhs → start.rhs ≤ j → j < stop.rhs → i < t.dst.layout.rows → j < t.dst.layout.cols →
    m'.dst (place t i j) = stored t m0 i j
  rest : ∀ o, (∀ i j, start.lhs ≤ i → i < stop.lhs → start.rhs ≤ j → j < stop.rhs → i < t.dst.layout.rows →
    j < t.dst.layout.cols → o ≠ place t i j) → m'.dst o = m.dst o

theorem kernel_ok (hk : Kept m0 m) (hr : Ready t m0 m start stop) :
    (∃ r, RunKernel t start stop m r) ∧ ∀ r, RunKernel t start stop m r → ∃ m', r = .ok m' ∧
      KernelDone t m0 start stop m m' := by
  unfold RunKernel
  rw [makeJob_ok h hb]
  have hf := job_fits (m := m) h hb
  have key : ∀ s', (jobOf t m start stop).Result (jobOf t m start stop).outOf s' →
      KernelDone t m0 start stop m (putKernel t m s'.m) := by
    intro s' hs
    refine ⟨⟨rfl, ?_, ?_⟩, fun i j i1 i2 j1 j2 i3 j3 => ?_, fun o ho => ?_⟩
    · show (⟨s'.m .lhs, s'.m .rhs⟩ : SidePair _) = _
      rw [hs.inputs .lhs (by decide) (by decide), hs.inputs .rhs (by decide) (by decide)]
      rfl
    · show (if t.mp.bias.isSome = true then s'.m .bias else m.bias) = _
      split
      · rename_i hn
        rw [hs.inputs .bias (by decide) (by decide)]
        exact if_pos hn
      · rfl
    · obtain ⟨r, rfl⟩ := Nat.exists_eq_add_of_le i1
      obtain ⟨c, rfl⟩ := Nat.exists_eq_add_of_le j1
      have hi : (jobOf t m start stop).Inside r c := (job_inside hb).2 ⟨i2, j2, i3, j3⟩
      have := hs.entry r c hi
      rw [addr_eq] at this
      show s'.m .dst _ = _
      rw [this, entry_eq h hb hk hr hi]
    · show s'.m .dst o = _
      refine hs.rest o (fun r c hi => ?_)
      obtain ⟨i1, i2, i3, i4⟩ := (job_inside hb).1 hi
      rw [addr_eq]
      exact ho _ _ (Nat.le_add_right _ _) i1 (Nat.le_add_right _ _) i2 i3 i4
  have all := fun (s : St A) (hs : (jobOf t m start stop).Start s) => c81_kernel hf job_noBias hs
  refine ⟨?_, ?_⟩
  · obtain ⟨s', h1, -⟩ := all _ (exStart_ok _ fun _ _ => t.ops.zero)
    exact ⟨_, _, exStart_ok _ fun _ _ => t.ops.zero, .inl ⟨s', h1, rfl⟩⟩
  · rintro r ⟨s, hs, ⟨s', h1, rfl⟩ | ⟨hno, -⟩⟩
    · obtain ⟨s2, h2, h3⟩ := all s hs
      rw [c81_deterministic h1 h2, h3.ok]
      exact ⟨_, rfl, key s2 h3⟩
    · obtain ⟨s', h1, -⟩ := all s hs
      exact absurd h1 (hno s')

end
end Ruy.Arm32.Flow

import Verif.TrMul.Model
import Verif.BlockMap.Props
import Verif.Mul.KernelLemmas
/-
Sequential TrMul: the simple loop and the single-threaded block loop both
compute `target`.
-/
namespace Ruy.TrMul
open Ruy.Mat Ruy.Mul Ruy.BlockMap

variable {A : Type}

/-- The operand a packed matrix is meant to hold. -/
def operand (tp : Params A) (m : Mem A) (s : Side) : Operand A :=
  ⟨tp.pack.get s, tp.src.get s, (m.packed.get s).zp, (m.packed.get s).layout.rows⟩

/-- The value entry (i, j) must get. -/
def target (tp : Params A) (m : Mem A) (i j : Nat) : C A :=
  opEntry tp.ar tp.mp (operand tp m .lhs) (operand tp m .rhs) m.dst.zp i j

/-- Column `c` of side `s` is packed. -/
def Packed (tp : Params A) (m : Mem A) (s : Side) (c : Nat) : Prop :=
  ColDone tp.ar (tp.pack.get s) (tp.src.get s) (m.packed.get s) c

/-- Well-formedness of the inputs of TrMul. -/
structure Ready (tp : Params A) (m : Mem A) : Prop where
  layout : ∀ s, PackedOk (m.packed.get s).layout
  depth : m.packed.lhs.layout.rows = m.packed.rhs.layout.rows
  stride : StrideOk m.dst.layout
  rows : m.dst.layout.rows ≤ m.packed.lhs.layout.cols
  cols : m.dst.layout.cols ≤ m.packed.rhs.layout.cols
  lsums : m.packed.lhs.sums.isSome ∨ m.packed.rhs.zp = 0
  rsums : m.packed.rhs.sums.isSome ∨ m.packed.lhs.zp = 0
  prepacked : ∀ s, tp.isPrepacked.get s = true →
    ∀ c, c < (m.packed.get s).layout.cols → Packed tp m s c

/-- `m'` has the shapes of `m`. -/
structure MSame (m m' : Mem A) : Prop where
  packed : ∀ s, SameShape (m.packed.get s) (m'.packed.get s)
  dst : DSame m.dst m'.dst

theorem MSame.refl (m : Mem A) : MSame m m := ⟨fun _ => SameShape.refl _, DSame.refl _⟩
theorem MSame.trans {a b c : Mem A} (h : MSame a b) (h' : MSame b c) : MSame a c :=
  ⟨fun s => (h.packed s).trans (h'.packed s), h.dst.trans h'.dst⟩

theorem MSame.operand {tp : Params A} {m m' : Mem A} (h : MSame m m') (s : Side) :
    operand tp m' s = operand tp m s := by
  unfold TrMul.operand; rw [(h.packed s).zp, (h.packed s).layout]

theorem MSame.target {tp : Params A} {m m' : Mem A} (h : MSame m m') :
    target tp m' = target tp m := by
  funext i j; unfold TrMul.target; rw [h.operand, h.operand, h.dst.zp]

/-- The destination `d'` results from `d` by storing exactly the values `f i j`. -/
structure Computes (f : Nat → Nat → C A) (d d' : Mul.Mat A) : Prop where
  same : DSame d d'
  done : ∀ i j, i < d.layout.rows → j < d.layout.cols → EntryDone f d' i j
  frame : DOutside (fun i j => i < d.layout.rows ∧ j < d.layout.cols) d d'

@[simp] theorem setSide_get_same {α : Type} (p : SidePair α) (s : Side) (x : α) :
    (setSide p s x).get s = x := by cases s <;> rfl
theorem setSide_get_other {α : Type} (p : SidePair α) {s s' : Side} (x : α) (h : s' ≠ s) :
    (setSide p s x).get s' = p.get s' := by cases s <;> cases s' <;> simp_all [setSide]

/-- Packing `[lo, hi)` of one side: effect on all sides. -/
theorem runPackSide_ok {tp : Params A} {m m' : Mem A} {s : Side} {lo hi : Nat}
    (hl : PackedOk (m.packed.get s).layout) (hhi : hi ≤ (m.packed.get s).layout.cols)
    (h : runPackSide tp m s lo hi = .ok m') :
    MSame m m' ∧ m'.dst = m.dst ∧ (∀ c, lo ≤ c → c < hi → Packed tp m' s c) ∧
      (∀ s' c, c < (m.packed.get s').layout.cols → Packed tp m s' c → (s' ≠ s ∨ c < lo ∨ hi ≤ c) →
        Packed tp m' s' c) := by
  unfold runPackSide at h
  obtain ⟨p, hp, h⟩ := C.bind_ok h
  cases h
  obtain ⟨h1, h2, h3⟩ := runPack_ok hl hhi hp
  refine ⟨⟨fun s' => ?_, DSame.refl _⟩, rfl, fun c hc1 hc2 => ?_, fun s' c hc hpk hout => ?_⟩
  · by_cases hs : s' = s
    · subst hs; simp only [setSide_get_same]; exact h1
    · simp only [setSide_get_other _ _ hs]; exact SameShape.refl _
  · unfold Packed; simp only [setSide_get_same]; exact h3 c hc1 hc2
  · unfold Packed at hpk ⊢
    by_cases hs : s' = s
    · subst hs
      simp only [setSide_get_same]
      exact hpk.frame h1 h2 hl hc (fun c' hc' => by omega) (fun hc' => by
        rcases hout with h | h | h
        · exact h rfl
        · omega
        · omega)
    · simp only [setSide_get_other _ _ hs]; exact hpk

/-- With both columns packed, the kernel computes the target. -/
theorem kernelEntry_target {tp : Params A} {m : Mem A} {i j : Nat} (hr : Ready tp m)
    (hl : Packed tp m .lhs i) (hrr : Packed tp m .rhs j) :
    kernelEntry tp.ar tp.mp m.packed.lhs m.packed.rhs m.dst.zp i j = target tp m i j :=
  kernelEntry_eq (pl := m.packed.lhs) (pr := m.packed.rhs) (l := operand tp m .lhs)
    (r := operand tp m .rhs) ⟨rfl, rfl⟩ ⟨rfl, rfl⟩ hr.depth hl hrr hr.lsums hr.rsums

/-- Running the kernel on a block whose columns are packed. -/
theorem runKernelBlock_ok {tp : Params A} {m m' : Mem A} {start stop : SidePair Nat}
    (hr : Ready tp m)
    (hl : ∀ c, start.lhs ≤ c → c < stop.lhs → c < m.packed.lhs.layout.cols → Packed tp m .lhs c)
    (hrr : ∀ c, start.rhs ≤ c → c < stop.rhs → c < m.packed.rhs.layout.cols → Packed tp m .rhs c)
    (h : runKernelBlock tp m start stop = .ok m') :
    MSame m m' ∧ m'.packed = m.packed ∧
      DOutside (fun i j => start.lhs ≤ i ∧ i < min stop.lhs m.dst.layout.rows ∧
        start.rhs ≤ j ∧ j < min stop.rhs m.dst.layout.cols) m.dst m'.dst ∧
      (∀ i j, start.lhs ≤ i → i < stop.lhs → start.rhs ≤ j → j < stop.rhs →
        i < m.dst.layout.rows → j < m.dst.layout.cols → EntryDone (target tp m) m'.dst i j) := by
  unfold runKernelBlock at h
  obtain ⟨d, hd, h⟩ := C.bind_ok h
  cases h
  unfold runKernel at hd
  obtain ⟨_, _, hd⟩ := C.bind_ok hd
  obtain ⟨_, _, hd⟩ := C.bind_ok hd
  have := storeLoop_ok (f := target tp m) hr.stride (Nat.min_le_right _ _) (Nat.min_le_right _ _)
    (fun i j t t' hi0 hi hj0 hj ht hstep => by
      unfold kernelStep at hstep
      obtain ⟨x, hx, hstep⟩ := C.bind_ok hstep
      refine ⟨x, ?_, hstep⟩
      rw [ht.zp] at hx
      have hi' := hr.rows
      have hj' := hr.cols
      rw [← hx]
      exact (kernelEntry_target hr (hl i hi0 (by omega) (by omega))
        (hrr j hj0 (by omega) (by omega))).symm) hd
  obtain ⟨a1, a2, a3⟩ := this
  refine ⟨⟨fun _ => SameShape.refl _, a1⟩, rfl, a2, fun i j h1 h2 h3 h4 h5 h6 => ?_⟩
  exact a3 i j h1 (by omega) h3 (by omega)

theorem packUnlessPrepacked_ok {tp : Params A} {m m' : Mem A} {s : Side} (hr : Ready tp m)
    (h : packUnlessPrepacked tp m s = .ok m') :
    MSame m m' ∧ m'.dst = m.dst ∧
      (∀ c, c < (m.packed.get s).layout.cols → Packed tp m' s c) ∧
      (∀ s' c, s' ≠ s → c < (m.packed.get s').layout.cols → Packed tp m s' c →
        Packed tp m' s' c) := by
  unfold packUnlessPrepacked at h
  split at h
  · cases h
    rename_i hp
    exact ⟨MSame.refl _, rfl, hr.prepacked s hp, fun _ _ _ _ h => h⟩
  · obtain ⟨h1, h2, h3, h4⟩ := runPackSide_ok (hr.layout s) (Nat.le_refl _) h
    exact ⟨h1, h2, fun c hc => h3 c (Nat.zero_le _) hc, fun s' c hs hc hp => h4 s' c hc hp (.inl hs)⟩

/-- `Ready` only depends on shapes and on prepacked contents. -/
theorem Ready.of_same {tp : Params A} {m m' : Mem A} (hr : Ready tp m) (hs : MSame m m')
    (hp : ∀ s, tp.isPrepacked.get s = true →
      ∀ c, c < (m.packed.get s).layout.cols → Packed tp m' s c) : Ready tp m' := by
  have l := (hs.packed .lhs).layout
  have r := (hs.packed .rhs).layout
  have sl := (hs.packed .lhs).sums
  have sr := (hs.packed .rhs).sums
  have zl := (hs.packed .lhs).zp
  have zr := (hs.packed .rhs).zp
  simp only [SidePair.get_lhs, SidePair.get_rhs] at l r sl sr zl zr
  refine ⟨fun s => by rw [(hs.packed s).layout]; exact hr.layout s, ?_, ?_, ?_, ?_, ?_, ?_, ?_⟩
  · rw [l, r]; exact hr.depth
  · rw [hs.dst.layout]; exact hr.stride
  · rw [hs.dst.layout, l]; exact hr.rows
  · rw [hs.dst.layout, r]; exact hr.cols
  · rw [sl, zr]; exact hr.lsums
  · rw [sr, zl]; exact hr.rsums
  · intro s h c hc
    rw [(hs.packed s).layout] at hc
    exact hp s h c hc

/-- The simple loop computes the target. -/
theorem simpleLoop_ok {tp : Params A} {m m' : Mem A} (hr : Ready tp m)
    (h : simpleLoop tp m = .ok m') : MSame m m' ∧ Computes (target tp m) m.dst m'.dst := by
  unfold simpleLoop at h
  obtain ⟨m1, h1, h⟩ := C.bind_ok h
  obtain ⟨m2, h2, h⟩ := C.bind_ok h
  obtain ⟨a1, a2, a3, a4⟩ := packUnlessPrepacked_ok hr h1
  have hr1 : Ready tp m1 := hr.of_same a1 (fun s hp c hc => by
    cases s
    · exact a3 c hc
    · exact a4 .rhs c (by decide) hc (hr.prepacked .rhs hp c hc))
  obtain ⟨b1, b2, b3, b4⟩ := packUnlessPrepacked_ok hr1 h2
  have e1 : m1.packed.lhs.layout = m.packed.lhs.layout := (a1.packed .lhs).layout
  have e2 : m1.packed.rhs.layout = m.packed.rhs.layout := (a1.packed .rhs).layout
  have hL : ∀ c, c < m.packed.lhs.layout.cols → Packed tp m2 .lhs c := fun c hc =>
    b4 .lhs c (by decide) (by simp only [SidePair.get_lhs, e1]; exact hc) (a3 c hc)
  have hR : ∀ c, c < m.packed.rhs.layout.cols → Packed tp m2 .rhs c := fun c hc =>
    b3 c (by simp only [SidePair.get_rhs, e2]; exact hc)
  have hr2 : Ready tp m2 := hr.of_same (a1.trans b1) (fun s hp c hc => by
    cases s
    · exact hL c hc
    · exact hR c hc)
  obtain ⟨c1, c2, c3, c4⟩ := runKernelBlock_ok hr2 (fun c _ h _ => hL c h) (fun c _ h _ => hR c h) h
  have hall := (a1.trans b1).trans c1
  refine ⟨hall, hall.dst, fun i j hi hj => ?_, ?_⟩
  · have hl := (a1.trans b1).dst.layout
    have := c4 i j (Nat.zero_le _) (Nat.lt_of_lt_of_le hi hr.rows) (Nat.zero_le _)
      (Nat.lt_of_lt_of_le hj hr.cols) (by rw [hl]; exact hi) (by rw [hl]; exact hj)
    rw [(a1.trans b1).target] at this
    exact this
  · intro o ho
    rw [c3 o (fun i j hij => by
      rw [(a1.trans b1).dst.layout] at hij ⊢
      exact ho i j (by omega))]
    rw [b2, a2]

/-! ### Grids -/

/-- What the block map provides (C08, C09), for packed matrices of `dims.lhs` and `dims.rhs`
columns. -/
structure Grid (bm : BlockMap) (dims kdims : SidePair Nat) (n : SidePair Nat) : Prop where
  total : numBlocks bm = .ok (n.lhs * n.rhs)
  side : ∀ s, numBlocksPerSide bm s = .ok (n.get s)
  decode : ∀ i, i < n.lhs * n.rhs →
    ∃ b, getBlockByIndex bm i = .ok b ∧ b.lhs < n.lhs ∧ b.rhs < n.rhs
  inj : ∀ i j b, i < n.lhs * n.rhs → j < n.lhs * n.rhs → getBlockByIndex bm i = .ok b →
    getBlockByIndex bm j = .ok b → i = j
  surj : ∀ l r, l < n.lhs → r < n.rhs → ∃ i, i < n.lhs * n.rhs ∧ getBlockByIndex bm i = .ok ⟨l, r⟩
  tiles : ∀ s, Tiles (n.get s) (dims.get s) (kdims.get s) (getBlockMatrixCoords s bm)

theorem grid_of_makeBlockMap {a : Args} {bm : BlockMap} (h : makeBlockMap a = .ok bm)
    (hr : a.rows < 2 ^ 31) (hc : a.cols < 2 ^ 31) :
    ∃ n, Grid bm ⟨a.rows, a.cols⟩ ⟨a.kernelRows, a.kernelCols⟩ n := by
  obtain ⟨h1, h2, h3, h4⟩ := c09_map_shape a bm h
  obtain ⟨nl, nr, e1, e2, e3, _, e5, e6⟩ := c08_traversal_bijection bm h1 h2
  refine ⟨⟨nl, nr⟩, e3, fun s => by cases s <;> assumption, fun i hi => ?_, ?_, ?_, fun s => ?_⟩
  · obtain ⟨l, r, g1, g2, g3⟩ := e5 i hi
    exact ⟨_, g1, g2, g3⟩
  · intro i j b hi hj hbi hbj
    obtain ⟨l, r, g1, g2, g3⟩ := e5 i hi
    obtain ⟨k, _, k2⟩ := e6 l r g2 g3
    rw [g1] at hbi; cases hbi
    rw [k2 i hi g1, k2 j hj hbj]
  · intro l r hl hr
    obtain ⟨i, ⟨i1, i2⟩, _⟩ := e6 l r hl hr
    exact ⟨i, i1, i2⟩
  · have hd : bm.dims.get s < 2 ^ 31 := by rw [h3]; cases s <;> assumption
    obtain ⟨n, t1, t2⟩ := c09_blocks_tile a bm h s hd
    rw [h3, h4] at t2
    have : n = (SidePair.mk nl nr).get s := by
      cases s
      · rw [e1] at t1; exact (Except.ok.inj t1).symm
      · rw [e2] at t1; exact (Except.ok.inj t1).symm
    rw [← this]; exact t2

/-- Blocks lie inside the dimension. -/
theorem tiles_le {n dim kernel : Nat} {coords : Nat → C (Nat × Nat)}
    (t : Tiles n dim kernel coords) {b s e : Nat} (hb : b < n) (h : coords b = .ok (s, e)) :
    s < e ∧ e ≤ dim ∧ kernel ∣ e - s := by
  obtain ⟨s', e', h1, h2, h3, h4⟩ := t.block b hb
  rw [h1] at h; cases h
  refine ⟨h2, ?_, Nat.dvd_sub h4 h3⟩
  -- ends are non-decreasing
  have mono : ∀ d, b + d < n → ∀ s' e', coords (b + d) = .ok (s', e') → e ≤ e' := by
    intro d
    induction d with
    | zero => intro _ s' e' h; rw [Nat.add_zero, h1] at h; cases h; exact Nat.le_refl _
    | succ d ih =>
      intro hd s' e' h
      obtain ⟨s2, e2, g1, _, _⟩ := t.block (b + d) (by omega)
      have := ih (by omega) s2 e2 g1
      have := t.next (b + d) s2 e2 s' e' hd g1 h
      obtain ⟨s3, e3, g3, g4, _⟩ := t.block (b + (d + 1)) hd
      rw [h] at g3; cases g3
      omega
  obtain ⟨s2, e2, g1, _, _⟩ := t.block (n - 1) (by omega)
  have := mono (n - 1 - b) (by omega) s2 e2 (by rw [show b + (n - 1 - b) = n - 1 by omega]; exact g1)
  rw [t.last s2 e2 g1] at this
  exact this

/-- Different blocks are disjoint. -/
theorem tiles_disj {n dim kernel : Nat} {coords : Nat → C (Nat × Nat)}
    (t : Tiles n dim kernel coords) {b c s e s' e' x : Nat} (hb : b < n) (hc : c < n)
    (h : coords b = .ok (s, e)) (h' : coords c = .ok (s', e'))
    (hx : s ≤ x ∧ x < e) (hx' : s' ≤ x ∧ x < e') : b = c := by
  obtain ⟨d, _, hd⟩ := c09_each_index_in_one_block t x
    (Nat.lt_of_lt_of_le hx.2 (tiles_le t hb h).2.1)
  rw [hd b s e hb h hx.1 hx.2, hd c s' e' hc h' hx'.1 hx'.2]

end Ruy.TrMul

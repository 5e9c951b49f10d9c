import Verif.TrMul.Lemmas
import Verif.Mul.Total
/-
The single-threaded block loop computes `target`; both sequential variants return
whenever the arithmetic does not fault.
-/
namespace Ruy.TrMul
open Ruy.Mat Ruy.Mul Ruy.BlockMap

variable {A : Type}

/-- Entry (i, j) belongs to block number `id`. -/
def InBlock (bm : BlockMap) (id i j : Nat) : Prop :=
  ∃ b l r, getBlockByIndex bm id = .ok b ∧ getBlockMatrixCoords .lhs bm b.lhs = .ok l ∧
    getBlockMatrixCoords .rhs bm b.rhs = .ok r ∧ l.1 ≤ i ∧ i < l.2 ∧ r.1 ≤ j ∧ j < r.2

/-- Every entry is in exactly one block. -/
theorem Grid.cover {bm : BlockMap} {dims k n : SidePair Nat} (g : Grid bm dims k n) {i j : Nat}
    (hi : i < dims.lhs) (hj : j < dims.rhs) :
    ∃ id, id < n.lhs * n.rhs ∧ InBlock bm id i j := by
  obtain ⟨bl, ⟨hbl, ls, le, hl, l1, l2⟩, _⟩ := c09_each_index_in_one_block (g.tiles .lhs) i hi
  obtain ⟨br, ⟨hbr, rs, re, hr, r1, r2⟩, _⟩ := c09_each_index_in_one_block (g.tiles .rhs) j hj
  obtain ⟨id, hid, hb⟩ := g.surj bl br hbl hbr
  exact ⟨id, hid, ⟨bl, br⟩, (ls, le), (rs, re), hb, hl, hr, l1, l2, r1, r2⟩

theorem Grid.unique {bm : BlockMap} {dims k n : SidePair Nat} (g : Grid bm dims k n) {i j id id' : Nat}
    (hid : id < n.lhs * n.rhs) (hid' : id' < n.lhs * n.rhs) (h : InBlock bm id i j)
    (h' : InBlock bm id' i j) : id = id' := by
  obtain ⟨b, l, r, h1, h2, h3, h4, h5, h6, h7⟩ := h
  obtain ⟨b', l', r', h1', h2', h3', h4', h5', h6', h7'⟩ := h'
  obtain ⟨c, hc, hcl, hcr⟩ := g.decode id hid
  obtain ⟨c', hc', hcl', hcr'⟩ := g.decode id' hid'
  rw [h1] at hc; cases hc
  rw [h1'] at hc'; cases hc'
  have e1 : b.lhs = b'.lhs := tiles_disj (g.tiles .lhs) hcl hcl' h2 h2' ⟨h4, h5⟩ ⟨h4', h5'⟩
  have e2 : b.rhs = b'.rhs := tiles_disj (g.tiles .rhs) hcr hcr' h3 h3' ⟨h6, h7⟩ ⟨h6', h7'⟩
  have : b = b' := by cases b; cases b'; simp_all
  exact g.inj id id' b hid hid' h1 (by rw [this]; exact h1')

/-- Columns of block `b` of side `s` are packed. -/
def BlockPacked (tp : Params A) (bm : BlockMap) (m : Mem A) (s : Side) (b : Nat) : Prop :=
  ∀ x, getBlockMatrixCoords s bm b = .ok x → ∀ c, x.1 ≤ c → c < x.2 → Packed tp m s c

/-- Invariant of the single-threaded main loop after `k` blocks. -/
structure SeqInv (tp : Params A) (bm : BlockMap) (n : SidePair Nat) (m : Mem A) (k : Nat)
    (s : Seq A) : Prop where
  same : MSame m s.mem
  pre : ∀ sd, tp.isPrepacked.get sd = true →
    ∀ c, c < (m.packed.get sd).layout.cols → Packed tp s.mem sd c
  flags : ∀ sd b, b < n.get sd → s.packed.get sd b = true → BlockPacked tp bm s.mem sd b
  done : ∀ id i j, id < k → InBlock bm id i j → i < m.dst.layout.rows → j < m.dst.layout.cols →
    EntryDone (target tp m) s.mem.dst i j
  frame : DOutside (fun i j => i < m.dst.layout.rows ∧ j < m.dst.layout.cols) m.dst s.mem.dst

theorem SeqInv.init {tp : Params A} {bm : BlockMap} {n : SidePair Nat} {m : Mem A}
    (hr : Ready tp m) : SeqInv tp bm n m 0 ⟨m, ⟨fun _ => false, fun _ => false⟩⟩ := by
  refine ⟨MSame.refl m, hr.prepacked, fun sd b _ h => ?_, fun id i j hid => absurd hid (by omega),
    fun _ _ => rfl⟩
  cases sd <;> cases h

theorem seqTryPack_ok {tp : Params A} {bm : BlockMap} {dims kd n : SidePair Nat} {m : Mem A}
    {k : Nat} {s s' : Seq A} {sd : Side} {b lo hi : Nat} (hr : Ready tp m)
    (g : Grid bm dims kd n) (hdim : ∀ s, dims.get s = (m.packed.get s).layout.cols)
    (hb : b < n.get sd) (hc : getBlockMatrixCoords sd bm b = .ok (lo, hi))
    (inv : SeqInv tp bm n m k s) (h : seqTryPack tp sd b lo hi s = .ok s') :
    SeqInv tp bm n m k s' ∧ BlockPacked tp bm s'.mem sd b ∧
      (∀ sd' b', b' < n.get sd' → BlockPacked tp bm s.mem sd' b' → BlockPacked tp bm s'.mem sd' b') := by
  unfold seqTryPack at h
  split at h
  · cases h
    rename_i hp
    refine ⟨inv, ?_, fun _ _ _ h => h⟩
    intro x hx c h1 h2
    refine inv.pre sd hp c ?_
    have := (tiles_le (g.tiles sd) hb hx).2.1
    rw [hdim] at this; omega
  · split at h
    · cases h
      rename_i hp
      exact ⟨inv, inv.flags sd b hb hp, fun _ _ _ h => h⟩
    · rename_i hnp hnf
      obtain ⟨m', hm', h⟩ := C.bind_ok h
      cases h
      have hlay := (inv.same.packed sd).layout
      have hle := (tiles_le (g.tiles sd) hb hc).2.1
      rw [hdim] at hle
      obtain ⟨a1, a2, a3, a4⟩ := runPackSide_ok (tp := tp) (by rw [hlay]; exact hr.layout sd)
        (by rw [hlay]; exact hle) hm'
      have keep : ∀ sd' b', b' < n.get sd' → (sd' ≠ sd ∨ b' ≠ b) →
          BlockPacked tp bm s.mem sd' b' → BlockPacked tp bm m' sd' b' := by
        intro sd' b' hb' hne hbp x hx c h1 h2
        have hlay' := (inv.same.packed sd').layout
        have hle' := (tiles_le (g.tiles sd') hb' hx).2.1
        rw [hdim] at hle'
        refine a4 sd' c (by rw [hlay']; omega) (hbp x hx c h1 h2) ?_
        by_cases hs : sd' = sd
        · subst hs
          right
          by_cases hcl : c < lo
          · exact .inl hcl
          · right
            by_contra hch
            exact absurd (tiles_disj (g.tiles sd') hb' hb hx hc ⟨h1, h2⟩ ⟨by omega, by omega⟩)
              (by simpa using hne)
        · exact .inl hs
      have hnew : BlockPacked tp bm m' sd b := by
        intro x hx c h1 h2
        rw [hc] at hx; cases hx
        exact a3 c h1 h2
      refine ⟨⟨inv.same.trans a1, ?_, ?_, ?_, ?_⟩, hnew, ?_⟩
      · intro sd' hp c hcc
        refine a4 sd' c (by rw [(inv.same.packed sd').layout]; exact hcc) (inv.pre sd' hp c hcc) ?_
        left; intro h; subst h; exact hnp hp
      · intro sd' b' hb' hf
        by_cases hs : sd' = sd ∧ b' = b
        · obtain ⟨rfl, rfl⟩ := hs; exact hnew
        · have hor : sd' ≠ sd ∨ b' ≠ b := by tauto
          refine keep sd' b' hb' hor (inv.flags sd' b' hb' ?_)
          dsimp only at hf
          by_cases hs1 : sd' = sd
          · subst hs1
            have : b' ≠ b := by tauto
            rw [setSide_get_same, Function.update_of_ne this] at hf
            exact hf
          · rw [setSide_get_other _ _ hs1] at hf; exact hf
      · intro id i j hid hin hi hj
        dsimp only; rw [a2]; exact inv.done id i j hid hin hi hj
      · dsimp only; rw [a2]; exact inv.frame
      · intro sd' b' hb' hbp
        by_cases hs : sd' = sd ∧ b' = b
        · obtain ⟨rfl, rfl⟩ := hs; exact hnew
        · exact keep sd' b' hb' (by tauto) hbp

theorem DOutside.mono' {S T : Nat → Nat → Prop} {d d' : Mul.Mat A} (h : DOutside S d d')
    (hST : ∀ i j, S i j → T i j) : DOutside T d d' := DOutside.mono h hST

theorem seqBlock_ok {tp : Params A} {bm : BlockMap} {dims kd n : SidePair Nat} {m : Mem A}
    {k : Nat} {s s' : Seq A} (hr : Ready tp m)
    (g : Grid bm dims kd n) (hdim : ∀ s, dims.get s = (m.packed.get s).layout.cols)
    (hk : k < n.lhs * n.rhs) (inv : SeqInv tp bm n m k s) (h : seqBlock tp bm k s = .ok s') :
    SeqInv tp bm n m (k + 1) s' := by
  unfold seqBlock at h
  obtain ⟨b, hb, h⟩ := C.bind_ok h
  obtain ⟨l, hl, h⟩ := C.bind_ok h
  obtain ⟨r, hrr, h⟩ := C.bind_ok h
  obtain ⟨s1, h1, h⟩ := C.bind_ok h
  obtain ⟨s2, h2, h⟩ := C.bind_ok h
  obtain ⟨m', h3, h⟩ := C.bind_ok h
  cases h
  obtain ⟨b', hb', hbl, hbr⟩ := g.decode k hk
  rw [hb] at hb'; cases hb'
  obtain ⟨i1, p1, _⟩ := seqTryPack_ok (sd := .lhs) hr g hdim hbl (by exact hl) inv h1
  obtain ⟨i2, p2, q2⟩ := seqTryPack_ok (sd := .rhs) hr g hdim hbr (by exact hrr) i1 h2
  have hpl : BlockPacked tp bm s2.mem .lhs b.lhs := q2 .lhs b.lhs hbl p1
  have hr2 : Ready tp s2.mem := hr.of_same i2.same i2.pre
  obtain ⟨c1, c2, c3, c4⟩ := runKernelBlock_ok hr2
    (fun c h1 h2 _ => hpl l hl c h1 h2) (fun c h1 h2 _ => p2 r hrr c h1 h2) h3
  have hdl : s2.mem.dst.layout = m.dst.layout := i2.same.dst.layout
  have hpk : ∀ sd c, Packed tp s2.mem sd c → Packed tp m' sd c := by
    intro sd c h; unfold Packed; rw [c2]; exact h
  refine ⟨i2.same.trans c1, fun sd hp c hc => hpk sd c (i2.pre sd hp c hc),
    fun sd b hb hf x hx c h1 h2 => hpk sd c (i2.flags sd b hb hf x hx c h1 h2), ?_, ?_⟩
  · intro id i j hid hin hi hj
    by_cases hidk : id = k
    · subst hidk
      obtain ⟨b', l', r', e1, e2, e3, e4, e5, e6, e7⟩ := hin
      rw [hb] at e1; cases e1
      rw [hl] at e2; cases e2
      rw [hrr] at e3; cases e3
      have := c4 i j e4 e5 e6 e7 (by rw [hdl]; exact hi) (by rw [hdl]; exact hj)
      rw [i2.same.target] at this
      exact this
    · obtain ⟨v, v1, v2⟩ := i2.done id i j (by omega) hin hi hj
      refine ⟨v, ?_, v2⟩
      dsimp only
      rw [← v1]
      apply delem_frame c1.dst c3 (by rw [hdl]; exact hr.stride) (by rw [hdl]; exact hi)
        (by rw [hdl]; exact hj)
      · rintro a b ⟨_, h2, _, h4⟩; omega
      · rintro ⟨e4, e5, e6, e7⟩
        have hin' : InBlock bm k i j := ⟨b, l, r, hb, hl, hrr, e4, (lt_min_iff.1 e5).1, e6, (lt_min_iff.1 e7).1⟩
        exact hidk (g.unique (by omega) hk hin hin')
  · refine i2.frame.trans i2.same.dst (DOutside.mono c3 ?_)
    intro i j hij
    rw [hdl] at hij
    omega

/-- The single-threaded block loop computes the target. -/
theorem seqRun_ok {tp : Params A} {bm : BlockMap} {dims kd n : SidePair Nat} {m m' : Mem A}
    (hr : Ready tp m) (g : Grid bm dims kd n)
    (hdim : ∀ s, dims.get s = (m.packed.get s).layout.cols) (h : seqRun tp bm m = .ok m') :
    MSame m m' ∧ Computes (target tp m) m.dst m'.dst := by
  unfold seqRun at h
  rw [g.total, C.ok_bind] at h
  obtain ⟨s, hs, h⟩ := C.bind_ok h
  cases h
  have inv := forUpTo_inv (P := SeqInv tp bm n m) (s' := s)
    (SeqInv.init hr)
    (fun k t t' hk ht hstep => seqBlock_ok hr g hdim hk ht hstep) hs
  refine ⟨inv.same, inv.same.dst, fun i j hi hj => ?_, inv.frame⟩
  obtain ⟨id, hid, hin⟩ := g.cover (i := i) (j := j)
    (by have := hdim .lhs; have := hr.rows; simp only [SidePair.get_lhs] at *; omega)
    (by have := hdim .rhs; have := hr.cols; simp only [SidePair.get_rhs] at *; omega)
  exact inv.done id i j hid hin hi hj

/-! ### Totality -/

/-- No fault can arise: buffers are large enough, the arithmetic of the sums and of the
entries does not fault, and the packed sizes exceed the destination by less than a kernel
block. -/
structure Safe (tp : Params A) (m : Mem A) : Prop where
  fits : ∀ s, PFits (m.packed.get s)
  dfits : DFits m.dst
  sums : ∀ s, tp.isPrepacked.get s = false → ∀ c, c < (m.packed.get s).layout.cols →
    ∃ x, (operand tp m s).sum tp.ar c = .ok x
  entries : ∀ i j, i < m.dst.layout.rows → j < m.dst.layout.cols → ∃ v, target tp m i j = .ok v
  rows : m.packed.lhs.layout.cols < m.dst.layout.rows + m.packed.lhs.layout.kernel.cols
  cols : m.packed.rhs.layout.cols < m.dst.layout.cols + m.packed.rhs.layout.kernel.cols

theorem Safe.of_same {tp : Params A} {m m' : Mem A} (h : Safe tp m) (hs : MSame m m') :
    Safe tp m' := by
  have l := (hs.packed .lhs).layout
  have r := (hs.packed .rhs).layout
  simp only [SidePair.get_lhs, SidePair.get_rhs] at l r
  refine ⟨fun s => (h.fits s).same (hs.packed s), h.dfits.same hs.dst, ?_, ?_, ?_, ?_⟩
  · intro s hp c hc
    rw [(hs.packed s).layout] at hc
    rw [hs.operand]
    exact h.sums s hp c hc
  · rw [hs.dst.layout, hs.target]; exact h.entries
  · rw [hs.dst.layout, l]; exact h.rows
  · rw [hs.dst.layout, r]; exact h.cols

theorem runPackSide_total {tp : Params A} {m : Mem A} {s : Side} {lo hi : Nat} (hr : Ready tp m)
    (hsafe : Safe tp m) (hnp : tp.isPrepacked.get s = false)
    (hhi : hi ≤ (m.packed.get s).layout.cols)
    (hk : (m.packed.get s).layout.kernel.cols ∣ hi - lo) :
    ∃ m', runPackSide tp m s lo hi = .ok m' := by
  unfold runPackSide
  obtain ⟨p, hp⟩ := runPack_total (ar := tp.ar) (pack := tp.pack.get s) (src := tp.src.get s)
    (hr.layout s) (hsafe.fits s) hhi hk (fun c _ h2 => hsafe.sums s hnp c (by omega))
  rw [hp]; exact ⟨_, rfl⟩

theorem rangeChecks_of {start stop dim kcols pcols : Nat} (h1 : start < stop ∨ start = 0)
    (h2 : stop ≤ pcols) (h3 : pcols < dim + kcols) (h4 : kcols ∣ stop - start) :
    rangeChecks start stop dim kcols = .ok () := by
  unfold rangeChecks
  have h7 : start ≤ min stop dim := by
    rcases h1 with h1 | h1
    · have := Nat.le_of_dvd (by omega) h4
      omega
    · omega
  rw [C.check_of (by omega), C.ok_bind, C.check_of (by omega), C.ok_bind,
    C.check_of (Nat.mod_eq_zero_of_dvd h4), C.ok_bind, C.check_of h7, C.ok_bind,
    C.check_of (by omega)]

/-- One entry is computed without fault once its columns are packed. -/
theorem kernelStep_total {tp : Params A} {m : Mem A} {i j : Nat} (hr : Ready tp m)
    (hs : Safe tp m) (hi : i < m.dst.layout.rows) (hj : j < m.dst.layout.cols)
    (hl : Packed tp m .lhs i) (hrr : Packed tp m .rhs j) :
    ∃ d, kernelStep tp.ar tp.mp m.packed.lhs m.packed.rhs i j m.dst = .ok d := by
  unfold kernelStep
  rw [kernelEntry_target hr hl hrr]
  obtain ⟨v, hv⟩ := hs.entries i j hi hj
  rw [hv, C.ok_bind]
  exact dset_total hs.dfits hi hj v

theorem runKernelBlock_total {tp : Params A} {m : Mem A} {start stop : SidePair Nat}
    (hr : Ready tp m) (hs : Safe tp m)
    (hl : ∀ c, start.lhs ≤ c → c < stop.lhs → c < m.packed.lhs.layout.cols → Packed tp m .lhs c)
    (hrr : ∀ c, start.rhs ≤ c → c < stop.rhs → c < m.packed.rhs.layout.cols → Packed tp m .rhs c)
    (l1 : start.lhs < stop.lhs ∨ start.lhs = 0) (l2 : stop.lhs ≤ m.packed.lhs.layout.cols)
    (l3 : m.packed.lhs.layout.kernel.cols ∣ stop.lhs - start.lhs)
    (r1 : start.rhs < stop.rhs ∨ start.rhs = 0) (r2 : stop.rhs ≤ m.packed.rhs.layout.cols)
    (r3 : m.packed.rhs.layout.kernel.cols ∣ stop.rhs - start.rhs) :
    ∃ m', runKernelBlock tp m start stop = .ok m' := by
  unfold runKernelBlock runKernel
  rw [rangeChecks_of l1 l2 hs.rows l3, rangeChecks_of r1 r2 hs.cols r3]
  simp only [C.ok_bind]
  obtain ⟨d, hd⟩ := storeLoop_total (step := kernelStep tp.ar tp.mp m.packed.lhs m.packed.rhs)
    (d := m.dst) (i0 := start.lhs) (i1 := min stop.lhs m.dst.layout.rows) (j0 := start.rhs)
    (j1 := min stop.rhs m.dst.layout.cols)
    (by
      intro i j t hi0 hi hj0 hj ht
      have hm : MSame m { m with dst := t } := ⟨fun _ => SameShape.refl _, ht⟩
      have hi' : i < m.dst.layout.rows := by omega
      have hj' : j < m.dst.layout.cols := by omega
      have := hr.rows
      have := hr.cols
      obtain ⟨d, hd⟩ := kernelStep_total (m := { m with dst := t })
        (hr.of_same hm (fun s hp c hc => hr.prepacked s hp c hc)) (hs.of_same hm)
        (i := i) (j := j) (by simp only [ht.layout]; exact hi') (by simp only [ht.layout]; exact hj')
        (hl i hi0 (by omega) (by omega)) (hrr j hj0 (by omega) (by omega))
      refine ⟨d, hd, ?_⟩
      unfold kernelStep at hd
      obtain ⟨x, _, hd⟩ := C.bind_ok hd
      exact (dset_ok hd).1)
  rw [hd]; exact ⟨_, rfl⟩

theorem packUnlessPrepacked_total {tp : Params A} {m : Mem A} {s : Side} (hr : Ready tp m)
    (hs : Safe tp m) : ∃ m', packUnlessPrepacked tp m s = .ok m' := by
  unfold packUnlessPrepacked
  split
  · exact ⟨_, rfl⟩
  · rename_i h
    exact runPackSide_total hr hs (by simpa using h) (Nat.le_refl _)
      (by rw [Nat.sub_zero]; exact (hr.layout s).cols)

theorem simpleLoop_total {tp : Params A} {m : Mem A} (hr : Ready tp m) (hs : Safe tp m) :
    ∃ m', simpleLoop tp m = .ok m' := by
  unfold simpleLoop
  obtain ⟨m1, h1⟩ := packUnlessPrepacked_total (s := .lhs) hr hs
  obtain ⟨a1, a2, a3, a4⟩ := packUnlessPrepacked_ok hr h1
  have hr1 : Ready tp m1 := hr.of_same a1 (fun s hp c hc => by
    cases s
    · exact a3 c hc
    · exact a4 .rhs c (by decide) hc (hr.prepacked .rhs hp c hc))
  obtain ⟨m2, h2⟩ := packUnlessPrepacked_total (s := .rhs) hr1 (hs.of_same a1)
  obtain ⟨b1, b2, b3, b4⟩ := packUnlessPrepacked_ok hr1 h2
  have e1 : m1.packed.lhs.layout = m.packed.lhs.layout := (a1.packed .lhs).layout
  have e2 : m1.packed.rhs.layout = m.packed.rhs.layout := (a1.packed .rhs).layout
  have hL : ∀ c, c < m.packed.lhs.layout.cols → Packed tp m2 .lhs c := fun c hc =>
    b4 .lhs c (by decide) (by simp only [SidePair.get_lhs, e1]; exact hc) (a3 c hc)
  have hR : ∀ c, c < m.packed.rhs.layout.cols → Packed tp m2 .rhs c := fun c hc =>
    b3 c (by simp only [SidePair.get_rhs, e2]; exact hc)
  have hr2 : Ready tp m2 := hr.of_same (a1.trans b1) (fun s hp c hc => by
    cases s
    · exact hL c hc
    · exact hR c hc)
  rw [h1, C.ok_bind, h2, C.ok_bind]
  have f1 : m2.packed.lhs.layout = m.packed.lhs.layout := ((a1.trans b1).packed .lhs).layout
  have f2 : m2.packed.rhs.layout = m.packed.rhs.layout := ((a1.trans b1).packed .rhs).layout
  refine runKernelBlock_total hr2 (hs.of_same (a1.trans b1)) (fun c _ h _ => hL c h)
    (fun c _ h _ => hR c h) (.inr rfl) (by rw [f1]) ?_ (.inr rfl) (by rw [f2]) ?_
  · rw [Nat.sub_zero, f1]; exact (hr.layout .lhs).cols
  · rw [Nat.sub_zero, f2]; exact (hr.layout .rhs).cols

theorem seqTryPack_total {tp : Params A} {bm : BlockMap} {dims kd n : SidePair Nat} {m : Mem A}
    {k : Nat} {s : Seq A} {sd : Side} {b lo hi : Nat} (hr : Ready tp m) (hs : Safe tp m)
    (g : Grid bm dims kd n) (hdim : ∀ s, dims.get s = (m.packed.get s).layout.cols)
    (hkd : ∀ s, kd.get s = (m.packed.get s).layout.kernel.cols)
    (hb : b < n.get sd) (hc : getBlockMatrixCoords sd bm b = .ok (lo, hi))
    (inv : SeqInv tp bm n m k s) : ∃ s', seqTryPack tp sd b lo hi s = .ok s' := by
  unfold seqTryPack
  split
  · exact ⟨_, rfl⟩
  · split
    · exact ⟨_, rfl⟩
    · rename_i hnp _
      obtain ⟨_, hle, hdv⟩ := tiles_le (g.tiles sd) hb hc
      rw [hdim] at hle
      rw [hkd] at hdv
      have hl := (inv.same.packed sd).layout
      obtain ⟨m', hm'⟩ := runPackSide_total (s := sd) (lo := lo) (hi := hi)
        (hr.of_same inv.same inv.pre) (hs.of_same inv.same) (by simpa using hnp)
        (by rw [hl]; exact hle) (by rw [hl]; exact hdv)
      rw [hm']; exact ⟨_, rfl⟩

theorem seqRun_total {tp : Params A} {bm : BlockMap} {dims kd n : SidePair Nat} {m : Mem A}
    (hr : Ready tp m) (hs : Safe tp m) (g : Grid bm dims kd n)
    (hdim : ∀ s, dims.get s = (m.packed.get s).layout.cols)
    (hkd : ∀ s, kd.get s = (m.packed.get s).layout.kernel.cols) :
    ∃ m', seqRun tp bm m = .ok m' := by
  unfold seqRun
  rw [g.total, C.ok_bind]
  obtain ⟨s, h, _⟩ := forUpTo_total (n := n.lhs * n.rhs) (body := seqBlock tp bm)
    (s := ⟨m, ⟨fun _ => false, fun _ => false⟩⟩) (SeqInv tp bm n m)
    (SeqInv.init hr)
    (by
      intro k t hk inv
      have key : ∃ t', seqBlock tp bm k t = .ok t' := by
        obtain ⟨b, hb, hbl, hbr⟩ := g.decode k hk
        obtain ⟨ls, le, hl, l1, l2, l3⟩ := (g.tiles .lhs).block b.lhs hbl
        obtain ⟨rs, re, hrr, r1, r2, r3⟩ := (g.tiles .rhs).block b.rhs hbr
        unfold seqBlock
        rw [hb, C.ok_bind, hl, C.ok_bind, hrr, C.ok_bind]
        obtain ⟨t1, h1⟩ := seqTryPack_total (sd := .lhs) hr hs g hdim hkd hbl hl inv
        obtain ⟨i1, p1, _⟩ := seqTryPack_ok (sd := .lhs) hr g hdim hbl hl inv h1
        obtain ⟨t2, h2⟩ := seqTryPack_total (sd := .rhs) hr hs g hdim hkd hbr hrr i1
        obtain ⟨i2, p2, q2⟩ := seqTryPack_ok (sd := .rhs) hr g hdim hbr hrr i1 h2
        dsimp only
        rw [h1, C.ok_bind, h2, C.ok_bind]
        have hpl : BlockPacked tp bm t2.mem .lhs b.lhs := q2 .lhs b.lhs hbl p1
        have e1 : t2.mem.packed.lhs.layout = m.packed.lhs.layout := (i2.same.packed .lhs).layout
        have e2 : t2.mem.packed.rhs.layout = m.packed.rhs.layout := (i2.same.packed .rhs).layout
        have tl := tiles_le (g.tiles .lhs) hbl hl
        have tr := tiles_le (g.tiles .rhs) hbr hrr
        rw [hdim, hkd] at tl tr
        obtain ⟨m', hm'⟩ := runKernelBlock_total (start := ⟨ls, rs⟩) (stop := ⟨le, re⟩)
          (hr.of_same i2.same i2.pre) (hs.of_same i2.same)
          (fun c h1 h2 _ => hpl (ls, le) hl c h1 h2) (fun c h1 h2 _ => p2 (rs, re) hrr c h1 h2)
          (.inl l1) (by rw [e1]; exact tl.2.1) (by rw [e1]; exact tl.2.2)
          (.inl r1) (by rw [e2]; exact tr.2.1) (by rw [e2]; exact tr.2.2)
        rw [hm']; exact ⟨_, rfl⟩
      obtain ⟨t', ht'⟩ := key
      exact ⟨t', ht', seqBlock_ok hr g hdim hk inv ht'⟩)
  rw [h]; exact ⟨_, rfl⟩

end Ruy.TrMul

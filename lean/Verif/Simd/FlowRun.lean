import Verif.Simd.FlowLemmas
import Verif.Simd.KernProps
/-
Running pack and kernel calls in any order: lemmas for property C52.
-/
namespace Ruy.Simd.Flow
open Ruy.Mat Ruy.Mul
open Ruy.Front (ScalarType MulParams Typed)
open Ruy.TrMul (Mem setSide)
open Ruy.Simd.Pack (gval gsum Is8)
open Ruy.Simd.Kern (channelStop biasAt fixedAt exponentAt pat psum accOf outOf ParamsOk BiasOk Fits conv)

/-! ### Specification -/

/-- The mathematical entry (i, j): bias plus inner product of offset sources.  The LHS is already
transposed: both sources have the depth as rows. -/
def exact (jb : Job) (i j : Nat) : Int :=
  biasAt jb.mp.bias (channelOf jb.mp.channelDim i j) +
    ∑ k ∈ Finset.range jb.src.lhs.layout.rows,
      (jb.src.lhs.at k i - jb.src.lhs.zp) * (jb.src.rhs.at k j - jb.src.rhs.zp)

/-- What is stored, given the multiplication by a quantized multiplier. -/
def stored (ml : Int → Int → Int → Int) (jb : Job) (dzp : Int) (i j : Nat) : Int :=
  let a := wrap32 (exact jb i j)
  let ch := channelOf jb.mp.channelDim i j
  if jb.dt = .int32 then a
  else conv jb.dt (max (min (wrap32 (ml a (fixedAt jb.mp.quant ch) (exponentAt jb.mp.quant ch) + dzp))
    jb.mp.clampMax) jb.mp.clampMin)

/-- Column `c` of side `s` is packed by one of the calls. -/
def Covered (ops : List Op) (s : Side) (c : Nat) : Prop := ∃ lo hi, Op.pack s lo hi ∈ ops ∧ lo ≤ c ∧ c < hi

/-- Entry (i, j) is in a block of one of the kernel calls. -/
def Written (ops : List Op) (i j : Nat) : Prop :=
  ∃ start stop, Op.kernel start stop ∈ ops ∧ start.lhs ≤ i ∧ i < stop.lhs ∧ start.rhs ≤ j ∧ j < stop.rhs

/-- A non-empty block of columns, in units of the kernel width. -/
def Block (kc n lo hi : Nat) : Prop := lo % kc = 0 ∧ hi % kc = 0 ∧ lo < hi ∧ hi ≤ n

/-- Calls as TrMul issues them: non-empty blocks of the packed matrices, and a kernel call only after the
columns it needs have been packed. -/
structure Ordered (kc : Nat) (jb : Job) (m : Mem Int) (ops : List Op) : Prop where
  packs : ∀ s lo hi, Op.pack s lo hi ∈ ops → Block kc (m.packed.get s).layout.cols lo hi
  kernels : ∀ start stop, Op.kernel start stop ∈ ops → ∀ s : Side,
    Block kc (m.packed.get s).layout.cols (start.get s) (stop.get s)
  first : ∀ pre start stop post, ops = pre ++ Op.kernel start stop :: post → ∀ (s : Side) (c : Nat),
    start.get s ≤ c → c < stop.get s → c < (jb.src.get s).layout.cols → Covered pre s c

/-- A multiplication as Mul sets it up: packed matrices from CreatePackedLayout, a column-major
destination, per-channel buffers that cover the packed width, int offsets. -/
structure JobOk (kc : Nat) (jb : Job) (m : Mem Int) : Prop where
  side : ∀ s : Side, SideOk kc (jb.ty.get s) (jb.src.get s) (m.packed.get s)
  depth : jb.src.rhs.layout.rows = jb.src.lhs.layout.rows
  drows : m.dst.layout.rows = jb.src.lhs.layout.cols
  dcols : m.dst.layout.cols = jb.src.rhs.layout.cols
  dtype : jb.dt ≠ .float
  dorder : m.dst.layout.order = .colMajor
  dstride : m.dst.layout.rows ≤ m.dst.layout.stride
  dfits : DFits m.dst
  kd : kc * (Kern.sizeOf jb.dt * m.dst.layout.stride) < 2 ^ 31
  zp2 : -2 ^ 31 ≤ m.packed.lhs.zp * m.packed.rhs.zp * m.packed.lhs.layout.rows ∧
    m.packed.lhs.zp * m.packed.rhs.zp * m.packed.lhs.layout.rows < 2 ^ 31
  bias : ∀ b, jb.mp.bias = some b →
    channelStop jb.mp ⟨m.packed.lhs.layout.cols, m.packed.rhs.layout.cols⟩ ≤ b.size
  both : ∀ q, jb.mp.quant = some q → q.exponentPerChannel.isSome = q.fixedPerChannel.isSome
  fixed : ∀ q f, jb.mp.quant = some q → q.fixedPerChannel = some f →
    channelStop jb.mp ⟨m.packed.lhs.layout.cols, m.packed.rhs.layout.cols⟩ ≤ f.size
  exponent : ∀ q f, jb.mp.quant = some q → q.exponentPerChannel = some f →
    channelStop jb.mp ⟨m.packed.lhs.layout.cols, m.packed.rhs.layout.cols⟩ ≤ f.size
  bias32 : BiasOk jb.mp

/-! ### Algebra -/

theorem gval_zero {t : ScalarType} {src : Mul.Mat Int} (ht : Is8 t) (hty : Typed t src) {r c : Nat}
    (hc : c < src.layout.cols) :
    gval t src (Front.packInt t .int8 src.zp) r c - Front.packInt t .int8 src.zp =
      if r < src.layout.rows then src.at r c - src.zp else 0 := by
  have hr : Front.Repacks t .int8 := by rcases ht with rfl | rfl <;> decide
  unfold gval
  by_cases h : r < src.layout.rows
  · rw [if_pos ⟨hc, h⟩, if_pos h]
    have h1 := hty.elems r c h hc
    rw [Front.packInt_of hr h1.1 h1.2, Front.packInt_of hr hty.zp.1 hty.zp.2]
    ring
  · rw [if_neg (by tauto), if_neg h]
    ring

/-- Expanding the product of offset columns. -/
theorem expand_sum (L R : Nat → Int) (a b : Int) (n : Nat) :
    ∑ k ∈ Finset.range n, (L k - a) * (R k - b) =
      a * b * n - b * ∑ k ∈ Finset.range n, L k - a * ∑ k ∈ Finset.range n, R k +
        ∑ k ∈ Finset.range n, L k * R k := by
  induction n with
  | zero => simp
  | succ n ih =>
    simp only [Finset.sum_range_succ, ih]
    push_cast
    ring

theorem sum_pad {f : Nat → Int} {n N : Nat} (h : n ≤ N) :
    ∑ k ∈ Finset.range N, (if k < n then f k else 0) = ∑ k ∈ Finset.range n, f k := by
  obtain ⟨d, rfl⟩ := Nat.exists_eq_add_of_le h
  rw [Finset.sum_range_add]
  rw [Finset.sum_eq_zero (s := Finset.range d) (fun k _ => by rw [if_neg (by omega)]), Int.add_zero]
  exact Finset.sum_congr rfl (fun k hk => by rw [if_pos (Finset.mem_range.1 hk)])

theorem wrap32_congr {x y : Int} (h : (x : ZMod (2 ^ 32)) = (y : ZMod (2 ^ 32))) : wrap32 x = wrap32 y := by
  have h1 := wrap32_range x
  have h2 := wrap32_range y
  refine Front.eq_of_zmod ?_ ?_ ?_
  · unfold Front.InI32; omega
  · unfold Front.InI32; omega
  · rw [Kern.wrap32_zmod, Kern.wrap32_zmod, h]

/-- The column holds its packed form. -/
def ColOk (t : ScalarType) (src : Mul.Mat Int) (p : PMat Int) (c : Nat) : Prop :=
  (∀ r, r < p.layout.rows → pat p r c = gval t src p.zp r c) ∧ psum p c = gsum t src p.zp p.layout.rows c

theorem acc_exact {kc : Nat} (hkc : kc = 8 ∨ kc = 16) {jb : Job} {m : Mem Int} (h : JobOk kc jb m)
    {i j : Nat} (hi : i < jb.src.lhs.layout.cols) (hj : j < jb.src.rhs.layout.cols)
    (hl : ColOk jb.ty.lhs jb.src.lhs m.packed.lhs i) (hr : ColOk jb.ty.rhs jb.src.rhs m.packed.rhs j) :
    wrap32 (accOf m.packed.lhs m.packed.rhs jb.mp i j) = wrap32 (exact jb i j) := by
  have sl := h.side .lhs
  have sr := h.side .rhs
  simp only [SidePair.get_lhs, SidePair.get_rhs] at sl sr
  obtain ⟨_, _, _, _, rl, _⟩ := sl.facts hkc
  obtain ⟨_, _, _, _, rr, _⟩ := sr.facts hkc
  have hrow : m.packed.rhs.layout.rows = m.packed.lhs.layout.rows := by rw [rl, rr, h.depth]
  apply wrap32_congr
  unfold accOf exact Kern.dot
  rw [hl.2, hr.2, hrow]
  have e1 : ∑ k ∈ Finset.range m.packed.lhs.layout.rows, pat m.packed.lhs k i * pat m.packed.rhs k j =
      ∑ k ∈ Finset.range m.packed.lhs.layout.rows,
        gval jb.ty.lhs jb.src.lhs m.packed.lhs.zp k i * gval jb.ty.rhs jb.src.rhs m.packed.rhs.zp k j := by
    refine Finset.sum_congr rfl (fun k hk => ?_)
    have hk := Finset.mem_range.1 hk
    rw [hl.1 k hk, hr.1 k (by omega)]
  have e2 := expand_sum (fun k => gval jb.ty.lhs jb.src.lhs m.packed.lhs.zp k i)
    (fun k => gval jb.ty.rhs jb.src.rhs m.packed.rhs.zp k j) m.packed.lhs.zp m.packed.rhs.zp
    m.packed.lhs.layout.rows
  have e3 : ∑ k ∈ Finset.range m.packed.lhs.layout.rows,
      (gval jb.ty.lhs jb.src.lhs m.packed.lhs.zp k i - m.packed.lhs.zp) *
        (gval jb.ty.rhs jb.src.rhs m.packed.rhs.zp k j - m.packed.rhs.zp) =
      ∑ k ∈ Finset.range jb.src.lhs.layout.rows,
        (jb.src.lhs.at k i - jb.src.lhs.zp) * (jb.src.rhs.at k j - jb.src.rhs.zp) := by
    rw [← sum_pad (N := m.packed.lhs.layout.rows) (n := jb.src.lhs.layout.rows) (by omega)]
    refine Finset.sum_congr rfl (fun k _ => ?_)
    rw [sl.zp, sr.zp, gval_zero sl.ty sl.typed hi, gval_zero sr.ty sr.typed hj, h.depth]
    split
    · rfl
    · simp
  rw [e1, ← e3, e2]
  unfold gsum
  simp only [Int.cast_add, Int.cast_sub, Int.cast_mul, Front.bmod_zmod]
  ring

/-! ### Frames -/

theorem colOk_frame {kc : Nat} (hkc : kc = 8 ∨ kc = 16) {t : ScalarType} {src : Mul.Mat Int} {p q : PMat Int}
    (h : SideOk kc t src p) {lo hi c : Nat} (hp : Packs t src lo hi p q) (hhi : hi ≤ p.layout.cols)
    (hc : c < src.layout.cols) (hcol : (lo ≤ c ∧ c < hi) ∨ ColOk t src p c) : ColOk t src q c := by
  obtain ⟨ok, _, _, _, _, l5, _⟩ := h.facts hkc
  unfold ColOk
  rw [hp.shape.layout, hp.shape.zp]
  by_cases hin : lo ≤ c ∧ c < hi
  · exact ⟨fun r hr => hp.data r c hr hin.1 hin.2 hc, hp.sums c hin.1 hin.2 hc⟩
  · have hcol := hcol.resolve_left hin
    refine ⟨fun r hr => ?_, ?_⟩
    · rw [← hcol.1 r hr]
      unfold pat
      rw [hp.shape.layout]
      refine hp.out.data _ (fun r' c' hr' hc' he => ?_)
      obtain ⟨_, rfl⟩ := poff_inj ok hr (by omega) hr' (by omega) he
      exact hin hc'
    · rw [← hcol.2]
      obtain ⟨b, hb⟩ := Option.isSome_iff_exists.1 h.sums
      obtain ⟨b', hb'⟩ := Option.isSome_iff_exists.1 (show q.sums.isSome by rw [hp.shape.sums]; exact h.sums)
      rw [psum_some hb, psum_some hb', hp.out.sums b b' c hb hb' hin]

/-! ### The invariant -/

structure Inv (ml : Int → Int → Int → Int) (jb : Job) (m0 : Mem Int) (pre : List Op) (m : Mem Int) : Prop where
  shape : ∀ s : Side, SameShape (m0.packed.get s) (m.packed.get s)
  dsame : DSame m0.dst m.dst
  cols : ∀ (s : Side) (c : Nat), Covered pre s c → c < (jb.src.get s).layout.cols →
    ColOk (jb.ty.get s) (jb.src.get s) (m.packed.get s) c
  entries : ∀ i j, i < m0.dst.layout.rows → j < m0.dst.layout.cols → Written pre i j →
    m.dst.elem i j = .ok (stored ml jb m0.dst.zp i j)
  rest : DOutside (fun i j => i < m0.dst.layout.rows ∧ j < m0.dst.layout.cols ∧ Written pre i j) m0.dst m.dst

theorem Inv.start (ml : Int → Int → Int → Int) (jb : Job) (m : Mem Int) : Inv ml jb m [] m where
  shape _ := SameShape.refl _
  dsame := DSame.refl _
  cols s c h := by obtain ⟨_, _, h, _⟩ := h; cases h
  entries i j _ _ h := by obtain ⟨_, _, h, _⟩ := h; cases h
  rest _ _ := rfl

theorem JobOk.same {kc : Nat} {jb : Job} {m m' : Mem Int} (h : JobOk kc jb m)
    (hs : ∀ s : Side, SameShape (m.packed.get s) (m'.packed.get s)) (hd : DSame m.dst m'.dst) :
    JobOk kc jb m' := by
  have hl := hs .lhs
  have hr := hs .rhs
  simp only [SidePair.get_lhs, SidePair.get_rhs] at hl hr
  have hl1 := hl.layout
  have hr1 := hr.layout
  have hl2 := hl.zp
  have hr2 := hr.zp
  have hd1 := hd.layout
  refine ⟨fun s => (h.side s).same (hs s), h.depth, ?_, ?_, h.dtype, ?_, ?_, ?_, ?_, ?_, ?_, h.both, ?_, ?_,
    h.bias32⟩
  · rw [hd1]; exact h.drows
  · rw [hd1]; exact h.dcols
  · rw [hd1]; exact h.dorder
  · rw [hd1]; exact h.dstride
  · intro i j hi hj
    rw [hd1] at hi hj
    rw [hd1, hd.size]
    exact h.dfits i j hi hj
  · rw [hd1]; exact h.kd
  · rw [hl1, hl2, hr2]; exact h.zp2
  · rw [hl1, hr1]; exact h.bias
  · rw [hl1, hr1]; exact h.fixed
  · rw [hl1, hr1]; exact h.exponent

theorem channelStop_le {mp : MulParams Int} {a b : SidePair Nat} (hl : a.lhs ≤ b.lhs) (hr : a.rhs ≤ b.rhs) :
    channelStop mp a ≤ channelStop mp b := by
  unfold channelStop
  cases mp.channelDim
  · exact hl
  · exact hr

theorem start_lt {kc n N lo hi : Nat} (hkc : kc = 8 ∨ kc = 16) (hb : Block kc N lo hi) (hN : N < n + kc) :
    lo < n ∧ hi < n + kc := by
  obtain ⟨h1, h2, h3, h4⟩ := hb
  rcases hkc with rfl | rfl <;> omega

theorem fits_of {kc : Nat} (hkc : kc = 8 ∨ kc = 16) {jb : Job} {m : Mem Int} (h : JobOk kc jb m)
    {start stop : SidePair Nat}
    (hb : ∀ s : Side, Block kc (m.packed.get s).layout.cols (start.get s) (stop.get s)) :
    Fits kc .int8 jb.dt m.packed.lhs m.packed.rhs jb.mp start stop m.dst := by
  have sl := h.side .lhs
  have sr := h.side .rhs
  have bl := hb .lhs
  have br := hb .rhs
  simp only [SidePair.get_lhs, SidePair.get_rhs] at sl sr bl br
  obtain ⟨pl, ol, tl, kl, rl, cl, cl', _, _, zl⟩ := sl.facts hkc
  obtain ⟨pr, or, tr, kr, rr, cr, cr', _, _, zr⟩ := sr.facts hkc
  obtain ⟨al, al'⟩ := start_lt hkc bl cl'
  obtain ⟨ar, ar'⟩ := start_lt hkc br cr'
  have dl := sl.depth
  have dr := sr.depth
  have hcs := channelStop_le (mp := jb.mp) (a := stop)
    (b := ⟨m.packed.lhs.layout.cols, m.packed.rhs.layout.cols⟩) bl.2.2.2 br.2.2.2
  have hflat : ∀ {p : PMat Int} {x : Nat}, p.layout.order = .colMajor → PFits p → x < p.layout.cols →
      p.layout.stride < 2 ^ 24 → x * p.layout.stride < 2 ^ 31 := by
    intro p x ho hf hx hs
    have h1 := hf.int
    unfold pflatSize at h1
    rw [ho] at h1
    dsimp only at h1
    have h2 : p.layout.stride * (x + 1) ≤ p.layout.stride * p.layout.cols := Nat.mul_le_mul_left _ hx
    rw [Nat.mul_add, Nat.mul_one, Nat.mul_comm] at h2
    by_cases h0 : p.layout.stride = 0
    · rw [h0, Nat.mul_zero]; decide
    · omega
  exact {
    dtype := h.dtype, lk := kl, rk := kr, lo := ol, ro := or, lp := pl, rp := pr, lf := sl.fits, rf := sr.fits
    depth := by rw [rl, rr, h.depth]
    startl := bl.1, startr := br.1, stopl := bl.2.1, stopr := br.2.1, endl := bl.2.2.2, endr := br.2.2.2
    dl := by rw [h.drows]; exact al'
    dr := by rw [h.dcols]; exact ar'
    dorder := h.dorder, dstride := h.dstride, dfits := h.dfits
    zp1 := by
      constructor <;> nlinarith [zl.1, zl.2, zr.1, zr.2]
    zp2 := h.zp2
    bias := fun b e => Nat.le_trans hcs (h.bias b e)
    both := h.both
    fixed := fun q f e1 e2 => Nat.le_trans hcs (h.fixed q f e1 e2)
    exponent := fun q f e1 e2 => Nat.le_trans hcs (h.exponent q f e1 e2)
    il := hflat ol sl.fits (by omega) (by omega)
    ir := hflat or sr.fits (by omega) (by omega)
    id := by
      have := (h.dfits 0 start.rhs (by rw [h.drows]; omega) (by rw [h.dcols]; exact ar)).1
      unfold off at this
      rw [h.dorder] at this
      dsimp only at this
      omega
    kl := by rw [tl]; rcases hkc with rfl | rfl <;> omega
    kr := by
      rw [tr]
      show kc * (1 * _) < _
      rcases hkc with rfl | rfl <;> omega
    kd := h.kd }

theorem get_setSide {α : Type} (p : SidePair α) (s s' : Side) (x : α) :
    (setSide p s x).get s' = if s' = s then x else p.get s' := by
  cases s <;> cases s' <;> rfl

theorem covered_snoc {pre : List Op} {op : Op} {s : Side} {c : Nat} (h : Covered (pre ++ [op]) s c) :
    Covered pre s c ∨ ∃ lo hi, op = .pack s lo hi ∧ lo ≤ c ∧ c < hi := by
  obtain ⟨lo, hi, hm, h1⟩ := h
  rcases List.mem_append.1 hm with hm | hm
  · exact Or.inl ⟨lo, hi, hm, h1⟩
  · exact Or.inr ⟨lo, hi, (List.mem_singleton.1 hm).symm, h1⟩

theorem written_snoc {pre : List Op} {op : Op} {i j : Nat} (h : Written (pre ++ [op]) i j) :
    Written pre i j ∨ ∃ start stop, op = .kernel start stop ∧ start.lhs ≤ i ∧ i < stop.lhs ∧ start.rhs ≤ j ∧
      j < stop.rhs := by
  obtain ⟨lo, hi, hm, h1⟩ := h
  rcases List.mem_append.1 hm with hm | hm
  · exact Or.inl ⟨lo, hi, hm, h1⟩
  · exact Or.inr ⟨lo, hi, (List.mem_singleton.1 hm).symm, h1⟩

theorem written_mono {pre : List Op} {op : Op} {i j : Nat} (h : Written pre i j) : Written (pre ++ [op]) i j := by
  obtain ⟨lo, hi, hm, h1⟩ := h
  exact ⟨lo, hi, List.mem_append_left _ hm, h1⟩

section
variable {P : Path} {ml : Int → Int → Int → Int}

theorem kc_of (ok : PathOk P ml) : P.kernel.isa.kc = 8 ∨ P.kernel.isa.kc = 16 := ok.kernel.isa.kc

theorem pack_step (ok : PathOk P ml) {jb : Job} {m0 m : Mem Int} {pre : List Op} {s : Side} {lo hi : Nat}
    (h : JobOk P.kernel.isa.kc jb m0) (hI : Inv ml jb m0 pre m)
    (hb : Block P.kernel.isa.kc (m0.packed.get s).layout.cols lo hi) :
    ∃ m', step P jb m (.pack s lo hi) = .ok m' ∧ Inv ml jb m0 (pre ++ [.pack s lo hi]) m' := by
  have hkc := kc_of ok
  have hj := h.same hI.shape hI.dsame
  have hs := hj.side s
  have hcols : hi ≤ (m.packed.get s).layout.cols := by rw [(hI.shape s).layout]; exact hb.2.2.2
  obtain ⟨q, e, hp⟩ := packSide_of ok hs hb.1 hb.2.1 hb.2.2.1 hcols
  refine ⟨{ m with packed := setSide m.packed s q }, ?_, ?_⟩
  · unfold step
    dsimp only
    rw [e]; rfl
  · refine ⟨fun s' => ?_, hI.dsame, fun s' c hc hlt => ?_, fun i j hi hj hw => ?_, hI.rest.mono ?_⟩
    · dsimp only
      rw [get_setSide]
      split
      · rename_i hss; subst hss
        exact (hI.shape s').trans hp.shape
      · exact hI.shape s'
    · dsimp only
      rw [get_setSide]
      by_cases hss : s' = s
      · subst hss
        rw [if_pos rfl]
        refine colOk_frame hkc hs hp hcols hlt ?_
        rcases covered_snoc hc with hc | ⟨lo', hi', he, h1, h2⟩
        · exact Or.inr (hI.cols s' c hc hlt)
        · cases he
          exact Or.inl ⟨h1, h2⟩
      · rw [if_neg hss]
        rcases covered_snoc hc with hc | ⟨lo', hi', he, h1, h2⟩
        · exact hI.cols s' c hc hlt
        · cases he
          exact absurd rfl hss
    · rcases written_snoc hw with hw | ⟨_, _, he, _⟩
      · exact hI.entries i j hi hj hw
      · cases he
    · rintro i j ⟨h1, h2, h3⟩
      exact ⟨h1, h2, written_mono h3⟩

theorem kernel_step (ok : PathOk P ml) {jb : Job} {m0 m : Mem Int} {pre : List Op} {start stop : SidePair Nat}
    (h : JobOk P.kernel.isa.kc jb m0) (hI : Inv ml jb m0 pre m)
    (hb : ∀ s : Side, Block P.kernel.isa.kc (m0.packed.get s).layout.cols (start.get s) (stop.get s))
    (hc : ∀ (s : Side) (c : Nat), start.get s ≤ c → c < stop.get s → c < (jb.src.get s).layout.cols →
      Covered pre s c) :
    ∃ m', step P jb m (.kernel start stop) = .ok m' ∧ Inv ml jb m0 (pre ++ [.kernel start stop]) m' := by
  have hkc := kc_of ok
  have hj := h.same hI.shape hI.dsame
  have hf := fits_of hkc hj (start := start) (stop := stop)
    (fun s => by rw [(hI.shape s).layout]; exact hb s)
  have hbl := hb .lhs
  have hbr := hb .rhs
  obtain ⟨d, e, d1, d2, d3⟩ := Kern.runAll_of ok.kernel hf h.bias32 (Nat.le_of_lt hbl.2.2.1) hbr.2.2.1
  refine ⟨{ m with dst := d }, ?_, ?_⟩
  · unfold step
    dsimp only
    rw [e]; rfl
  · have hlay := hI.dsame.layout
    rw [hlay] at d2 d3
    refine ⟨hI.shape, hI.dsame.trans d1, fun s c hcv hlt => ?_, fun i j hi hj' hw => ?_, ?_⟩
    · rcases covered_snoc hcv with hcv | ⟨_, _, he, _⟩
      · exact hI.cols s c hcv hlt
      · cases he
    · dsimp only
      by_cases hin : start.lhs ≤ i ∧ i < stop.lhs ∧ start.rhs ≤ j ∧ j < stop.rhs
      · obtain ⟨a1, a2, a3, a4⟩ := hin
        rw [d2 i j a1 (by omega) a3 (by omega)]
        congr 1
        unfold outOf stored
        dsimp only
        have hil : i < jb.src.lhs.layout.cols := by rw [← h.drows]; exact hi
        have hjr : j < jb.src.rhs.layout.cols := by rw [← h.dcols]; exact hj'
        rw [acc_exact hkc hj hil hjr (hI.cols .lhs i (hc .lhs i a1 a2 hil) hil)
          (hI.cols .rhs j (hc .rhs j a3 a4 hjr) hjr), hI.dsame.zp]
      · have hw : Written pre i j := by
          rcases written_snoc hw with hw | ⟨_, _, he, h1⟩
          · exact hw
          · cases he
            exact absurd h1 hin
        rw [← hI.entries i j hi hj' hw]
        refine delem_frame d1 d3 ?_ (by rw [hlay]; exact hi) (by rw [hlay]; exact hj') ?_ ?_
        · rw [hlay]; exact Kern.strideOk_of h.dorder h.dstride
        · rintro a b ⟨_, h2, _, h4⟩
          rw [hlay]; omega
        · rintro ⟨h1, h2, h3, h4⟩
          exact hin ⟨h1, by omega, h3, by omega⟩
    · refine DOutside.trans (hI.rest.mono ?_) hI.dsame (d3.mono ?_)
      · rintro i j ⟨h1, h2, h3⟩
        exact ⟨h1, h2, written_mono h3⟩
      · rintro i j ⟨h1, h2, h3, h4⟩
        exact ⟨by omega, by omega, start, stop, by simp, h1, by omega, h3, by omega⟩

theorem runOps_inv (ok : PathOk P ml) {jb : Job} {m0 : Mem Int} {ops : List Op}
    (h : JobOk P.kernel.isa.kc jb m0) (ho : Ordered P.kernel.isa.kc jb m0 ops) :
    ∃ m', runOps P jb ops m0 = .ok m' ∧ Inv ml jb m0 ops m' := by
  suffices H : ∀ (post pre : List Op) (m : Mem Int), ops = pre ++ post → Inv ml jb m0 pre m →
      ∃ m', runOps P jb post m = .ok m' ∧ Inv ml jb m0 ops m' from
    H ops [] m0 rfl (Inv.start _ _ _)
  intro post
  induction post with
  | nil =>
    intro pre m he hI
    rw [List.append_nil] at he
    subst he
    exact ⟨m, rfl, hI⟩
  | cons op post ih =>
    intro pre m he hI
    have hstep : ∃ m', step P jb m op = .ok m' ∧ Inv ml jb m0 (pre ++ [op]) m' := by
      cases op with
      | pack s lo hi => exact pack_step ok h hI (ho.packs s lo hi (by rw [he]; simp))
      | kernel start stop =>
        exact kernel_step ok h hI (ho.kernels start stop (by rw [he]; simp))
          (ho.first pre start stop post he)
    obtain ⟨m1, e1, hI1⟩ := hstep
    obtain ⟨m2, e2, hI2⟩ := ih (pre ++ [op]) m1 (by rw [he]; simp) hI1
    refine ⟨m2, ?_, hI2⟩
    unfold runOps
    rw [e1, C.ok_bind, e2]

end

end Ruy.Simd.Flow

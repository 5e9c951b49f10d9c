import Verif.Simd.Flow16
import Verif.Simd.FlowRun
import Verif.Simd.Pack16Run
/-
Running pack and kernel calls in any order for an int16 RHS: lemmas for property C92.
-/
namespace Ruy.Simd.Flow16
open Ruy.Mat Ruy.Mul
open Ruy.Front (ScalarType MulParams Typed)
open Ruy.TrMul (Mem setSide)
open Ruy.Simd.Pack (Bounds Filled)
open Ruy.Simd.Flow (Op Job packSide SideOk Covered Written Block Ordered exact stored psum_some)
open Ruy.Simd.Kern (channelStop biasAt fixedAt exponentAt pat psum accOf outOf ParamsOk BiasOk Fits conv)

/-- The RHS as CreatePackedLayout sets it up: the packed matrix is large enough, offsets are ints, and
the sums cannot overflow. -/
structure RhsOk (kc : Nat) (src : Mul.Mat Int) (p : PMat Int) : Prop where
  typed : Typed .int16 src
  layout : createPackedLayout src.layout ⟨.colMajor, 4, kc⟩ = .ok p.layout
  zp : p.zp = Front.packInt .int16 .int16 src.zp
  sums : p.sums.isSome
  depth : p.layout.rows < 2 ^ 16
  fits : PFits p
  source : DFits src
  step : src.layout.order = .colMajor → ∀ c, c < src.layout.cols → src.layout.stride * c < 2 ^ 31

theorem RhsOk.same {kc : Nat} {src : Mul.Mat Int} {p q : PMat Int} (h : RhsOk kc src p) (hs : SameShape p q) : RhsOk kc src q :=
  ⟨h.typed, by rw [hs.layout]; exact h.layout, by rw [hs.zp]; exact h.zp,
    by rw [hs.sums]; exact h.sums, by rw [hs.layout]; exact h.depth, h.fits.same hs, h.source, h.step⟩

theorem packInt_range (x : Int) :
    -32768 ≤ Front.packInt .int16 .int16 x ∧ Front.packInt .int16 .int16 x ≤ 32767 := by
  rw [Pack16.wrap_pack]
  unfold wrap16
  omega

theorem gval_range {src : Mul.Mat Int} {zp : Int} (hz : -32768 ≤ zp ∧ zp ≤ 32767) (r c : Nat) :
    -32768 ≤ Pack16.gval src zp r c ∧ Pack16.gval src zp r c ≤ 32767 := by
  unfold Pack16.gval
  split
  · exact packInt_range _
  · exact hz

theorem sum_bound {f : Nat → Int} (n : Nat) (h : ∀ r, -32768 ≤ f r ∧ f r ≤ 32767) :
    -32768 * (n : Int) ≤ ∑ r ∈ Finset.range n, f r ∧ ∑ r ∈ Finset.range n, f r ≤ 32767 * (n : Int) := by
  induction n with
  | zero => simp
  | succ n ih =>
    rw [Finset.sum_range_succ]
    have := h n
    push_cast
    omega

/-- What a layout for the kernel is like. -/
structure Shape (kc : Nat) (src : Mul.Mat Int) (p : PMat Int) : Prop where
  ok : PackedOk p.layout
  order : p.layout.order = .colMajor
  stride : p.layout.stride = p.layout.rows
  kernel : p.layout.kernel = ⟨.colMajor, 4, kc⟩
  rows : p.layout.rows = (src.layout.rows + 3) / 4 * 4
  cols : src.layout.cols ≤ p.layout.cols
  cols' : p.layout.cols < src.layout.cols + kc
  mult : p.layout.cols % kc = 0

theorem shape_of {kc : Nat} {src : Mul.Mat Int} {p : PMat Int}
    (h : createPackedLayout src.layout ⟨.colMajor, 4, kc⟩ = .ok p.layout) : Shape kc src p := by
  obtain ⟨hp, l1, l2, l3, l4, l5, l6, l7⟩ := createPackedLayout_ok h
  have d1 := hp.rows
  have d2 := hp.cols
  rw [l3] at d1 d2
  dsimp only at d1 d2 l5 l7
  obtain ⟨m, hm⟩ := d1
  exact ⟨hp, l1, l2, l3, by omega, l6, l7, Nat.mod_eq_zero_of_dvd d2⟩

theorem RhsOk.zpr {kc : Nat} {src : Mul.Mat Int} {p : PMat Int} (h : RhsOk kc src p) : -32768 ≤ p.zp ∧ p.zp ≤ 32767 := by
  rw [h.zp]; exact packInt_range _

theorem bounds_of {kc : Nat} {src : Mul.Mat Int} {p : PMat Int} (h : RhsOk kc src p) {lo hi : Nat} (hhi : hi ≤ p.layout.cols) :
    Bounds src lo hi p := by
  have s := shape_of h.layout
  refine ⟨fun r c hr _ hc => ?_, fun r c hr hc _ _ _ => (h.source r c hr hc).2, fun b c hb _ hc => ?_⟩
  · have h1 := poff_lt s.ok hr (show c < p.layout.cols by omega)
    have h2 := h.fits.int
    have h3 := h.fits.data
    omega
  · have := h.fits.sums b hb
    omega

/-! ### Packing -/

/-- The value packed at (r, c) of a side. -/
def sideVal (jb : Job) (s : Side) (zp : Int) (r c : Nat) : Int :=
  match s with
  | .lhs => Pack.gval jb.ty.lhs jb.src.lhs zp r c
  | .rhs => Pack16.gval jb.src.rhs zp r c

/-- Its sum. -/
def sideSum (jb : Job) (s : Side) (zp : Int) (rows c : Nat) : Int :=
  (∑ r ∈ Finset.range rows, sideVal jb s zp r c).bmod (2 ^ 32)

/-- The columns [lo, hi) have been packed: source columns hold the re-encoded source. -/
structure Packs (jb : Job) (s : Side) (lo hi : Nat) (p q : PMat Int) : Prop where
  shape : SameShape p q
  out : Outside (fun c => lo ≤ c ∧ c < hi) p q
  data : ∀ r c, r < p.layout.rows → lo ≤ c → c < hi → c < (jb.src.get s).layout.cols →
    pat q r c = sideVal jb s p.zp r c
  sums : ∀ c, lo ≤ c → c < hi → c < (jb.src.get s).layout.cols → psum q c = sideSum jb s p.zp p.layout.rows c

/-- The sum of a column in int32 arithmetic. -/
theorem colSum_ok {src : Mul.Mat Int} {zp : Int} {rows c : Nat} {s : Int}
    (h : colSum Arith.int32 (Front.packInt .int16 .int16) src zp rows c = .ok s) :
    s = ∑ r ∈ Finset.range rows, Pack16.gval src zp r c ∧ Front.InI32 s := by
  unfold colSum at h
  refine forUpTo_inv (P := fun n (x : Int) => x = ∑ r ∈ Finset.range n, Pack16.gval src zp r c ∧ Front.InI32 x)
    ⟨rfl, by unfold Front.InI32; simp⟩ ?_ h
  rintro n x x' _ ⟨i1, i2⟩ hstep
  obtain ⟨v, hv, hstep⟩ := C.bind_ok hstep
  have hv' : v = Pack16.gval src zp n c := Pack16.packedVal_gval hv
  have he : C.i32 (x + v) = .ok x' := hstep
  obtain ⟨e1, e2⟩ := C.i32_ok he
  subst e1
  refine ⟨?_, ?_⟩
  · rw [Finset.sum_range_succ, ← i1, hv']
  · exact e2

theorem colSum_of {src : Mul.Mat Int} {zp : Int} {rows c : Nat} (hd : DFits src)
    (hz : -32768 ≤ zp ∧ zp ≤ 32767) (hr : rows < 2 ^ 16) :
    ∃ s, colSum Arith.int32 (Front.packInt .int16 .int16) src zp rows c = .ok s := by
  unfold colSum
  obtain ⟨s, e, _⟩ := forUpTo_total
    (body := fun r acc => do
      let v ← packedVal Arith.int32 (Front.packInt .int16 .int16) src zp r c
      Arith.int32.add acc v) (s := Arith.int32.zero) (n := rows)
    (fun n (x : Int) => x = ∑ r ∈ Finset.range n, Pack16.gval src zp r c) rfl
    (by
      rintro n x hn rfl
      have hv : packedVal Arith.int32 (Front.packInt .int16 .int16) src zp n c = .ok (Pack16.gval src zp n c) := by
        unfold packedVal Pack16.gval
        by_cases hc : c < src.layout.cols ∧ n < src.layout.rows
        · rw [if_pos hc, if_pos hc]
          obtain ⟨h1, h2⟩ := hd n c hc.2 hc.1
          unfold Mat.elem
          rw [offset_eq, C.int_of h1, C.ok_bind, Buf.read_of h2]
          rfl
        · rw [if_neg hc, if_neg hc]; rfl
      have hb := sum_bound (n + 1) (gval_range (src := src) hz (c := c))
      rw [Finset.sum_range_succ] at hb
      refine ⟨∑ r ∈ Finset.range (n + 1), Pack16.gval src zp r c, ?_, rfl⟩
      rw [hv, C.ok_bind, Finset.sum_range_succ]
      show C.i32 _ = _
      exact C.i32_of (by push_cast at hb; omega) (by push_cast at hb; omega))
  exact ⟨s, e⟩

theorem rhs_col {jb : Job} {p : PMat Int} (h : RhsOk 16 jb.src.rhs p) (ho : jb.src.rhs.layout.order = .colMajor)
    {lo hi : Nat} (hlo : lo % 16 = 0) (hm : hi % 16 = 0) (hhi : hi ≤ p.layout.cols) :
    ∃ q, Pack16.run jb.src.rhs lo hi p = .ok q ∧ Packs jb .rhs lo hi p q := by
  have s := shape_of h.layout
  have hd := h.depth
  have hz := h.zpr
  have c1 := s.cols
  have c2 := s.cols'
  have hset : Pack16.Setup jb.src.rhs lo hi p :=
    ⟨ho, s.order, s.kernel, s.rows, s.ok, hz, hlo, hhi, by omega, by omega, fun c _ _ hc => h.step ho c hc,
      fun h0 c _ => by rw [s.stride, h0, Nat.zero_mul]; decide⟩
  obtain ⟨q, e, hf⟩ := Pack16.run16_filled hset (bounds_of h hhi) (by
    unfold Front.InI32
    constructor <;> nlinarith)
  refine ⟨q, e, hf.shape, hf.out, fun r c hr hl hh hc => ?_, fun c hl hh hc => ?_⟩
  · have hc : c < jb.src.rhs.layout.cols := hc
    unfold pat
    rw [hf.shape.layout, hf.data r c hr hl hh]
    unfold Pack16.val512
    rw [if_neg (by omega)]
    rfl
  · obtain ⟨b, hb⟩ := Option.isSome_iff_exists.1 (show q.sums.isSome by rw [hf.shape.sums]; exact h.sums)
    rw [psum_some hb, hf.sums b c hb hl hh]
    rfl

theorem rhs_row {kc : Nat} {jb : Job} {p : PMat Int} (h : RhsOk kc jb.src.rhs p)
    {lo hi : Nat} (hkc : kc = 8 ∨ kc = 16) (hlo : lo % kc = 0) (hm : hi % kc = 0) (hhi : hi ≤ p.layout.cols) :
    ∃ q, runPack Arith.int32 (Front.packInt .int16 .int16) jb.src.rhs lo hi p = .ok q ∧ Packs jb .rhs lo hi p q := by
  have s := shape_of h.layout
  obtain ⟨q, e⟩ := runPack_total (ar := Arith.int32) (pack := Front.packInt .int16 .int16) (src := jb.src.rhs)
    (lo := lo) s.ok h.fits hhi (by rw [s.kernel]; show kc ∣ _; rcases hkc with rfl | rfl <;> omega) (fun c _ _ => colSum_of h.source h.zpr h.depth)
  obtain ⟨h1, h2, h3⟩ := runPack_ok s.ok hhi e
  refine ⟨q, e, h1, h2, fun r c hr hl hh hc => ?_, fun c hl hh hc => ?_⟩
  · obtain ⟨v, e1, e2⟩ := (h3 c hl hh).data r (by rw [h1.layout]; exact hr)
    rw [h1.zp] at e2
    obtain ⟨o, f1, f2, f3⟩ := elem_ok e1
    rw [h1.layout, poffset_eq s.ok.kernel] at f1
    obtain ⟨g1, g2⟩ := C.int_ok f1
    subst g1
    unfold pat
    rw [h1.layout, ← f3]
    exact Pack16.packedVal_gval e2
  · obtain ⟨b, hb⟩ := Option.isSome_iff_exists.1 (show q.sums.isSome by rw [h1.sums]; exact h.sums)
    obtain ⟨x, e1, e2⟩ := (h3 c hl hh).sums (by rw [hb]; rfl)
    rw [h1.zp, h1.layout] at e2
    unfold readSum at e1
    rw [hb] at e1
    obtain ⟨f1, f2⟩ := Buf.read_ok e1
    rw [psum_some hb, ← f2]
    obtain ⟨g1, g2⟩ := colSum_ok e2
    have : x = Pack16.gsum jb.src.rhs p.zp p.layout.rows c := Pack16.eq_gsum g2 (by rw [g1]; push_cast; rfl)
    rw [this]
    rfl

/-! ### A multiplication -/

/-- A multiplication as Mul sets it up: packed matrices from CreatePackedLayout, a column-major
destination, per-channel buffers that cover the packed width, int offsets. -/
structure JobOk (kc : Nat) (jb : Job) (m : Mem Int) : Prop where
  lhs : SideOk kc jb.ty.lhs jb.src.lhs m.packed.lhs
  rhs : RhsOk kc jb.src.rhs m.packed.rhs
  depth : jb.src.rhs.layout.rows = jb.src.lhs.layout.rows
  drows : m.dst.layout.rows = jb.src.lhs.layout.cols
  dcols : m.dst.layout.cols = jb.src.rhs.layout.cols
  dtype : jb.dt ≠ .float
  dorder : m.dst.layout.order = .colMajor
  dstride : m.dst.layout.rows ≤ m.dst.layout.stride
  dfits : DFits m.dst
  kd : kc * (Kern.sizeOf jb.dt * m.dst.layout.stride) < 2 ^ 31
  zp2 : -2 ^ 31 ≤ m.packed.lhs.zp * m.packed.rhs.zp * m.packed.lhs.layout.rows ∧
    m.packed.lhs.zp * m.packed.rhs.zp * m.packed.lhs.layout.rows < 2 ^ 31
  bias : ∀ b, jb.mp.bias = some b →
    channelStop jb.mp ⟨m.packed.lhs.layout.cols, m.packed.rhs.layout.cols⟩ ≤ b.size
  both : ∀ q, jb.mp.quant = some q → q.exponentPerChannel.isSome = q.fixedPerChannel.isSome
  fixed : ∀ q f, jb.mp.quant = some q → q.fixedPerChannel = some f →
    channelStop jb.mp ⟨m.packed.lhs.layout.cols, m.packed.rhs.layout.cols⟩ ≤ f.size
  exponent : ∀ q f, jb.mp.quant = some q → q.exponentPerChannel = some f →
    channelStop jb.mp ⟨m.packed.lhs.layout.cols, m.packed.rhs.layout.cols⟩ ≤ f.size
  bias32 : BiasOk jb.mp

theorem JobOk.shapeOf {kc : Nat} {jb : Job} {m : Mem Int} (h : JobOk kc jb m) (s : Side) :
    Shape kc (jb.src.get s) (m.packed.get s) := by
  cases s
  · exact shape_of h.lhs.layout
  · exact shape_of h.rhs.layout

theorem JobOk.someSums {kc : Nat} {jb : Job} {m : Mem Int} (h : JobOk kc jb m) (s : Side) : (m.packed.get s).sums.isSome := by
  cases s
  · exact h.lhs.sums
  · exact h.rhs.sums

/-- The column holds its packed form. -/
def ColOk (jb : Job) (s : Side) (p : PMat Int) (c : Nat) : Prop :=
  (∀ r, r < p.layout.rows → pat p r c = sideVal jb s p.zp r c) ∧ psum p c = sideSum jb s p.zp p.layout.rows c

theorem gval_zero {src : Mul.Mat Int} (hty : Typed .int16 src) {r c : Nat} (hc : c < src.layout.cols) :
    Pack16.gval src (Front.packInt .int16 .int16 src.zp) r c - Front.packInt .int16 .int16 src.zp =
      if r < src.layout.rows then src.at r c - src.zp else 0 := by
  have hr : Front.Repacks .int16 .int16 := by decide
  unfold Pack16.gval
  by_cases h : r < src.layout.rows
  · rw [if_pos ⟨hc, h⟩, if_pos h]
    have h1 := hty.elems r c h hc
    rw [Front.packInt_of hr h1.1 h1.2, Front.packInt_of hr hty.zp.1 hty.zp.2]
    ring
  · rw [if_neg (by tauto), if_neg h]
    ring

theorem acc_exact {kc : Nat} {jb : Job} {m : Mem Int} (h : JobOk kc jb m)
    {i j : Nat} (hi : i < jb.src.lhs.layout.cols) (hj : j < jb.src.rhs.layout.cols)
    (hl : ColOk jb .lhs m.packed.lhs i) (hr : ColOk jb .rhs m.packed.rhs j) :
    wrap32 (accOf m.packed.lhs m.packed.rhs jb.mp i j) = wrap32 (exact jb i j) := by
  have sl := h.lhs
  have sr := h.rhs
  have rl := (shape_of sl.layout).rows
  have rr := (shape_of sr.layout).rows
  have hrow : m.packed.rhs.layout.rows = m.packed.lhs.layout.rows := by rw [rl, rr, h.depth]
  apply Flow.wrap32_congr
  unfold accOf exact Kern.dot
  rw [hl.2, hr.2, hrow]
  have e1 : ∑ k ∈ Finset.range m.packed.lhs.layout.rows, pat m.packed.lhs k i * pat m.packed.rhs k j =
      ∑ k ∈ Finset.range m.packed.lhs.layout.rows,
        sideVal jb .lhs m.packed.lhs.zp k i * sideVal jb .rhs m.packed.rhs.zp k j := by
    refine Finset.sum_congr rfl (fun k hk => ?_)
    have hk := Finset.mem_range.1 hk
    rw [hl.1 k hk, hr.1 k (by omega)]
  have e2 := Flow.expand_sum (fun k => sideVal jb .lhs m.packed.lhs.zp k i)
    (fun k => sideVal jb .rhs m.packed.rhs.zp k j) m.packed.lhs.zp m.packed.rhs.zp m.packed.lhs.layout.rows
  have e3 : ∑ k ∈ Finset.range m.packed.lhs.layout.rows,
      (sideVal jb .lhs m.packed.lhs.zp k i - m.packed.lhs.zp) *
        (sideVal jb .rhs m.packed.rhs.zp k j - m.packed.rhs.zp) =
      ∑ k ∈ Finset.range jb.src.lhs.layout.rows,
        (jb.src.lhs.at k i - jb.src.lhs.zp) * (jb.src.rhs.at k j - jb.src.rhs.zp) := by
    rw [← Flow.sum_pad (N := m.packed.lhs.layout.rows) (n := jb.src.lhs.layout.rows) (by omega)]
    refine Finset.sum_congr rfl (fun k _ => ?_)
    unfold sideVal
    dsimp only
    rw [sl.zp, sr.zp, Flow.gval_zero sl.ty sl.typed hi, gval_zero sr.typed hj, h.depth]
    split
    · rfl
    · simp
  rw [e1, ← e3, e2]
  unfold sideSum
  simp only [Int.cast_add, Int.cast_sub, Int.cast_mul, Front.bmod_zmod]
  ring

/-! ### Frames -/

theorem colOk_frame {kc : Nat} {jb : Job} {s : Side} {p q : PMat Int} (h : Shape kc (jb.src.get s) p) (hsum : p.sums.isSome)
    {lo hi c : Nat} (hp : Packs jb s lo hi p q) (hhi : hi ≤ p.layout.cols)
    (hc : c < (jb.src.get s).layout.cols) (hcol : (lo ≤ c ∧ c < hi) ∨ ColOk jb s p c) : ColOk jb s q c := by
  have l5 := h.cols
  unfold ColOk
  rw [hp.shape.layout, hp.shape.zp]
  by_cases hin : lo ≤ c ∧ c < hi
  · exact ⟨fun r hr => hp.data r c hr hin.1 hin.2 hc, hp.sums c hin.1 hin.2 hc⟩
  · have hcol := hcol.resolve_left hin
    refine ⟨fun r hr => ?_, ?_⟩
    · rw [← hcol.1 r hr]
      unfold pat
      rw [hp.shape.layout]
      refine hp.out.data _ (fun r' c' hr' hc' he => ?_)
      obtain ⟨_, rfl⟩ := poff_inj h.ok hr (by omega) hr' (by omega) he
      exact hin hc'
    · rw [← hcol.2]
      obtain ⟨b, hb⟩ := Option.isSome_iff_exists.1 hsum
      obtain ⟨b', hb'⟩ := Option.isSome_iff_exists.1 (show q.sums.isSome by rw [hp.shape.sums]; exact hsum)
      rw [psum_some hb, psum_some hb', hp.out.sums b b' c hb hb' hin]

/-! ### The invariant -/

structure Inv (ml : Int → Int → Int → Int) (jb : Job) (m0 : Mem Int) (pre : List Op) (m : Mem Int) : Prop where
  shape : ∀ s : Side, SameShape (m0.packed.get s) (m.packed.get s)
  dsame : DSame m0.dst m.dst
  cols : ∀ (s : Side) (c : Nat), Covered pre s c → c < (jb.src.get s).layout.cols → ColOk jb s (m.packed.get s) c
  entries : ∀ i j, i < m0.dst.layout.rows → j < m0.dst.layout.cols → Written pre i j →
    m.dst.elem i j = .ok (stored ml jb m0.dst.zp i j)
  rest : DOutside (fun i j => i < m0.dst.layout.rows ∧ j < m0.dst.layout.cols ∧ Written pre i j) m0.dst m.dst

theorem Inv.start (ml : Int → Int → Int → Int) (jb : Job) (m : Mem Int) : Inv ml jb m [] m where
  shape _ := SameShape.refl _
  dsame := DSame.refl _
  cols s c h := by obtain ⟨_, _, h, _⟩ := h; cases h
  entries i j _ _ h := by obtain ⟨_, _, h, _⟩ := h; cases h
  rest _ _ := rfl

theorem JobOk.same {kc : Nat} {jb : Job} {m m' : Mem Int} (h : JobOk kc jb m)
    (hs : ∀ s : Side, SameShape (m.packed.get s) (m'.packed.get s)) (hd : DSame m.dst m'.dst) : JobOk kc jb m' := by
  have hl := hs .lhs
  have hr := hs .rhs
  simp only [SidePair.get_lhs, SidePair.get_rhs] at hl hr
  have hl1 := hl.layout
  have hr1 := hr.layout
  have hl2 := hl.zp
  have hr2 := hr.zp
  have hd1 := hd.layout
  refine ⟨h.lhs.same hl, h.rhs.same hr, h.depth, ?_, ?_, h.dtype, ?_, ?_, h.dfits.same hd, ?_, ?_, ?_, h.both, ?_, ?_,
    h.bias32⟩
  · rw [hd1]; exact h.drows
  · rw [hd1]; exact h.dcols
  · rw [hd1]; exact h.dorder
  · rw [hd1]; exact h.dstride
  · rw [hd1]; exact h.kd
  · rw [hl1, hl2, hr2]; exact h.zp2
  · rw [hl1, hr1]; exact h.bias
  · rw [hl1, hr1]; exact h.fixed
  · rw [hl1, hr1]; exact h.exponent

theorem fits_of {kc : Nat} (hkc : kc = 8 ∨ kc = 16) {jb : Job} {m : Mem Int} (h : JobOk kc jb m) {start stop : SidePair Nat}
    (hb : ∀ s : Side, Block kc (m.packed.get s).layout.cols (start.get s) (stop.get s)) :
    Fits kc .int16 jb.dt m.packed.lhs m.packed.rhs jb.mp start stop m.dst := by
  have bl := hb .lhs
  have br := hb .rhs
  simp only [SidePair.get_lhs, SidePair.get_rhs] at bl br
  have sl := shape_of h.lhs.layout
  have sr := shape_of h.rhs.layout
  obtain ⟨al, al'⟩ := Flow.start_lt hkc bl sl.cols'
  obtain ⟨ar, ar'⟩ := Flow.start_lt hkc br sr.cols'
  have dl := h.lhs.depth
  have dr := h.rhs.depth
  have tl := sl.stride
  have tr := sr.stride
  have cl := sl.cols
  have cr := sr.cols
  have zl : -128 ≤ m.packed.lhs.zp ∧ m.packed.lhs.zp ≤ 127 := by rw [h.lhs.zp]; exact Flow.packInt_range _
  have zr := h.rhs.zpr
  have hcs := Flow.channelStop_le (mp := jb.mp) (a := stop)
    (b := ⟨m.packed.lhs.layout.cols, m.packed.rhs.layout.cols⟩) bl.2.2.2 br.2.2.2
  have hflat : ∀ {p : PMat Int} {x : Nat}, p.layout.order = .colMajor → PFits p → x < p.layout.cols →
      p.layout.stride < 2 ^ 24 → x * p.layout.stride < 2 ^ 31 := by
    intro p x ho hf hx hs
    have h1 := hf.int
    unfold pflatSize at h1
    rw [ho] at h1
    dsimp only at h1
    have h2 : p.layout.stride * (x + 1) ≤ p.layout.stride * p.layout.cols := Nat.mul_le_mul_left _ hx
    rw [Nat.mul_add, Nat.mul_one, Nat.mul_comm] at h2
    by_cases h0 : p.layout.stride = 0
    · rw [h0, Nat.mul_zero]; decide
    · omega
  exact {
    dtype := h.dtype, lk := sl.kernel, rk := sr.kernel, lo := sl.order, ro := sr.order, lp := sl.ok, rp := sr.ok
    lf := h.lhs.fits, rf := h.rhs.fits
    depth := by rw [sl.rows, sr.rows, h.depth]
    startl := bl.1, startr := br.1, stopl := bl.2.1, stopr := br.2.1, endl := bl.2.2.2, endr := br.2.2.2
    dl := by rw [h.drows]; exact al'
    dr := by rw [h.dcols]; exact ar'
    dorder := h.dorder, dstride := h.dstride, dfits := h.dfits
    zp1 := by
      constructor <;> nlinarith [zl.1, zl.2, zr.1, zr.2]
    zp2 := h.zp2
    bias := fun b e => Nat.le_trans hcs (h.bias b e)
    both := h.both
    fixed := fun q f e1 e2 => Nat.le_trans hcs (h.fixed q f e1 e2)
    exponent := fun q f e1 e2 => Nat.le_trans hcs (h.exponent q f e1 e2)
    il := hflat sl.order h.lhs.fits (by omega) (by omega)
    ir := hflat sr.order h.rhs.fits (by omega) (by omega)
    id := by
      have := (h.dfits 0 start.rhs (by rw [h.drows]; omega) (by rw [h.dcols]; exact ar)).1
      unfold off at this
      rw [h.dorder] at this
      dsimp only at this
      omega
    kl := by rw [tl]; rcases hkc with rfl | rfl <;> omega
    kr := by
      rw [tr]
      show kc * (2 * _) < _
      rcases hkc with rfl | rfl <;> omega
    kd := h.kd }

/-! ### The calls -/

/-- What is known of a path. -/
structure PathOk (P : Path16) (ml : Int → Int → Int → Int) : Prop where
  path : Flow.PathOk P.path ml
  simd : P.simd = true → P.kc = 16

theorem avx2_ok : PathOk avx2 lane := ⟨Flow.path2_ok, fun h => by cases h⟩
theorem avx512_ok : PathOk avx512 lane512 := ⟨Flow.path512_ok, fun _ => rfl⟩

theorem PathOk.kc {P : Path16} {ml : Int → Int → Int → Int} (ok : PathOk P ml) : P.kc = 8 ∨ P.kc = 16 := ok.path.kernel.isa.kc

section
variable {P : Path16} {ml : Int → Int → Int → Int}

theorem pack_call (ok : PathOk P ml) {jb : Job} {m : Mem Int} (h : JobOk P.kc jb m) {s : Side} {lo hi : Nat}
    (hb : Block P.kc (m.packed.get s).layout.cols lo hi) :
    ∃ q, step P jb m (.pack s lo hi) = .ok { m with packed := setSide m.packed s q } ∧
      Packs jb s lo hi (m.packed.get s) q := by
  obtain ⟨h1, h2, h3, h4⟩ := hb
  cases s with
  | lhs =>
    obtain ⟨q, e, hp⟩ := Flow.packSide_of ok.path h.lhs h1 h2 h3 h4
    refine ⟨q, ?_, hp.shape, hp.out, hp.data, hp.sums⟩
    unfold step
    dsimp only
    rw [e]; rfl
  | rhs =>
    have hq : ∃ q, packRhs P jb.src.rhs lo hi m.packed.rhs = .ok q ∧ Packs jb .rhs lo hi m.packed.rhs q := by
      unfold packRhs
      split
      · rename_i hs
        have hkc := ok.simd hs.1
        have hr := h.rhs
        rw [hkc] at hr h1 h2
        exact rhs_col hr hs.2 h1 h2 h4
      · exact rhs_row h.rhs ok.kc h1 h2 h4
    obtain ⟨q, e, hp⟩ := hq
    refine ⟨q, ?_, hp⟩
    unfold step
    dsimp only
    rw [e]; rfl

theorem pack_step (ok : PathOk P ml) {jb : Job} {m0 m : Mem Int} {pre : List Op} {s : Side} {lo hi : Nat}
    (h : JobOk P.kc jb m0) (hI : Inv ml jb m0 pre m) (hb : Block P.kc (m0.packed.get s).layout.cols lo hi) :
    ∃ m', step P jb m (.pack s lo hi) = .ok m' ∧ Inv ml jb m0 (pre ++ [.pack s lo hi]) m' := by
  have hj := h.same hI.shape hI.dsame
  have hb' : Block P.kc (m.packed.get s).layout.cols lo hi := by rw [(hI.shape s).layout]; exact hb
  obtain ⟨q, e, hp⟩ := pack_call ok hj hb'
  refine ⟨_, e, ?_⟩
  refine ⟨fun s' => ?_, hI.dsame, fun s' c hc hlt => ?_, fun i j hi hj hw => ?_, hI.rest.mono ?_⟩
  · dsimp only
    rw [Flow.get_setSide]
    split
    · rename_i hss; subst hss
      exact (hI.shape s').trans hp.shape
    · exact hI.shape s'
  · dsimp only
    rw [Flow.get_setSide]
    by_cases hss : s' = s
    · subst hss
      rw [if_pos rfl]
      refine colOk_frame (hj.shapeOf s') (hj.someSums s') hp hb'.2.2.2 hlt ?_
      rcases Flow.covered_snoc hc with hc | ⟨lo', hi', he, h1, h2⟩
      · exact Or.inr (hI.cols s' c hc hlt)
      · cases he
        exact Or.inl ⟨h1, h2⟩
    · rw [if_neg hss]
      rcases Flow.covered_snoc hc with hc | ⟨lo', hi', he, h1, h2⟩
      · exact hI.cols s' c hc hlt
      · cases he
        exact absurd rfl hss
  · rcases Flow.written_snoc hw with hw | ⟨_, _, he, _⟩
    · exact hI.entries i j hi hj hw
    · cases he
  · rintro i j ⟨h1, h2, h3⟩
    exact ⟨h1, h2, Flow.written_mono h3⟩

theorem kernel_step (ok : PathOk P ml) {jb : Job} {m0 m : Mem Int} {pre : List Op} {start stop : SidePair Nat}
    (h : JobOk P.kc jb m0) (hI : Inv ml jb m0 pre m)
    (hb : ∀ s : Side, Block P.kc (m0.packed.get s).layout.cols (start.get s) (stop.get s))
    (hc : ∀ (s : Side) (c : Nat), start.get s ≤ c → c < stop.get s → c < (jb.src.get s).layout.cols →
      Covered pre s c) :
    ∃ m', step P jb m (.kernel start stop) = .ok m' ∧ Inv ml jb m0 (pre ++ [.kernel start stop]) m' := by
  have hj := h.same hI.shape hI.dsame
  have hf := fits_of ok.kc hj (start := start) (stop := stop) (fun s => by rw [(hI.shape s).layout]; exact hb s)
  have hbl := hb .lhs
  have hbr := hb .rhs
  obtain ⟨d, e, d1, d2, d3⟩ := Kern.runAll_of ok.path.kernel hf h.bias32 (Nat.le_of_lt hbl.2.2.1) hbr.2.2.1
  refine ⟨{ m with dst := d }, ?_, ?_⟩
  · unfold step
    dsimp only
    rw [e]; rfl
  · have hlay := hI.dsame.layout
    rw [hlay] at d2 d3
    refine ⟨hI.shape, hI.dsame.trans d1, fun s c hcv hlt => ?_, fun i j hi hj' hw => ?_, ?_⟩
    · rcases Flow.covered_snoc hcv with hcv | ⟨_, _, he, _⟩
      · exact hI.cols s c hcv hlt
      · cases he
    · dsimp only
      by_cases hin : start.lhs ≤ i ∧ i < stop.lhs ∧ start.rhs ≤ j ∧ j < stop.rhs
      · obtain ⟨a1, a2, a3, a4⟩ := hin
        rw [d2 i j a1 (by omega) a3 (by omega)]
        congr 1
        unfold outOf stored
        dsimp only
        have hil : i < jb.src.lhs.layout.cols := by rw [← h.drows]; exact hi
        have hjr : j < jb.src.rhs.layout.cols := by rw [← h.dcols]; exact hj'
        rw [acc_exact hj hil hjr (hI.cols .lhs i (hc .lhs i a1 a2 hil) hil)
          (hI.cols .rhs j (hc .rhs j a3 a4 hjr) hjr), hI.dsame.zp]
      · have hw : Written pre i j := by
          rcases Flow.written_snoc hw with hw | ⟨_, _, he, h1⟩
          · exact hw
          · cases he
            exact absurd h1 hin
        rw [← hI.entries i j hi hj' hw]
        refine delem_frame d1 d3 ?_ (by rw [hlay]; exact hi) (by rw [hlay]; exact hj') ?_ ?_
        · rw [hlay]; exact Kern.strideOk_of h.dorder h.dstride
        · rintro a b ⟨_, h2, _, h4⟩
          rw [hlay]; omega
        · rintro ⟨h1, h2, h3, h4⟩
          exact hin ⟨h1, by omega, h3, by omega⟩
    · refine DOutside.trans (hI.rest.mono ?_) hI.dsame (d3.mono ?_)
      · rintro i j ⟨h1, h2, h3⟩
        exact ⟨h1, h2, Flow.written_mono h3⟩
      · rintro i j ⟨h1, h2, h3, h4⟩
        exact ⟨by omega, by omega, start, stop, by simp, h1, by omega, h3, by omega⟩

theorem runOps_inv (ok : PathOk P ml) {jb : Job} {m0 : Mem Int} {ops : List Op} (h : JobOk P.kc jb m0) (ho : Ordered P.kc jb m0 ops) :
    ∃ m', runOps P jb ops m0 = .ok m' ∧ Inv ml jb m0 ops m' := by
  suffices H : ∀ (post pre : List Op) (m : Mem Int), ops = pre ++ post → Inv ml jb m0 pre m →
      ∃ m', runOps P jb post m = .ok m' ∧ Inv ml jb m0 ops m' from
    H ops [] m0 rfl (Inv.start _ _ _)
  intro post
  induction post with
  | nil =>
    intro pre m he hI
    rw [List.append_nil] at he
    subst he
    exact ⟨m, rfl, hI⟩
  | cons op post ih =>
    intro pre m he hI
    have hstep : ∃ m', step P jb m op = .ok m' ∧ Inv ml jb m0 (pre ++ [op]) m' := by
      cases op with
      | pack s lo hi => exact pack_step ok h hI (ho.packs s lo hi (by rw [he]; simp))
      | kernel start stop =>
        exact kernel_step ok h hI (ho.kernels start stop (by rw [he]; simp)) (ho.first pre start stop post he)
    obtain ⟨m1, e1, hI1⟩ := hstep
    obtain ⟨m2, e2, hI2⟩ := ih (pre ++ [op]) m1 (by rw [he]; simp) hI1
    refine ⟨m2, ?_, hI2⟩
    unfold runOps
    rw [e1]
    exact e2

end

end Ruy.Simd.Flow16

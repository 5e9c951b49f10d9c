import Verif.Simd.Flow
import Verif.Simd.RowProps
import Verif.Simd.KernValue
/-
Packing and kernels of the x86 paths together: lemmas.
-/
namespace Ruy.Simd.Flow
open Ruy.Mat Ruy.Mul
open Ruy.Front (ScalarType MulParams Typed)
open Ruy.TrMul (Mem setSide)
open Ruy.Simd.Pack (gval gsum Is8 Bounds Filled)

/-- One side as CreatePackedLayout sets it up: the packed matrix is large enough, offsets are ints, and
the sums cannot overflow. -/
structure SideOk (kc : Nat) (t : ScalarType) (src : Mul.Mat Int) (p : PMat Int) : Prop where
  ty : Is8 t
  typed : Typed t src
  layout : createPackedLayout src.layout ⟨.colMajor, 4, kc⟩ = .ok p.layout
  zp : p.zp = Front.packInt t .int8 src.zp
  sums : p.sums.isSome
  depth : p.layout.rows < 2 ^ 24
  fits : PFits p
  source : DFits src
  step : src.layout.order = .colMajor → ∀ c, c < src.layout.cols → src.layout.stride * c < 2 ^ 31

theorem SideOk.same {kc : Nat} {t : ScalarType} {src : Mul.Mat Int} {p q : PMat Int}
    (h : SideOk kc t src p) (hs : SameShape p q) : SideOk kc t src q :=
  ⟨h.ty, h.typed, by rw [hs.layout]; exact h.layout, by rw [hs.zp]; exact h.zp,
    by rw [hs.sums]; exact h.sums, by rw [hs.layout]; exact h.depth, h.fits.same hs, h.source, h.step⟩

theorem packInt_range {t : ScalarType} (x : Int) :
    -128 ≤ Front.packInt t .int8 x ∧ Front.packInt t .int8 x ≤ 127 := by
  unfold Front.packInt ScalarType.wrap
  show -128 ≤ (_ - -128) % (127 - -128 + 1) + -128 ∧ (_ - -128) % (127 - -128 + 1) + -128 ≤ (127 : Int)
  rw [show (127 - -128 + 1 : Int) = 256 by norm_num]
  omega

theorem gval_range {t : ScalarType} {src : Mul.Mat Int} {zp : Int} (hz : -128 ≤ zp ∧ zp ≤ 127) (r c : Nat) :
    -128 ≤ gval t src zp r c ∧ gval t src zp r c ≤ 127 := by
  unfold gval
  split
  · exact packInt_range _
  · exact hz

theorem sum_bound {f : Nat → Int} (n : Nat) (h : ∀ r, -128 ≤ f r ∧ f r ≤ 127) :
    -128 * (n : Int) ≤ ∑ r ∈ Finset.range n, f r ∧ ∑ r ∈ Finset.range n, f r ≤ 127 * (n : Int) := by
  induction n with
  | zero => simp
  | succ n ih =>
    rw [Finset.sum_range_succ]
    have := h n
    push_cast
    omega

theorem SideOk.facts {kc : Nat} (hkc : kc = 8 ∨ kc = 16) {t : ScalarType} {src : Mul.Mat Int} {p : PMat Int}
    (h : SideOk kc t src p) : PackedOk p.layout ∧ p.layout.order = .colMajor ∧
      p.layout.stride = p.layout.rows ∧ p.layout.kernel = ⟨.colMajor, 4, kc⟩ ∧
      p.layout.rows = (src.layout.rows + 3) / 4 * 4 ∧ src.layout.cols ≤ p.layout.cols ∧
      p.layout.cols < src.layout.cols + kc ∧ p.layout.cols ≤ (src.layout.cols + kc - 1) / kc * kc ∧
      p.layout.cols % kc = 0 ∧ (-128 ≤ p.zp ∧ p.zp ≤ 127) := by
  obtain ⟨hp, l1, l2, l3, l4, l5, l6, l7⟩ := createPackedLayout_ok h.layout
  have d1 := hp.rows
  have d2 := hp.cols
  rw [l3] at d1 d2
  dsimp only at d1 d2 l5 l7
  obtain ⟨m, hm⟩ := d1
  obtain ⟨n, hn⟩ := d2
  refine ⟨hp, l1, l2, l3, by omega, l6, l7, ?_, ?_, ?_⟩
  · rcases hkc with rfl | rfl <;> omega
  · rw [hn]; simp
  · rw [h.zp]; exact packInt_range _

/-- The columns [lo, hi) have been packed: source columns hold the re-encoded source. -/
structure Packs (t : ScalarType) (src : Mul.Mat Int) (lo hi : Nat) (p q : PMat Int) : Prop where
  shape : SameShape p q
  out : Outside (fun c => lo ≤ c ∧ c < hi) p q
  data : ∀ r c, r < p.layout.rows → lo ≤ c → c < hi → c < src.layout.cols →
    Kern.pat q r c = gval t src p.zp r c
  sums : ∀ c, lo ≤ c → c < hi → c < src.layout.cols → Kern.psum q c = gsum t src p.zp p.layout.rows c

theorem psum_some {q : PMat Int} {b : Buf Int} (h : q.sums = some b) (c : Nat) : Kern.psum q c = b.val c := by
  unfold Kern.psum; rw [h]

theorem packs_of_filled {t : ScalarType} {src : Mul.Mat Int} {lo hi : Nat} {p q : PMat Int}
    {val : Nat → Nat → Int} {sumv : Nat → Int} (hsome : p.sums.isSome) (hf : Filled val sumv lo hi p q)
    (h1 : ∀ r c, r < p.layout.rows → c < src.layout.cols → val r c = gval t src p.zp r c)
    (h2 : ∀ c, lo ≤ c → c < hi → c < src.layout.cols → sumv c = gsum t src p.zp p.layout.rows c) :
    Packs t src lo hi p q := by
  refine ⟨hf.shape, hf.out, fun r c hr hl hh hc => ?_, fun c hl hh hc => ?_⟩
  · unfold Kern.pat
    rw [hf.shape.layout, hf.data r c hr hl hh, h1 r c hr hc]
  · obtain ⟨b, hb⟩ := Option.isSome_iff_exists.1 (show q.sums.isSome by rw [hf.shape.sums]; exact hsome)
    rw [psum_some hb, hf.sums b c hb hl hh, h2 c hl hh hc]

theorem bounds_of {kc : Nat} (hkc : kc = 8 ∨ kc = 16) {t : ScalarType} {src : Mul.Mat Int} {p : PMat Int}
    (h : SideOk kc t src p) {lo hi : Nat} (hhi : hi ≤ p.layout.cols) : Bounds src lo hi p := by
  obtain ⟨hp, l1, l2, l3, l4, l5, l6, l7, l8, l9⟩ := h.facts hkc
  refine ⟨fun r c hr _ hc => ?_, fun r c hr hc _ _ _ => (h.source r c hr hc).2, fun b c hb _ hc => ?_⟩
  · have h1 := poff_lt hp hr (show c < p.layout.cols by omega)
    have h2 := h.fits.int
    have h3 := h.fits.data
    omega
  · have := h.fits.sums b hb
    omega

theorem col_setup {kc : Nat} (hkc : kc = 8 ∨ kc = 16) {t : ScalarType} {src : Mul.Mat Int} {p : PMat Int}
    (h : SideOk kc t src p) (ho : src.layout.order = .colMajor) {lo hi : Nat} (hlo : lo % kc = 0)
    (hm : hi % kc = 0) (hlt : lo < hi) (hhi : hi ≤ p.layout.cols) : Pack.Setup kc t src lo hi p := by
  obtain ⟨hp, l1, l2, l3, l4, l5, l6, l7, l8, l9⟩ := h.facts hkc
  refine ⟨h.ty, ho, l1, l3, l4, hp, l9, hlo, hhi, ?_, by omega, fun c _ _ hc => h.step ho c hc,
    fun h0 c _ => ?_⟩
  · rcases hkc with rfl | rfl <;> omega
  · rw [l2, h0, Nat.zero_mul]; decide

theorem row_setup {kc : Nat} (hkc : kc = 8 ∨ kc = 16) {t : ScalarType} {src : Mul.Mat Int} {p : PMat Int}
    (h : SideOk kc t src p) (ho : src.layout.order = .rowMajor) {lo hi : Nat} (hlo : lo % kc = 0)
    (hm : hi % kc = 0) (hlt : lo < hi) (hhi : hi ≤ p.layout.cols) : Row.Setup kc t src lo hi p := by
  obtain ⟨hp, l1, l2, l3, l4, l5, l6, l7, l8, l9⟩ := h.facts hkc
  have hd := h.depth
  refine ⟨h.ty, ho, l1, l3, l4, hp, h.zp.symm, hlo, hhi, hlt, ?_, by omega,
    fun r c hr _ _ hc => (h.source r c hr hc).1, ?_, fun n c hn _ _ => ?_⟩
  · rcases hkc with rfl | rfl <;> omega
  · rw [l2]; rcases hkc with rfl | rfl <;> omega
  · have hb : ∀ r, -128 ≤ Row.rval t src p.zp r c ∧ Row.rval t src p.zp r c ≤ 127 := by
      intro r
      unfold Row.rval
      split
      · exact gval_range l9 r c
      · decide
    have := sum_bound n hb
    unfold Row.rsum Front.InI32
    omega

/-- A pack function of a path, for sources stored in `o`. -/
def PackFn (kc : Nat) (o : Order) (f : ScalarType → Mul.Mat Int → Nat → Nat → PMat Int → C (PMat Int)) : Prop :=
  ∀ (t : ScalarType) (src : Mul.Mat Int) (lo hi : Nat) (p : PMat Int), SideOk kc t src p →
    src.layout.order = o → lo % kc = 0 → hi % kc = 0 → lo < hi → hi ≤ p.layout.cols →
    ∃ q, f t src lo hi p = .ok q ∧ Packs t src lo hi p q

theorem packFn8 {isa : Pack.Isa} (ok : Pack.IsaOk isa) :
    PackFn 8 .colMajor (Pack.run 8 (Pack.pack8 isa)) := by
  intro t src lo hi p h ho h1 h2 h3 h4
  obtain ⟨q, e, hf⟩ := Pack.run8_filled ok (col_setup (Or.inl rfl) h ho h1 h2 h3 h4)
    (bounds_of (Or.inl rfl) h h4)
  exact ⟨q, e, packs_of_filled h.sums hf (fun _ _ _ _ => rfl) (fun _ _ _ _ => rfl)⟩

theorem packFn16 {isa : Pack.Isa} (ok : Pack.IsaOk isa) :
    PackFn 16 .colMajor (Pack.run 16 (Pack.pack16 isa)) := by
  intro t src lo hi p h ho h1 h2 h3 h4
  obtain ⟨_, _, _, _, _, _, _, _, _, l9⟩ := h.facts (Or.inr rfl)
  have hd := h.depth
  obtain ⟨q, e, hf⟩ := Pack.run16_filled ok (col_setup (Or.inr rfl) h ho h1 h2 h3 h4)
    (bounds_of (Or.inr rfl) h h4) (by
      unfold Front.InI32
      constructor <;> nlinarith)
  refine ⟨q, e, packs_of_filled h.sums hf (fun r c _ hc => ?_) (fun _ _ _ _ => rfl)⟩
  unfold Pack.val512
  rw [if_neg (by omega)]

theorem packFnRow {isa : Row.Isa} (ok : Row.IsaOk isa) (hkc : isa.kc = 8 ∨ isa.kc = 16) :
    PackFn isa.kc .rowMajor (Row.run isa) := by
  intro t src lo hi p h ho h1 h2 h3 h4
  have hs := row_setup hkc h ho h1 h2 h3 h4
  obtain ⟨q, e, hf⟩ := Row.run_filled ok hs (bounds_of hkc h h4) h.sums
  refine ⟨q, e, packs_of_filled h.sums hf (fun r c _ hc => ?_) (fun c hl hh hc => ?_)⟩
  · unfold Row.rval; rw [if_pos hc]
  · have hp := hs.pre p.layout.rows c (Nat.le_refl _) hl hh
    rw [Row.rsum_source hc] at hp ⊢
    refine Pack.eq_gsum hp ?_
    push_cast
    rfl

/-- What is known of a path. -/
structure PathOk (P : Path) (ml : Int → Int → Int → Int) : Prop where
  kernel : Kern.SingleOk P.kernel ml
  col : PackFn P.kernel.isa.kc .colMajor P.packCol
  row : PackFn P.kernel.isa.kc .rowMajor P.packRow

theorem path2_ok : PathOk path2 lane := ⟨Kern.single2_ok, packFn8 Pack.avx2Ok, packFnRow Row.avx2Ok (Or.inl rfl)⟩
theorem pathAvx_ok : PathOk pathAvx lane :=
  ⟨Kern.singleAvx_ok, packFn8 Pack.avxOk, packFnRow Row.avxOk (Or.inl rfl)⟩
theorem path512_ok : PathOk path512 lane512 :=
  ⟨Kern.single512_ok, packFn16 Pack.avx512Ok, packFnRow Row.avx512Ok (Or.inr rfl)⟩

theorem packSide_of {P : Path} {ml : Int → Int → Int → Int} (ok : PathOk P ml) {t : ScalarType}
    {src : Mul.Mat Int} {lo hi : Nat} {p : PMat Int} (h : SideOk P.kernel.isa.kc t src p)
    (h1 : lo % P.kernel.isa.kc = 0) (h2 : hi % P.kernel.isa.kc = 0) (h3 : lo < hi) (h4 : hi ≤ p.layout.cols) :
    ∃ q, packSide P t src lo hi p = .ok q ∧ Packs t src lo hi p q := by
  unfold packSide
  cases ho : src.layout.order with
  | colMajor => rw [if_pos rfl]; exact ok.col t src lo hi p h ho h1 h2 h3 h4
  | rowMajor => rw [if_neg (by simp)]; exact ok.row t src lo hi p h ho h1 h2 h3 h4

end Ruy.Simd.Flow

import Verif.Simd.RowLemmas
import Verif.Simd.PackProps
/-
Property C49 for 8-bit row-major sources: AVX2, AVX and AVX-512 against the generic packing code.

The SIMD code adds up most columns with wrap-around but the columns after the last full vector in an
`int32_t`; the generic code always in an `int32_t`.  The comparison is therefore with the generic code
in which overflow is undefined (`Arith.int32`).
-/
namespace Ruy.Simd.Row
open Ruy.Mat Ruy.Mul Ruy.Simd.Pack

theorem packedVal_gval32 {t : Front.ScalarType} {src : Mul.Mat Int} {zp : Int} {r c : Nat} {v : Int}
    (h : packedVal Arith.int32 (Front.packInt t .int8) src zp r c = .ok v) :
    v = gval t src zp r c := packedVal_gval h

/-- The generic sum, and all its partial sums. -/
theorem colSum_exact {t : Front.ScalarType} {src : Mul.Mat Int} {zp : Int} {rows c : Nat} {s : Int}
    (h : colSum Arith.int32 (Front.packInt t .int8) src zp rows c = .ok s) :
    s = ∑ r ∈ Finset.range rows, gval t src zp r c ∧
      ∀ n, n ≤ rows → Front.InI32 (∑ r ∈ Finset.range n, gval t src zp r c) := by
  unfold colSum at h
  exact forUpTo_inv (P := fun m (x : Int) => x = ∑ r ∈ Finset.range m, gval t src zp r c ∧
      ∀ n, n ≤ m → Front.InI32 (∑ r ∈ Finset.range n, gval t src zp r c))
    (by
      refine ⟨rfl, fun n hn => ?_⟩
      rw [show n = 0 by omega, Finset.sum_range_zero]
      unfold Front.InI32; decide)
    (by
      rintro n x x' _ ⟨i1, i2⟩ hstep
      obtain ⟨v, hv, hstep⟩ := C.bind_ok hstep
      obtain ⟨e, hr⟩ := C.i32_ok hstep
      have e' : x' = ∑ r ∈ Finset.range (n + 1), gval t src zp r c := by
        rw [Finset.sum_range_succ, ← i1, ← packedVal_gval32 hv]
        exact e
      refine ⟨e', fun m hm => ?_⟩
      by_cases hmn : m ≤ n
      · exact i2 m hmn
      · rw [show m = n + 1 by omega, ← e']
        rw [e]; exact hr) h

/-- The effect of the generic code, and what its success tells. -/
theorem generic_exact {t : Front.ScalarType} {src : Mul.Mat Int} {lo hi : Nat} {p q : PMat Int}
    (hp : PackedOk p.layout) (hhi : hi ≤ p.layout.cols)
    (hrows : src.layout.rows ≤ p.layout.rows) (hsome : p.sums.isSome)
    (h : runPack Arith.int32 (Front.packInt t .int8) src lo hi p = .ok q) :
    Bounds src lo hi p ∧
    Filled (gval t src p.zp) (fun c => ∑ r ∈ Finset.range p.layout.rows, gval t src p.zp r c) lo hi p q ∧
    (∀ n c, n ≤ p.layout.rows → lo ≤ c → c < hi →
      Front.InI32 (∑ r ∈ Finset.range n, gval t src p.zp r c)) ∧
    (∀ r c, r < src.layout.rows → lo ≤ c → c < hi → c < src.layout.cols →
      off src.layout r c < 2 ^ 31) := by
  obtain ⟨h1, h2, h3⟩ := runPack_ok hp hhi h
  have key : ∀ r c, r < p.layout.rows → lo ≤ c → c < hi →
      poff p.layout r c < 2 ^ 31 ∧ poff p.layout r c < p.data.size ∧
        q.data.val (poff p.layout r c) = gval t src p.zp r c := by
    intro r c hr hl hh
    obtain ⟨v, e1, e2⟩ := (h3 c hl hh).data r (by rw [h1.layout]; exact hr)
    rw [h1.zp] at e2
    obtain ⟨o, f1, f2, f3⟩ := elem_ok e1
    rw [h1.layout, poffset_eq hp.kernel] at f1
    obtain ⟨g1, g2⟩ := C.int_ok f1
    rw [h1.size] at f2
    subst g1
    exact ⟨g2, f2, by rw [← f3, packedVal_gval32 e2]⟩
  have keysrc : ∀ r c, r < src.layout.rows → c < src.layout.cols → lo ≤ c → c < hi →
      off src.layout r c < 2 ^ 31 ∧ off src.layout r c < src.data.size := by
    intro r c hr hc hl hh
    obtain ⟨v, _, e2⟩ := (h3 c hl hh).data r (by rw [h1.layout]; omega)
    unfold packedVal at e2
    rw [if_pos ⟨hc, hr⟩] at e2
    obtain ⟨x, hx, _⟩ := C.bind_ok e2
    unfold Mat.elem at hx
    obtain ⟨o, ho, hx⟩ := C.bind_ok hx
    rw [offset_eq] at ho
    obtain ⟨g1, g2⟩ := C.int_ok ho
    subst g1
    exact ⟨g2, (Buf.read_ok hx).1⟩
  obtain ⟨b', hb'⟩ := Option.isSome_iff_exists.1 (show q.sums.isSome by rw [h1.sums]; exact hsome)
  have keys : ∀ c, lo ≤ c → c < hi → c < b'.size ∧
      b'.val c = ∑ r ∈ Finset.range p.layout.rows, gval t src p.zp r c ∧
      ∀ n, n ≤ p.layout.rows → Front.InI32 (∑ r ∈ Finset.range n, gval t src p.zp r c) := by
    intro c hl hh
    obtain ⟨s, e1, e2⟩ := (h3 c hl hh).sums (by rw [hb']; rfl)
    rw [h1.zp, h1.layout] at e2
    unfold readSum at e1
    rw [hb'] at e1
    obtain ⟨f1, f2⟩ := Buf.read_ok e1
    obtain ⟨g1, g2⟩ := colSum_exact e2
    exact ⟨f1, by rw [← f2, g1], g2⟩
  refine ⟨⟨fun r c hr hl hh => ⟨(key r c hr hl hh).1, (key r c hr hl hh).2.1⟩,
      fun r c hr hc _ hl hh => (keysrc r c hr hc hl hh).2, ?_⟩,
    ⟨h1, h2, fun r c hr hl hh => (key r c hr hl hh).2.2, ?_⟩,
    fun n c hn hl hh => (keys c hl hh).2.2 n hn, fun r c hr hl hh hc => (keysrc r c hr hc hl hh).1⟩
  · intro b c hb hl hh
    rw [← h1.sumsSize b b' hb hb']
    exact (keys c hl hh).1
  · intro b c hb hl hh
    rw [hb'] at hb
    cases hb
    exact (keys c hl hh).2.1

theorem rsum_source {t : Front.ScalarType} {src : Mul.Mat Int} {zp : Int} {n c : Nat}
    (h : c < src.layout.cols) : rsum t src zp n c = ∑ r ∈ Finset.range n, gval t src zp r c := by
  unfold rsum
  refine Finset.sum_congr rfl (fun r _ => ?_)
  unfold rval
  rw [if_pos h]

theorem rval_zero {t : Front.ScalarType} {src : Mul.Mat Int} (r c : Nat) :
    rval t src 0 r c = gval t src 0 r c := by
  unfold rval
  split
  · rfl
  · unfold gval
    rw [if_neg (by omega)]

/-- The layout CreatePackedLayout makes meets the assumptions. -/
theorem setup_of {kc : Nat} (hkc : kc = 8 ∨ kc = 16) {t : Front.ScalarType} {src : Mul.Mat Int}
    {lo hi : Nat} {p q : PMat Int} (ht : t = .int8 ∨ t = .uint8)
    (ho : src.layout.order = .rowMajor)
    (hl : createPackedLayout src.layout ⟨.colMajor, 4, kc⟩ = .ok p.layout)
    (hzp : Front.packInt t .int8 src.zp = p.zp) (hlo : lo % kc = 0) (hhi : hi ≤ p.layout.cols)
    (hne : lo < hi) (hstep : p.layout.stride * kc < 2 ^ 31) (hsome : p.sums.isSome)
    (h : runPack Arith.int32 (Front.packInt t .int8) src lo hi p = .ok q) :
    Setup kc t src lo hi p := by
  obtain ⟨hp, l1, l2, l3, l4, l5, l6, l7⟩ := createPackedLayout_ok hl
  obtain ⟨_, _, hpre, hint⟩ := generic_exact hp hhi l4 hsome h
  have d1 := hp.rows
  have d2 := hp.cols
  rw [l3] at d1 d2
  dsimp only at d1 d2 l5 l7
  obtain ⟨m, hm⟩ := d1
  obtain ⟨n, hn⟩ := d2
  have hlen : (hi - lo) % kc = 0 := by
    unfold runPack at h
    obtain ⟨_, hc, _⟩ := C.bind_ok h
    rw [l3] at hc
    exact C.check_ok hc
  refine ⟨ht, ho, l1, l3, by omega, hp, hzp, hlo, hhi, hne, hlen, ?_, hint, hstep, ?_⟩
  · rcases hkc with rfl | rfl <;> omega
  · intro n c hn h1 h2
    by_cases hc : c < src.layout.cols
    · rw [rsum_source hc]
      exact hpre n c hn h1 h2
    · have : rsum t src p.zp n c = 0 := by
        unfold rsum
        refine Finset.sum_eq_zero (fun r _ => ?_)
        unfold rval
        rw [if_neg hc]
      rw [this]
      unfold Front.InI32; decide

/-- Agreement of a packed matrix with the one from the generic code: everything except padding
columns, and these as well if the zero point is 0 or there are none. -/
structure Agrees (src : Mul.Mat Int) (lo hi : Nat) (p q q' : PMat Int) : Prop where
  layout : q'.layout = q.layout
  zp : q'.zp = q.zp
  size : q'.data.size = q.data.size
  elem : ∀ r c, r < p.layout.rows → c < p.layout.cols →
    (c < src.layout.cols ∨ c < lo ∨ hi ≤ c) → q'.elem r c = q.elem r c
  sum : ∀ c, (c < src.layout.cols ∨ c < lo ∨ hi ≤ c) → readSum q' c = readSum q c
  equal : p.zp = 0 ∨ hi ≤ src.layout.cols → q' = q

theorem agrees_of {isa : Isa} (ok : IsaOk isa) {t : Front.ScalarType} {src : Mul.Mat Int} {lo hi : Nat}
    {p q : PMat Int}
    (ht : t = .int8 ∨ t = .uint8) (ho : src.layout.order = .rowMajor)
    (hl : createPackedLayout src.layout ⟨.colMajor, 4, isa.kc⟩ = .ok p.layout)
    (hzp : Front.packInt t .int8 src.zp = p.zp) (hlo : lo % isa.kc = 0) (hhi : hi ≤ p.layout.cols)
    (hne : lo < hi) (hstep : p.layout.stride * isa.kc < 2 ^ 31) (hsome : p.sums.isSome)
    (h : runPack Arith.int32 (Front.packInt t .int8) src lo hi p = .ok q) :
    ∃ q', run isa t src lo hi p = .ok q' ∧ Agrees src lo hi p q q' ∧
      Filled (rval t src p.zp) (rsum t src p.zp p.layout.rows) lo hi p q' := by
  have hs := setup_of ok.kc ht ho hl hzp hlo hhi hne hstep hsome h
  obtain ⟨hb, hf, _, _⟩ := generic_exact hs.packedOk hhi (by rw [hs.rows]; omega) hsome h
  obtain ⟨q', e, hf'⟩ := run_filled ok hs hb hsome
  have hll : q'.layout = q.layout := hf'.shape.layout.trans hf.shape.layout.symm
  have hsz : q'.data.size = q.data.size := hf'.shape.size.trans hf.shape.size.symm
  refine ⟨q', e, ⟨hll, hf'.shape.zp.trans hf.shape.zp.symm, hsz, ?_, ?_, ?_⟩, hf'⟩
  · intro r c hr hc hcase
    unfold PMat.elem
    rw [hll, hf.shape.layout, poffset_eq hs.packedOk.kernel]
    have key : q'.data.val (poff p.layout r c) = q.data.val (poff p.layout r c) := by
      by_cases hin : lo ≤ c ∧ c < hi
      · rw [hf.data r c hr hin.1 hin.2, hf'.data r c hr hin.1 hin.2]
        unfold rval
        rw [if_pos (by omega)]
      · have hn : ∀ r' c', r' < p.layout.rows → lo ≤ c' ∧ c' < hi →
            poff p.layout r c ≠ poff p.layout r' c' := by
          intro r' c' hr' hc' he
          have := (poff_inj hs.packedOk hr hc hr' (by omega) he).2
          omega
        rw [hf.out.data _ hn, hf'.out.data _ hn]
    by_cases hi : poff p.layout r c < 2 ^ 31
    · rw [C.int_of hi, C.ok_bind, C.ok_bind]
      unfold Buf.read
      rw [hsz, key]
    · unfold C.int
      rw [if_neg hi]
      rfl
  · intro c hcase
    obtain ⟨b, hbs⟩ := Option.isSome_iff_exists.1 hsome
    obtain ⟨b1, hb1⟩ := Option.isSome_iff_exists.1 (show q.sums.isSome by rw [hf.shape.sums]; exact hsome)
    obtain ⟨b2, hb2⟩ := Option.isSome_iff_exists.1 (show q'.sums.isSome by rw [hf'.shape.sums]; exact hsome)
    unfold readSum Buf.read
    rw [hb1, hb2]
    dsimp only
    rw [hf.shape.sumsSize b b1 hbs hb1, hf'.shape.sumsSize b b2 hbs hb2]
    have : b2.val c = b1.val c := by
      by_cases hin : lo ≤ c ∧ c < hi
      · rw [hf.sums b1 c hb1 hin.1 hin.2, hf'.sums b2 c hb2 hin.1 hin.2, rsum_source (by omega)]
      · rw [hf.out.sums b b1 c hbs hb1 hin, hf'.out.sums b b2 c hbs hb2 hin]
    rw [this]
  · intro hcase
    have hv : ∀ r c, c < hi → rval t src p.zp r c = gval t src p.zp r c := by
      intro r c hc
      rcases hcase with h0 | h0
      · rw [h0]; exact rval_zero r c
      · unfold rval
        rw [if_pos (by omega)]
    refine filled_unique hf' ⟨hf.shape, hf.out, fun r c hr h1 h2 => ?_, fun b c hb' h1 h2 => ?_⟩
    · rw [hf.data r c hr h1 h2, hv r c h2]
    · rw [hf.sums b c hb' h1 h2]
      exact Finset.sum_congr rfl (fun r _ => (hv r c h2).symm)

/-- C49 for row-major sources and AVX2.  What is missing for equality: padding columns, see
`c49_row_padding`. -/
theorem c49_row_avx2_partial {t : Front.ScalarType} {src : Mul.Mat Int} {lo hi : Nat} {p q : PMat Int}
    (ht : t = .int8 ∨ t = .uint8) (ho : src.layout.order = .rowMajor)
    (hl : createPackedLayout src.layout ⟨.colMajor, 4, 8⟩ = .ok p.layout)
    (hzp : Front.packInt t .int8 src.zp = p.zp) (hlo : lo % 8 = 0) (hhi : hi ≤ p.layout.cols)
    (hne : lo < hi) (hstep : p.layout.stride * 8 < 2 ^ 31) (hsome : p.sums.isSome)
    (h : runPack Arith.int32 (Front.packInt t .int8) src lo hi p = .ok q) :
    ∃ q', run avx2 t src lo hi p = .ok q' ∧ Agrees src lo hi p q q' := by
  obtain ⟨q', e, ha, _⟩ := agrees_of avx2Ok ht ho hl hzp hlo hhi hne hstep hsome h
  exact ⟨q', e, ha⟩

/-- C49 for row-major sources and AVX. -/
theorem c49_row_avx_partial {t : Front.ScalarType} {src : Mul.Mat Int} {lo hi : Nat} {p q : PMat Int}
    (ht : t = .int8 ∨ t = .uint8) (ho : src.layout.order = .rowMajor)
    (hl : createPackedLayout src.layout ⟨.colMajor, 4, 8⟩ = .ok p.layout)
    (hzp : Front.packInt t .int8 src.zp = p.zp) (hlo : lo % 8 = 0) (hhi : hi ≤ p.layout.cols)
    (hne : lo < hi) (hstep : p.layout.stride * 8 < 2 ^ 31) (hsome : p.sums.isSome)
    (h : runPack Arith.int32 (Front.packInt t .int8) src lo hi p = .ok q) :
    ∃ q', run avx t src lo hi p = .ok q' ∧ Agrees src lo hi p q q' := by
  obtain ⟨q', e, ha, _⟩ := agrees_of avxOk ht ho hl hzp hlo hhi hne hstep hsome h
  exact ⟨q', e, ha⟩

/-- C49 for row-major sources and AVX-512. -/
theorem c49_row_avx512_partial {t : Front.ScalarType} {src : Mul.Mat Int} {lo hi : Nat} {p q : PMat Int}
    (ht : t = .int8 ∨ t = .uint8) (ho : src.layout.order = .rowMajor)
    (hl : createPackedLayout src.layout ⟨.colMajor, 4, 16⟩ = .ok p.layout)
    (hzp : Front.packInt t .int8 src.zp = p.zp) (hlo : lo % 16 = 0) (hhi : hi ≤ p.layout.cols)
    (hne : lo < hi) (hstep : p.layout.stride * 16 < 2 ^ 31) (hsome : p.sums.isSome)
    (h : runPack Arith.int32 (Front.packInt t .int8) src lo hi p = .ok q) :
    ∃ q', run avx512 t src lo hi p = .ok q' ∧ Agrees src lo hi p q q' := by
  obtain ⟨q', e, ha, _⟩ := agrees_of avx512Ok ht ho hl hzp hlo hhi hne hstep hsome h
  exact ⟨q', e, ha⟩

/-! ### Examples -/

/-- A row-major source of 5 rows and 3 columns with zero point 3. -/
def exSrc : Mul.Mat Int := ⟨⟨5, 3, 4, .rowMajor⟩, ⟨20, fun i => 10 * i - 77⟩, 3⟩

/-- Whether the generic code packs. -/
def packs (t : Front.ScalarType) (src : Mul.Mat Int) (lo hi : Nat) (p : PMat Int) : Bool :=
  match runPack Arith.int32 (Front.packInt t .int8) src lo hi p with
  | .ok _ => true
  | .error _ => false

theorem packs_ok {t : Front.ScalarType} {src : Mul.Mat Int} {lo hi : Nat} {p : PMat Int}
    (h : packs t src lo hi p = true) :
    ∃ q, runPack Arith.int32 (Front.packInt t .int8) src lo hi p = .ok q := by
  unfold packs at h
  split at h
  · exact ⟨_, by assumption⟩
  · cases h

example : ∃ q q', runPack Arith.int32 (Front.packInt .int8 .int8) exSrc 0 8 (exP 8) = .ok q ∧
    run avx2 .int8 exSrc 0 8 (exP 8) = .ok q' ∧ Agrees exSrc 0 8 (exP 8) q q' := by
  obtain ⟨q, h⟩ := packs_ok (show packs .int8 exSrc 0 8 (exP 8) = true by decide +kernel)
  obtain ⟨q', e, ha⟩ := c49_row_avx2_partial (Or.inl rfl) rfl rfl rfl rfl (by decide) (by decide)
    (by decide) rfl h
  exact ⟨q, q', h, e, ha⟩

example : ∃ q q', runPack Arith.int32 (Front.packInt .int8 .int8) exSrc 0 16 (exP 16) = .ok q ∧
    run avx512 .int8 exSrc 0 16 (exP 16) = .ok q' ∧ Agrees exSrc 0 16 (exP 16) q q' := by
  obtain ⟨q, h⟩ := packs_ok (show packs .int8 exSrc 0 16 (exP 16) = true by decide +kernel)
  obtain ⟨q', e, ha⟩ := c49_row_avx512_partial (Or.inl rfl) rfl rfl rfl rfl (by decide) (by decide)
    (by decide) rfl h
  exact ⟨q, q', h, e, ha⟩

/-- The negative part of C49 for row-major sources: the generic code fills padding columns with the
zero point, here 3, and sums that up; the SIMD code fills them with 0, also the sums. -/
theorem c49_row_padding : ∃ q q',
    runPack Arith.int32 (Front.packInt .int8 .int8) exSrc 0 8 (exP 8) = .ok q ∧
    run avx2 .int8 exSrc 0 8 (exP 8) = .ok q' ∧
    q.elem 0 3 = .ok 3 ∧ q'.elem 0 3 = .ok 0 ∧
    q.sums.map (fun b => b.val 3) = some 24 ∧ q'.sums.map (fun b => b.val 3) = some 0 := by
  obtain ⟨q, h⟩ := packs_ok (show packs .int8 exSrc 0 8 (exP 8) = true by decide +kernel)
  have hs := setup_of (p := exP 8) (Or.inl rfl) (Or.inl rfl) rfl rfl rfl rfl (by decide) (by decide)
    (by decide) rfl h
  obtain ⟨hb, hf, _, _⟩ := generic_exact hs.packedOk (by decide) (by decide) rfl h
  obtain ⟨q', e, hf'⟩ := run_filled avx2Ok hs hb rfl
  have v := hf.data 0 3 (by decide) (by decide) (by decide)
  have v' := hf'.data 0 3 (by decide) (by decide) (by decide)
  have hp : poffset (exP 8).layout 0 3 = .ok 12 := by decide
  have hpo : poff (exP 8).layout 0 3 = 12 := by decide
  rw [hpo] at v v'
  refine ⟨q, q', h, e, ?_, ?_, ?_, ?_⟩
  · unfold PMat.elem
    rw [hf.shape.layout, hp, C.ok_bind, Buf.read_of (by rw [hf.shape.size]; decide), v]
    decide
  · unfold PMat.elem
    rw [hf'.shape.layout, hp, C.ok_bind, Buf.read_of (by rw [hf'.shape.size]; decide), v']
    decide
  · obtain ⟨b, hb⟩ := Option.isSome_iff_exists.1 (show q.sums.isSome by rw [hf.shape.sums]; rfl)
    rw [hb, Option.map_some, hf.sums b 3 hb (by decide) (by decide)]
    decide +kernel
  · obtain ⟨b, hb⟩ := Option.isSome_iff_exists.1 (show q'.sums.isSome by rw [hf'.shape.sums]; rfl)
    rw [hb, Option.map_some, hf'.sums b 3 hb (by decide) (by decide)]
    decide +kernel

/-- A packed matrix without sums, which the generic code and the column-major SIMD code accept, is
undefined behaviour here. -/
theorem c49_row_null_sums (isa : Isa) (t : Front.ScalarType) (src : Mul.Mat Int) (lo hi : Nat)
    (p : PMat Int) (h : p.sums = none) : ∀ q, run isa t src lo hi p ≠ .ok q := by
  intro q e
  unfold run at e
  rw [h] at e
  obtain ⟨_, _, e⟩ := C.bind_ok e
  cases e

example : packs .int8 exSrc 0 8 { exP 8 with sums := none } = true := by decide +kernel

end Ruy.Simd.Row

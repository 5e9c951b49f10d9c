import Verif.Simd.Pack16Run
/-
Property C91: packing of int16 column-major sources for AVX-512 against the generic packing code
(pack.h), which is the specification here (its effect on results is the subject of C01 and C02).
-/
namespace Ruy.Simd.Pack16
open Ruy.Mat Ruy.Mul
open Ruy.Simd.Pack (Filled Bounds filled_unique)

/-- Success of the generic code means that source offsets are ints. -/
theorem generic_int {src : Mul.Mat Int} {lo hi : Nat} {p q : PMat Int}
    (hp : PackedOk p.layout) (hhi : hi ≤ p.layout.cols) (ho : src.layout.order = .colMajor)
    (hr : 0 < src.layout.rows) (hr' : 0 < p.layout.rows)
    (h : runPack Front.wrap32 (Front.packInt .int16 .int16) src lo hi p = .ok q) (c : Nat) (hl : lo ≤ c)
    (hh : c < hi) (hc : c < src.layout.cols) : src.layout.stride * c < 2 ^ 31 := by
  obtain ⟨h1, _, h3⟩ := runPack_ok hp hhi h
  obtain ⟨v, _, e2⟩ := (h3 c hl hh).data 0 (by rw [h1.layout]; exact hr')
  unfold packedVal at e2
  rw [if_pos ⟨hc, hr⟩] at e2
  obtain ⟨x, hx, _⟩ := C.bind_ok e2
  unfold Mat.elem at hx
  obtain ⟨o, ho', hx⟩ := C.bind_ok hx
  rw [offset_eq] at ho'
  have := (C.int_ok ho').2
  unfold off at this
  rw [ho] at this
  dsimp only at this
  rw [Nat.mul_comm]
  omega

/-- The layout CreatePackedLayout makes meets the assumptions of the packing code. -/
theorem setup_of {src : Mul.Mat Int}
    {lo hi : Nat} {p q : PMat Int} (ho : src.layout.order = .colMajor)
    (hl : createPackedLayout src.layout ⟨.colMajor, 4, 16⟩ = .ok p.layout)
    (hzp : -32768 ≤ p.zp ∧ p.zp ≤ 32767) (hlo : lo % 16 = 0) (hhi : hi ≤ p.layout.cols)
    (hint : src.layout.rows = 0 → ∀ c, c < src.layout.cols → src.layout.stride * c < 2 ^ 31)
    (h : runPack Front.wrap32 (Front.packInt .int16 .int16) src lo hi p = .ok q) :
    Setup src lo hi p := by
  obtain ⟨hp, l1, l2, l3, l4, l5, l6, l7⟩ := createPackedLayout_ok hl
  have d1 := hp.rows
  have d2 := hp.cols
  rw [l3] at d1 d2
  dsimp only at d1 d2 l5 l7
  obtain ⟨m, hm⟩ := d1
  obtain ⟨n, hn⟩ := d2
  have hlen : (hi - lo) % 16 = 0 := by
    unfold runPack at h
    obtain ⟨_, hc, _⟩ := C.bind_ok h
    rw [l3] at hc
    exact C.check_ok hc
  refine ⟨ho, l1, l3, by omega, hp, hzp, hlo, hhi, hlen, ?_, fun c h1 h2 h3 => ?_,
    fun h0 c _ => ?_⟩
  · omega
  · by_cases h0 : src.layout.rows = 0
    · exact hint h0 c h3
    · exact generic_int hp hhi ho (by omega) (by omega) h c h1 h2 h3
  · rw [l2, h0, Nat.zero_mul]; decide

/-- C91 for AVX-512.  The packed matrix agrees with the generic one on all source columns, on all
sums and outside of the columns packed.  What is missing for equality: see `c91_padding`. -/
theorem c91_agrees_partial {src : Mul.Mat Int} {lo hi : Nat} {p q : PMat Int}
    (ho : src.layout.order = .colMajor)
    (hl : createPackedLayout src.layout ⟨.colMajor, 4, 16⟩ = .ok p.layout)
    (hzp : -32768 ≤ p.zp ∧ p.zp ≤ 32767) (hlo : lo % 16 = 0) (hhi : hi ≤ p.layout.cols)
    (hint : src.layout.rows = 0 → ∀ c, c < src.layout.cols → src.layout.stride * c < 2 ^ 31)
    (hz : Front.InI32 (p.zp * p.layout.rows))
    (h : runPack Front.wrap32 (Front.packInt .int16 .int16) src lo hi p = .ok q) :
    ∃ q', run src lo hi p = .ok q' ∧ q'.layout = q.layout ∧ q'.zp = q.zp ∧ q'.sums = q.sums ∧
      q'.data.size = q.data.size ∧
      (∀ r c, r < p.layout.rows → c < p.layout.cols →
        (c < src.layout.cols ∨ c < lo ∨ hi ≤ c ∨ p.zp = 0 ∨ r < 16 * (src.layout.rows / 16)) →
        q'.elem r c = q.elem r c) ∧
      (p.zp = 0 ∨ src.layout.rows % 16 = 0 ∨ (hi - 1) / 8 * 8 < src.layout.cols → q' = q) := by
  have hs := setup_of ho hl hzp hlo hhi hint h
  obtain ⟨hb, hf⟩ := generic_filled hs.packedOk hhi h
  obtain ⟨q', e, hf'⟩ := run16_filled hs hb hz
  have hval : ∀ r c, (c < src.layout.cols ∨ p.zp = 0 ∨ r < 16 * (src.layout.rows / 16)) →
      val512 src p.zp r c = gval src p.zp r c := by
    intro r c hc
    unfold val512
    by_cases hcon : src.layout.cols ≤ c / 8 * 8 ∧ 16 * (src.layout.rows / 16) ≤ r
    · rw [if_pos hcon]
      unfold gval
      rw [if_neg (by omega)]
      omega
    · rw [if_neg hcon]
  have hsums : q'.sums = q.sums := by
    have w : Filled (gval src p.zp) (gsum src p.zp p.layout.rows) lo hi p
        { q with sums := q'.sums } :=
      ⟨⟨hf.shape.layout, hf.shape.zp, hf.shape.size, hf'.shape.sums, hf'.shape.sumsSize⟩,
        ⟨hf.out.data, hf'.out.sums⟩, hf.data, hf'.sums⟩
    have := congrArg PMat.sums (filled_unique hf w)
    exact this.symm
  have hll : q'.layout = q.layout := hf'.shape.layout.trans hf.shape.layout.symm
  have hsz : q'.data.size = q.data.size := hf'.shape.size.trans hf.shape.size.symm
  refine ⟨q', e, hll, hf'.shape.zp.trans hf.shape.zp.symm, hsums, hsz, ?_, ?_⟩
  · intro r c hr hc hcase
    unfold PMat.elem
    rw [hll, hf.shape.layout, poffset_eq hs.packedOk.kernel]
    have key : q'.data.val (poff p.layout r c) = q.data.val (poff p.layout r c) := by
      by_cases hin : lo ≤ c ∧ c < hi
      · rw [hf.data r c hr hin.1 hin.2, hf'.data r c hr hin.1 hin.2]
        exact hval r c (by omega)
      · have hn : ∀ r' c', r' < p.layout.rows → lo ≤ c' ∧ c' < hi →
            poff p.layout r c ≠ poff p.layout r' c' := by
          intro r' c' hr' hc' he
          have := (poff_inj hs.packedOk hr hc hr' (by omega) he).2
          omega
        rw [hf.out.data _ hn, hf'.out.data _ hn]
    by_cases hi : poff p.layout r c < 2 ^ 31
    · rw [C.int_of hi, C.ok_bind, C.ok_bind]
      unfold Buf.read
      rw [hsz, key]
    · unfold C.int
      rw [if_neg hi]
      rfl
  · intro hcase
    refine filled_unique hf' ⟨hf.shape, hf.out, fun r c hr h1 h2 => ?_, hf.sums⟩
    rw [hf.data r c hr h1 h2]
    unfold val512
    by_cases hcon : src.layout.cols ≤ c / 8 * 8 ∧ 16 * (src.layout.rows / 16) ≤ r
    · rw [if_pos hcon]
      unfold gval
      rw [if_neg (by omega)]
      have := hs.rows
      omega
    · rw [if_neg hcon]

/-! ### Examples -/

/-- A source of 5 rows and 3 columns. -/
def exSrc : Mul.Mat Int := ⟨⟨5, 3, 6, .colMajor⟩, ⟨18, fun i => 3000 * i - 22000⟩, 3⟩
/-- An uninitialised packed matrix for it. -/
def exP : PMat Int :=
  ⟨⟨8, 16, 8, .colMajor, ⟨.colMajor, 4, 16⟩⟩, ⟨128, fun _ => 99⟩, some ⟨16, fun _ => 55⟩, 3⟩

/-- Whether the generic code packs. -/
def packs (src : Mul.Mat Int) (lo hi : Nat) (p : PMat Int) : Bool :=
  match runPack Front.wrap32 (Front.packInt .int16 .int16) src lo hi p with
  | .ok _ => true
  | .error _ => false

theorem packs_ok {src : Mul.Mat Int} {lo hi : Nat} {p : PMat Int}
    (h : packs src lo hi p = true) :
    ∃ q, runPack Front.wrap32 (Front.packInt .int16 .int16) src lo hi p = .ok q := by
  unfold packs at h
  split at h
  · exact ⟨_, by assumption⟩
  · cases h

example : ∃ q q', runPack Front.wrap32 (Front.packInt .int16 .int16) exSrc 0 16 exP = .ok q ∧
    run exSrc 0 16 exP = .ok q' ∧ q'.sums = q.sums := by
  obtain ⟨q, h⟩ := packs_ok (show packs exSrc 0 16 exP = true by decide +kernel)
  obtain ⟨q', e, _, _, hs, _⟩ := c91_agrees_partial rfl rfl (by decide) rfl (by decide)
    (by decide) (by unfold Front.InI32; decide) h
  exact ⟨q, q', h, e, hs⟩

/-- The negative part of C91 for AVX-512: a source of 3 columns of 5 rows leaves the second half of
the block of 16 columns without source columns; the generic code fills it with the zero point, 3,
the AVX-512 code with 0, although it stores the sum of 8 values 3. -/
theorem c91_padding : ∃ q q',
    runPack Front.wrap32 (Front.packInt .int16 .int16) exSrc 0 16 exP = .ok q ∧
    run exSrc 0 16 exP = .ok q' ∧
    q.elem 0 8 = .ok 3 ∧ q'.elem 0 8 = .ok 0 ∧ q'.sums.map (fun b => b.val 8) = some 24 := by
  obtain ⟨q, h⟩ := packs_ok (show packs exSrc 0 16 exP = true by decide +kernel)
  have hs := setup_of (p := exP) rfl rfl (by decide) rfl (by decide)
    (by decide) h
  obtain ⟨hb, hf⟩ := generic_filled hs.packedOk (by decide) h
  obtain ⟨q', e, hf'⟩ := run16_filled hs hb (by unfold Front.InI32; decide)
  have v := hf.data 0 8 (by decide) (by decide) (by decide)
  have v' := hf'.data 0 8 (by decide) (by decide) (by decide)
  have hp : poffset exP.layout 0 8 = .ok 32 := by decide
  have hpo : poff exP.layout 0 8 = 32 := by decide
  rw [hpo] at v v'
  refine ⟨q, q', h, e, ?_, ?_, ?_⟩
  · unfold PMat.elem
    rw [hf.shape.layout, hp, C.ok_bind, Buf.read_of (by rw [hf.shape.size]; decide), v]
    decide
  · unfold PMat.elem
    rw [hf'.shape.layout, hp, C.ok_bind, Buf.read_of (by rw [hf'.shape.size]; decide), v']
    decide
  · obtain ⟨b, hb⟩ := Option.isSome_iff_exists.1
      (show q'.sums.isSome by rw [hf'.shape.sums]; rfl)
    rw [hb, Option.map_some, hf'.sums b 8 hb (by decide) (by decide)]
    decide +kernel

end Ruy.Simd.Pack16

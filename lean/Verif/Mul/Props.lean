import Verif.Mul.Total
import Mathlib.Tactic.IntervalCases
/-
Properties of packing: C45.
-/
namespace Ruy.Mul
open Ruy.Mat

variable {A : Type}

/-- Packing the given column ranges one after the other. -/
def packRanges (ar : Arith A) (pack : A → A) (src : Mat A) : List (Nat × Nat) → PMat A → C (PMat A)
  | [], p => .ok p
  | r :: rs, p => do
    let q ← runPack ar pack src r.1 r.2 p
    packRanges ar pack src rs q

theorem Outside.mono {S T : Nat → Prop} {p q : PMat A} (h : Outside S p q) (hST : ∀ c, S c → T c) :
    Outside T p q :=
  ⟨fun o ho => h.data o (fun r c hr hc => ho r c hr (hST c hc)),
    fun b b' c hb hb' hn => h.sums b b' c hb hb' (fun hc => hn (hST c hc))⟩

theorem Outside.trans {S : Nat → Prop} {p q r : PMat A} (hs : SameShape p q) (h1 : Outside S p q)
    (h2 : Outside S q r) : Outside S p r := by
  refine ⟨fun o ho => ?_, fun b b' c hb hb' hn => ?_⟩
  · rw [h2.data o (fun r c hr hc => by rw [hs.layout] at hr ⊢; exact ho r c hr hc), h1.data o ho]
  · obtain ⟨bq, hbq⟩ := Option.isSome_iff_exists.1
      (show q.sums.isSome by rw [hs.sums, hb]; rfl)
    rw [h2.sums bq b' c hbq hb' hn, h1.sums b bq c hb hbq hn]

theorem packRanges_ok {ar : Arith A} {pack : A → A} {src : Mat A} {rs : List (Nat × Nat)}
    {p p' : PMat A} (hp : PackedOk p.layout) (hrs : ∀ r ∈ rs, r.2 ≤ p.layout.cols)
    (h : packRanges ar pack src rs p = .ok p') :
    SameShape p p' ∧ Outside (fun c => ∃ r ∈ rs, r.1 ≤ c ∧ c < r.2) p p' ∧
      ∀ c, (∃ r ∈ rs, r.1 ≤ c ∧ c < r.2) → ColDone ar pack src p' c := by
  induction rs generalizing p with
  | nil =>
    cases h
    refine ⟨SameShape.refl _, ⟨fun _ _ => rfl, ?_⟩, ?_⟩
    · intro b b' c hb hb' _; rw [hb] at hb'; cases hb'; rfl
    · rintro c ⟨r, hr, _⟩; cases hr
  | cons a rs ih =>
    obtain ⟨q, hq, h⟩ := C.bind_ok h
    obtain ⟨a1, a2, a3⟩ := runPack_ok hp (hrs a (by simp)) hq
    obtain ⟨b1, b2, b3⟩ := ih (by rw [a1.layout]; exact hp)
      (fun r hr => by rw [a1.layout]; exact hrs r (by simp [hr])) h
    refine ⟨a1.trans b1, ?_, ?_⟩
    · refine Outside.trans a1 (a2.mono (fun c hc => ⟨a, by simp, hc⟩))
        (b2.mono (fun c ⟨r, hr, hc⟩ => ⟨r, by simp [hr], hc⟩))
    · rintro c ⟨r, hr, hc⟩
      by_cases hin : ∃ r ∈ rs, r.1 ≤ c ∧ c < r.2
      · exact b3 c hin
      · have : r = a := by
          rcases List.mem_cons.1 hr with h | h
          · exact h
          · exact absurd ⟨r, h, hc⟩ hin
        subst this
        have hcols := hrs r (by simp)
        exact (a3 c hc.1 hc.2).frame b1 b2 (by rw [a1.layout]; exact hp)
          (by rw [a1.layout]; omega)
          (fun c' ⟨r', hr', hc'⟩ => by
            have := hrs r' (by simp [hr'])
            rw [a1.layout]; omega) hin

/-- Two packed matrices with the same shape, both packed from `src` on the columns `S`, and
unchanged from `p` elsewhere, are equal. -/
theorem packed_unique {ar : Arith A} {pack : A → A} {src : Mat A} {p q q' : PMat A}
    {S : Nat → Prop}
    (h1 : SameShape p q) (h1' : SameShape p q') (h2 : Outside S p q) (h2' : Outside S p q')
    (h3 : ∀ c, S c → ColDone ar pack src q c) (h3' : ∀ c, S c → ColDone ar pack src q' c) :
    q = q' := by
  have hd : ∀ o, q.data.val o = q'.data.val o := by
    intro o
    by_cases ho : ∃ r c, (r < p.layout.rows ∧ S c) ∧ o = poff p.layout r c
    · obtain ⟨r, c, ⟨hr, hc⟩, rfl⟩ := ho
      obtain ⟨v, e1, e2⟩ := (h3 c hc).data r (by rw [h1.layout]; exact hr)
      obtain ⟨v', e1', e2'⟩ := (h3' c hc).data r (by rw [h1'.layout]; exact hr)
      rw [h1.zp] at e2
      rw [h1'.zp, e2] at e2'
      cases e2'
      obtain ⟨o, f1, _, f2⟩ := elem_ok e1
      obtain ⟨o', f1', _, f2'⟩ := elem_ok e1'
      have g := (poffset_ok f1).2
      have g' := (poffset_ok f1').2
      rw [h1.layout] at g
      rw [h1'.layout] at g'
      rw [← g]
      rw [← g] at g'
      subst g'
      rw [← f2, f2']
    · have hn : ∀ r c, r < p.layout.rows → S c → o ≠ poff p.layout r c :=
        fun r c hr hc he => ho ⟨r, c, ⟨hr, hc⟩, he⟩
      rw [h2.data o hn, h2'.data o hn]
  have hs : q.sums = q'.sums := by
    cases hb : p.sums with
    | none =>
      have e1 := h1.sums; have e2 := h1'.sums
      rw [hb] at e1 e2
      have e1 : q.sums = none := by simpa using e1
      have e2 : q'.sums = none := by simpa using e2
      rw [e1, e2]
    | some b =>
      obtain ⟨b1, hb1⟩ := Option.isSome_iff_exists.1 (show q.sums.isSome by rw [h1.sums, hb]; rfl)
      obtain ⟨b2, hb2⟩ := Option.isSome_iff_exists.1 (show q'.sums.isSome by rw [h1'.sums, hb]; rfl)
      have hv : b1.val = b2.val := by
        funext c
        by_cases hc : S c
        · obtain ⟨s, e1, e2⟩ := (h3 c hc).sums (by rw [hb1]; rfl)
          obtain ⟨s', e1', e2'⟩ := (h3' c hc).sums (by rw [hb2]; rfl)
          rw [h1.zp, h1.layout] at e2
          rw [h1'.zp, h1'.layout, e2] at e2'
          cases e2'
          unfold readSum at e1 e1'
          rw [hb1] at e1
          rw [hb2] at e1'
          rw [← (Buf.read_ok e1).2, (Buf.read_ok e1').2]
        · rw [h2.sums b b1 c hb hb1 hc, h2'.sums b b2 c hb hb2 hc]
      have hz : b1.size = b2.size := by
        rw [h1.sumsSize b b1 hb hb1, h1'.sumsSize b b2 hb hb2]
      rw [hb1, hb2]
      obtain ⟨z1, v1⟩ := b1
      obtain ⟨z2, v2⟩ := b2
      dsimp only at hv hz
      rw [hv, hz]
  have hl : q.layout = q'.layout := h1.layout.trans h1'.layout.symm
  have hzp : q.zp = q'.zp := h1.zp.trans h1'.zp.symm
  have hsz : q.data.size = q'.data.size := h1.size.trans h1'.size.symm
  obtain ⟨l, ⟨ds, dv⟩, su, z⟩ := q
  obtain ⟨l', ⟨ds', dv'⟩, su', z'⟩ := q'
  have : dv = dv' := funext hd
  dsimp only at hs hl hzp hsz
  rw [this, hs, hl, hzp, hsz]

/-- C45: packing any list of column ranges that together cover the columns, in any order and even
with repetitions, gives exactly the packed matrix (data, sums, everything) of packing all columns
at once; for every accumulator arithmetic. -/
theorem c45_blocks_eq_whole (ar : Arith A) (pack : A → A) (src : Mat A) (p q q' : PMat A)
    (rs : List (Nat × Nat)) (hp : PackedOk p.layout) (hin : ∀ r ∈ rs, r.2 ≤ p.layout.cols)
    (hcover : ∀ c, c < p.layout.cols → ∃ r ∈ rs, r.1 ≤ c ∧ c < r.2)
    (h1 : runPack ar pack src 0 p.layout.cols p = .ok q)
    (h2 : packRanges ar pack src rs p = .ok q') : q = q' := by
  obtain ⟨a1, a2, a3⟩ := runPack_ok hp (Nat.le_refl _) h1
  obtain ⟨b1, b2, b3⟩ := packRanges_ok hp hin h2
  refine packed_unique (S := fun c => c < p.layout.cols) a1 b1
    (a2.mono (fun c h => h.2)) (b2.mono (fun c ⟨r, hr, hc⟩ => ?_))
    (fun c h => a3 c (Nat.zero_le _) h) (fun c h => b3 c (hcover c h))
  have := hin r hr
  omega

/-- C45: packing at once succeeds if and only if packing the ranges does (for ranges of whole
kernel blocks, as the block map produces). -/
theorem c45_blocks_defined_iff (ar : Arith A) (pack : A → A) (src : Mat A) (p : PMat A)
    (rs : List (Nat × Nat)) (hp : PackedOk p.layout) (hf : PFits p)
    (hin : ∀ r ∈ rs, r.2 ≤ p.layout.cols ∧ p.layout.kernel.cols ∣ r.2 - r.1)
    (hcover : ∀ c, c < p.layout.cols → ∃ r ∈ rs, r.1 ≤ c ∧ c < r.2) (hsums : p.sums.isSome) :
    (∃ q, runPack ar pack src 0 p.layout.cols p = .ok q) ↔
      ∃ q, packRanges ar pack src rs p = .ok q := by
  constructor
  · rintro ⟨q, h⟩
    obtain ⟨a1, _, a3⟩ := runPack_ok hp (Nat.le_refl _) h
    have hs : ∀ c, c < p.layout.cols → ∃ s, colSum ar pack src p.zp p.layout.rows c = .ok s := by
      intro c hc
      obtain ⟨s, _, e⟩ := (a3 c (Nat.zero_le _) hc).sums (by rw [a1.sums]; exact hsums)
      rw [a1.zp, a1.layout] at e
      exact ⟨s, e⟩
    clear h hcover a1 a3
    have key : ∀ (rs : List (Nat × Nat)) (t : PMat A), SameShape p t →
        (∀ r ∈ rs, r.2 ≤ p.layout.cols ∧ p.layout.kernel.cols ∣ r.2 - r.1) →
        ∃ q, packRanges ar pack src rs t = .ok q := by
      intro rs
      induction rs with
      | nil => intro t _ _; exact ⟨t, rfl⟩
      | cons r rs ih =>
        intro t ht hin
        obtain ⟨i1, i2⟩ := hin r (by simp)
        obtain ⟨t', h'⟩ := runPack_total (ar := ar) (pack := pack) (src := src) (p := t)
          (lo := r.1) (hi := r.2) (by rw [ht.layout]; exact hp) (hf.same ht)
          (by rw [ht.layout]; exact i1) (by rw [ht.layout]; exact i2)
          (fun c _ hc => by rw [ht.zp, ht.layout]; exact hs c (by omega))
        obtain ⟨e1, _, _⟩ := runPack_ok (by rw [ht.layout]; exact hp)
          (by rw [ht.layout]; exact i1) h'
        obtain ⟨q, hq⟩ := ih t' (ht.trans e1) (fun r hr => hin r (by simp [hr]))
        exact ⟨q, by rw [packRanges, h', C.ok_bind]; exact hq⟩
    exact key rs p (SameShape.refl p) hin
  · rintro ⟨q, h⟩
    obtain ⟨b1, _, b3⟩ := packRanges_ok hp (fun r hr => (hin r hr).1) h
    refine runPack_total hp hf (Nat.le_refl _) (by simpa using hp.cols) (fun c _ hc => ?_)
    obtain ⟨s, _, e⟩ := (b3 c (hcover c hc)).sums (by rw [b1.sums]; exact hsums)
    rw [b1.zp, b1.layout] at e
    exact ⟨s, e⟩

/-- C45: packing columns [lo, hi) leaves every packed cell and sum of the other columns, the shape
and the zero point as they were, and makes the cells of its own columns the packed values. -/
theorem c45_touches_own_columns (ar : Arith A) (pack : A → A) (src : Mat A) (p q : PMat A)
    (lo hi : Nat) (hp : PackedOk p.layout) (hhi : hi ≤ p.layout.cols)
    (h : runPack ar pack src lo hi p = .ok q) :
    (q.layout = p.layout ∧ q.zp = p.zp ∧ q.data.size = p.data.size) ∧
    (∀ r c, r < p.layout.rows → c < p.layout.cols → ¬ (lo ≤ c ∧ c < hi) →
      q.elem r c = p.elem r c ∧ readSum q c = readSum p c) ∧
    (∀ r c, r < p.layout.rows → lo ≤ c → c < hi → ∃ v, q.elem r c = .ok v ∧
      (if c < src.layout.cols ∧ r < src.layout.rows then ∃ x, src.elem r c = .ok x ∧ v = pack x
       else v = ar.ofInt p.zp)) := by
  obtain ⟨a1, a2, a3⟩ := runPack_ok hp hhi h
  refine ⟨⟨a1.layout, a1.zp, a1.size⟩, fun r c hr hc hn => ?_, fun r c hr h1 h2 => ?_⟩
  · exact ⟨elem_frame a1 a2 hp hr hc (fun c' hc' => by omega) hn, readSum_frame a1 a2 hn⟩
  · obtain ⟨v, e1, e2⟩ := (a3 c h1 h2).data r (by rw [a1.layout]; exact hr)
    refine ⟨v, e1, ?_⟩
    rw [a1.zp] at e2
    unfold packedVal at e2
    split
    · rename_i hc
      rw [if_pos hc] at e2
      obtain ⟨x, hx, e2⟩ := C.bind_ok e2
      cases e2
      exact ⟨x, hx, rfl⟩
    · rename_i hc
      rw [if_neg hc] at e2
      cases e2; rfl

/-! A concrete instance: a 3x3 source packed for 2x2 kernels (so 4x4 with padding). -/

def demoSrc : Mat Int := ⟨⟨3, 3, 3, .rowMajor⟩, ⟨9, fun i => i + 1⟩, 5⟩
def demoPacked : PMat Int :=
  ⟨⟨4, 4, 4, .colMajor, ⟨.rowMajor, 2, 2⟩⟩, ⟨16, fun _ => -1⟩, some ⟨4, fun _ => -1⟩, 5⟩

/-- The packed cells and sums. -/
def dump (c : C (PMat Int)) : Option (List Int × List Int) :=
  match c with
  | .ok q => some ((List.range 16).map q.data.val,
      (List.range 4).map (fun c => match readSum q c with | .ok v => v | .error _ => 0))
  | .error _ => none

example : PackedOk demoPacked.layout ∧ PFits demoPacked ∧
    (∀ r ∈ [(2, 4), (0, 2)], r.2 ≤ demoPacked.layout.cols ∧
      demoPacked.layout.kernel.cols ∣ r.2 - r.1) ∧
    (∀ c, c < demoPacked.layout.cols → ∃ r ∈ [(2, 4), (0, 2)], r.1 ≤ c ∧ c < r.2) := by
  refine ⟨⟨⟨⟨1, rfl⟩, ⟨1, rfl⟩⟩, ⟨2, rfl⟩, ⟨2, rfl⟩, Nat.le_refl 4⟩,
    ⟨by decide, by decide, fun b hb => by cases hb; decide⟩, ?_, ?_⟩
  · intro r hr
    simp only [List.mem_cons, List.not_mem_nil, or_false] at hr
    rcases hr with rfl | rfl <;> exact ⟨by decide, by decide⟩
  · intro c hc
    change c < 4 at hc
    by_cases h : c < 2
    · exact ⟨(0, 2), by simp, by simp, h⟩
    · exact ⟨(2, 4), by simp, by show 2 ≤ c; omega, hc⟩

example : dump (runPack .int32 (fun x => x) demoSrc 0 4 demoPacked) =
    some ([1, 2, 4, 5, 7, 8, 5, 5, 3, 5, 6, 5, 9, 5, 5, 5], [17, 20, 23, 20]) ∧
    dump (packRanges .int32 (fun x => x) demoSrc [(2, 4), (0, 2)] demoPacked) =
    some ([1, 2, 4, 5, 7, 8, 5, 5, 3, 5, 6, 5, 9, 5, 5, 5], [17, 20, 23, 20]) := by
  decide +kernel

end Ruy.Mul

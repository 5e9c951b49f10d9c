import Verif.Mul.Model
import Verif.Mat.Lemmas
/-
What packing does to the packed matrix (for any accumulator arithmetic).
-/
namespace Ruy.Mul
open Ruy.Mat

variable {A : Type}

/-- The sum of the packed column, in accumulator arithmetic. -/
def colSum (ar : Arith A) (pack : A → A) (src : Mat A) (zp : Int) (rows col : Nat) : C A :=
  forUpTo rows (fun r acc => do
    let v ← packedVal ar pack src zp r col
    ar.add acc v) ar.zero

/-- `p'` has the shape of `p`. -/
structure SameShape (p p' : PMat A) : Prop where
  layout : p'.layout = p.layout
  zp : p'.zp = p.zp
  size : p'.data.size = p.data.size
  sums : p'.sums.isSome = p.sums.isSome
  sumsSize : ∀ b b', p.sums = some b → p'.sums = some b' → b'.size = b.size

theorem SameShape.refl (p : PMat A) : SameShape p p :=
  ⟨rfl, rfl, rfl, rfl, fun b b' h h' => by rw [h] at h'; cases h'; rfl⟩

theorem SameShape.trans {p q r : PMat A} (h1 : SameShape p q) (h2 : SameShape q r) :
    SameShape p r := by
  refine ⟨h2.layout.trans h1.layout, h2.zp.trans h1.zp, h2.size.trans h1.size,
    h2.sums.trans h1.sums, fun b b' hb hb' => ?_⟩
  have : q.sums.isSome := by rw [h1.sums, hb]; rfl
  obtain ⟨c, hc⟩ := Option.isSome_iff_exists.1 this
  rw [h2.sumsSize c b' hc hb', h1.sumsSize b c hb hc]

/-- Only column `col`'s cells and sum may differ between `p` and `p'`. -/
structure Outside (S : Nat → Prop) (p p' : PMat A) : Prop where
  data : ∀ o, (∀ r c, r < p.layout.rows → S c → o ≠ poff p.layout r c) →
    p'.data.val o = p.data.val o
  sums : ∀ b b' c, p.sums = some b → p'.sums = some b' → ¬ S c → b'.val c = b.val c

/-- Column `col` holds the packed form of the source. -/
structure ColDone (ar : Arith A) (pack : A → A) (src : Mat A) (p : PMat A) (col : Nat) : Prop where
  data : ∀ r, r < p.layout.rows →
    ∃ v, p.elem r col = .ok v ∧ packedVal ar pack src p.zp r col = .ok v
  sums : p.sums.isSome →
    ∃ s, readSum p col = .ok s ∧ colSum ar pack src p.zp p.layout.rows col = .ok s

theorem elem_ok {p : PMat A} {r c : Nat} {v : A} (h : p.elem r c = .ok v) :
    ∃ o, poffset p.layout r c = .ok o ∧ o < p.data.size ∧ v = p.data.val o := by
  unfold PMat.elem at h
  obtain ⟨o, ho, h⟩ := C.bind_ok h
  exact ⟨o, ho, Buf.read_ok h⟩

theorem set_ok {p p' : PMat A} {r c : Nat} {x : A} (h : p.set r c x = .ok p') :
    ∃ o, poffset p.layout r c = .ok o ∧ o < p.data.size ∧ p'.layout = p.layout ∧
      p'.sums = p.sums ∧ p'.zp = p.zp ∧ p'.data.size = p.data.size ∧ p'.data.val o = x ∧
      ∀ j, j ≠ o → p'.data.val j = p.data.val j := by
  unfold PMat.set at h
  obtain ⟨o, ho, h⟩ := C.bind_ok h
  obtain ⟨d, hd, h⟩ := C.bind_ok h
  cases h
  obtain ⟨h1, h2, h3, h4⟩ := Buf.write_ok hd
  exact ⟨o, ho, h1, rfl, rfl, rfl, h2, h3, h4⟩

theorem elem_of_set {p p' : PMat A} {r c : Nat} {x : A} (h : p.set r c x = .ok p') :
    p'.elem r c = .ok x := by
  obtain ⟨o, ho, h1, h2, _, _, h3, h4, _⟩ := set_ok h
  unfold PMat.elem
  rw [h2, ho, C.ok_bind, Buf.read_of (by omega), h4]

/-- Reading a cell not touched by a change. -/
theorem elem_frame {S : Nat → Prop} {p p' : PMat A} (hs : SameShape p p') (ho : Outside S p p')
    (hp : PackedOk p.layout) {r c : Nat} (hr : r < p.layout.rows) (hc : c < p.layout.cols)
    (hS : ∀ c', S c' → c' < p.layout.cols) (hn : ¬ S c) : p'.elem r c = p.elem r c := by
  unfold PMat.elem
  rw [hs.layout]
  cases h : poffset p.layout r c with
  | error e => rfl
  | ok o =>
    simp only [C.ok_bind, Buf.read, hs.size]
    rw [ho.data o]
    intro r' c' hr' hc' he
    have := (poffset_ok h).2
    rw [he] at this
    obtain ⟨_, e2⟩ := poff_inj hp hr' (hS c' hc') hr hc this
    exact hn (e2 ▸ hc')

theorem readSum_frame {S : Nat → Prop} {p p' : PMat A} (hs : SameShape p p') (ho : Outside S p p')
    {c : Nat} (hn : ¬ S c) : readSum p' c = readSum p c := by
  unfold readSum
  have h := hs.sums
  cases h1 : p.sums with
  | none =>
    rw [h1] at h
    have : p'.sums = none := by simpa using h
    rw [this]
  | some b =>
    rw [h1] at h
    obtain ⟨b', hb'⟩ := Option.isSome_iff_exists.1 (by simpa using h : p'.sums.isSome)
    rw [hb']
    simp only [Buf.read, hs.sumsSize b b' h1 hb', ho.sums b b' c h1 hb' hn]

theorem ColDone.frame {S : Nat → Prop} {ar : Arith A} {pack : A → A} {src : Mat A} {p p' : PMat A}
    {c : Nat} (h : ColDone ar pack src p c) (hs : SameShape p p') (ho : Outside S p p')
    (hp : PackedOk p.layout) (hc : c < p.layout.cols) (hS : ∀ c', S c' → c' < p.layout.cols)
    (hn : ¬ S c) : ColDone ar pack src p' c := by
  refine ⟨fun r hr => ?_, fun hsome => ?_⟩
  · rw [hs.layout] at hr
    rw [elem_frame hs ho hp hr hc hS hn, hs.zp]
    exact h.data r hr
  · rw [readSum_frame hs ho hn, hs.zp, hs.layout]
    exact h.sums (by rw [← hs.sums]; exact hsome)

theorem setSum_ok {p p' : PMat A} {c : Nat} {x : A} (h : setSum p c x = .ok p') :
    p'.layout = p.layout ∧ p'.zp = p.zp ∧ p'.data = p.data ∧
      (p.sums = none → p' = p) ∧
      (∀ b, p.sums = some b → ∃ b', p'.sums = some b' ∧ b'.size = b.size ∧ c < b.size ∧
        b'.val c = x ∧ ∀ j, j ≠ c → b'.val j = b.val j) := by
  unfold setSum at h
  cases hb : p.sums with
  | none => rw [hb] at h; cases h; exact ⟨rfl, rfl, rfl, fun _ => rfl, fun b h => by cases h⟩
  | some b =>
    rw [hb] at h
    obtain ⟨b', h1, h⟩ := C.bind_ok h
    cases h
    refine ⟨rfl, rfl, rfl, fun h => (Option.some_ne_none b h).elim, fun c hc => ?_⟩
    cases hc
    obtain ⟨w1, w2, w3, w4⟩ := Buf.write_ok h1
    exact ⟨b', rfl, w2, w1, w3, w4⟩

/-- Effect of packing one column. -/
theorem packCol_ok {ar : Arith A} {pack : A → A} {src : Mat A} {p p' : PMat A} {col : Nat}
    (hp : PackedOk p.layout) (hc : col < p.layout.cols)
    (h : packCol ar pack src col p = .ok p') :
    SameShape p p' ∧ Outside (fun c => c = col) p p' ∧ ColDone ar pack src p' col := by
  unfold packCol at h
  obtain ⟨st, h1, h2⟩ := C.bind_ok h
  -- invariant of the row loop
  have inv := forUpTo_inv (P := fun n (st : PMat A × A) =>
      st.1.layout = p.layout ∧ st.1.zp = p.zp ∧ st.1.sums = p.sums ∧
      st.1.data.size = p.data.size ∧
      (∀ o, (∀ r, r < p.layout.rows → o ≠ poff p.layout r col) → st.1.data.val o = p.data.val o) ∧
      (∀ r, r < n → ∃ v, st.1.elem r col = .ok v ∧ packedVal ar pack src p.zp r col = .ok v) ∧
      colSum ar pack src p.zp n col = .ok st.2)
    (s := (p, ar.zero)) (s' := st)
    ⟨rfl, rfl, rfl, rfl, fun _ _ => rfl, fun r hr => absurd hr (by omega), rfl⟩
    (by
      rintro n t t' hn ⟨i1, i2, i3, i4, i5, i6, i7⟩ hstep
      unfold packStep at hstep
      obtain ⟨v, hv, hstep⟩ := C.bind_ok hstep
      obtain ⟨acc, ha, hstep⟩ := C.bind_ok hstep
      obtain ⟨q, hq, hstep⟩ := C.bind_ok hstep
      cases hstep
      rw [i2] at hv
      obtain ⟨o, q1, q2, q3, q4, q5, q6, q7, q8⟩ := set_ok hq
      have ho : o = poff p.layout n col := by rw [i1] at q1; exact (poffset_ok q1).2
      refine ⟨q3.trans i1, q5.trans i2, q4.trans i3, q6.trans i4, ?_, ?_, ?_⟩
      · intro o' ho'
        rw [q8 o' (by rw [ho]; exact ho' n hn)]
        exact i5 o' ho'
      · intro r hr
        by_cases hrn : r = n
        · subst hrn
          exact ⟨v, elem_of_set hq, hv⟩
        · obtain ⟨w, w1, w2⟩ := i6 r (by omega)
          refine ⟨w, ?_, w2⟩
          rw [← w1]
          unfold PMat.elem
          rw [q3]
          cases hpo : poffset t.1.layout r col with
          | error e => rfl
          | ok o' =>
            simp only [C.ok_bind, Buf.read, q6]
            rw [q8 o']
            intro he
            have e1 := (poffset_ok hpo).2
            rw [i1] at e1
            rw [he, ho] at e1
            have := (poff_inj hp hn hc (by omega : r < p.layout.rows) hc e1).1
            omega
      · unfold colSum at i7 ⊢
        rw [forUpTo, i7]
        simp only [C.ok_bind, hv, ha])
    h1
  obtain ⟨i1, i2, i3, i4, i5, i6, i7⟩ := inv
  obtain ⟨s1, s2, s3, s4, s5⟩ := setSum_ok h2
  refine ⟨?_, ?_, ?_⟩
  · refine ⟨s1.trans i1, s2.trans i2, by rw [s3, i4], ?_, ?_⟩
    · cases hb : p.sums with
      | none => rw [s4 (by rw [i3, hb]), i3, hb]
      | some b => obtain ⟨b', hb', _⟩ := s5 b (by rw [i3, hb]); rw [hb']; rfl
    · intro b b' hb hb'
      obtain ⟨b'', hb'', w, _⟩ := s5 b (by rw [i3, hb])
      rw [hb''] at hb'; cases hb'; exact w
  · refine ⟨fun o ho => ?_, fun b b' c hb hb' hn => ?_⟩
    · rw [s3]; exact i5 o (fun r hr => ho r col hr rfl)
    · obtain ⟨b'', hb'', _, _, _, w⟩ := s5 b (by rw [i3, hb])
      rw [hb''] at hb'; cases hb'; exact w c hn
  · refine ⟨fun r hr => ?_, fun hsome => ?_⟩
    · rw [s1, i1] at hr
      obtain ⟨v, v1, v2⟩ := i6 r hr
      refine ⟨v, ?_, by rw [s2, i2]; exact v2⟩
      rw [← v1]; unfold PMat.elem; rw [s1, s3]
    · rw [s2, s1, i2, i1, i7]
      cases hb : p.sums with
      | none => rw [s4 (by rw [i3, hb]), i3, hb] at hsome; cases hsome
      | some b =>
        obtain ⟨b', hb', w1, w2, w3, _⟩ := s5 b (by rw [i3, hb])
        refine ⟨st.2, ?_, rfl⟩
        unfold readSum
        rw [hb']
        dsimp only
        rw [Buf.read_of (by omega), w3]

/-- Effect of packing a range of columns. -/
theorem runPack_ok {ar : Arith A} {pack : A → A} {src : Mat A} {p p' : PMat A} {lo hi : Nat}
    (hp : PackedOk p.layout) (hhi : hi ≤ p.layout.cols)
    (h : runPack ar pack src lo hi p = .ok p') :
    SameShape p p' ∧ Outside (fun c => lo ≤ c ∧ c < hi) p p' ∧
      ∀ c, lo ≤ c → c < hi → ColDone ar pack src p' c := by
  unfold runPack at h
  obtain ⟨_, _, h⟩ := C.bind_ok h
  unfold forRange at h
  have inv := forUpTo_inv (P := fun n (q : PMat A) =>
      SameShape p q ∧ Outside (fun c => lo ≤ c ∧ c < lo + n) p q ∧
      ∀ c, lo ≤ c → c < lo + n → ColDone ar pack src q c) (s := p) (s' := p')
    ⟨SameShape.refl p, ⟨fun _ _ => rfl, fun b b' c h h' _ => by rw [h] at h'; cases h'; rfl⟩,
      fun c h1 h2 => absurd h2 (by omega)⟩
    (by
      rintro n t t' hn ⟨i1, i2, i3⟩ hstep
      have hlo : lo + n < p.layout.cols := by omega
      obtain ⟨j1, j2, j3⟩ := packCol_ok (by rw [i1.layout]; exact hp)
        (by rw [i1.layout]; exact hlo) hstep
      refine ⟨i1.trans j1, ⟨fun o ho => ?_, fun b b' c hb hb' hnot => ?_⟩, fun c h1 h2 => ?_⟩
      · rw [j2.data o (fun r c hr hc => by
          rw [i1.layout] at hr ⊢
          subst hc
          exact ho r _ hr ⟨by omega, by omega⟩)]
        exact i2.data o (fun r c hr hc => ho r c hr ⟨hc.1, by omega⟩)
      · have : t.sums.isSome := by rw [i1.sums, hb]; rfl
        obtain ⟨bt, hbt⟩ := Option.isSome_iff_exists.1 this
        rw [j2.sums bt b' c hbt hb' (fun he => hnot ⟨by omega, by omega⟩)]
        exact i2.sums b bt c hb hbt (fun he => hnot ⟨he.1, by omega⟩)
      · by_cases hcn : c = lo + n
        · subst hcn; exact j3
        · exact (i3 c h1 (by omega)).frame j1 j2 (by rw [i1.layout]; exact hp)
            (by rw [i1.layout]; omega)
            (fun c' hc' => by subst hc'; rw [i1.layout]; exact hlo)
            hcn)
    h
  obtain ⟨i1, i2, i3⟩ := inv
  have hconv : ∀ c, lo ≤ c ∧ c < lo + (hi - lo) ↔ lo ≤ c ∧ c < hi := by intro c; omega
  refine ⟨i1, ⟨fun o ho => i2.data o (fun r c hr hc => ho r c hr ((hconv c).1 hc)),
    fun b b' c hb hb' hn => i2.sums b b' c hb hb' (fun hc => hn ((hconv c).1 hc))⟩,
    fun c h1 h2 => i3 c h1 (by omega)⟩

end Ruy.Mul

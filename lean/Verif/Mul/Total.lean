import Verif.Mul.KernelLemmas
/-
Forward direction: packing and the kernel return without fault when the buffers
are large enough and the arithmetic does not fault.
-/
namespace Ruy.Mul
open Ruy.Mat

variable {A : Type}

/-- The buffers of a packed matrix are as large as its layout requires. -/
structure PFits (p : PMat A) : Prop where
  int : pflatSize p.layout ≤ 2 ^ 31
  data : pflatSize p.layout ≤ p.data.size
  sums : ∀ b, p.sums = some b → p.layout.cols ≤ b.size

theorem PFits.same {p p' : PMat A} (h : PFits p) (hs : SameShape p p') : PFits p' := by
  refine ⟨by rw [hs.layout]; exact h.int, by rw [hs.layout, hs.size]; exact h.data, ?_⟩
  intro b' hb'
  have : p.sums.isSome := by rw [← hs.sums, hb']; rfl
  obtain ⟨b, hb⟩ := Option.isSome_iff_exists.1 this
  rw [hs.layout, hs.sumsSize b b' hb hb']
  exact h.sums b hb

theorem pset_total {p : PMat A} (hp : PackedOk p.layout) (hf : PFits p) {r c : Nat}
    (hr : r < p.layout.rows) (hc : c < p.layout.cols) (x : A) : ∃ p', p.set r c x = .ok p' := by
  have hlt := poff_lt hp hr hc
  have := hf.int
  have := hf.data
  unfold PMat.set
  rw [poffset_eq hp.kernel, C.int_of (by omega), C.ok_bind]
  obtain ⟨b, hb⟩ := Buf.write_of (b := p.data) (x := x) (show poff p.layout r c < p.data.size by omega)
  rw [hb]
  exact ⟨_, rfl⟩

theorem packCol_total {ar : Arith A} {pack : A → A} {src : Mat A} {p : PMat A} {col : Nat} {s : A}
    (hp : PackedOk p.layout) (hf : PFits p) (hc : col < p.layout.cols)
    (hs : colSum ar pack src p.zp p.layout.rows col = .ok s) :
    ∃ p', packCol ar pack src col p = .ok p' := by
  unfold packCol
  obtain ⟨st, h1, e1, e2, e3, e4, e5⟩ := forUpTo_total
    (body := packStep ar pack src col) (s := (p, ar.zero)) (n := p.layout.rows)
    (fun n (st : PMat A × A) => st.1.layout = p.layout ∧ st.1.zp = p.zp ∧ st.1.sums = p.sums ∧
      st.1.data.size = p.data.size ∧ colSum ar pack src p.zp n col = .ok st.2)
    ⟨rfl, rfl, rfl, rfl, rfl⟩
    (by
      rintro n t hn ⟨i1, i2, i3, i4, i5⟩
      obtain ⟨acc, hacc⟩ := forUpTo_prefix (k := n + 1) hn hs
      change colSum ar pack src p.zp (n + 1) col = .ok acc at hacc
      have hacc' := hacc
      unfold colSum at hacc hacc' i5
      rw [forUpTo, i5, C.ok_bind] at hacc'
      obtain ⟨v, hv, hadd⟩ := C.bind_ok hacc'
      have hfit : PFits t.1 := by
        refine ⟨by rw [i1]; exact hf.int, by rw [i1, i4]; exact hf.data, ?_⟩
        rw [i1, i3]; exact hf.sums
      obtain ⟨q, hq⟩ := pset_total (by rw [i1]; exact hp) hfit
        (show n < t.1.layout.rows by rw [i1]; exact hn)
        (show col < t.1.layout.cols by rw [i1]; exact hc) v
      refine ⟨(q, acc), ?_, ?_⟩
      · unfold packStep
        rw [i2, hv, C.ok_bind, hadd, C.ok_bind, hq]; rfl
      · obtain ⟨_, _, _, q3, q4, q5, q6, _⟩ := set_ok hq
        exact ⟨q3.trans i1, q5.trans i2, q4.trans i3, q6.trans i4, hacc⟩)
  rw [h1, C.ok_bind]
  unfold setSum
  cases hb : st.1.sums with
  | none => exact ⟨_, rfl⟩
  | some b =>
    have := hf.sums b (by rw [← e3, hb])
    obtain ⟨b', hb'⟩ := Buf.write_of (b := b) (x := st.2) (show col < b.size by omega)
    dsimp only
    rw [hb']
    exact ⟨_, rfl⟩

theorem runPack_total {ar : Arith A} {pack : A → A} {src : Mat A} {p : PMat A} {lo hi : Nat}
    (hp : PackedOk p.layout) (hf : PFits p) (hhi : hi ≤ p.layout.cols)
    (hk : p.layout.kernel.cols ∣ hi - lo)
    (hs : ∀ c, lo ≤ c → c < hi → ∃ s, colSum ar pack src p.zp p.layout.rows c = .ok s) :
    ∃ p', runPack ar pack src lo hi p = .ok p' := by
  unfold runPack
  rw [C.check_of (Nat.mod_eq_zero_of_dvd hk), C.ok_bind]
  unfold forRange
  obtain ⟨p', h1, _⟩ := forUpTo_total (body := fun i => packCol ar pack src (lo + i)) (s := p)
    (n := hi - lo) (fun _ q => SameShape p q) (SameShape.refl p)
    (by
      intro i t hi' hst
      have hl := hst.layout
      obtain ⟨s, hs⟩ := hs (lo + i) (by omega) (by omega)
      obtain ⟨q, hq⟩ := packCol_total (p := t) (col := lo + i) (by rw [hl]; exact hp) (hf.same hst)
        (by rw [hl]; omega) (by rw [hl, hst.zp]; exact hs)
      obtain ⟨j1, _, _⟩ := packCol_ok (by rw [hl]; exact hp) (by rw [hl]; omega) hq
      exact ⟨q, hq, hst.trans j1⟩)
  exact ⟨p', h1⟩

/-- The destination buffer is as large as its layout requires. -/
def DFits (d : Mat A) : Prop :=
  ∀ i j, i < d.layout.rows → j < d.layout.cols →
    off d.layout i j < 2 ^ 31 ∧ off d.layout i j < d.data.size

theorem DFits.same {d d' : Mat A} (h : DFits d) (hs : DSame d d') : DFits d' := by
  unfold DFits; rw [hs.layout, hs.size]; exact h

theorem dset_total {d : Mat A} (h : DFits d) {i j : Nat} (hi : i < d.layout.rows)
    (hj : j < d.layout.cols) (x : A) : ∃ d', d.set i j x = .ok d' := by
  obtain ⟨h1, h2⟩ := h i j hi hj
  unfold Mat.set
  rw [offset_eq, C.int_of h1, C.ok_bind]
  obtain ⟨b, hb⟩ := Buf.write_of (b := d.data) (x := x) h2
  rw [hb]; exact ⟨_, rfl⟩

theorem storeLoop_total {step : Nat → Nat → Mat A → C (Mat A)} {d : Mat A} {i0 i1 j0 j1 : Nat}
    (hstep : ∀ i j t, i0 ≤ i → i < i1 → j0 ≤ j → j < j1 → DSame d t →
      ∃ t', step i j t = .ok t' ∧ DSame t t') :
    ∃ d', forRange i0 i1 (fun i => forRange j0 j1 (fun j => step i j)) d = .ok d' := by
  unfold forRange
  obtain ⟨d', h, _⟩ := forUpTo_total (n := i1 - i0)
    (body := fun i => forUpTo (j1 - j0) (fun j => step (i0 + i) (j0 + j))) (s := d)
    (fun _ t => DSame d t) (DSame.refl d)
    (by
      intro i t hi ht
      obtain ⟨t', h1, h2⟩ := forUpTo_total (n := j1 - j0)
        (body := fun j => step (i0 + i) (j0 + j)) (s := t) (fun _ u => DSame d u) ht
        (by
          intro j u hj hu
          obtain ⟨u', h1, h2⟩ := hstep (i0 + i) (j0 + j) u (by omega) (by omega) (by omega)
            (by omega) hu
          exact ⟨u', h1, hu.trans h2⟩)
      exact ⟨t', h1, h2⟩)
  exact ⟨d', h⟩

end Ruy.Mul

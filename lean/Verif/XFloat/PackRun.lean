import Verif.XFloat.PackLemmas
/-
Packing a range of columns on the x86 float paths.
-/
namespace Ruy.XFloat
open Ruy.Mat Ruy.Mul

variable {A : Type}

/-- One side as CreatePackedLayout sets it up: the packed matrix is large enough, offsets are ints. -/
structure SideOk (kc : Nat) (src : Mul.Mat A) (p : PMat A) : Prop where
  layout : createPackedLayout src.layout ⟨.rowMajor, 1, kc⟩ = .ok p.layout
  int : pflatSize p.layout < 2 ^ 31
  data : pflatSize p.layout ≤ p.data.size
  source : DFits src
  step : src.layout.order = .colMajor → ∀ c, c < src.layout.cols → src.layout.stride * c < 2 ^ 31

theorem SideOk.same {kc : Nat} {src : Mul.Mat A} {p q : PMat A} (h : SideOk kc src p) (hs : SameShape p q) :
    SideOk kc src q :=
  ⟨by rw [hs.layout]; exact h.layout, by rw [hs.layout]; exact h.int, by rw [hs.layout, hs.size]; exact h.data,
    h.source, h.step⟩

theorem SideOk.facts {kc : Nat} {src : Mul.Mat A} {p : PMat A} (h : SideOk kc src p) :
    PackedOk p.layout ∧ p.layout.order = .colMajor ∧ p.layout.stride = src.layout.rows ∧
      p.layout.kernel = ⟨.rowMajor, 1, kc⟩ ∧ p.layout.rows = src.layout.rows ∧ src.layout.cols ≤ p.layout.cols ∧
      p.layout.cols < src.layout.cols + kc ∧ p.layout.cols % kc = 0 := by
  obtain ⟨hp, l1, l2, l3, l4, l5, l6, l7⟩ := createPackedLayout_ok h.layout
  have d2 := hp.cols
  rw [l3] at d2
  dsimp only at d2 l5 l7
  exact ⟨hp, l1, by omega, l3, by omega, l6, l7, Nat.mod_eq_zero_of_dvd d2⟩

/-- Offsets in the packed matrix. -/
theorem SideOk.poff {kc : Nat} {src : Mul.Mat A} {p : PMat A} (h : SideOk kc src p) (hk : 0 < kc) {c0 : Nat} (hc : c0 % kc = 0)
    {i : Nat} (hi : i < kc) (r : Nat) : poff p.layout r (c0 + i) = src.layout.rows * c0 + r * kc + i := by
  obtain ⟨_, l1, l2, l3, _⟩ := h.facts
  rw [Float.poff_row p.layout l1 l3, l2]
  obtain ⟨m, rfl⟩ := Nat.dvd_of_mod_eq_zero hc
  obtain ⟨e1, e2⟩ := Float.div_block (a := m) hk hi
  rw [Nat.mul_comm kc m, e1, e2]
  ring

theorem SideOk.flat {kc : Nat} {src : Mul.Mat A} {p : PMat A} (h : SideOk kc src p) :
    pflatSize p.layout = src.layout.rows * p.layout.cols := by
  obtain ⟨_, l1, l2, _⟩ := h.facts
  unfold pflatSize
  rw [l1]
  dsimp only
  rw [l2]

/-- A block of columns lies within the packed matrix. -/
theorem SideOk.block {kc : Nat} {src : Mul.Mat A} {p : PMat A} (h : SideOk kc src p) {c0 : Nat}
    (hc : c0 + kc ≤ p.layout.cols) : src.layout.rows * c0 + kc * src.layout.rows ≤ pflatSize p.layout := by
  rw [h.flat, Nat.mul_comm kc, ← Nat.mul_add]
  exact Nat.mul_le_mul_left _ hc

/-- The columns [lo, hi) have been packed: they hold the source, or zeros beyond its columns. -/
structure Packs (z : A) (src : Mul.Mat A) (lo hi : Nat) (p q : PMat A) : Prop where
  shape : SameShape p q
  out : Outside (fun c => lo ≤ c ∧ c < hi) p q
  data : ∀ r c, r < p.layout.rows → lo ≤ c → c < hi → q.data.val (poff p.layout r c) = Float.rowVal z src r c

theorem packBlock_of {kc : Nat} {pk : Packer A} (ok : PackerOk kc pk) {z : A}
    {src : Mul.Mat A} {junk : Nat → Nat → A} {p : PMat A} (h : SideOk kc src p) (ho : src.layout.order = .colMajor)
    {col : Nat} (hc : col % kc = 0) (hcol : col + kc ≤ p.layout.cols) {d : Buf A} (hd : d.size = p.data.size) :
    ∃ d', packBlock kc pk z src junk p.layout col d = .ok d' ∧
      Part (src.layout.rows * col) kc (laneVal z src col) (fun _ j => j < src.layout.rows) d d' := by
  obtain ⟨_, _, l2, _, _, _, l6, _⟩ := h.facts
  have hdat := h.data
  have hint := h.int
  have hb := h.block hcol
  unfold packBlock
  rw [C.int_of (h.step ho col (by omega)), C.ok_bind, l2, Nat.div_mul_cancel (Nat.dvd_of_mod_eq_zero hc)]
  rw [C.int_of (by omega), C.ok_bind]
  refine ok z src (junk col) col _ _ d ho h.source (fun _ => by omega) ?_ rfl (by omega)
  by_cases h8 : 8 < src.layout.cols
  · exact Or.inr (h.step ho 8 h8)
  · exact Or.inl (by omega)

theorem packCols_of {kc : Nat} (hk : 0 < kc) {pk : Packer A} (ok : PackerOk kc pk) {z : A} {src : Mul.Mat A}
    {junk : Nat → Nat → A} {p : PMat A} (h : SideOk kc src p) (ho : src.layout.order = .colMajor) {lo hi : Nat}
    (h1 : lo % kc = 0) (h2 : hi % kc = 0) (h3 : lo < hi) (h4 : hi ≤ p.layout.cols) :
    ∃ q, packCols kc pk z src junk lo hi p = .ok q ∧ Packs z src lo hi p q := by
  obtain ⟨hp, l1, l2, l3, l4, l5, l6, l7⟩ := h.facts
  obtain ⟨n, hn⟩ : ∃ n, hi = lo + kc * n := by
    obtain ⟨a, rfl⟩ := Nat.dvd_of_mod_eq_zero h1
    obtain ⟨b, rfl⟩ := Nat.dvd_of_mod_eq_zero h2
    have hab : a ≤ b := Nat.le_of_lt (Nat.lt_of_mul_lt_mul_left h3)
    exact ⟨b - a, by rw [← Nat.mul_add]; congr 1; omega⟩
  subst hn
  have hsub : lo + kc * n - lo = kc * n := by omega
  unfold packCols
  rw [C.check_of ho, C.ok_bind, C.check_of l1, C.ok_bind, hsub, C.check_of (Nat.mul_mod_right _ _), C.ok_bind,
    C.check_of h1, C.ok_bind, Nat.mul_div_cancel_left _ hk]
  obtain ⟨d, e, i1, i2, i3⟩ := forUpTo_total (n := n) (s := p.data)
    (body := fun n d => packBlock kc pk z src junk p.layout (lo + kc * n) d)
    (fun m t => t.size = p.data.size ∧
      (∀ r c, r < p.layout.rows → lo ≤ c → c < lo + kc * m → t.val (poff p.layout r c) = Float.rowVal z src r c) ∧
      (∀ o, (∀ r c, r < p.layout.rows → lo ≤ c → c < lo + kc * m → o ≠ poff p.layout r c) →
        t.val o = p.data.val o))
    ⟨rfl, fun r c _ _ _ => by omega, fun _ _ => rfl⟩
    (by
      rintro m t hm ⟨j1, j2, j3⟩
      have hmul : kc * (m + 1) ≤ kc * n := Nat.mul_le_mul_left _ hm
      rw [Nat.mul_add, Nat.mul_one] at hmul
      have hmod : (lo + kc * m) % kc = 0 := by rw [Nat.add_mul_mod_self_left, h1]
      obtain ⟨t', e, hP⟩ := packBlock_of ok (z := z) (junk := junk) h ho hmod (show lo + kc * m + kc ≤ _ by omega) j1
      have hpo : ∀ r i, i < kc → src.layout.rows * (lo + kc * m) + r * kc + i = poff p.layout r (lo + kc * m + i) :=
        fun r i hi => (h.poff hk hmod hi r).symm
      refine ⟨t', e, hP.size.trans j1, fun r c hr hl hc => ?_, fun o ho => ?_⟩
      · by_cases hin : c < lo + kc * m
        · rw [hP.out, j2 r c hr hl hin]
          intro i j hi hj he
          rw [hpo j i hi] at he
          obtain ⟨_, rfl⟩ := poff_inj hp hr (by omega) (by omega) (by omega) he
          omega
        · obtain ⟨i, rfl⟩ := Nat.exists_eq_add_of_le (Nat.not_lt.1 hin)
          have hi : i < kc := by rw [Nat.mul_add, Nat.mul_one] at hc; omega
          rw [← hpo r i hi, hP.inn i r hi (by omega)]
          unfold laneVal
          rw [if_pos (by omega)]
      · rw [hP.out o, j3 o]
        · exact fun r c hr hl hc => ho r c hr hl (by rw [Nat.mul_add]; omega)
        · intro i j hi hj
          rw [hpo j i hi]
          exact ho j _ (by omega) (by omega) (by rw [Nat.mul_add]; omega))
  rw [e, C.ok_bind]
  refine ⟨_, rfl, ⟨rfl, rfl, i1, rfl, fun b b' e1 e2 => ?_⟩, ⟨fun o ho => i3 o (fun r c hr hl hc => ho r c hr ⟨hl, hc⟩),
    fun b b' c e1 e2 _ => ?_⟩, i2⟩
  · dsimp only at e2
    rw [e1] at e2; cases e2; rfl
  · dsimp only at e2
    rw [e1] at e2; cases e2; rfl

theorem packSide_of {P : Path A} (hk : 0 < P.isa.kc) (ok : PackerOk P.isa.kc P.packer)
    {src : Mul.Mat A} {junk : Nat → Nat → A} {p : PMat A} (h : SideOk P.isa.kc src p) {lo hi : Nat}
    (h1 : lo % P.isa.kc = 0) (h2 : hi % P.isa.kc = 0) (h3 : lo < hi) (h4 : hi ≤ p.layout.cols) :
    ∃ q, packSide P src junk lo hi p = .ok q ∧ Packs P.isa.ops.zero src lo hi p q := by
  unfold packSide
  cases ho : src.layout.order with
  | colMajor => rw [if_pos rfl]; exact packCols_of hk ok h ho h1 h2 h3 h4
  | rowMajor =>
    rw [if_neg (by simp)]
    have hf : Float.Fits P.isa.kc src p.layout lo hi :=
      ⟨ho, h.layout, Nat.dvd_of_mod_eq_zero h1, Nat.dvd_of_mod_eq_zero h2, h4⟩
    obtain ⟨q, e⟩ := Float.memcpyPack_total (z := P.isa.ops.zero) hf h3 h.int h.data h.source
    obtain ⟨q1, q2, q3, q4, q5, q6⟩ := Float.memcpyPack_ok hf e
    have hr : p.layout.rows = src.layout.rows := h.facts.2.2.2.2.1
    refine ⟨q, e, ⟨q1, q2, q4, by rw [q3], fun b b' e1 e2 => ?_⟩, ⟨fun o ho => ?_, fun b b' c e1 e2 _ => ?_⟩,
      fun r c hr' hl hc => q5 r c (by omega) hl hc⟩
    · rw [q3, e1] at e2; cases e2; rfl
    · exact q6 o (fun r c hr' hl hc => ho r c (by omega) ⟨hl, hc⟩)
    · rw [q3, e1] at e2; cases e2; rfl

end Ruy.XFloat

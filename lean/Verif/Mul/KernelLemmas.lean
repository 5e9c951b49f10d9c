import Verif.Mul.PackLemmas
/-
What the kernel stores, as a function of the sources (for any accumulator
arithmetic and any packed encoding).
-/
namespace Ruy.Mul
open Ruy.Mat

variable {A : Type}

/-- A packed operand seen as the computation that defines it. -/
structure Operand (A : Type) where
  pack : A → A
  src : Mat A
  zp : Int
  depth : Nat

/-- Value the packed operand has at (row, col). -/
def Operand.val (ar : Arith A) (o : Operand A) (row col : Nat) : C A :=
  packedVal ar o.pack o.src o.zp row col

/-- Column sum of the packed operand. -/
def Operand.sum (ar : Arith A) (o : Operand A) (col : Nat) : C A :=
  colSum ar o.pack o.src o.zp o.depth col

/-- Multiply-accumulate on operand values. -/
def opDotStep (ar : Arith A) (l r : Operand A) (i j k : Nat) (acc : A) : C A := do
  let x ← l.val ar k i
  let y ← r.val ar k j
  let xy ← ar.mul x y
  ar.add acc xy

def opSubSum (ar : Arith A) (zp : Int) (other : Operand A) (col : Nat) (acc : A) : C A :=
  if zp = 0 then pure acc
  else do
    let s ← other.sum ar col
    let t ← ar.mul (ar.ofInt zp) s
    ar.sub acc t

/-- The accumulator before the multiplier is applied. -/
def opAccum (ar : Arith A) (mp : Params A) (l r : Operand A) (i j : Nat) : C A := do
  let a0 ← forUpTo l.depth (opDotStep ar l r i j) ar.zero
  let a1 ← addBias ar mp.bias (channelOf mp.channelDim i j) a0
  let a2 ← opSubSum ar l.zp r j a1
  let a3 ← opSubSum ar r.zp l i a2
  addZpProduct ar l.zp r.zp l.depth a3

/-- The value of entry (i, j) as a function of the operands only. -/
def opEntry (ar : Arith A) (mp : Params A) (l r : Operand A) (dzp : Int) (i j : Nat) : C A := do
  let a ← opAccum ar mp l r i j
  finish ar mp dzp (channelOf mp.channelDim i j) a

/-- The packed matrix `p` is meant to hold operand `o`. -/
structure Holds (o : Operand A) (p : PMat A) : Prop where
  zp : p.zp = o.zp
  depth : p.layout.rows = o.depth

theorem Holds.same {o : Operand A} {p p' : PMat A} (h : Holds o p) (hs : SameShape p p') :
    Holds o p' := ⟨hs.zp.trans h.zp, by rw [hs.layout]; exact h.depth⟩

theorem elem_eq_val {ar : Arith A} {o : Operand A} {p : PMat A} (h : Holds o p) {c k : Nat}
    (hd : ColDone ar o.pack o.src p c) (hk : k < o.depth) : p.elem k c = o.val ar k c := by
  obtain ⟨v, h1, h2⟩ := hd.data k (by rw [h.depth]; exact hk)
  unfold Operand.val
  rw [h1, ← h.zp, h2]

theorem readSum_eq_sum {ar : Arith A} {o : Operand A} {p : PMat A} (h : Holds o p) {c : Nat}
    (hd : ColDone ar o.pack o.src p c) (hs : p.sums.isSome) : readSum p c = o.sum ar c := by
  obtain ⟨v, h1, h2⟩ := hd.sums hs
  unfold Operand.sum
  rw [h1, ← h.zp, ← h.depth, h2]

theorem subSum_eq {ar : Arith A} {o : Operand A} {p : PMat A} (h : Holds o p) {c : Nat} {zp : Int}
    (hd : ColDone ar o.pack o.src p c) (hs : p.sums.isSome ∨ zp = 0) (acc : A) :
    subSum ar zp p c acc = opSubSum ar zp o c acc := by
  unfold subSum opSubSum
  rcases hs with hs | hs
  · rw [readSum_eq_sum h hd hs]
  · rw [if_pos hs, if_pos hs]

/-- Once the two columns are packed, the kernel computes `opEntry`. -/
theorem kernelEntry_eq {ar : Arith A} {mp : Params A} {l r : Operand A} {pl pr : PMat A}
    {dzp : Int} {i j : Nat} (hl : Holds l pl) (hr : Holds r pr)
    (hd : l.depth = r.depth)
    (hcl : ColDone ar l.pack l.src pl i) (hcr : ColDone ar r.pack r.src pr j)
    (hsl : pl.sums.isSome ∨ r.zp = 0) (hsr : pr.sums.isSome ∨ l.zp = 0) :
    kernelEntry ar mp pl pr dzp i j = opEntry ar mp l r dzp i j := by
  unfold kernelEntry opEntry opAccum
  simp only [bind_assoc]
  rw [hl.depth]
  have : forUpTo l.depth (dotStep ar pl pr i j) ar.zero =
      forUpTo l.depth (opDotStep ar l r i j) ar.zero := by
    apply forUpTo_congr
    intro k t hk
    unfold dotStep opDotStep
    rw [elem_eq_val hl hcl hk, elem_eq_val hr hcr (by omega)]
  rw [this]
  congr 1; funext a0
  congr 1; funext a1
  rw [hl.zp, hr.zp, subSum_eq hr hcr hsr]
  congr 1; funext a2
  rw [subSum_eq hl hcl hsl]

/-! ### Destination -/

/-- Entry `(i, j)` of the destination has been computed. -/
def EntryDone (f : Nat → Nat → C A) (dst : Mat A) (i j : Nat) : Prop :=
  ∃ v, dst.elem i j = .ok v ∧ f i j = .ok v

structure DSame (d d' : Mat A) : Prop where
  layout : d'.layout = d.layout
  zp : d'.zp = d.zp
  size : d'.data.size = d.data.size

theorem DSame.refl (d : Mat A) : DSame d d := ⟨rfl, rfl, rfl⟩
theorem DSame.trans {a b c : Mat A} (h : DSame a b) (h' : DSame b c) : DSame a c :=
  ⟨h'.layout.trans h.layout, h'.zp.trans h.zp, h'.size.trans h.size⟩

/-- Only the cells of entries in `S` may differ. -/
def DOutside (S : Nat → Nat → Prop) (d d' : Mat A) : Prop :=
  ∀ o, (∀ i j, S i j → o ≠ off d.layout i j) → d'.data.val o = d.data.val o

theorem dset_ok {d d' : Mat A} {i j : Nat} {x : A} (h : d.set i j x = .ok d') :
    DSame d d' ∧ DOutside (fun i' j' => i' = i ∧ j' = j) d d' ∧ d'.elem i j = .ok x := by
  unfold Mat.set at h
  obtain ⟨o, ho, h⟩ := C.bind_ok h
  obtain ⟨b, hb, h⟩ := C.bind_ok h
  cases h
  obtain ⟨h1, h2, h3, h4⟩ := Buf.write_ok hb
  refine ⟨⟨rfl, rfl, h2⟩, fun o' ho' => h4 o' ?_, ?_⟩
  · have := ho' i j ⟨rfl, rfl⟩
    rw [offset_ok ho]; exact this
  · unfold Mat.elem
    dsimp only
    rw [ho, C.ok_bind, Buf.read_of (by omega), h3]

theorem delem_frame {S : Nat → Nat → Prop} {d d' : Mat A} (hs : DSame d d')
    (ho : DOutside S d d') (hst : StrideOk d.layout) {i j : Nat} (hi : i < d.layout.rows)
    (hj : j < d.layout.cols) (hS : ∀ a b, S a b → a < d.layout.rows ∧ b < d.layout.cols)
    (hn : ¬ S i j) : d'.elem i j = d.elem i j := by
  unfold Mat.elem
  rw [hs.layout]
  cases h : offset d.layout i j with
  | error e => rfl
  | ok o =>
    simp only [C.ok_bind, Buf.read, hs.size]
    rw [ho o]
    intro a b hab he
    have hab' := hS a b hab
    have := off_inj hst hi hj hab'.1 hab'.2 (by rw [← offset_ok h]; exact he)
    obtain ⟨rfl, rfl⟩ := this
    exact hn hab

theorem DOutside.mono {S T : Nat → Nat → Prop} {d d' : Mat A} (h : DOutside S d d')
    (hST : ∀ i j, S i j → T i j) : DOutside T d d' :=
  fun o ho => h o (fun i j hS => ho i j (hST i j hS))

theorem DOutside.trans {S : Nat → Nat → Prop} {a b c : Mat A} (h : DOutside S a b)
    (hs : DSame a b) (h' : DOutside S b c) : DOutside S a c := fun o ho => by
  rw [h' o (fun i j hS => by rw [hs.layout]; exact ho i j hS)]; exact h o ho

/-- Storing entry by entry with `f` over a rectangle (a loop nest of kernel steps). -/
theorem storeLoop_ok {f : Nat → Nat → C A} {step : Nat → Nat → Mat A → C (Mat A)}
    {d d' : Mat A} {i0 i1 j0 j1 : Nat} (hst : StrideOk d.layout)
    (hi1 : i1 ≤ d.layout.rows) (hj1 : j1 ≤ d.layout.cols)
    (hstep : ∀ i j t t', i0 ≤ i → i < i1 → j0 ≤ j → j < j1 → DSame d t → step i j t = .ok t' →
      ∃ v, f i j = .ok v ∧ t.set i j v = .ok t')
    (h : forRange i0 i1 (fun i => forRange j0 j1 (fun j => step i j)) d = .ok d') :
    DSame d d' ∧ DOutside (fun i j => i0 ≤ i ∧ i < i1 ∧ j0 ≤ j ∧ j < j1) d d' ∧
      ∀ i j, i0 ≤ i → i < i1 → j0 ≤ j → j < j1 → EntryDone f d' i j := by
  have inner : ∀ n i (t t' : Mat A), i0 ≤ i → i < i1 → j0 + n ≤ j1 → DSame d t →
      forUpTo n (fun j => step i (j0 + j)) t = .ok t' →
      DSame t t' ∧ DOutside (fun i' j' => i' = i ∧ j0 ≤ j' ∧ j' < j0 + n) t t' ∧
      ∀ j, j0 ≤ j → j < j0 + n → EntryDone f t' i j := by
    intro n
    induction n with
    | zero =>
      intro i t t' _ _ _ _ h
      cases h
      exact ⟨DSame.refl _, fun _ _ => rfl, fun j h1 h2 => absurd h2 (by omega)⟩
    | succ n ih =>
      intro i t t' hi0 hi hn hdt h
      obtain ⟨u, hu, h⟩ := C.bind_ok h
      obtain ⟨a1, a2, a3⟩ := ih i t u hi0 hi (by omega) hdt hu
      obtain ⟨v, hv, hset⟩ := hstep i (j0 + n) u t' hi0 hi (by omega) (by omega) (hdt.trans a1) h
      obtain ⟨b1, b2, b3⟩ := dset_ok hset
      refine ⟨a1.trans b1, ?_, ?_⟩
      · exact (a2.mono (fun i' j' h => ⟨h.1, h.2.1, by omega⟩)).trans a1
          (b2.mono (fun i' j' h => ⟨h.1, by omega, by omega⟩))
      · intro j hj0 hj
        by_cases hjn : j = j0 + n
        · subst hjn; exact ⟨v, b3, hv⟩
        · obtain ⟨w, w1, w2⟩ := a3 j hj0 (by omega)
          refine ⟨w, ?_, w2⟩
          have hul : u.layout = d.layout := (hdt.trans a1).layout
          rw [← w1]
          apply delem_frame b1 b2 (by rw [hul]; exact hst) (by rw [hul]; omega)
            (by rw [hul]; omega)
          · rintro a b ⟨rfl, rfl⟩; rw [hul]; omega
          · rintro ⟨_, h⟩; exact hjn h
  have outer : ∀ m (t' : Mat A), i0 + m ≤ i1 →
      forUpTo m (fun i => forRange j0 j1 (fun j => step (i0 + i) j)) d = .ok t' →
      DSame d t' ∧ DOutside (fun i' j' => i0 ≤ i' ∧ i' < i0 + m ∧ j0 ≤ j' ∧ j' < j1) d t' ∧
      ∀ i j, i0 ≤ i → i < i0 + m → j0 ≤ j → j < j1 → EntryDone f t' i j := by
    intro m
    induction m with
    | zero =>
      intro t' _ h
      cases h
      exact ⟨DSame.refl _, fun _ _ => rfl, fun i j h1 h2 => absurd h2 (by omega)⟩
    | succ m ih =>
      intro t' hm h
      obtain ⟨u, hu, h⟩ := C.bind_ok h
      obtain ⟨a1, a2, a3⟩ := ih u (by omega) hu
      unfold forRange at h
      by_cases hj01 : j0 ≤ j1
      case neg =>
        have : j1 - j0 = 0 := by omega
        rw [this] at h
        cases h
        exact ⟨a1, a2.mono (fun i j h => absurd h.2.2 (by omega)),
          fun i j _ _ h1 h2 => absurd h2 (by omega)⟩
      obtain ⟨b1, b2, b3⟩ := inner (j1 - j0) (i0 + m) u t' (by omega) (by omega) (by omega) a1 h
      refine ⟨a1.trans b1, ?_, ?_⟩
      · exact (a2.mono (fun i j h => ⟨h.1, by omega, h.2.2⟩)).trans a1
          (b2.mono (fun i j h => by omega))
      · intro i j hi0 hi hj0 hj
        by_cases him : i = i0 + m
        · subst him; exact b3 j hj0 (by omega)
        · obtain ⟨w, w1, w2⟩ := a3 i j hi0 (by omega) hj0 hj
          refine ⟨w, ?_, w2⟩
          rw [← w1]
          apply delem_frame b1 b2 (by rw [a1.layout]; exact hst) (by rw [a1.layout]; omega)
            (by rw [a1.layout]; omega)
          · rintro a b ⟨rfl, h⟩; rw [a1.layout]; omega
          · rintro ⟨h, _⟩; exact him h
  by_cases hi01 : i0 ≤ i1
  · unfold forRange at h
    obtain ⟨a1, a2, a3⟩ := outer (i1 - i0) d' (by omega) h
    exact ⟨a1, a2.mono (fun i j h => by omega), fun i j h1 h2 => a3 i j h1 (by omega)⟩
  · unfold forRange at h
    have : i1 - i0 = 0 := by omega
    rw [this] at h
    cases h
    exact ⟨DSame.refl _, fun _ _ => rfl, fun i j h1 h2 => absurd h2 (by omega)⟩

end Ruy.Mul

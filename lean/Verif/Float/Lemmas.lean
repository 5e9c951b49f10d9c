import Verif.Float.Model
import Verif.Front.Values
/-
Mul and ReferenceMul on floats: the accumulators agree up to a congruence (equality up to the sign
of zero, or equality), which adding the destination's zero point turns into equality.
-/
namespace Ruy.Float
open Ruy.Mat Ruy.Mul Ruy.Front

variable {A : Type}

/-- What is needed of the floating-point arithmetic; `eqv` relates values that the computation
treats alike. -/
structure Laws (f : Ops A) (eqv : A → A → Prop) : Prop where
  trans : ∀ {x y z}, eqv x y → eqv y z → eqv x z
  refl : ∀ x, eqv x x
  add : ∀ {x x' y y'}, eqv x x' → eqv y y' → eqv (f.add x y) (f.add x' y')
  mul : ∀ {x x' y y'}, eqv x x' → eqv y y' → eqv (f.mul x y) (f.mul x' y')
  /-- `x - 0 + 0` against `x - 0` -/
  pack : ∀ x, eqv (f.add (f.sub x f.zero) f.zero) (f.sub x f.zero)
  /-- accumulating a product of paddings changes nothing -/
  pad0 : eqv (f.add f.zero (f.mul f.zero f.zero)) f.zero
  pad : ∀ x y, eqv (f.add (f.add x y) (f.mul f.zero f.zero)) (f.add x y)
  /-- adding the zero point -/
  norm : ∀ {x y}, eqv x y → f.add x f.zero = f.add y f.zero

/-- Values an accumulator can have. -/
def Acc (f : Ops A) (x : A) : Prop := x = f.zero ∨ ∃ y z, x = f.add y z

theorem Laws.padAcc {f : Ops A} {eqv : A → A → Prop} (h : Laws f eqv) {x : A} (hx : Acc f x) :
    eqv (f.add x (f.mul f.zero f.zero)) x := by
  rcases hx with rfl | ⟨y, z, rfl⟩
  · exact h.pad0
  · exact h.pad y z

theorem ofInt_zero (f : Ops A) : f.arith.ofInt 0 = f.zero := by
  unfold Ops.arith; rfl

section
variable {f : Ops A} {eqv : A → A → Prop}

/-- The packed operand's value against the value ReferenceMul multiplies. -/
theorem packed_eqv (h : Laws f eqv) {o : Operand A} (ho : o.pack = f.pack) {r c : Nat} {v x x' : A}
    (hr : r < o.src.layout.rows) (hc : c < o.src.layout.cols) (hv : o.val f.arith r c = .ok v)
    (hx : o.src.elem r c = .ok x) (hx' : f.arith.sub x (f.arith.ofInt 0) = .ok x') : eqv v x' := by
  unfold Operand.val packedVal at hv
  rw [if_pos ⟨hc, hr⟩, hx, C.ok_bind, C.pure_eq, ho] at hv
  cases hv
  rw [ofInt_zero] at hx'
  cases hx'
  exact h.pack x

theorem pad_val {o : Operand A} (hz : o.zp = 0) {r c : Nat} {v : A} (hr : o.src.layout.rows ≤ r)
    (hv : o.val f.arith r c = .ok v) : v = f.zero := by
  unfold Operand.val packedVal at hv
  rw [if_neg (by omega), hz, ofInt_zero] at hv
  cases hv; rfl

/-- The dot products; `l`, `r` are the packed operands in the order in which the kernel multiplies
(exchanged for row-major destinations). -/
theorem dot_eqv (h : Laws f eqv) {lhs rhs : Mul.Mat A} {l r : Operand A} {sw : Bool} {i j depth : Nat}
    {a b : A} (hl : l.pack = f.pack) (hr : r.pack = f.pack) (hzl : l.zp = 0) (hzr : r.zp = 0)
    (hlz : lhs.zp = 0) (hrz : rhs.zp = 0)
    (hcomm : sw = true → ∀ x y, eqv (f.mul x y) (f.mul y x))
    (hsl : l.src = if sw then rhs else lhs.transpose)
    (hsr : r.src = if sw then lhs.transpose else rhs)
    (hd : lhs.layout.cols = rhs.layout.rows) (hi : i < lhs.layout.rows) (hj : j < rhs.layout.cols)
    (hdep : lhs.layout.cols ≤ depth)
    (ha : forUpTo depth (opDotStep f.arith l r (if sw then j else i) (if sw then i else j)) f.zero =
      .ok a)
    (hb : forUpTo lhs.layout.cols (refDotStep f.arith lhs rhs i j) f.zero = .ok b) : eqv a b := by
  have key := forUpTo_inv (P := fun k (acc : A) => ∃ b',
      forUpTo (min k lhs.layout.cols) (refDotStep f.arith lhs rhs i j) f.zero = .ok b' ∧
        eqv acc b' ∧ Acc f b') (s := f.zero) (s' := a)
    ⟨f.zero, by rw [Nat.zero_min]; rfl, h.refl _, .inl rfl⟩
    (by
      rintro k t t' hk ⟨b', hb', hab, hacc⟩ hstep
      unfold opDotStep at hstep
      obtain ⟨x, hx, hstep⟩ := C.bind_ok hstep
      obtain ⟨y, hy, hstep⟩ := C.bind_ok hstep
      obtain ⟨xy, hxy, hstep⟩ := C.bind_ok hstep
      cases hxy
      cases hstep
      by_cases hkn : k < lhs.layout.cols
      · rw [Nat.min_eq_left (by omega)] at hb' ⊢
        obtain ⟨c, hc⟩ := forUpTo_prefix (k := k + 1) (by omega) hb
        have hc' := hc
        rw [forUpTo, hb', C.ok_bind] at hc'
        unfold refDotStep at hc'
        obtain ⟨u, hu, hc'⟩ := C.bind_ok hc'
        obtain ⟨v, hv, hc'⟩ := C.bind_ok hc'
        obtain ⟨u', hu', hc'⟩ := C.bind_ok hc'
        obtain ⟨v', hv', hc'⟩ := C.bind_ok hc'
        obtain ⟨uv, huv, hc'⟩ := C.bind_ok hc'
        cases huv
        cases hc'
        rw [hlz] at hu'
        rw [hrz] at hv'
        refine ⟨_, hc, h.add hab ?_, .inr ⟨_, _, rfl⟩⟩
        cases sw with
        | false =>
          have e1 : eqv x u' := packed_eqv h hl
            (by rw [hsl]; exact hkn) (by rw [hsl]; exact hi) hx
            (by rw [hsl]; exact (elem_transpose lhs i k).trans hu) hu'
          have e2 : eqv y v' := packed_eqv h hr
            (by rw [hsr]; show k < rhs.layout.rows; omega) (by rw [hsr]; exact hj) hy
            (by rw [hsr]; exact hv) hv'
          exact h.mul e1 e2
        | true =>
          have e1 : eqv x v' := packed_eqv h hl
            (by rw [hsl]; show k < rhs.layout.rows; omega) (by rw [hsl]; exact hj) hx
            (by rw [hsl]; exact hv) hv'
          have e2 : eqv y u' := packed_eqv h hr
            (by rw [hsr]; exact hkn) (by rw [hsr]; exact hi) hy
            (by rw [hsr]; exact (elem_transpose lhs i k).trans hu) hu'
          exact h.trans (h.mul e1 e2) (hcomm rfl _ _)
      · rw [Nat.min_eq_right (by omega)] at hb' ⊢
        refine ⟨b', hb', ?_, hacc⟩
        have e1 : x = f.zero := pad_val hzl (by
          rw [hsl]
          cases sw
          · exact Nat.le_of_not_lt hkn
          · show rhs.layout.rows ≤ k; omega) hx
        have e2 : y = f.zero := pad_val hzr (by
          rw [hsr]
          cases sw
          · show rhs.layout.rows ≤ k; omega
          · exact Nat.le_of_not_lt hkn) hy
        rw [e1, e2]
        exact h.trans (h.add hab (h.refl _)) (h.padAcc hacc))
    ha
  obtain ⟨b', hb', hab, _⟩ := key
  rw [Nat.min_eq_right hdep, hb] at hb'
  cases hb'
  exact hab

theorem bias_eqv (h : Laws f eqv) {bias : Option (Buf A)} {c : Nat} {a b a' b' : A} (hab : eqv a b)
    (ha : addBias f.arith bias c a = .ok a') (hb : addBias f.arith bias c b = .ok b') :
    eqv a' b' := by
  unfold addBias at ha hb
  cases bias with
  | none => cases ha; cases hb; exact hab
  | some q =>
    obtain ⟨x, hx, ha⟩ := C.bind_ok ha
    obtain ⟨y, hy, hb⟩ := C.bind_ok hb
    rw [hx] at hy
    cases hy
    cases ha; cases hb
    exact h.add hab (h.refl _)

theorem finish_norm (h : Laws f eqv) {mp : Mul.Params A} {c : Nat} {a b : A}
    (hs : ∀ c x, mp.scale c x = .ok x) (hab : eqv a b) :
    finish f.arith mp 0 c a = finish f.arith mp 0 c b := by
  have e : ∀ x, finish f.arith mp 0 c x = (f.arith.add x f.zero >>= fun a2 =>
      let a3 := if f.arith.lt mp.clampMax a2 then mp.clampMax else a2
      let a4 := if f.arith.lt a3 mp.clampMin then mp.clampMin else a3
      pure (mp.cast a4)) := by
    intro x
    unfold finish
    rw [hs, C.ok_bind, ofInt_zero]
  rw [e, e]
  have : f.arith.add a f.zero = f.arith.add b f.zero := congrArg Except.ok (h.norm hab)
  rw [this]

theorem opSubSum_zero {ar : Arith A} {zp : Int} {o : Operand A} {c : Nat} {a a' : A}
    (h : opSubSum ar zp o c a = .ok a') (hz : zp = 0) : a' = a := by
  unfold opSubSum at h
  rw [if_pos hz] at h
  cases h; rfl

theorem addZpProduct_zero {ar : Arith A} {lzp rzp : Int} {d : Nat} {a a' : A}
    (h : addZpProduct ar lzp rzp d a = .ok a') (hz : lzp = 0) : a' = a := by
  unfold addZpProduct at h
  rw [if_pos (.inl hz)] at h
  cases h; rfl

/-- An entry stored by Mul against the entry stored by ReferenceMul. -/
theorem entry_eq (h : Laws f eqv) {lhs rhs dst : Mul.Mat A} {mp : MulParams A} {isZero : A → Bool}
    {depth i j : Nat} {v w : A} (hq : mp.quant = none)
    (hlz : lhs.zp = 0) (hrz : rhs.zp = 0) (hdz : dst.zp = 0)
    (hcomm : dst.layout.order = .rowMajor → ∀ x y, eqv (f.mul x y) (f.mul y x))
    (hd : lhs.layout.cols = rhs.layout.rows) (hdep : lhs.layout.cols ≤ depth)
    (hi : i < lhs.layout.rows) (hj : j < rhs.layout.cols)
    (hv : userEntry (floatScalars f isZero) lhs rhs dst mp depth i j = .ok v)
    (hw : refEntry f.arith (kernelParams (floatScalars f isZero) mp) lhs rhs dst.zp i j = .ok w) :
    v = w := by
  rw [userEntry_eq] at hv
  rw [refEntry_eq] at hw
  obtain ⟨a, ha, hv⟩ := C.bind_ok hv
  obtain ⟨b, hb, hw⟩ := C.bind_ok hw
  have hab : eqv a b := by
    unfold refAccum at hb
    obtain ⟨b0, hb0, hb⟩ := C.bind_ok hb
    unfold userAccum at ha
    split at ha
    · unfold opAccum at ha
      obtain ⟨a0, ha0, ha⟩ := C.bind_ok ha
      obtain ⟨a1, ha1, ha⟩ := C.bind_ok ha
      obtain ⟨a2, ha2, ha⟩ := C.bind_ok ha
      obtain ⟨a3, ha3, ha⟩ := C.bind_ok ha
      have e2 := opSubSum_zero ha2 hlz
      have e3 := opSubSum_zero ha3 hrz
      have e4 := addZpProduct_zero ha hlz
      subst e4 e3 e2
      refine bias_eqv h ?_ ha1 hb
      exact dot_eqv (sw := false) h rfl rfl hlz hrz hlz hrz (fun e => by cases e) rfl rfl hd hi hj hdep ha0 hb0
    · rename_i ho
      unfold opAccum at ha
      obtain ⟨a0, ha0, ha⟩ := C.bind_ok ha
      obtain ⟨a1, ha1, ha⟩ := C.bind_ok ha
      obtain ⟨a2, ha2, ha⟩ := C.bind_ok ha
      obtain ⟨a3, ha3, ha⟩ := C.bind_ok ha
      have e2 := opSubSum_zero ha2 hrz
      have e3 := opSubSum_zero ha3 hlz
      have e4 := addZpProduct_zero ha hrz
      subst e4 e3 e2
      have hch : channelOf mp.channelDim.transpose j i = channelOf mp.channelDim i j :=
        channelOf_transpose _ _ _
      have ha1' : addBias f.arith mp.bias (channelOf mp.channelDim i j) a0 = .ok a := by
        rw [← hch]; exact ha1
      refine bias_eqv h ?_ ha1' hb
      have ho' : dst.layout.order = .rowMajor := by
        cases e : dst.layout.order
        · exact absurd e ho
        · rfl
      exact dot_eqv (sw := true) h rfl rfl hrz hlz hlz hrz (fun _ => hcomm ho') rfl rfl hd hi hj hdep ha0 hb0
  have hsc : ∀ c x, (kernelParams (floatScalars f isZero) mp).scale c x = .ok x := by
    intro c x
    show applyMultiplier _ mp.quant c x = .ok x
    rw [hq]; rfl
  rw [hdz] at hv hw
  have e := finish_norm (c := channelOf mp.channelDim i j) h hsc hab
  have : finish f.arith (kernelParams (floatScalars f isZero) mp) 0 (channelOf mp.channelDim i j) a =
      .ok v := hv
  rw [this] at e
  exact Except.ok.inj (e.trans hw)

end

/-! ### The laws hold for IEEE arithmetics -/

/-- What is assumed of a floating-point environment: rounding a representable number is exact,
non-zero finite values are non-zero, and quiet NaNs stay what they are. -/
structure Env.Ok (e : Env) : Prop where
  rnd : ∀ q r, e.rnd q = .fin r → r ≠ 0 ∧ e.rnd r = .fin r
  rndNan : ∀ q p, e.rnd q ≠ .nan p
  nan1 : ∀ p, e.nan1 (e.nan1 p) = e.nan1 p
  nan2 : ∀ p q, e.nan1 (e.nan2 p q) = e.nan2 p q
  dnan : e.nan1 e.dnan = e.dnan

/-- Equal, or both zero unless rounding is towards minus infinity. -/
def Env.eqv (e : Env) (x y : Fl) : Prop := x = y ∨ (e.zsum = false ∧ ∃ s t, x = .zero s ∧ y = .zero t)

/-- Values that operations return. -/
def Env.Stable (e : Env) : Fl → Prop
  | .nan p => e.nan1 p = p
  | .fin q => e.rnd q = .fin q
  | _ => True

theorem Env.Ok.rnd_stable {e : Env} (h : e.Ok) (q : ℚ) : e.Stable (e.rnd q) := by
  cases hr : e.rnd q with
  | nan p => exact absurd hr (h.rndNan q p)
  | inf s => trivial
  | zero s => trivial
  | fin r => exact (h.rnd q r hr).2

theorem Env.Ok.add_stable {e : Env} (h : e.Ok) (x y : Fl) : e.Stable (e.add x y) := by
  cases x <;> cases y <;> simp only [Env.add] <;>
    first
    | exact h.nan2 _ _
    | exact h.nan1 _
    | exact h.rnd_stable _
    | trivial
    | (split <;> first | trivial | exact h.dnan | exact h.rnd_stable _)

theorem Env.add_zero {e : Env} {x : Fl} (h : e.Stable x) :
    e.eqv (e.add x (.zero false)) x := by
  cases x with
  | nan p => exact .inl (congrArg Fl.nan h)
  | inf s => exact .inl rfl
  | fin q => exact .inl h
  | zero s =>
    cases s with
    | false => exact .inl rfl
    | true =>
      show e.eqv (Fl.zero e.zsum) _
      cases hz : e.zsum with
      | false => exact .inr ⟨hz, _, _, rfl, rfl⟩
      | true => exact .inl rfl

theorem Env.Ok.laws {e : Env} (h : e.Ok) : Laws e.ops e.eqv where
  refl x := .inl rfl
  trans := by
    rintro x y z (rfl | ⟨hz, s, t, rfl, rfl⟩) hyz
    · exact hyz
    · rcases hyz with rfl | ⟨_, s', t', hs, rfl⟩
      · exact .inr ⟨hz, _, _, rfl, rfl⟩
      · exact .inr ⟨hz, _, _, rfl, rfl⟩
  add := by
    have key : ∀ {x x' y y' : Fl}, e.eqv x x' → e.eqv y y' → e.eqv (e.add x y) (e.add x' y') := by
      intro x x' y y' hx hy
      rcases hx with rfl | ⟨hz, s, t, rfl, rfl⟩ <;> rcases hy with rfl | ⟨hz', s', t', rfl, rfl⟩
      · exact .inl rfl
      · cases x with
        | zero u =>
          simp only [Env.add]
          refine .inr ⟨hz', ?_⟩
          split <;> split <;> exact ⟨_, _, rfl, rfl⟩
        | _ => exact .inl rfl
      · cases y with
        | zero u =>
          simp only [Env.add]
          refine .inr ⟨hz, ?_⟩
          split <;> split <;> exact ⟨_, _, rfl, rfl⟩
        | _ => exact .inl rfl
      · simp only [Env.add]
        refine .inr ⟨hz, ?_⟩
        split <;> split <;> exact ⟨_, _, rfl, rfl⟩
    intro x x' y y' hx hy; exact key hx hy
  mul := by
    have key : ∀ {x x' y y' : Fl}, e.eqv x x' → e.eqv y y' → e.eqv (e.mul x y) (e.mul x' y') := by
      intro x x' y y' hx hy
      rcases hx with rfl | ⟨hz, s, t, rfl, rfl⟩ <;> rcases hy with rfl | ⟨hz', s', t', rfl, rfl⟩
      · exact .inl rfl
      · cases x with
        | zero u => exact .inr ⟨hz', _, _, rfl, rfl⟩
        | fin q => exact .inr ⟨hz', _, _, rfl, rfl⟩
        | _ => exact .inl rfl
      · cases y with
        | zero u => exact .inr ⟨hz, _, _, rfl, rfl⟩
        | fin q => exact .inr ⟨hz, _, _, rfl, rfl⟩
        | _ => exact .inl rfl
      · exact .inr ⟨hz, _, _, rfl, rfl⟩
    intro x x' y y' hx hy; exact key hx hy
  pack x := Env.add_zero (h.add_stable _ _)
  pad0 := .inl rfl
  pad x y := Env.add_zero (h.add_stable _ _)
  norm := by
    rintro x y (rfl | ⟨hz, s, t, rfl, rfl⟩)
    · rfl
    · show e.add (.zero s) (.zero false) = e.add (.zero t) (.zero false)
      cases s <;> cases t <;> simp [Env.add, hz]

theorem Env.mul_comm {e : Env} (h : ∀ p q, e.nan2 p q = e.nan2 q p) (x y : Fl) :
    e.mul x y = e.mul y x := by
  cases x <;> cases y <;> simp [Env.mul, Bool.xor_comm, _root_.mul_comm, h _ _]

end Ruy.Float

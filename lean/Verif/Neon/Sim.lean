import Verif.Neon.Isa
/-
Registers that an instruction reads and writes; runs from two states that differ in registers whose
contents do not matter.
-/
namespace Ruy.Neon

namespace Instr

/-- General-purpose registers that are read. -/
def rx : Instr → List Nat
  | ldpX _ _ | ldpW _ _ | ldpB _ _ | ldpH _ _ | movI _ _ | movi _ | mvni _ | v3 _ _ _ _ | ve _ _ _ _ _ => []
  | movW _ n | movX _ n | addXI _ n _ | addWI _ n _ | cmpI n _ | tst n _ | andsI _ n _ | cmpP n => [n]
  | addX _ n m _ | subW _ n m | cmpW n m | ccmpEq n m | cselW _ n m _ | cselX _ n m _ => [n, m]
  | dupS _ n | dupH _ n | dupB _ n | insH _ _ n | insS _ _ n | insD _ _ n => [n]
  | dupES _ _ _ | dupEH _ _ _ | dupEH4 _ _ _ => []
  | ldq _ p _ _ | ldd _ p _ _ | ldB _ _ p | ldx _ p _ | lddN _ p _ | ldxN _ p _ => [p]
  | ldqR _ p i | lddR _ p i => [p, i]
  | stq _ p _ | stB _ _ p | stH _ _ p | stS _ _ p => [p]
  | ldrB _ p i | ldrH _ p i | ldrS _ p i => [p, i]
  | strB n p i | strH n p i | strS n p i => [n, p, i]
  | ldpSH _ _ | dupD _ _ _ => []
  | andI _ n _ | subP _ n _ => [n]
  | ldrSH _ p i | stdR _ p i | stqR _ p i | st2R _ _ p i => [p, i]
  | cmpPP n m => [n, m]
  | ldqN _ p _ | ldxP _ p | std _ p | stqP _ p => [p]
  | subsI _ n _ | addsI _ n _ | dupB8 _ n => [n]
  | addXS _ n m => [n, m]
  | moviB _ _ => []

/-- Vector registers that are read. -/
def rv : Instr → List Nat
  | v3 _ d n m | ve _ d n m _ => [d, n, m]
  | dupES _ n _ | dupEH _ n _ | dupEH4 _ n _ => [n]
  | insH d _ _ | insS d _ _ | insD d _ _ | ldB d _ _ => [d]
  | stq n _ _ | stB n _ _ | stH n _ _ | stS n _ _ => [n]
  | dupD _ n _ | std n _ | stdR n _ _ | stqP n _ | stqR n _ _ => [n]
  | st2R n m _ _ => [n, m]
  | _ => []

/-- General-purpose registers that are written. -/
def wx : Instr → List Nat
  | ldpX d _ | ldpW d _ | ldpB d _ | ldpH d _ | movI d _ | movW d _ | movX d _ | addXI d _ _ | addX d _ _ _
  | addWI d _ _ | subW d _ _ | andsI d _ _ | cselW d _ _ _ | cselX d _ _ _ | ldx d _ _ | ldxN d _ _
  | ldrB d _ _ | ldrH d _ _ | ldrS d _ _ => [d]
  | ldq _ p _ _ | ldd _ p _ _ | ldqR _ p _ | lddR _ p _ | ldB _ _ p | stB _ _ p | stH _ _ p | stS _ _ p => [p]
  | ldpSH d _ | ldrSH d _ _ | andI d _ _ | subP d _ _ | subsI d _ _ | addsI d _ _ | addXS d _ _ => [d]
  | ldxP d p => [p, d]
  | stdR _ p _ | stqP _ p | stqR _ p _ | st2R _ _ p _ => [p]
  | _ => []

/-- Vector registers that are written. -/
def wv : Instr → List Nat
  | movi d | mvni d | v3 _ d _ _ | ve _ d _ _ _ | dupS d _ | dupH d _ | dupB d _ | dupES d _ _ | dupEH d _ _
  | dupEH4 d _ _ | insH d _ _ | insS d _ _ | insD d _ _ | ldq d _ _ _ | ldd d _ _ _ | ldqR d _ _ | lddR d _ _
  | ldB d _ _ | lddN d _ _ | ldqN d _ _ | dupD d _ _ | moviB d _ | dupB8 d _ => [d]
  | _ => []

/-- Is memory written? -/
def wm : Instr → Bool
  | stq _ _ _ | stB _ _ _ | stH _ _ _ | stS _ _ _ | strB _ _ _ | strH _ _ _ | strS _ _ _
  | std _ _ | stdR _ _ _ | stqP _ _ | stqR _ _ _ | st2R _ _ _ _ => true
  | _ => false

end Instr

theorem put_self {α : Type} (f : Nat → α) (d : Nat) (a : α) : put f d a d = a := by
  unfold put; rw [show Nat.beq d d = true from Nat.beq_refl d]; rfl

theorem put_ne {α : Type} (f : Nat → α) {d r : Nat} (a : α) (h : r ≠ d) : put f d a r = f r := by
  unfold put
  have : Nat.beq r d = false := by rw [Bool.eq_false_iff]; intro hb; exact h (Nat.eq_of_beq_eq_true hb)
  rw [this]; rfl

/-- Equality of vector registers: sixteen bytes. -/
def Veq (u w : Vec) : Prop := ∀ b, b < 16 → u b = w b

theorem Veq.refl (u : Vec) : Veq u u := fun _ _ => rfl
theorem Veq.trans {a b c : Vec} (h : Veq a b) (h' : Veq b c) : Veq a c := fun k hk => (h k hk).trans (h' k hk)

theorem Veq.of {u w : Vec} (h : u = w) : Veq u w := h ▸ Veq.refl u

theorem Veq.h {u w : Vec} (h : Veq u w) {i : Nat} (hi : i < 8) : getH u i = getH w i := by
  unfold getH le2; rw [h _ (by omega), h _ (by omega)]
theorem Veq.s {u w : Vec} (h : Veq u w) {i : Nat} (hi : i < 4) : getS u i = getS w i := by
  unfold getS le4 le2; rw [h _ (by omega), h _ (by omega), h _ (by omega), h _ (by omega)]
theorem Veq.b {u w : Vec} (h : Veq u w) {i : Nat} (hi : i < 16) : getB u i = getB w i := by
  unfold getB; rw [h _ hi]
theorem Veq.u {u w : Vec} (h : Veq u w) {i : Nat} (hi : i < 16) : getU u i = getU w i := by
  unfold getU; rw [h _ hi]

theorem ofB_veq {f g : Nat → Int} (h : ∀ i, i < 16 → f i = g i) : Veq (ofB f) (ofB g) := fun b hb => by
  unfold ofB; rw [h b hb]
theorem ofH_veq {f g : Nat → Int} (h : ∀ i, i < 8 → f i = g i) : Veq (ofH f) (ofH g) := fun b hb => by
  unfold ofH; rw [h _ (by omega)]
theorem ofS_veq {f g : Nat → Int} (h : ∀ i, i < 4 → f i = g i) : Veq (ofS f) (ofS g) := fun b hb => by
  unfold ofS; rw [h _ (by omega)]
/-- The lower halves. -/
def Leq (u w : Vec) : Prop := ∀ b, b < 8 → u b = w b
theorem lower_veq {u w : Vec} (h : Leq u w) : Veq (lower u) (lower w) := fun b _ => by
  unfold lower; split
  · exact h b (by assumption)
  · rfl
theorem upper_veq {u w d e : Vec} (hd : Veq d e) (h : Leq u w) : Veq (upper d u) (upper e w) := fun b hb => by
  unfold upper; split
  · exact hd b hb
  · exact h _ (by omega)
theorem ofB_leq {f g : Nat → Int} (h : ∀ i, i < 8 → f i = g i) : Leq (ofB f) (ofB g) := fun b hb => by
  unfold ofB; rw [h b hb]
theorem ofH_leq {f g : Nat → Int} (h : ∀ i, i < 4 → f i = g i) : Leq (ofH f) (ofH g) := fun b hb => by
  unfold ofH; rw [h _ (by omega)]

theorem vop_veq (op : VOp) {d d' n n' m m' : Vec} (hd : Veq d' d) (hn : Veq n' n) (hm : Veq m' m) :
    Veq (vop op d' n' m') (vop op d n m) := by
  cases op <;> simp only [vop]
  case eor => exact fun b hb => by dsimp only; rw [hn b hb, hm b hb]
  case addp =>
    refine ofS_veq fun i hi => ?_
    split
    · rw [hn.s (by omega), hn.s (by omega)]
    · rw [hm.s (by omega), hm.s (by omega)]
  case smull => exact ofH_veq fun i hi => by rw [hn.b (by omega), hm.b (by omega)]
  case smlal2 => exact ofH_veq fun i hi => by rw [hd.h hi, hn.b (by omega), hm.b (by omega)]
  case sadalp => exact ofS_veq fun i hi => by rw [hd.s hi, hn.h (by omega), hn.h (by omega)]
  case saddlp => exact ofH_veq fun i hi => by rw [hn.b (by omega), hn.b (by omega)]
  case sqxtnS => exact lower_veq (ofH_leq fun i hi => by rw [hn.s hi])
  case sqxtnS2 => exact upper_veq hd (ofH_leq fun i hi => by rw [hn.s hi])
  case sqxtnH => exact lower_veq (ofB_leq fun i hi => by rw [hn.h hi])
  case sqxtnH2 => exact upper_veq hd (ofB_leq fun i hi => by rw [hn.h hi])
  case sqxtun => exact lower_veq (ofB_leq fun i hi => by rw [hn.h hi])
  case sqxtun2 => exact upper_veq hd (ofB_leq fun i hi => by rw [hn.h hi])
  case saddw => exact ofS_veq fun i hi => by rw [hn.s hi, hm.h (by omega)]
  case umaxB | uminB => exact ofB_veq fun i hi => by rw [hn.u hi, hm.u hi]
  case smaxB | sminB => exact ofB_veq fun i hi => by rw [hn.b hi, hm.b hi]
  case sdot =>
    exact ofS_veq fun i hi => by
      rw [hd.s hi, hn.b (by omega), hn.b (by omega), hn.b (by omega), hn.b (by omega), hm.b (by omega),
        hm.b (by omega), hm.b (by omega), hm.b (by omega)]
  case trn1S | trn2S | trn1D | trn2D | zip1B | zip1H | zip2H =>
    intro b hb
    dsimp only
    split
    · exact hn _ (by omega)
    · exact hm _ (by omega)
  case sqaddH | smaxH | sminH => exact ofH_veq fun i hi => by rw [hn.h hi, hm.h hi]
  all_goals exact ofS_veq fun i hi => by rw [hn.s hi, hm.s hi]

theorem eop_veq (op : EOp) {k : Nat} (hk : k < 4) {d d' n n' m m' : Vec} (hd : Veq d' d) (hn : Veq n' n)
    (hm : Veq m' m) : Veq (eop op k d' n' m') (eop op k d n m) := by
  cases op <;> simp only [eop]
  case mls => exact ofS_veq fun i hi => by rw [hd.s hi, hn.s hi, hm.s hk]
  case sdot =>
    exact ofS_veq fun i hi => by
      rw [hd.s hi, hn.b (by omega), hn.b (by omega), hn.b (by omega), hn.b (by omega), hm.b (by omega),
        hm.b (by omega), hm.b (by omega), hm.b (by omega)]
  all_goals exact ofS_veq fun i hi => by rw [hn.s hi, hm.s hk]

theorem store_veq (s : St) (p : Val) (o n k : Nat) {u w : Vec} (h : Veq u w) (hk : k + n ≤ 16) :
    store s p o n (fun b => u (k + b)) = store s p o n (fun b => w (k + b)) := by
  unfold store
  funext r b
  unfold wr
  split
  · exact h _ (by omega)
  · rfl

theorem store_veq16 (s : St) (p : Val) (o : Nat) {u w : Vec} (h : Veq u w) :
    store s p o 16 u = store s p o 16 w := by
  unfold store
  funext r b
  unfold wr
  split
  · exact h _ (by omega)
  · rfl

theorem store_veq8 (s : St) (p : Val) (o : Nat) {u w : Vec} (h : Veq u w) :
    store s p o 8 u = store s p o 8 w := by
  unfold store
  funext r b
  unfold wr
  split
  · exact h _ (by omega)
  · rfl

theorem wr_veq16 (m : Region → Nat → Byte) (r : Region) (o : Nat) {u w : Vec} (h : Veq u w) :
    wr m r o 16 u = wr m r o 16 w := by
  funext r b
  unfold wr
  split
  · exact h _ (by omega)
  · rfl

/-- The two states agree, except possibly for the registers `dx` and `dv`. -/
structure Agree (dx dv : List Nat) (s t : St) : Prop where
  x : ∀ r, r < 44 → r ∉ dx → t.x r = s.x r
  v : ∀ k, k < 32 → k ∉ dv → Veq (t.v k) (s.v k)
  m : t.m = s.m
  z : t.z = s.z
  lt : t.lt = s.lt
  bad : t.bad = s.bad

theorem Agree.refl (s : St) : Agree [] [] s s := ⟨fun _ _ _ => rfl, fun _ _ _ => Veq.refl _, rfl, rfl, rfl, rfl⟩

theorem Agree.trans {dx dv : List Nat} {a b c : St} (h : Agree dx dv a b) (h' : Agree dx dv b c) :
    Agree dx dv a c :=
  ⟨fun r hr hd => (h'.x r hr hd).trans (h.x r hr hd), fun r hr hd => (h'.v r hr hd).trans (h.v r hr hd),
    h'.m.trans h.m, h'.z.trans h.z, h'.lt.trans h.lt, h'.bad.trans h.bad⟩

theorem Agree.weaken {dx dv ex ev : List Nat} {a b : St} (h : Agree dx dv a b) (hx : ∀ r ∈ dx, r ∈ ex)
    (hv : ∀ r ∈ dv, r ∈ ev) : Agree ex ev a b :=
  ⟨fun r hr hd => h.x r hr (fun h' => hd (hx r h')), fun r hr hd => h.v r hr (fun h' => hd (hv r h')),
    h.m, h.z, h.lt, h.bad⟩

/-- Written registers agree afterwards. -/
def less (d w : List Nat) : List Nat := d.filter (fun r => !w.contains r)

theorem not_less {d w : List Nat} {r : Nat} (h : r ∉ less d w) (hw : r ∉ w) : r ∉ d := by
  intro hd
  exact h (List.mem_filter.2 ⟨hd, by simp [hw]⟩)

theorem put_agree {α : Type} {f g : Nat → α} {N : Nat} {d : List Nat} {k : Nat} {a b : α}
    (h : ∀ r, r < N → r ∉ d → g r = f r) (hab : b = a) :
    ∀ r, r < N → r ∉ less d [k] → put g k b r = put f k a r := by
  intro r hr hd
  by_cases hk : r = k
  · subst hk; rw [put_self, put_self, hab]
  · rw [put_ne _ _ hk, put_ne _ _ hk]
    exact h r hr (not_less hd (by simpa using hk))

theorem put_agree2 {α : Type} {f g : Nat → α} {N : Nat} {d : List Nat} {k l : Nat} {a b a' b' : α}
    (h : ∀ r, r < N → r ∉ d → g r = f r) (hab : b = a) (hab' : b' = a') :
    ∀ r, r < N → r ∉ less d [k, l] → put (put g k b) l b' r = put (put f k a) l a' r := by
  intro r hr hd
  by_cases hl : r = l
  · subst hl; rw [put_self, put_self, hab']
  by_cases hk : r = k
  · subst hk; rw [put_ne _ _ hl, put_ne _ _ hl, put_self, put_self, hab]
  · rw [put_ne _ _ hl, put_ne _ _ hl, put_ne _ _ hk, put_ne _ _ hk]
    exact h r hr (not_less hd (by simp [hk, hl]))

theorem putv_agree {f g : Nat → Vec} {N : Nat} {d : List Nat} {k : Nat} {a b : Vec}
    (h : ∀ r, r < N → r ∉ d → Veq (g r) (f r)) (hab : Veq b a) :
    ∀ r, r < N → r ∉ less d [k] → Veq (put g k b r) (put f k a r) := by
  intro r hr hd
  by_cases hk : r = k
  · subst hk; rw [put_self, put_self]; exact hab
  · rw [put_ne _ _ hk, put_ne _ _ hk]
    exact h r hr (not_less hd (by simpa using hk))

/-- Lane numbers are in range. -/
def Instr.lanes : Instr → Bool
  | ve _ _ _ _ k | dupES _ _ k | stS _ k _ => decide (k < 4)
  | dupEH _ _ k | dupEH4 _ _ k | stH _ k _ => decide (k < 8)
  | stB _ k _ => decide (k < 16)
  | dupD _ _ k => decide (k < 2)
  | _ => true

/-- May the instruction run when the registers `dx` and `dv` do not matter? -/
def Instr.fine (i : Instr) (dx dv : List Nat) : Bool :=
  i.rx.all (fun r => decide (r < 44) && !dx.contains r) &&
    i.rv.all (fun r => decide (r < 32) && !dv.contains r) && i.lanes

theorem Agree.step {dx dv : List Nat} {s t : St} (e : Env) {i : Instr} (h : Agree dx dv s t)
    (hi : i.fine dx dv = true) :
    Agree (less dx i.wx) (less dv i.wv) (Neon.step e i s) (Neon.step e i t) := by
  obtain ⟨h12, hl⟩ := (Bool.and_eq_true _ _).mp hi
  obtain ⟨h1, h2⟩ := (Bool.and_eq_true _ _).mp h12
  have hx : ∀ r ∈ i.rx, t.x r = s.x r := by
    intro r hr
    have := (List.all_eq_true.1 h1) r hr
    simp only [Bool.and_eq_true, decide_eq_true_eq, Bool.not_eq_true', List.contains_eq_mem,
      decide_eq_false_iff_not] at this
    exact h.x r this.1 this.2
  have hv : ∀ r ∈ i.rv, Veq (t.v r) (s.v r) := by
    intro r hr
    have := (List.all_eq_true.1 h2) r hr
    simp only [Bool.and_eq_true, decide_eq_true_eq, Bool.not_eq_true', List.contains_eq_mem,
      decide_eq_false_iff_not] at this
    exact h.v r this.1 this.2
  have l0 : ∀ d : List Nat, less d [] = d := fun d => by simp [less]
  have hm := h.m
  have hz := h.z
  have hlt := h.lt
  have hb := h.bad
  have hc : ∀ c, holds t c = holds s c := by intro c; cases c <;> simp only [holds, hz, hlt]
  have hb1 : ∀ p o, bytes t p o = bytes s p o := fun p o => by unfold bytes; rw [hm]
  have hb2 : ∀ p o, bytesN t p o = bytesN s p o := fun p o => by unfold bytesN; rw [hm]
  have hst : ∀ p o n f, store t p o n f = store s p o n f := fun p o n f => by unfold store; rw [hm]
  clear h1 h2 h12 hi
  cases i <;>
    simp only [Instr.rx, Instr.rv, Instr.lanes, List.mem_cons, List.not_mem_nil, or_false, forall_eq_or_imp,
      forall_eq, false_implies, implies_true, decide_eq_true_eq] at hx hv hl <;>
    refine ⟨?_, ?_, ?_, ?_, ?_, ?_⟩ <;>
    simp only [Neon.step, Instr.wx, Instr.wv, l0, hb1, hb2, hst, hx, hm, hz, hlt, hb, hc] <;>
    try first
      | exact h.x
      | exact h.v
      | exact put_agree h.x rfl
      | exact put_agree2 h.x rfl rfl
  case movi | mvni => exact putv_agree h.v (Veq.refl _)
  case dupS | dupH | dupB | moviB | dupB8 => exact putv_agree h.v (Veq.refl _)
  case ldq | ldd | ldqR | lddR | lddN | ldqN => exact putv_agree h.v (Veq.refl _)
  case v3 => exact putv_agree h.v (vop_veq _ hv.1 hv.2.1 hv.2.2)
  case ve => exact putv_agree h.v (eop_veq _ hl hv.1 hv.2.1 hv.2.2)
  case dupES => exact putv_agree h.v (ofS_veq fun i hi => by rw [hv.s hl])
  case dupEH => exact putv_agree h.v (ofH_veq fun i hi => by rw [hv.h hl])
  case dupEH4 => exact putv_agree h.v (lower_veq (ofH_leq fun i hi => by rw [hv.h hl]))
  case insH => exact putv_agree h.v (ofH_veq fun i hi => by rw [hv.h hi])
  case insS => exact putv_agree h.v (ofS_veq fun i hi => by rw [hv.s hi])
  case insD => exact putv_agree h.v (fun b hb => by rw [hv b hb])
  case ldB => exact putv_agree h.v (fun b hb => by rw [hv b hb])
  case dupD => exact putv_agree h.v (lower_veq fun b hb => hv _ (by omega))
  case stq | stqP | stqR => exact store_veq16 _ _ _ hv
  case std | stdR => exact store_veq8 _ _ _ hv
  case st2R => rw [store_veq16 _ _ _ hv.1, wr_veq16 _ _ _ hv.2]
  case stB | stH | stS => exact store_veq _ _ _ _ _ hv (by omega)

/-- The registers that do not matter after a straight-line program; `none`: it reads one of them. -/
def flow : List Instr → List Nat × List Nat → Option (List Nat × List Nat)
  | [], d => some d
  | i :: is, d => if i.fine d.1 d.2 then flow is (less d.1 i.wx, less d.2 i.wv) else none

theorem Agree.exec {e : Env} {b : List Instr} : ∀ {dx dv : List Nat} {s t : St} {d : List Nat × List Nat},
    flow b (dx, dv) = some d → Agree dx dv s t → Agree d.1 d.2 (Neon.exec e b s) (Neon.exec e b t) := by
  induction b with
  | nil => intro dx dv s t d h ha; cases h; exact ha
  | cons i is ih =>
    intro dx dv s t d h ha
    rw [flow] at h
    split at h
    · rename_i hf
      exact ih h (ha.step e hf)
    · cases h

/-! ### What a program leaves alone -/

def wxs (b : List Instr) : List Nat := b.flatMap Instr.wx
def wvs (b : List Instr) : List Nat := b.flatMap Instr.wv

theorem step_x {e : Env} {i : Instr} {s : St} {r : Nat} (h : r ∉ i.wx) : (step e i s).x r = s.x r := by
  cases i <;> simp only [Instr.wx, List.mem_cons, List.not_mem_nil, or_false] at h <;>
    simp only [step] <;> first
      | exact put_ne _ _ h
      | (rw [not_or] at h; rw [put_ne _ _ h.2, put_ne _ _ h.1])

theorem step_v {e : Env} {i : Instr} {s : St} {r : Nat} (h : r ∉ i.wv) : (step e i s).v r = s.v r := by
  cases i <;> simp only [Instr.wv, List.mem_cons, List.not_mem_nil, or_false] at h <;>
    simp only [step] <;> exact put_ne _ _ h

theorem step_m {e : Env} {i : Instr} {s : St} (h : i.wm = false) : (step e i s).m = s.m := by
  cases i <;> simp only [Instr.wm] at h <;> first | rfl | cases h

theorem step_bad {e : Env} {i : Instr} {s : St} (h : (step e i s).bad = false) : s.bad = false := by
  cases i <;> simp only [step, Bool.or_eq_false_iff] at h <;> tauto

theorem exec_x {e : Env} {b : List Instr} {r : Nat} : ∀ {s : St}, r ∉ wxs b → (exec e b s).x r = s.x r := by
  induction b with
  | nil => intro s _; rfl
  | cons i is ih =>
    intro s h
    rw [wxs, List.flatMap_cons, List.mem_append, not_or] at h
    exact (ih h.2).trans (step_x h.1)

theorem exec_v {e : Env} {b : List Instr} {r : Nat} : ∀ {s : St}, r ∉ wvs b → (exec e b s).v r = s.v r := by
  induction b with
  | nil => intro s _; rfl
  | cons i is ih =>
    intro s h
    rw [wvs, List.flatMap_cons, List.mem_append, not_or] at h
    exact (ih h.2).trans (step_v h.1)

theorem exec_m {e : Env} {b : List Instr} : ∀ {s : St}, b.any Instr.wm = false → (exec e b s).m = s.m := by
  induction b with
  | nil => intro s _; rfl
  | cons i is ih =>
    intro s h
    rw [List.any_cons, Bool.or_eq_false_iff] at h
    exact (ih h.2).trans (step_m h.1)

theorem exec_bad {e : Env} {b : List Instr} : ∀ {s : St}, (exec e b s).bad = false → s.bad = false := by
  induction b with
  | nil => intro s h; exact h
  | cons i is ih => intro s h; exact step_bad (ih h)

end Ruy.Neon

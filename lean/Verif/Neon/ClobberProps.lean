import Verif.Neon.Clobber
import Verif.Neon.DotColProps
/-
C80: the `asm` statements of kernel_arm64.cc and pack_arm.cc change only the registers that
their operand and clobber lists name — except that of `Kernel8bitNeonDotprod1Col`, which also
changes `v20`.
-/
namespace Ruy.Neon

/-! ### The lists, as written -/

/-- Output operands of the kernels: lhs_col_ptr, rhs_col_ptr, lhs_ptr, rhs_ptr, dst_col_ptr, dst_ptr, row, col
(kernel_arm64.cc:1142-1144 and so on, the same in all of them). -/
def kernelOuts : List Nat := [lhsColPtr, rhsColPtr, lhsPtr, rhsPtr, dstColPtr, dstPtr, rRow, rCol]
/-- `"x1"`, …, `"x13"`. -/
def kernelGprs : List Nat := [1, 2, 3, 4, 5, 6, 7, 8, 9, 10, 11, 12, 13]
/-- `"v0"`, …, `"v31"`. -/
def allVecs : List Nat :=
  [0, 1, 2, 3, 4, 5, 6, 7, 8, 9, 10, 11, 12, 13, 14, 15, 16, 17, 18, 19, 20, 21, 22, 23, 24, 25, 26, 27, 28, 29,
    30, 31]

/-- `Kernel8bitNeon`, `…A55ish`, `…Dotprod`, `…DotprodX1`, `…DotprodA55ish`, and the float kernels: kernel_arm64.cc:1142-1151,
2961-2970, 4397-4406, 5652-5661, 7622-7631, 8323-8331, 8789-8797, 9282-9290, 9775-9783. -/
def kernelDeclared : Declared := ⟨kernelOuts, kernelGprs, allVecs⟩
/-- `Kernel8bitNeon1Col`: `"v0"`, …, `"v19"` (kernel_arm64.cc:1811-1819). -/
def colDeclared : Declared :=
  ⟨kernelOuts, kernelGprs, [0, 1, 2, 3, 4, 5, 6, 7, 8, 9, 10, 11, 12, 13, 14, 15, 16, 17, 18, 19]⟩
/-- `Kernel8bitNeonDotprod1Col`: `"v0"`, …, `"v17"` (kernel_arm64.cc:6344-6352). -/
def dotoDeclared : Declared :=
  ⟨kernelOuts, kernelGprs, [0, 1, 2, 3, 4, 5, 6, 7, 8, 9, 10, 11, 12, 13, 14, 15, 16, 17]⟩

/-- Output operands of the 8-bit pack functions: src_ptr0, …, src_ptr3, packed_ptr, sums_ptr (pack_arm.cc:200-202 and
so on). -/
def packOuts : List Nat := [srcPtr0, srcPtr1, srcPtr2, srcPtr3, packedPtr, sumsPtr]
/-- `Pack8bitColMajorForNeon`, `…NeonDotprod`: pack_arm.cc:200-212, 1571-1584. -/
def packDeclared : Declared := ⟨packOuts, [1, 2], allVecs⟩
/-- `Pack8bitColMajorForNeonA55ish`, `…NeonDotprodA55ish`: pack_arm.cc:826-837, 1074-1083. -/
def packADeclared : Declared := ⟨packOuts, [1, 2, 10, 11, 12, 13], allVecs⟩
/-- `Pack8bitRowMajorForNeonDotprod`: pack_arm.cc:1724-1735. -/
def drowDeclared : Declared := ⟨packOuts, [0, 1, 2], allVecs⟩
/-- `PackFloatColMajorForNeon`, `…A55ish`: no sums_ptr; pack_arm.cc:1869-1880, 2210-2217. -/
def fpackDeclared : Declared := ⟨[srcPtr0, srcPtr1, srcPtr2, srcPtr3, packedPtr], [1, 2, 10, 11, 12, 13], allVecs⟩

/-! ### The programs that keep to them -/

/-- C80, 8-bit kernels. -/
theorem c80_kernels : Keeps gemmCode kernelDeclared ∧ Keeps a55Code kernelDeclared ∧ Keeps colCode colDeclared ∧
    Keeps dotCode kernelDeclared ∧ Keeps dotxCode kernelDeclared ∧ Keeps dotaCode kernelDeclared :=
  ⟨keeps_of_covers (by decide +kernel), keeps_of_covers (by decide +kernel), keeps_of_covers (by decide +kernel),
    keeps_of_covers (by decide +kernel), keeps_of_covers (by decide +kernel), keeps_of_covers (by decide +kernel)⟩

/-- C80, 8-bit packing. -/
theorem c80_packs : Keeps packCode packDeclared ∧ Keeps packACode packADeclared ∧ Keeps dpackCode packDeclared ∧
    Keeps dpackACode packADeclared ∧ Keeps drowCode drowDeclared :=
  ⟨keeps_of_covers (by decide +kernel), keeps_of_covers (by decide +kernel), keeps_of_covers (by decide +kernel),
    keeps_of_covers (by decide +kernel), keeps_of_covers (by decide +kernel)⟩

/-- C80, float kernels and packing. -/
theorem c80_float : NeonF.Keeps NeonF.fltCode kernelDeclared ∧ NeonF.Keeps NeonF.fxCode kernelDeclared ∧
    NeonF.Keeps NeonF.faCode kernelDeclared ∧ NeonF.Keeps NeonF.fdCode kernelDeclared ∧
    NeonF.Keeps NeonF.fpackCode fpackDeclared ∧ NeonF.Keeps NeonF.fpackACode fpackDeclared :=
  ⟨NeonF.keeps_of_covers (by decide +kernel), NeonF.keeps_of_covers (by decide +kernel),
    NeonF.keeps_of_covers (by decide +kernel), NeonF.keeps_of_covers (by decide +kernel),
    NeonF.keeps_of_covers (by decide +kernel), NeonF.keeps_of_covers (by decide +kernel)⟩

/-! ### `Kernel8bitNeonDotprod1Col` -/

/-- C80, what holds of `Kernel8bitNeonDotprod1Col`: `v20` is the only register that it changes without declaring
it. -/
theorem c80_doto_partial : Keeps dotoCode { dotoDeclared with vecs := 20 :: dotoDeclared.vecs } :=
  keeps_of_covers (by decide +kernel)

/-- Bytes 8 to 15 of `v20` are zero, as `dup d20, v16.d[1]` leaves them. -/
def Wiped (s : St) : Prop := ∀ b, 8 ≤ b → b < 16 → s.v 20 b = 0

/-- Blocks after the `dup` of the uint8 and int8 stores, up to the end of the program. -/
def afterDup (l : Nat) : Bool :=
  (Nat.ble 15 l && Nat.ble l 21) || (Nat.ble 23 l && Nat.ble l 29) || Nat.ble 46 l
/-- Blocks of the int16 and int32 stores. -/
def wideStore (l : Nat) : Bool := Nat.ble 30 l && Nat.ble l 45

def succs : Term → List Nat
  | .jmp l => [l]
  | .br _ t f => [t, f]

theorem next_mem (s : St) (t : Term) : next s t ∈ succs t := by
  cases t with
  | jmp l => simp [next, succs]
  | br c t f => cases h : holds s c <;> simp [next, succs, h]

/-- The graph of the program: apart from the blocks with the comparisons of the destination type and the two with
`dup`, a block outside `wideStore` does not lead there, a block before `afterDup` does not lead there, and no block of
`afterDup` changes `v20`. -/
def dotoEdge (l : Nat) (b : Block) (t : Nat) : Bool :=
  !wideStore t && (!afterDup t || (afterDup l && b.body.all fun i => !i.vs.contains 20))

theorem doto_graph : ((List.range 50).all fun l =>
    wideStore l || l == 10 || l == 12 || l == 14 || l == 22 ||
      (match dotoCode[l]? with | none => true | some b => (succs b.term).all (dotoEdge l b))) = true := by
  decide +kernel

theorem doto_edge {l : Nat} (hl : l < 50) (hw : wideStore l = false) (h10 : l ≠ 10) (h12 : l ≠ 12) (h14 : l ≠ 14)
    (h22 : l ≠ 22) {b : Block} (hb : dotoCode[l]? = some b) {t : Nat} (ht : t ∈ succs b.term) :
    wideStore t = false ∧ (afterDup t = true → afterDup l = true ∧ ∀ i ∈ b.body, 20 ∉ i.vs) := by
  have h := List.all_eq_true.mp doto_graph l (List.mem_range.mpr hl)
  simp only [hw, hb, Bool.false_or, Bool.or_eq_true, beq_iff_eq, h10, h12, h14, h22, false_or] at h
  have h := List.all_eq_true.mp h t ht
  simp only [dotoEdge, Bool.and_eq_true, Bool.or_eq_true, Bool.not_eq_true', List.all_eq_true] at h
  refine ⟨h.1, fun ha => ?_⟩
  rcases h.2 with h2 | h2
  · rw [h2] at ha; exact absurd ha (by decide)
  · refine ⟨h2.1, fun i hi hm => ?_⟩
    have := h2.2 i hi
    simp [hm] at this

/-- What holds at the start of block `l` for a destination of type `ty`. -/
structure OnWay (ty : Nat) (c : Nat × St) : Prop where
  type : c.2.x dstTypeId = .int ty
  wide : wideStore c.1 = false
  wiped : afterDup c.1 = true → Wiped c.2

theorem exec_v20 (e : Env) : ∀ (L : List Instr) (s : St), (∀ i ∈ L, 20 ∉ i.vs) → (exec e L s).v 20 = s.v 20
  | [], _, _ => rfl
  | i :: L, s, h =>
      (exec_v20 e L _ fun k hk => h k (List.mem_cons_of_mem _ hk)).trans (stepV_same e i s (h i List.mem_cons_self))

theorem onWay_step {ty : Nat} (hty : ty = 1 ∨ ty = 2) (e : Env) {c : Nat × St} (h : OnWay ty c) :
    OnWay ty (bstep e dotoCode c) := by
  obtain ⟨l, s⟩ := c
  have htype : (bstep e dotoCode (l, s)).2.x dstTypeId = .int ty :=
    ((bstep_declared (a := { dotoDeclared with vecs := 20 :: dotoDeclared.vecs }) (by decide +kernel) e (l, s) dstTypeId).1
      (by decide) (by decide)).trans h.type
  suffices hh : wideStore (bstep e dotoCode (l, s)).1 = false ∧
      (afterDup (bstep e dotoCode (l, s)).1 = true → Wiped (bstep e dotoCode (l, s)).2) from ⟨htype, hh.1, hh.2⟩
  by_cases hl : l < 50
  swap
  · have : dotoCode[l]? = none := List.getElem?_eq_none (by simpa [dotoCode] using hl)
    have hb : bstep e dotoCode (l, s) = (l, s) := by simp only [bstep, this]
    rw [hb]
    exact ⟨h.wide, h.wiped⟩
  have ht := h.type
  simp only at ht
  by_cases h10 : l = 10
  · subst h10
    have hb : bstep e dotoCode (10, s) = (next (exec e doto10.body s) doto10.term, exec e doto10.body s) := rfl
    have hn : next (exec e doto10.body s) doto10.term = 11 := by
      show (bif decide (sgn (s.x dstTypeId).num = sgn 4) then 38 else 11) = 11
      rw [ht]; rcases hty with rfl | rfl <;> rfl
    rw [hb]; simp only [hn]
    exact ⟨rfl, fun h => absurd h (by decide)⟩
  by_cases h12 : l = 12
  · subst h12
    have hb : bstep e dotoCode (12, s) = (next (exec e doto12.body s) doto12.term, exec e doto12.body s) := rfl
    have hn : next (exec e doto12.body s) doto12.term = 13 := by
      show (bif decide (sgn (s.x dstTypeId).num = sgn 3) then 30 else 13) = 13
      rw [ht]; rcases hty with rfl | rfl <;> rfl
    rw [hb]; simp only [hn]
    exact ⟨rfl, fun h => absurd h (by decide)⟩
  by_cases h14 : l = 14
  · subst h14
    have hb : bstep e dotoCode (14, s) = (next (exec e doto14.body s) doto14.term, exec e doto14.body s) := rfl
    rw [hb]
    refine ⟨?_, fun _ b h1 h2 => ?_⟩
    · have := next_mem (exec e doto14.body s) doto14.term
      revert this; simp only; generalize next _ _ = t; revert t; decide
    · have : ¬ b < 8 := by omega
      show (exec e doto14.body s).v 20 b = 0
      exact if_neg this
  by_cases h22 : l = 22
  · subst h22
    have hb : bstep e dotoCode (22, s) = (next (exec e doto22.body s) doto22.term, exec e doto22.body s) := rfl
    rw [hb]
    refine ⟨?_, fun _ b h1 h2 => ?_⟩
    · have := next_mem (exec e doto22.body s) doto22.term
      revert this; simp only; generalize next _ _ = t; revert t; decide
    · have : ¬ b < 8 := by omega
      show (exec e doto22.body s).v 20 b = 0
      exact if_neg this
  cases hb : dotoCode[l]? with
  | none => exact absurd hb (by rw [List.getElem?_eq_none_iff]; simpa [dotoCode] using hl)
  | some b =>
    have hs : bstep e dotoCode (l, s) = (next (exec e b.body s) b.term, exec e b.body s) := by
      simp only [bstep, hb]
    rw [hs]
    have hg := doto_edge hl h.wide h10 h12 h14 h22 hb (next_mem (exec e b.body s) b.term)
    refine ⟨hg.1, fun h1 k hk1 hk2 => ?_⟩
    obtain ⟨h2, h3⟩ := hg.2 h1
    show (exec e b.body s).v 20 k = 0
    rw [exec_v20 e b.body s h3]
    exact h.wiped h2 k hk1 hk2

theorem onWay_run {ty : Nat} (hty : ty = 1 ∨ ty = 2) (e : Env) : ∀ (n : Nat) {c : Nat × St}, OnWay ty c →
    OnWay ty (run e dotoCode n c)
  | 0, _, h => h
  | n + 1, _, h => onWay_run hty e n (onWay_step hty e h)

/-- C80 fails: every run of `Kernel8bitNeonDotprod1Col` for an uint8 or int8 destination ends with zeros in the upper half of
`v20` (`dup d20, v16.d[1]`, kernel_arm64.cc:5977 and 6072), which is not in the clobber list. -/
theorem c80_doto_wipes {e : Env} {s s' : St} {ty : Nat} (hty : ty = 1 ∨ ty = 2) (ht : s.x dstTypeId = .int ty)
    (h : Stops e dotoCode s s') {b : Nat} (h1 : 8 ≤ b) (h2 : b < 16) : s'.v 20 b = 0 := by
  obtain ⟨N, hN⟩ := h
  have hw := onWay_run hty e N (c := (0, s)) ⟨ht, rfl, fun h => absurd (show afterDup 0 = true from h) (by decide)⟩
  rw [hN N (Nat.le_refl N)] at hw
  exact hw.wiped rfl b h1 h2

/-- So for every such call that is in order there is a state in which it destroys what the compiler may have kept in
`v20`: the program runs to its end without undefined memory accesses and leaves another value there. -/
theorem c80_doto_clobbers {j : Job} (hf : Dot.Fits j) (h1c : OneCol j) (ha : Dot.Args j) (hd : j.dt = .u8 ∨ j.dt = .i8)
    {s : St} (hs : j.Start s) (hv : ∃ b, 8 ≤ b ∧ b < 16 ∧ s.v 20 b ≠ 0) :
    ∃ s', Stops (Dot.env j) dotoCode s s' ∧ s'.bad = false ∧ s'.v 20 ≠ s.v 20 := by
  obtain ⟨s', h1, h2⟩ := Dot.c65_one_column hf h1c ha hs
  refine ⟨s', h1, h2.ok, fun he => ?_⟩
  obtain ⟨b, hb1, hb2, hb⟩ := hv
  refine hb ?_
  rw [← he]
  refine c80_doto_wipes (ty := j.dt.id) ?_ hs.type h1 hb1 hb2
  rcases hd with h | h <;> rw [h] <;> simp [Dt.id]

/-- A call that is in order, with something in `v20`. -/
def fullV20 (j : Job) : St := { exStart j with v := fun _ _ => 255 }

theorem fullV20_ok (j : Job) : j.Start (fullV20 j) := by
  constructor <;> first | rfl | (intros; rfl)

/-- C80 fails for `Kernel8bitNeonDotprod1Col`. -/
theorem c80_doto_false : ¬ Keeps dotoCode dotoDeclared := by
  intro hk
  obtain ⟨s', ⟨N, hN⟩, _, h2⟩ := c80_doto_clobbers (j := Dot.colJob .u8 exMem) (Dot.colFits _ _) (Dot.colOne _ _)
    (Dot.colArgs _ _) (Or.inl rfl) (fullV20_ok _) ⟨8, by decide, by decide, by decide⟩
  have := (hk (Dot.env (Dot.colJob .u8 exMem)) (fullV20 (Dot.colJob .u8 exMem)) N 20).2 (by decide)
  rw [hN N (Nat.le_refl N)] at this
  exact h2 this

/-! ### Examples -/

/-- The lists say something: a program that changes `x18`, or `v8` without declaring it, does not keep to them. -/
example : ¬ Keeps [⟨[.movI 18 1], .jmp 1⟩] kernelDeclared := by
  intro h
  have := (h ⟨fun _ => .int 0, fun _ => 0⟩ (fullV20 (Dot.colJob .u8 exMem)) 1 18).1 (by decide) (by decide)
  exact absurd this (by simp [run, bstep, exec, step, put, fullV20, exStart])

end Ruy.Neon

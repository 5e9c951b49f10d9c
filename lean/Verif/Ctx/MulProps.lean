import Verif.Ctx.Props
import Verif.Front.Props
/-
Mul as seen from a context: C33 (the enabled paths do not change results, for the portable paths)
and C46 (when the advisory is raised).
-/
namespace Ruy.Ctx
open Ruy.Mat Ruy.Mul Ruy.TrMul Ruy.Front

variable {A : Type}

/-- kernel.h:141-168: the kernel layouts of the portable paths. -/
def portableKernels (p : Path) : Option (SidePair KernelLayout) :=
  if p = 0x01#8 then some ⟨⟨.colMajor, 1, 1⟩, ⟨.colMajor, 1, 1⟩⟩
  else if p = 0x02#8 then some ⟨⟨.rowMajor, 4, 4⟩, ⟨.rowMajor, 4, 4⟩⟩
  else if p = 0x04#8 then some ⟨⟨.colMajor, 1, 4⟩, ⟨.colMajor, 1, 8⟩⟩
  else if p = 0x08#8 then some ⟨⟨.colMajor, 2, 16⟩, ⟨.rowMajor, 2, 8⟩⟩
  else none

/-- The part of Mul after dispatch (create_trmul_params.h:421-441), for a portable path; the result
is whether the advisory was raised. -/
def mulBody (sc : Scalars A) (lhs rhs dst : Mul.Mat A) (mp : Front.MulParams A) (junk : Junk A)
    (p : Path) : C Bool :=
  match portableKernels p with
  | none => .error .abort
  | some k => do
    let r ← frontEnd sc k lhs rhs dst mp junk
    pure r.2.2

/-- ruy.h:36-48: Mul on context `c` may end with context `c'` and destination `d`. -/
def CtxMul (m : Machine) (env : Option (List Char)) (compiled : Path) (sc : Scalars A)
    (lhs rhs dst : Mul.Mat A) (mp : Front.MulParams A) (c c' : Ctx) (d : Mul.Mat A) : Prop :=
  ∃ junk k tp mem adv d', c.mul m env compiled (mulBody sc lhs rhs dst mp junk) = .ok c' ∧
    portableKernels c'.lastUsedPath = some k ∧
    frontEnd sc k lhs rhs dst mp junk = .ok (tp, mem, adv) ∧
    Outcome tp mem d' ∧ d = userView dst d'

theorem portable_rows {p : Path} {k : SidePair KernelLayout} (h : portableKernels p = some k) :
    k.lhs.rows = k.rhs.rows := by
  unfold portableKernels at h
  repeat' split at h
  all_goals first | (cases h; rfl) | cases h

theorem CtxMul.mul {m : Machine} {env : Option (List Char)} {compiled : Path} {sc : Scalars A}
    {lhs rhs dst : Mul.Mat A} {mp : Front.MulParams A} {c c' : Ctx} {d : Mul.Mat A}
    (h : CtxMul m env compiled sc lhs rhs dst mp c c' d) :
    ∃ k, portableKernels c'.lastUsedPath = some k ∧ Front.Mul sc k lhs rhs dst mp d := by
  obtain ⟨junk, k, tp, mem, adv, d', _, hk, hf, ho, hd⟩ := h
  exact ⟨k, hk, junk, tp, mem, adv, d', hf, ho, hd⟩

/-- C33: whichever of the portable paths is selected — on whatever machines, with whatever enabled
and compiled paths — the destination is the same. -/
theorem c33_selection_irrelevant (m m' : Machine) (env env' : Option (List Char))
    (compiled compiled' : Path) (ty packed : SidePair ScalarType) (dstTy : ScalarType)
    (lhs rhs dst d₁ d₂ : Mul.Mat Int) (mp : Front.MulParams Int) (c₁ c₁' c₂ c₂' : Ctx)
    (hdepth : lhs.layout.cols = rhs.layout.rows) (hrows : dst.layout.rows = lhs.layout.rows)
    (hcols : dst.layout.cols = rhs.layout.cols) (hst : StrideOk dst.layout)
    (hi : IntOk ty packed dstTy lhs rhs mp)
    (h₁ : CtxMul m env compiled (intScalars Arith.int32 ty packed dstTy) lhs rhs dst mp c₁ c₁' d₁)
    (h₂ : CtxMul m' env' compiled' (intScalars Arith.int32 ty packed dstTy) lhs rhs dst mp c₂ c₂' d₂) :
    d₁ = d₂ := by
  obtain ⟨k₁, hk₁, hm₁⟩ := h₁.mul
  obtain ⟨k₂, hk₂, hm₂⟩ := h₂.mul
  exact c02_kernel_layout_irrelevant ty packed dstTy k₁ k₂ lhs rhs dst d₁ d₂ mp
    ⟨hdepth, hrows, hcols, hst, portable_rows hk₁⟩ ⟨hdepth, hrows, hcols, hst, portable_rows hk₂⟩
    hi hm₁ hm₂

/-- `n` rounded up to a multiple of `k`. -/
def roundedUp (n k : Nat) : Nat := (n + k - 1) / k * k

theorem roundUp_spec {n k r : Nat} (h : SizeUtil.nRoundUpPot n k = .ok r) : r = roundedUp n k := by
  unfold SizeUtil.nRoundUpPot at h
  obtain ⟨s, hs, h⟩ := C.bind_ok h
  obtain ⟨rfl, _⟩ := C.int_ok hs
  unfold SizeUtil.nRoundDownPot at h
  obtain ⟨_, _, h⟩ := C.bind_ok h
  cases h
  unfold roundedUp
  have := Nat.div_add_mod' (n + k - 1) k
  omega

theorem createColMajor_advisory {sc : Scalars A} {kern : SidePair KernelLayout}
    {lhs rhs dst : Mul.Mat A} {mp : Front.MulParams A} {ch : ChannelDim} {junk : Junk A}
    {tp : TrMul.Params A} {mem : Mem A} {adv : Bool}
    (h : createColMajor sc kern lhs rhs dst mp ch junk = .ok (tp, mem, adv)) :
    adv = true ↔
      roundedUp ((SidePair.mk lhs rhs).get (channelSide ch)).layout.cols mp.capacityRounding <
        roundedUp ((SidePair.mk lhs rhs).get (channelSide ch)).layout.cols
          (kern.get (channelSide ch)).cols := by
  unfold createColMajor at h
  obtain ⟨_, h1, h⟩ := C.bind_ok h
  obtain ⟨pl, hl, h⟩ := C.bind_ok h
  obtain ⟨pr, hr, h⟩ := C.bind_ok h
  dsimp only at h
  obtain ⟨e, he, h⟩ := C.bind_ok h
  cases h
  have hpl := (newPacked_ok hl).layout
  have hpr := (newPacked_ok hr).layout
  have hreq : ∀ {l : MatLayout} {k : KernelLayout} {p : PMatLayout}, createPackedLayout l k = .ok p →
      p.cols = roundedUp l.cols k.cols := by
    intro l k p hp
    unfold createPackedLayout at hp
    obtain ⟨r, _, hp⟩ := C.bind_ok hp
    obtain ⟨c, hc, hp⟩ := C.bind_ok hp
    cases hp
    exact roundUp_spec hc
  have hq : ((SidePair.mk pl pr).get (channelSide ch)).layout.cols =
      roundedUp ((SidePair.mk lhs rhs).get (channelSide ch)).layout.cols
        (kern.get (channelSide ch)).cols := by
    cases ch
    · exact hreq hpl
    · exact hreq hpr
  unfold ensureBuffers at he
  obtain ⟨cap, hcap, he⟩ := C.bind_ok he
  obtain ⟨_, _, he⟩ := C.bind_ok he
  obtain ⟨_, _, he⟩ := C.bind_ok he
  have hcap' := roundUp_spec hcap
  dsimp only at hcap'
  rw [← hcap', ← hq]
  split at he
  · next hle =>
    cases he
    constructor
    · intro hx; cases hx
    · intro hx; omega
  · next hle =>
    obtain ⟨b, _, he⟩ := C.bind_ok he
    obtain ⟨q, _, he⟩ := C.bind_ok he
    cases he
    constructor
    · intro _; omega
    · intro _; rfl

/-- C46: Mul raises the advisory exactly if the capacity that the user promised for per-channel
buffers — the number of channels rounded up as in MulParams — is less than the width of the packed
matrix, the number of channels rounded up to the kernel's width.  The channels run along the LHS
kernel's side if they are rows of a column-major or columns of a row-major destination. -/
theorem c46_raised_iff (m : Machine) (env : Option (List Char)) (compiled : Path) (sc : Scalars A)
    (lhs rhs dst d : Mul.Mat A) (mp : Front.MulParams A) (c c' : Ctx)
    (hrows : dst.layout.rows = lhs.layout.rows) (hcols : dst.layout.cols = rhs.layout.cols)
    (h : CtxMul m env compiled sc lhs rhs dst mp c c' d) :
    ∃ k, portableKernels c'.lastUsedPath = some k ∧
      (c'.advisory = true ↔
        (let channels := if mp.channelDim = .row then dst.layout.rows else dst.layout.cols
         let width := if (mp.channelDim = .row) ↔ (dst.layout.order = .colMajor)
           then k.lhs.cols else k.rhs.cols
         roundedUp channels mp.capacityRounding < roundedUp channels width)) := by
  obtain ⟨junk, k, tp, mem, adv, d', hmul, hk, hf, _, _⟩ := h
  refine ⟨k, hk, ?_⟩
  obtain ⟨i, e, _, hb, hl, _⟩ := c33_mul_uses_best c c' m env none compiled _ hmul
  rw [← hl, mulBody, hk] at hb
  dsimp only at hb
  rw [hf, C.ok_bind] at hb
  have hadv : adv = c'.advisory := by cases hb; rfl
  rw [← hadv]
  unfold frontEnd at hf
  obtain ⟨_, _, hf⟩ := C.bind_ok hf
  unfold createTrMulParams at hf
  dsimp only
  split at hf
  · next ho =>
    have := createColMajor_advisory hf
    rw [this]
    cases hch : mp.channelDim
    · simp only [if_pos, ho, channelSide, SidePair.get]
      rw [hrows]; exact Iff.rfl
    · simp only [reduceCtorEq, if_false, ho, channelSide, SidePair.get]
      rw [hcols]
      simp
  · next ho =>
    have ho' : dst.layout.order = .rowMajor := by
      have : dst.layout.order = dst.transpose.layout.order.transpose := by
        cases h : dst.layout.order <;> simp [Mul.Mat.transpose, MatLayout.transpose, h, Order.transpose]
      cases h : dst.layout.order
      · exact absurd h ho
      · rfl
    have := createColMajor_advisory hf
    rw [this]
    cases hch : mp.channelDim
    · simp only [ho', ChannelDim.transpose, channelSide, SidePair.get]
      rw [hrows]
      simp [Mul.Mat.transpose, MatLayout.transpose]
    · simp only [ho', ChannelDim.transpose, channelSide, SidePair.get]
      rw [hcols]
      simp

/-! Examples -/

/-- A 2 × 3 times 3 × 2 product on internal variant 1 (4 × 4 kernels), advisory raised. -/
def junk0 : Junk Int := ⟨⟨fun _ => 0, fun _ => 0⟩, ⟨fun _ => 0, fun _ => 0⟩⟩

theorem demo_ctx_mul : (Ctx.new.setRuntimeEnabledPaths 0x02#8).mul haswell none 0x0f#8
    (mulBody demoSc demoLhs demoRhs demoDst demoMp junk0) = .ok ⟨0x02#8, true, 0x03#8⟩ := by
  decide +kernel

/-- C46, what may surprise: the advisory says that a buffer was reallocated, but it is also raised
if there is no per-channel buffer at all. -/
theorem c46_raised_without_buffers :
    (Ctx.new.setRuntimeEnabledPaths 0x02#8).mul haswell none 0x0f#8
      (mulBody (intScalars Arith.int32 ⟨.uint8, .uint8⟩ ⟨.uint8, .uint8⟩ .int32) demoLhs demoRhs
        ⟨⟨2, 2, 2, .colMajor⟩, ⟨4, fun _ => 0⟩, 0⟩ ⟨none, none, .row, 1, -2 ^ 31, 2 ^ 31 - 1⟩ junk0) =
      .ok ⟨0x02#8, true, 0x03#8⟩ := by
  decide +kernel

-- Hypotheses of the theorems above.
example : ∃ c c' d, CtxMul haswell none 0x0f#8 demoSc demoLhs demoRhs demoDst demoMp c c' d ∧
    c'.advisory = true := by
  have hf : ∃ r, frontEnd demoSc ⟨⟨.rowMajor, 4, 4⟩, ⟨.rowMajor, 4, 4⟩⟩ demoLhs demoRhs demoDst demoMp junk0 =
      .ok r ∧ ∃ m', simpleLoop r.1 r.2.1 = .ok m' := by
    have h : ((do
      let r ← frontEnd demoSc ⟨⟨.rowMajor, 4, 4⟩, ⟨.rowMajor, 4, 4⟩⟩ demoLhs demoRhs demoDst demoMp junk0
      let m' ← simpleLoop r.1 r.2.1
      pure (m'.dst.data.val 0) : C Int)) = .ok 10 := by decide +kernel
    obtain ⟨r, hr, h⟩ := C.bind_ok h
    obtain ⟨m', hm, _⟩ := C.bind_ok h
    exact ⟨r, hr, m', hm⟩
  obtain ⟨⟨tp, mem, adv⟩, hr, m', hm⟩ := hf
  exact ⟨_, _, _, ⟨junk0, _, tp, mem, adv, m'.dst, demo_ctx_mul, rfl, hr, .simple m' hm rfl, rfl⟩, rfl⟩

end Ruy.Ctx

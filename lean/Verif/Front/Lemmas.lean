import Verif.Front.Model
import Verif.Mul.Value
/-
What the front-end passes to TrMul, and the destination Mul ends with in terms of the user's
matrices (for any accumulator arithmetic).
-/
namespace Ruy.Front
open Ruy.Mat Ruy.Mul Ruy.TrMul

variable {A : Type}

/-- What the user must guarantee about shapes (nothing checks it), and what the static assertions
of kernel.h:100, 106-109 guarantee about kernel layouts. -/
structure Shapes (kern : SidePair KernelLayout) (lhs rhs dst : Mul.Mat A) : Prop where
  depth : lhs.layout.cols = rhs.layout.rows
  rows : dst.layout.rows = lhs.layout.rows
  cols : dst.layout.cols = rhs.layout.cols
  stride : StrideOk dst.layout
  kernel : kern.lhs.rows = kern.rhs.rows

/-- Two parameter sets that kernels cannot distinguish on channels below `n`. -/
structure SameParams (ar : Arith A) (n : Nat) (p p' : Mul.Params A) : Prop where
  bias : ∀ c a, c < n → addBias ar p'.bias c a = addBias ar p.bias c a
  scale : ∀ c a, c < n → p'.scale c a = p.scale c a
  dim : p'.channelDim = p.channelDim
  clampMin : p'.clampMin = p.clampMin
  clampMax : p'.clampMax = p.clampMax
  cast : p'.cast = p.cast

theorem SameParams.opEntry {ar : Arith A} {n : Nat} {p p' : Mul.Params A} (h : SameParams ar n p p')
    {l r : Operand A} {dzp : Int} {i j : Nat} (hc : channelOf p.channelDim i j < n) :
    opEntry ar p' l r dzp i j = opEntry ar p l r dzp i j := by
  unfold Mul.opEntry Mul.opAccum Mul.finish
  simp only [h.dim, h.clampMin, h.clampMax, h.cast, h.bias _ _ hc, h.scale _ _ hc]

theorem growBuffer_read {α : Type} {z : α} {b b' : Option (Buf α)} {n req : Nat}
    (h : growBuffer z b n req = .ok b') (hreq : n ≤ req) :
    (b = none ∧ b' = none) ∨ ∃ x x', b = some x ∧ b' = some x' ∧ n ≤ x.size ∧ x'.size = req ∧
      (∀ c, c < n → x'.val c = x.val c) ∧ (∀ c, n ≤ c → x'.val c = z) ∧
      ∀ c, c < n → x'.read c = x.read c := by
  unfold growBuffer at h
  cases b with
  | none => cases h; exact .inl ⟨rfl, rfl⟩
  | some x =>
    obtain ⟨_, h1, h⟩ := C.bind_ok h
    have h1 := C.require_ok h1
    cases h
    refine .inr ⟨x, _, rfl, rfl, h1, rfl, fun c hc => by simp [hc], fun c hc => ?_, fun c hc => ?_⟩
    · simp [Nat.not_lt.2 hc]
    · unfold Buf.read
      dsimp only
      rw [if_pos (show c < req by omega), if_pos (show c < x.size by omega), if_pos hc]

theorem growBuffer_perChannel {b b' : Option (Buf Int)} {v : Int} {n req c : Nat}
    (h : growBuffer 0 b n req = .ok b') (hreq : n ≤ req) (hc : c < n) :
    perChannel b' v c = perChannel b v c := by
  rcases growBuffer_read h hreq with ⟨rfl, rfl⟩ | ⟨x, x', rfl, rfl, _, _, _, _, hr⟩
  · rfl
  · exact hr c hc

theorem growBuffer_bias {ar : Arith A} {b b' : Option (Buf A)} {n req c : Nat} {a : A}
    (h : growBuffer ar.zero b n req = .ok b') (hreq : n ≤ req) (hc : c < n) :
    addBias ar b' c a = addBias ar b c a := by
  rcases growBuffer_read h hreq with ⟨rfl, rfl⟩ | ⟨x, x', rfl, rfl, _, _, _, _, hr⟩
  · rfl
  · unfold addBias
    dsimp only
    rw [hr c hc]

theorem ensureBuffers_same {sc : Scalars A} {mp : MulParams A} {n req : Nat}
    {r : MulParams A × Bool} (h : ensureBuffers sc mp n req = .ok r) :
    SameParams sc.ar n (kernelParams sc mp) (kernelParams sc r.1) := by
  unfold ensureBuffers at h
  obtain ⟨cap, hcap, h⟩ := C.bind_ok h
  obtain ⟨_, _, h⟩ := C.bind_ok h
  obtain ⟨_, _, h⟩ := C.bind_ok h
  split at h
  · cases h; exact ⟨fun _ _ _ => rfl, fun _ _ _ => rfl, rfl, rfl, rfl, rfl⟩
  · rename_i hreq
    obtain ⟨b, hb, h⟩ := C.bind_ok h
    obtain ⟨q, hq, h⟩ := C.bind_ok h
    cases h
    have hn : n ≤ req := by have := (nRoundUpPot_ge hcap).2.1; omega
    refine ⟨fun c a hc => growBuffer_bias hb hn hc, fun c a hc => ?_, rfl, rfl, rfl, rfl⟩
    show applyMultiplier sc q c a = applyMultiplier sc mp.quant c a
    unfold growQuant at hq
    cases hmq : mp.quant with
    | none => rw [hmq] at hq; cases hq; rfl
    | some q0 =>
      rw [hmq] at hq
      obtain ⟨f, hf, hq⟩ := C.bind_ok hq
      obtain ⟨e, he, hq⟩ := C.bind_ok hq
      cases hq
      unfold applyMultiplier
      dsimp only
      rw [growBuffer_perChannel hf hn hc, growBuffer_perChannel he hn hc]

theorem createPackedLayout_rows {src src' : MatLayout} {k k' : KernelLayout} {l l' : PMatLayout}
    (h : createPackedLayout src k = .ok l) (h' : createPackedLayout src' k' = .ok l')
    (hr : src.rows = src'.rows) (hk : k.rows = k'.rows) : l.rows = l'.rows := by
  unfold createPackedLayout at h h'
  obtain ⟨r, h1, h⟩ := C.bind_ok h
  obtain ⟨c, h2, h⟩ := C.bind_ok h
  obtain ⟨r', h1', h'⟩ := C.bind_ok h'
  obtain ⟨c', h2', h'⟩ := C.bind_ok h'
  cases h; cases h'
  rw [← hr, ← hk, h1] at h1'
  cases h1'; rfl

/-- Everything known about a freshly created packed matrix. -/
structure NewPacked (zp : Int) (k : KernelLayout) (src : Mul.Mat A) (p : PMat A) : Prop where
  layout : createPackedLayout src.layout k = .ok p.layout
  zp : p.zp = zp
  sums : p.sums.isSome
  data : p.data.size = pflatSize p.layout
  sumsSize : ∀ b, p.sums = some b → b.size = p.layout.cols
  nonempty : pflatSize p.layout ≠ 0 ∧ p.layout.cols ≠ 0

theorem newPacked_ok {f : Int → Int} {k : KernelLayout} {src : Mul.Mat A} {data sums : Nat → A}
    {p : PMat A} (h : newPacked f k src data sums = .ok p) : NewPacked (f src.zp) k src p := by
  unfold newPacked at h
  obtain ⟨l, hl, h⟩ := C.bind_ok h
  obtain ⟨_, h1, h⟩ := C.bind_ok h
  obtain ⟨_, h2, h⟩ := C.bind_ok h
  cases h
  exact ⟨hl, rfl, rfl, rfl, fun b hb => by cases hb; rfl, C.check_ok h1, C.check_ok h2⟩

/-- What createColMajor establishes. -/
structure Created (sc : Scalars A) (kern : SidePair KernelLayout) (lhs rhs dst : Mul.Mat A)
    (mp : MulParams A) (ch : ChannelDim) (tp : TrMul.Params A) (m : Mem A) : Prop where
  order : dst.layout.order = .colMajor
  ar : tp.ar = sc.ar
  src : tp.src = ⟨lhs, rhs⟩
  pack : tp.pack = sc.pack
  prepacked : tp.isPrepacked = ⟨false, false⟩
  dst : m.dst = dst
  lpk : NewPacked (sc.packZp.lhs lhs.zp) kern.lhs lhs m.packed.lhs
  rpk : NewPacked (sc.packZp.rhs rhs.zp) kern.rhs rhs m.packed.rhs
  params : SameParams sc.ar ((SidePair.mk lhs rhs).get (channelSide ch)).layout.cols
    (kernelParams sc { mp with channelDim := ch }) tp.mp

theorem createColMajor_ok {sc : Scalars A} {kern : SidePair KernelLayout} {lhs rhs dst : Mul.Mat A}
    {mp : MulParams A} {ch : ChannelDim} {junk : Junk A} {tp : TrMul.Params A} {m : Mem A}
    {adv : Bool} (h : createColMajor sc kern lhs rhs dst mp ch junk = .ok (tp, m, adv)) :
    Created sc kern lhs rhs dst mp ch tp m := by
  unfold createColMajor at h
  obtain ⟨_, h1, h⟩ := C.bind_ok h
  obtain ⟨pl, hl, h⟩ := C.bind_ok h
  obtain ⟨pr, hr, h⟩ := C.bind_ok h
  dsimp only at h
  obtain ⟨e, he, h⟩ := C.bind_ok h
  cases h
  exact ⟨C.check_ok h1, rfl, rfl, rfl, rfl, rfl, newPacked_ok hl, newPacked_ok hr,
    ensureBuffers_same he⟩

/-- The operand packed for one side. -/
def sideOperand (pack : A → A) (packZp : Int → Int) (src : Mul.Mat A) (depth : Nat) : Operand A :=
  ⟨pack, src, packZp src.zp, depth⟩

/-- The value TrMul computes for its entry (i, j). -/
def trEntry (sc : Scalars A) (lhs rhs : Mul.Mat A) (mp : MulParams A) (ch : ChannelDim) (dzp : Int)
    (depth i j : Nat) : C A :=
  opEntry sc.ar (kernelParams sc { mp with channelDim := ch })
    (sideOperand sc.pack.lhs sc.packZp.lhs lhs depth)
    (sideOperand sc.pack.rhs sc.packZp.rhs rhs depth) dzp i j

/-- What TrMul relies on: the packed matrices have the right shapes and zero points, wherever
their memory comes from. -/
structure Filled (sc : Scalars A) (kern : SidePair KernelLayout) (lhs rhs dst : Mul.Mat A)
    (mp : MulParams A) (ch : ChannelDim) (tp : TrMul.Params A) (m : Mem A) : Prop where
  ar : tp.ar = sc.ar
  src : tp.src = ⟨lhs, rhs⟩
  pack : tp.pack = sc.pack
  dst : m.dst = dst
  llay : createPackedLayout lhs.layout kern.lhs = .ok m.packed.lhs.layout
  lzp : m.packed.lhs.zp = sc.packZp.lhs lhs.zp
  rlay : createPackedLayout rhs.layout kern.rhs = .ok m.packed.rhs.layout
  rzp : m.packed.rhs.zp = sc.packZp.rhs rhs.zp
  params : SameParams sc.ar ((SidePair.mk lhs rhs).get (channelSide ch)).layout.cols
    (kernelParams sc { mp with channelDim := ch }) tp.mp

/-- The rest of what TrMul relies on: sums are there if needed, prepacked matrices are packed. -/
structure Supplied (tp : TrMul.Params A) (m : Mem A) : Prop where
  lsums : m.packed.lhs.sums.isSome ∨ m.packed.rhs.zp = 0
  rsums : m.packed.rhs.sums.isSome ∨ m.packed.lhs.zp = 0
  prepacked : ∀ s, tp.isPrepacked.get s = true →
    ∀ c, c < (m.packed.get s).layout.cols → Packed tp m s c

theorem Created.filled {sc : Scalars A} {kern : SidePair KernelLayout} {lhs rhs dst : Mul.Mat A}
    {mp : MulParams A} {ch : ChannelDim} {tp : TrMul.Params A} {m : Mem A}
    (h : Created sc kern lhs rhs dst mp ch tp m) : Filled sc kern lhs rhs dst mp ch tp m :=
  ⟨h.ar, h.src, h.pack, h.dst, h.lpk.layout, h.lpk.zp, h.rpk.layout, h.rpk.zp, h.params⟩

theorem Created.supplied {sc : Scalars A} {kern : SidePair KernelLayout} {lhs rhs dst : Mul.Mat A}
    {mp : MulParams A} {ch : ChannelDim} {tp : TrMul.Params A} {m : Mem A}
    (h : Created sc kern lhs rhs dst mp ch tp m) : Supplied tp m :=
  ⟨.inl h.lpk.sums, .inl h.rpk.sums,
    fun s hp => by rw [h.prepacked] at hp; cases s <;> cases hp⟩

theorem Filled.ready {sc : Scalars A} {kern : SidePair KernelLayout} {lhs rhs dst : Mul.Mat A}
    {mp : MulParams A} {ch : ChannelDim} {tp : TrMul.Params A} {m : Mem A}
    (h : Filled sc kern lhs rhs dst mp ch tp m) (sp : Supplied tp m)
    (hd : lhs.layout.rows = rhs.layout.rows)
    (hk : kern.lhs.rows = kern.rhs.rows) (hr : dst.layout.rows = lhs.layout.cols)
    (hc : dst.layout.cols = rhs.layout.cols) (hs : StrideOk dst.layout) : Ready tp m where
  layout s := by
    cases s
    · exact (createPackedLayout_ok h.llay).1
    · exact (createPackedLayout_ok h.rlay).1
  depth := createPackedLayout_rows h.llay h.rlay hd hk
  stride := by rw [h.dst]; exact hs
  rows := by
    have := (createPackedLayout_ok h.llay).2.2.2.2.2.2.1
    rw [h.dst, hr]; exact this
  cols := by
    have := (createPackedLayout_ok h.rlay).2.2.2.2.2.2.1
    rw [h.dst, hc]; exact this
  lsums := sp.lsums
  rsums := sp.rsums
  prepacked := sp.prepacked

theorem Created.ready {sc : Scalars A} {kern : SidePair KernelLayout} {lhs rhs dst : Mul.Mat A}
    {mp : MulParams A} {ch : ChannelDim} {tp : TrMul.Params A} {m : Mem A}
    (h : Created sc kern lhs rhs dst mp ch tp m) (hd : lhs.layout.rows = rhs.layout.rows)
    (hk : kern.lhs.rows = kern.rhs.rows) (hr : dst.layout.rows = lhs.layout.cols)
    (hc : dst.layout.cols = rhs.layout.cols) (hs : StrideOk dst.layout) : Ready tp m :=
  h.filled.ready h.supplied hd hk hr hc hs

theorem Filled.target {sc : Scalars A} {kern : SidePair KernelLayout} {lhs rhs dst : Mul.Mat A}
    {mp : MulParams A} {ch : ChannelDim} {tp : TrMul.Params A} {m : Mem A}
    (h : Filled sc kern lhs rhs dst mp ch tp m) (hd : lhs.layout.rows = rhs.layout.rows)
    (hk : kern.lhs.rows = kern.rhs.rows) {i j : Nat} (hi : i < lhs.layout.cols)
    (hj : j < rhs.layout.cols) :
    TrMul.target tp m i j =
      trEntry sc lhs rhs mp ch dst.zp m.packed.lhs.layout.rows i j := by
  have hch : channelOf (kernelParams sc { mp with channelDim := ch }).channelDim i j <
      ((SidePair.mk lhs rhs).get (channelSide ch)).layout.cols := by
    cases ch <;> assumption
  have ho : ∀ s, operand tp m s = (SidePair.mk
      (sideOperand sc.pack.lhs sc.packZp.lhs lhs m.packed.lhs.layout.rows)
      (sideOperand sc.pack.rhs sc.packZp.rhs rhs m.packed.lhs.layout.rows)).get s := by
    intro s
    unfold TrMul.operand
    rw [h.pack, h.src]
    cases s
    · simp only [SidePair.get_lhs]
      rw [h.lzp]; rfl
    · simp only [SidePair.get_rhs]
      rw [h.rzp, ← createPackedLayout_rows h.llay h.rlay hd hk]; rfl
  unfold TrMul.target
  rw [ho, ho, h.dst, h.ar]
  exact h.params.opEntry hch

theorem Created.target {sc : Scalars A} {kern : SidePair KernelLayout} {lhs rhs dst : Mul.Mat A}
    {mp : MulParams A} {ch : ChannelDim} {tp : TrMul.Params A} {m : Mem A}
    (h : Created sc kern lhs rhs dst mp ch tp m) (hd : lhs.layout.rows = rhs.layout.rows)
    (hk : kern.lhs.rows = kern.rhs.rows) {i j : Nat} (hi : i < lhs.layout.cols)
    (hj : j < rhs.layout.cols) :
    TrMul.target tp m i j =
      trEntry sc lhs rhs mp ch dst.zp m.packed.lhs.layout.rows i j :=
  h.filled.target hd hk hi hj

theorem elem_transpose (m : Mul.Mat A) (r c : Nat) : m.transpose.elem c r = m.elem r c := by
  unfold Mat.elem Mat.transpose
  dsimp only
  rw [offset_transpose]

theorem at_transpose (m : Mul.Mat A) (r c : Nat) : m.transpose.at c r = m.at r c := by
  unfold Mat.at Mat.transpose
  dsimp only
  rw [off_transpose]

theorem transpose_transpose (m : Mul.Mat A) : m.transpose.transpose = m := by
  obtain ⟨⟨r, c, s, o⟩, d, z⟩ := m
  cases o <;> rfl

theorem strideOk_transpose {l : MatLayout} : StrideOk l.transpose ↔ StrideOk l := by
  obtain ⟨r, c, s, o⟩ := l
  cases o <;> rfl

/-- Computing the transpose. -/
theorem computes_transpose {f : Nat → Nat → C A} {d d' : Mul.Mat A}
    (h : Computes f d.transpose d') : Computes (fun i j => f j i) d d'.transpose := by
  refine ⟨⟨?_, h.same.zp, h.same.size⟩, ?_, ?_⟩
  · show d'.layout.transpose = d.layout
    rw [h.same.layout]
    show d.transpose.transpose.layout = d.layout
    rw [transpose_transpose]
  · intro i j hi hj
    obtain ⟨v, h1, h2⟩ := h.done j i hj hi
    exact ⟨v, by rw [elem_transpose]; exact h1, h2⟩
  · intro o ho
    refine h.frame o (fun i j hij => ?_)
    show o ≠ off d.layout.transpose i j
    rw [off_transpose]
    exact ho j i ⟨hij.2, hij.1⟩

theorem computes_congr {f g : Nat → Nat → C A} {d d' : Mul.Mat A} (h : Computes f d d')
    (hfg : ∀ i j, i < d.layout.rows → j < d.layout.cols → f i j = g i j) : Computes g d d' := by
  refine ⟨h.same, fun i j hi hj => ?_, h.frame⟩
  obtain ⟨v, h1, h2⟩ := h.done i j hi hj
  exact ⟨v, h1, by rw [← hfg i j hi hj]; exact h2⟩

/-- The value Mul computes for the user's entry (i, j), with the depth rounded up to `depth`. -/
def userEntry (sc : Scalars A) (lhs rhs dst : Mul.Mat A) (mp : MulParams A) (depth i j : Nat) : C A :=
  if dst.layout.order = .colMajor then
    trEntry sc lhs.transpose rhs mp mp.channelDim dst.zp depth i j
  else
    trEntry sc.swap rhs lhs.transpose mp mp.channelDim.transpose dst.zp depth j i

/-- The depth is rounded up to a multiple of the kernel's rows. -/
def RoundedDepth (kern : SidePair KernelLayout) (d depth : Nat) : Prop :=
  SizeUtil.nRoundUpPot d kern.lhs.rows = .ok depth

theorem packedRows_rounded {kern : SidePair KernelLayout} {src : MatLayout} {l : PMatLayout}
    (h : createPackedLayout src kern.lhs = .ok l) : RoundedDepth kern src.rows l.rows := by
  unfold createPackedLayout at h
  obtain ⟨r, h1, h⟩ := C.bind_ok h
  obtain ⟨c, h2, h⟩ := C.bind_ok h
  cases h
  exact h1

/-- The transposition of the problem for row-major destinations, after which TrMul starts. -/
def UserFilled (sc : Scalars A) (kern : SidePair KernelLayout) (lhs rhs dst : Mul.Mat A)
    (mp : MulParams A) (tp : TrMul.Params A) (m : Mem A) : Prop :=
  if dst.layout.order = .colMajor then Filled sc kern lhs.transpose rhs dst mp mp.channelDim tp m
  else Filled sc.swap kern rhs lhs.transpose dst.transpose mp mp.channelDim.transpose tp m

theorem userFilled_ready {sc : Scalars A} {kern : SidePair KernelLayout} {lhs rhs dst : Mul.Mat A}
    {mp : MulParams A} {tp : TrMul.Params A} {m : Mem A} (hs : Shapes kern lhs rhs dst)
    (hf : UserFilled sc kern lhs rhs dst mp tp m) (sp : Supplied tp m) : Ready tp m := by
  unfold UserFilled at hf
  split at hf
  · exact hf.ready sp hs.depth hs.kernel hs.rows hs.cols hs.stride
  · exact hf.ready sp hs.depth.symm hs.kernel hs.cols hs.rows (strideOk_transpose.2 hs.stride)

theorem userFilled_computes {sc : Scalars A} {kern : SidePair KernelLayout} {lhs rhs dst d' : Mul.Mat A}
    {mp : MulParams A} {tp : TrMul.Params A} {m : Mem A} (hs : Shapes kern lhs rhs dst)
    (hf : UserFilled sc kern lhs rhs dst mp tp m) (sp : Supplied tp m) (ho : Outcome tp m d') :
    ∃ depth, RoundedDepth kern lhs.layout.cols depth ∧ lhs.layout.cols ≤ depth ∧
      Computes (userEntry sc lhs rhs dst mp depth) dst (userView dst d') := by
  have hc := ho.computes (userFilled_ready hs hf sp)
  unfold UserFilled at hf
  split at hf
  · rename_i hord
    have hdep : lhs.transpose.layout.rows = rhs.layout.rows := hs.depth
    rw [hf.dst] at hc
    unfold userView
    rw [if_pos hord]
    refine ⟨m.packed.lhs.layout.rows, packedRows_rounded hf.llay,
      (createPackedLayout_ok hf.llay).2.2.2.2.1, computes_congr hc (fun i j hi hj => ?_)⟩
    unfold userEntry
    rw [if_pos hord]
    exact hf.target hdep hs.kernel (by rw [hs.rows] at hi; exact hi) (by rw [hs.cols] at hj; exact hj)
  · rename_i hord
    have hdep : rhs.layout.rows = lhs.transpose.layout.rows := hs.depth.symm
    rw [hf.dst] at hc
    unfold userView
    rw [if_neg hord]
    have hrd := packedRows_rounded hf.llay
    rw [← hs.depth] at hrd
    refine ⟨m.packed.lhs.layout.rows, hrd, ?_,
      computes_congr (computes_transpose hc) (fun i j hi hj => ?_)⟩
    · rw [hs.depth]; exact (createPackedLayout_ok hf.llay).2.2.2.2.1
    unfold userEntry
    rw [if_neg hord]
    exact hf.target hdep hs.kernel (by rw [hs.cols] at hj; exact hj) (by rw [hs.rows] at hi; exact hi)

theorem frontEnd_filled {sc : Scalars A} {kern : SidePair KernelLayout} {lhs rhs dst : Mul.Mat A}
    {mp : MulParams A} {junk : Junk A} {tp : TrMul.Params A} {m : Mem A} {adv : Bool}
    (h : frontEnd sc kern lhs rhs dst mp junk = .ok (tp, m, adv)) :
    UserFilled sc kern lhs rhs dst mp tp m ∧ Supplied tp m := by
  unfold frontEnd at h
  obtain ⟨_, _, h⟩ := C.bind_ok h
  unfold createTrMulParams at h
  unfold UserFilled
  split at h
  · rename_i hord
    rw [if_pos hord]
    exact ⟨(createColMajor_ok h).filled, (createColMajor_ok h).supplied⟩
  · rename_i hord
    rw [if_neg hord]
    exact ⟨(createColMajor_ok h).filled, (createColMajor_ok h).supplied⟩

/-- Mul stores `userEntry` in every entry and changes nothing else. -/
theorem mul_computes {sc : Scalars A} {kern : SidePair KernelLayout} {lhs rhs dst d : Mul.Mat A}
    {mp : MulParams A} (hs : Shapes kern lhs rhs dst) (h : Mul sc kern lhs rhs dst mp d) :
    ∃ depth, RoundedDepth kern lhs.layout.cols depth ∧ lhs.layout.cols ≤ depth ∧
      Computes (userEntry sc lhs rhs dst mp depth) dst d := by
  obtain ⟨junk, tp, m, adv, d', hf, ho, rfl⟩ := h
  obtain ⟨h1, h2⟩ := frontEnd_filled hf
  exact userFilled_computes hs h1 h2 ho

/-- ReferenceMul stores `refEntry` in every entry and changes nothing else. -/
theorem referenceMul_computes {ar : Arith A} {mp : Mul.Params A} {lhs rhs dst d : Mul.Mat A}
    (hr : dst.layout.rows = lhs.layout.rows) (hc : dst.layout.cols = rhs.layout.cols)
    (hs : StrideOk dst.layout) (h : Mul.referenceMul ar mp lhs rhs dst = .ok d) :
    Computes (refEntry ar mp lhs rhs dst.zp) dst d := by
  unfold Mul.referenceMul at h
  have h' : forRange 0 lhs.layout.rows (fun i => forRange 0 rhs.layout.cols (fun j =>
      refStep ar mp lhs rhs i j)) dst = .ok d := by
    unfold forRange
    simp only [Nat.sub_zero, Nat.zero_add]
    exact h
  obtain ⟨h1, h2, h3⟩ := storeLoop_ok (f := refEntry ar mp lhs rhs dst.zp) hs (by omega) (by omega)
    (fun i j t t' _ _ _ _ ht hstep => by
      unfold refStep at hstep
      obtain ⟨x, hx, hstep⟩ := C.bind_ok hstep
      rw [ht.zp] at hx
      exact ⟨x, hx, hstep⟩) h'
  refine ⟨h1, fun i j hi hj => h3 i j (Nat.zero_le _) (by omega) (Nat.zero_le _) (by omega),
    h2.mono (fun i j h => by omega)⟩

end Ruy.Front

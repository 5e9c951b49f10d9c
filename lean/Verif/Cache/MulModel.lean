import Verif.Cache.Model
import Verif.Front.Model
/-
Mul with caching: prepare_packed_matrices.cc:38-95 on top of Verif/Cache and Verif/Front.

A `World` is the cache together with the contents of the buffers it allocated, by handle.
After PreparePackedMatrices the packed matrices are pointers into those buffers; they are
dereferenced by TrMul, that is after both sides have been prepared: reading a buffer that
has been freed in between is undefined.

What is simplified: the contents of a buffer are the values, not the bytes, so that two
requests with the same key and different element types are not told apart by
`Type::AssertIs` (mat.h:217-222).
-/
namespace Ruy.Cache
open Ruy.Mat Ruy.Mul Ruy.Front

/-- matrix.h:117-122 -/
inductive CachePolicy where
  | neverCache
  | cacheIfLargeSpeedup
  | cacheIfSignificantSpeedup
  | alwaysCache
  deriving DecidableEq, Repr

/-- prepare_packed_matrices.cc:38-66: ShouldCache. -/
def shouldCache (policy : CachePolicy) (otherWidth otherKernelWidth : Nat) : C Bool :=
  match policy with
  | .neverCache => .ok false
  | .alwaysCache => .ok true
  | .cacheIfLargeSpeedup => .ok (otherWidth ≤ otherKernelWidth)
  | .cacheIfSignificantSpeedup => do
    let k ← C.int (4 * otherKernelWidth)
    .ok (otherWidth ≤ k)

/-- A source matrix: mat.h:124-129, with the data pointer and the cache policy. -/
structure Arg (A : Type) where
  addr : Nat
  mat : Mul.Mat A
  policy : CachePolicy

/-- mat.h:207-227 (`Type`) of the packed data and of the sums. -/
structure ElemTypes where
  dataSize : Nat
  sumsSize : Nat
  sumsFloat : Bool
  deriving DecidableEq, Repr

variable {A : Type}

/-- The cache of a context, and the contents of the buffers it holds. -/
structure World (A : Type) where
  cache : Cache
  buf : Nat → Buf A

/-- A call of ruy::Mul, with what is known at compile time. -/
structure Call (A : Type) where
  sc : Scalars A
  kern : SidePair KernelLayout
  types : SidePair ElemTypes
  lhs : Arg A
  rhs : Arg A
  dst : Mul.Mat A
  mp : MulParams A

/-- A packed matrix after PreparePackedMatrices: in memory of the main allocator, or pointing
into the cache. -/
inductive Slot (A : Type) where
  | fresh (p : PMat A)
  | cached (p : PE)

def Slot.isCached : Slot A → Bool
  | .fresh _ => false
  | .cached _ => true

/-- The buffer at a pointer. Nothing can be read or written at a null pointer; a pointer to freed
memory must not be dereferenced. -/
def World.load (w : World A) (h : Nat) : C (Buf A) :=
  if h = 0 then .ok ⟨0, (w.buf 0).val⟩
  else do
    C.require (∃ b ∈ w.cache.held, b.1 = h)
    .ok (w.buf h)

/-- The packed matrix a `PEMat` describes. -/
def World.loadMat (w : World A) (p : PE) : C (PMat A) := do
  let d ← w.load p.data
  if p.sums = 0 then .ok ⟨p.layout, d, none, p.zp⟩
  else do
    let s ← w.load p.sums
    .ok ⟨p.layout, d, some s, p.zp⟩

def Slot.load (w : World A) : Slot A → C (PMat A)
  | .fresh p => .ok p
  | .cached p => w.loadMat p

/-- Storing the contents of a packed matrix at its pointers. -/
def World.store (w : World A) (p : PE) (m : PMat A) : World A :=
  { w with buf := fun h =>
      if h ≠ 0 ∧ h = p.data then m.data
      else if h ≠ 0 ∧ h = p.sums then m.sums.getD (w.buf h) else w.buf h }

/-- SystemAlignedAlloc returned these buffers: the contents are arbitrary, the sizes as requested. -/
def World.alloc (w : World A) (p : PE) (data sums : Nat → A) : World A :=
  { w with buf := fun h =>
      if h ≠ 0 ∧ h = p.data then ⟨pflatSize p.layout, data⟩
      else if h ≠ 0 ∧ h = p.sums then ⟨p.layout.cols, sums⟩ else w.buf h }

/-- The request for one side (prepare_packed_matrices.cc:77; the packed layout and zero
point were set by create_trmul_params.h:54-72). -/
def request (packZp : Int → Int) (t : ElemTypes) (arg : Arg A) (l : PMatLayout) : Req :=
  ⟨arg.addr, l, packZp arg.mat.zp, t.dataSize, t.sumsSize, t.sumsFloat⟩

/-- prepare_packed_matrices.cc:75-83: the cached case. -/
def prepareCached (sys : Nat → Bool) (ar : Arith A) (pack : A → A) (packZp : Int → Int) (t : ElemTypes)
    (arg : Arg A) (l : PMatLayout) (data sums : Nat → A) (w : World A) : C (Slot A × World A) := do
  let g ← get sys w.cache (request packZp t arg l)
  let w1 : World A := { w with cache := g.2.2 }
  if g.2.1 then do
    let w2 := w1.alloc g.1 data sums
    let p ← w2.loadMat g.1
    let p' ← runPack ar pack arg.mat 0 l.cols p
    .ok (.cached g.1, w2.store g.1 p')
  else .ok (.cached g.1, w1)

/-- prepare_packed_matrices.cc:84-93: the case without caching. -/
def prepareFresh (packZp : Int → Int) (arg : Arg A) (l : PMatLayout) (data sums : Nat → A)
    (w : World A) : C (Slot A × World A) := do
  C.check (pflatSize l ≠ 0)
  C.check (l.cols ≠ 0)
  .ok (.fresh ⟨l, ⟨pflatSize l, data⟩, some ⟨l.cols, sums⟩, packZp arg.mat.zp⟩, w)

/-- prepare_packed_matrices.cc:73-94, one side; `otherWidth` and `otherKernel` are the width of
the other source and of its kernel layout. -/
def prepareSide (sys : Nat → Bool) (ar : Arith A) (pack : A → A) (packZp : Int → Int) (t : ElemTypes)
    (arg : Arg A) (l : PMatLayout) (otherWidth otherKernel : Nat) (data sums : Nat → A) (w : World A) :
    C (Slot A × World A) := do
  let b ← shouldCache arg.policy otherWidth otherKernel
  if b then prepareCached sys ar pack packZp t arg l data sums w
  else prepareFresh packZp arg l data sums w

/-- create_trmul_params.h:405-442 and then prepare_packed_matrices.cc:70-95; the LHS is already
transposed and the destination is column-major. -/
def createColMajorC (sys : Nat → Bool) (cl : Call A) (ch : ChannelDim) (junk : Junk A) (w : World A) :
    C (TrMul.Params A × TrMul.Mem A × Bool × World A) := do
  C.check (cl.dst.layout.order = .colMajor)
  let ll ← createPackedLayout cl.lhs.mat.layout cl.kern.lhs
  let lr ← createPackedLayout cl.rhs.mat.layout cl.kern.rhs
  let src : SidePair (Mul.Mat A) := ⟨cl.lhs.mat, cl.rhs.mat⟩
  let e ← ensureBuffers cl.sc { cl.mp with channelDim := ch } (src.get (channelSide ch)).layout.cols
    ((SidePair.mk ll lr).get (channelSide ch)).cols
  let a ← prepareSide sys cl.sc.ar cl.sc.pack.lhs cl.sc.packZp.lhs cl.types.lhs cl.lhs ll
    cl.rhs.mat.layout.cols cl.kern.rhs.cols junk.data.lhs junk.sums.lhs w
  let b ← prepareSide sys cl.sc.ar cl.sc.pack.rhs cl.sc.packZp.rhs cl.types.rhs cl.rhs lr
    cl.lhs.mat.layout.cols cl.kern.lhs.cols junk.data.rhs junk.sums.rhs a.2
  -- TrMul starts here.
  let pl ← a.1.load b.2
  let pr ← b.1.load b.2
  .ok (⟨cl.sc.ar, kernelParams cl.sc e.1, src, cl.sc.pack, ⟨a.1.isCached, b.1.isCached⟩⟩,
    ⟨⟨pl, pr⟩, cl.dst⟩, e.2, b.2)

/-- frontend.h:68-70: the LHS is transposed. -/
def Call.transposeLhs (cl : Call A) : Call A :=
  { cl with lhs := { cl.lhs with mat := cl.lhs.mat.transpose } }

/-- create_trmul_params.h:474-479: both sides are exchanged and the destination is transposed. -/
def Call.exchange (cl : Call A) : Call A :=
  { cl with sc := cl.sc.swap, types := ⟨cl.types.rhs, cl.types.lhs⟩, lhs := cl.rhs, rhs := cl.lhs,
            dst := cl.dst.transpose }

/-- frontend.h:47-71 with create_trmul_params.h:463-480, frontend.cc:25-30 and PreparePackedMatrices. -/
def frontEndC (sys : Nat → Bool) (cl : Call A) (junk : Junk A) (w : World A) :
    C (TrMul.Params A × TrMul.Mem A × Bool × World A) := do
  validate cl.sc.ty.lhs cl.sc.ty.rhs cl.sc.dstTy cl.lhs.mat.zp cl.rhs.mat.zp cl.dst.zp
  if cl.dst.layout.order = .colMajor then
    createColMajorC sys cl.transposeLhs cl.mp.channelDim junk w
  else createColMajorC sys cl.transposeLhs.exchange cl.mp.channelDim.transpose junk w

/-- Mul with caching may end with the destination `d` and the cache `w'`. -/
def MulC (sys : Nat → Bool) (cl : Call A) (w : World A) (d : Mul.Mat A) (w' : World A) : Prop :=
  ∃ junk tp m adv d', frontEndC sys cl junk w = .ok (tp, m, adv, w') ∧ TrMul.Outcome tp m d' ∧
    d = userView cl.dst d'

/-- A context without a cache (ctx.cc:207-212; ClearPrepackedCache, ctx.cc:221, goes back to it). -/
def World.start [Inhabited A] (cap : Int) : World A := ⟨init cap, fun _ => ⟨0, fun _ => default⟩⟩

end Ruy.Cache

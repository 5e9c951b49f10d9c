import Verif.Base.Fault
import Verif.Base.Side
import Verif.SizeUtil.NatLevel
/-
Model of ruy/block_map.h and ruy/block_map.cc.

Dimensions and sizes are non-negative ints (`Nat`), every int computation that
could overflow is range-checked (`C.int`), log-differences and scores are `Int`.
Build options: default (opt_set.h), i.e. all fractal orders enabled, and
RUY_MAKEBLOCKMAP_EXPLICIT_BLOCK_SIZE_LOG2 not defined.
Profiling/tracing macros are dropped.
-/
namespace Ruy.BlockMap
open SizeUtil

/-- block_map.h:27-79 (enum BlockMapTraversalOrder). -/
inductive Order where
  | linear
  | fractalZ
  | fractalU
  | fractalHilbert
  deriving DecidableEq, Repr

/-- block_map.h:81-104. -/
structure BlockMap where
  threadCount : Nat
  order : Order
  dims : SidePair Nat
  baseLog2 : Nat
  rectLog2 : SidePair Nat
  kernelDims : SidePair Nat
  smallBlockDims : SidePair Nat
  largeBlocks : SidePair Nat
  deriving DecidableEq, Repr

/-- cpu_cache_params.h:21-29. -/
structure CacheParams where
  localSize : Nat
  lastLevelSize : Nat
  deriving DecidableEq, Repr

/-! ### Traversal decoders -/

/-- block_map.cc:38-42. -/
def decodeLinear (sizeLog2 : Nat) (idx : BitVec 32) : C (SidePair Nat) := do
  C.require (sizeLog2 ≤ 30)
  pure ⟨(idx &&& (1#32 <<< sizeLog2 - 1#32)).toNat, (idx >>> sizeLog2).toNat⟩

/-- block_map.cc:46-54: the final word `n16`. -/
def zShuffle (n1 : BitVec 32) : BitVec 32 :=
  let n2 := (n1 &&& 0x99999999#32) ||| ((n1 &&& 0x44444444#32) >>> 1) |||
    ((n1 &&& 0x22222222#32) <<< 1)
  let n4 := (n2 &&& 0xc3c3c3c3#32) ||| ((n2 &&& 0x30303030#32) >>> 2) |||
    ((n2 &&& 0x0c0c0c0c#32) <<< 2)
  let n8 := (n4 &&& 0xf00ff00f#32) ||| ((n4 &&& 0x0f000f00#32) >>> 4) |||
    ((n4 &&& 0x00f000f0#32) <<< 4)
  (n8 &&& 0xff0000ff#32) ||| ((n8 &&& 0x00ff0000#32) >>> 8) |||
    ((n8 &&& 0x0000ff00#32) <<< 8)

/-- block_map.cc:44-57. -/
def decodeZ (idx : BitVec 32) : SidePair Nat :=
  ⟨(zShuffle idx &&& 0xffff#32).toNat, (zShuffle idx >>> 16).toNat⟩

/-- block_map.cc:59-64. -/
def decodeU (idx : BitVec 32) : SidePair Nat :=
  let p := decodeZ idx
  ⟨p.lhs ^^^ p.rhs, p.rhs⟩

/-- block_map.cc:77-86: `n` iterations of the loop starting at `sb`, on
`(t, x, y)`. -/
def hilbertLoop : Nat → Nat → BitVec 32 → BitVec 32 → BitVec 32 → BitVec 32 × BitVec 32
  | 0, _, _, x, y => (x, y)
  | n + 1, sb, t, x, y =>
    let s := 1#32 <<< sb
    let rx := decide (t &&& 2#32 ≠ 0#32)
    let ry := (decide (t &&& 1#32 ≠ 0#32)) ^^ rx
    let tmp := if rx then s - 1#32 - x else x
    let x1 := if ry then x else if rx then s - 1#32 - y else y
    let y1 := if ry then y + s else tmp
    let x2 := if rx then x1 + s else x1
    hilbertLoop n (sb + 1) (t >>> 2) x2 y1

/-- block_map.cc:70-89. -/
def decodeHilbert (sizeLog2 : Nat) (idx : BitVec 32) : SidePair Nat :=
  let p := hilbertLoop sizeLog2 0 idx 0#32 0#32
  ⟨p.2.toNat, p.1.toNat⟩

/-- block_map.cc:105-119. -/
def decode (o : Order) (sizeLog2 : Nat) (idx : BitVec 32) : C (SidePair Nat) :=
  match o with
  | .fractalZ => pure (decodeZ idx)
  | .fractalU => pure (decodeU idx)
  | .fractalHilbert => pure (decodeHilbert sizeLog2 idx)
  | .linear => decodeLinear sizeLog2 idx

/-- block_map.cc:123-128, one side. -/
def rectOffset (bm : BlockMap) (rectIndex : BitVec 32) (side : Side) : C Nat := do
  C.require (bm.rectLog2.get side < 32)
  C.require (bm.baseLog2 < 32)
  let mask := 1#32 <<< (bm.rectLog2.get side) - 1#32
  C.int ((rectIndex &&& mask) <<< bm.baseLog2).toNat

/-- block_map.cc:93-129. -/
def getBlockByIndex (bm : BlockMap) (index : Nat) : C (SidePair Nat) := do
  let idx := BitVec.ofNat 32 index
  C.require (2 * bm.baseLog2 < 32)
  let perCurve := 1#32 <<< (2 * bm.baseLog2)
  let squareIndex := idx &&& (perCurve - 1#32)
  let pos ← decode bm.order bm.baseLog2 squareIndex
  let rectIndex := idx >>> (2 * bm.baseLog2)
  let ol ← rectOffset bm rectIndex .lhs
  let l ← C.int (pos.lhs + ol)
  let or ← rectOffset bm rectIndex .rhs
  let r ← C.int (pos.rhs + or)
  pure ⟨l, r⟩

/-! ### Heuristics -/

/-- block_map.cc:133-155. -/
def getTraversalOrder (rows cols depth lhsSize rhsSize : Nat) (cp : CacheParams) : C Order := do
  let a ← C.int (lhsSize * rows)
  let b ← C.int (rhsSize * cols)
  let s ← C.int (a + b)
  let ws ← C.int (s * depth)
  if ws > cp.localSize then
    if ws > cp.lastLevelSize then pure .fractalHilbert else pure .fractalU
  else pure .linear

/-- block_map.cc:157-166. -/
def floorLog2Quotient (num denom : Nat) : C Int := do
  if num ≤ denom then pure 0
  else do
    let f ← nFloorLog2 num
    let c ← nCeilLog2 denom
    let lq : Int := (f : Int) - c
    C.require (0 ≤ lq + 1)
    let sh ← C.int (denom * 2 ^ (lq + 1).toNat)
    if sh ≤ num then pure (lq + 1) else pure lq

/-- block_map.cc:185-196 (and, with the roles exchanged, 197-208): the
rectangularness of the larger dimension `big` relative to `small`. -/
def rectOf (big small kernelBig kernelSmall : Nat) : C Nat := do
  let cs ← nCeilLog2 small
  let ps ← nPotLog2 kernelSmall
  let smallRuns : Int := (cs : Int) - ps
  let minBigRuns : Int := max 0 (3 - smallRuns)
  let q ← floorLog2Quotient big small
  let fb ← nFloorLog2 big
  let pb ← nPotLog2 kernelBig
  let r : Int := min q (max 0 ((fb : Int) - pb - minBigRuns))
  C.require (0 ≤ r ∧ r < 32)                       -- shift amount
  C.check (small ≤ big / 2 ^ r.toNat)              -- RUY_DCHECK_GE, line 196 / 208
  pure r.toNat

/-- block_map.cc:180-208: the two rectangularness values. -/
def rectPair (rows cols kernelRows kernelCols : Nat) : C (Nat × Nat) :=
  if rows > cols then do
    let r ← rectOf rows cols kernelRows kernelCols
    pure (r, 0)
  else if cols > rows then do
    let c ← rectOf cols rows kernelCols kernelRows
    pure (0, c)
  else pure (0, 0)

/-- block_map.cc:172-211. -/
def getRectangularness (rows cols kernelRows kernelCols : Nat) : C (Nat × Nat) := do
  let rc ← rectPair rows cols kernelRows kernelCols
  C.check (rc.1 = 0 ∨ rc.2 = 0)
  pure rc

/-- block_map.cc:217-245. -/
def getMultithreadingScore (blockSizeLog2 rows cols : Nat) (threads : Nat) : C Int := do
  let nr := rows / 2 ^ blockSizeLog2
  let nc := cols / 2 ^ blockSizeLog2
  let prod ← C.int (nr * nc)
  let cand ← nFloorLog2 (max 1 prod)
  if threads = 1 then pure 0
  else do
    let ct ← nCeilLog2 threads
    let d : Int := (cand : Int) - ct
    if d < 0 then pure (-64)
    else if d = 0 then pure (-16)
    else if d = 1 then pure (-8)
    else if d = 2 then pure 0
    else if d = 3 then pure 8
    else pure 16

/-- block_map.cc:248-283. -/
def getCacheLocalityScore (blockSizeLog2 rows cols depth krLog2 kcLog2 lhsSize rhsSize : Nat)
    (cp : CacheParams) : C Int := do
  if rows ≤ 2 ^ krLog2 ∨ cols ≤ 2 ^ kcLog2 then pure 0
  else do
    let bs ← C.int (2 ^ blockSizeLog2)
    let br := min bs rows
    let bc := min bs cols
    let a ← C.int (lhsSize * br)
    let b ← C.int (rhsSize * bc)
    let s ← C.int (a + b)
    let total ← C.int (s * depth)
    let tl ← nCeilLog2 total
    let fl ← nFloorLog2 cp.localSize
    let d : Int := (tl : Int) - fl
    if d < -1 then pure 64
    else if d = -1 then pure 56
    else if d = 0 then pure 48
    else if d = 1 then pure 32
    else if d = 2 then pure 16
    else if d = 3 then pure 0
    else pure (-64)

/-- block_map.cc:289-317. -/
def getKernelAmortizationScore (blockSizeLog2 rows cols krLog2 kcLog2 : Nat) : C Int := do
  let bs ← C.int (2 ^ blockSizeLog2)
  let br := min bs rows
  let bc := min bs cols
  let p ← C.int (br * bc)
  let f ← nFloorLog2 p
  let k : Int := (f : Int) - krLog2 - kcLog2
  C.check (0 ≤ k)
  if k = 0 then pure 0
  else if k = 1 then pure 8
  else if k = 2 then pure 16
  else if k = 3 then pure 24
  else if k = 4 then pure 32
  else if k = 5 then pure 40
  else if k = 6 then pure 48
  else if k = 7 then pure 56
  else pure 64

/-- block_map.cc:321-337. -/
def isObviouslyLinearTraversal (rows cols depth lhsSize rhsSize : Nat) (cp : CacheParams) :
    C Bool := do
  if rows = 1 ∨ cols = 1 then pure true
  else do
    let o ← getTraversalOrder rows cols depth lhsSize rhsSize cp
    pure (decide (o = .linear))

/-- Arguments of MakeBlockMap (block_map.h:118-121). -/
structure Args where
  rows : Nat
  cols : Nat
  depth : Nat
  kernelRows : Nat
  kernelCols : Nat
  lhsSize : Nat
  rhsSize : Nat
  threads : Nat
  cache : CacheParams
  deriving DecidableEq, Repr

/-- block_map.cc:401-409: the score of one candidate block size. -/
def scoreOf (a : Args) (krLog2 kcLog2 b : Nat) : C Int := do
  let ms ← getMultithreadingScore b a.rows a.cols a.threads
  let cs ← getCacheLocalityScore b a.rows a.cols a.depth krLog2 kcLog2 a.lhsSize a.rhsSize a.cache
  let ks ← getKernelAmortizationScore b a.rows a.cols krLog2 kcLog2
  C.i32 (ms + cs + ks)

/-- block_map.cc:399-415: the candidate loop; state = (best_score,
best_score_block_size_log2). -/
def bestLoop (a : Args) (krLog2 kcLog2 : Nat) : List Nat → Int × Int → C (Int × Int)
  | [], st => pure st
  | b :: bs, st => do
    let score ← scoreOf a krLog2 kcLog2 b
    let st' := if score ≥ st.1 then (score, (b : Int)) else st
    bestLoop a krLog2 kcLog2 bs st'

/-- block_map.h:154-158. -/
def numBlocks (bm : BlockMap) : C Nat :=
  C.int (2 ^ (2 * bm.baseLog2 + bm.rectLog2.lhs + bm.rectLog2.rhs))

/-- block_map.h:142-145. -/
def numBlocksPerSide (bm : BlockMap) (side : Side) : C Nat :=
  C.int (2 ^ (bm.baseLog2 + bm.rectLog2.get side))

/-- block_map.cc:437-448, one dimension: (small block size, number of large blocks). -/
def blockSizes (dim numLog2 kernel : Nat) : C (Nat × Nat) := do
  let small ← nRoundDownPot (dim / 2 ^ numLog2) kernel
  let t ← C.int (small * 2 ^ numLog2)
  C.require (t ≤ dim)     -- the difference is non-negative (it is passed to round_up_pot)
  let r ← nRoundUpPot (dim - t) kernel
  let p ← nPotLog2 kernel
  pure (small, r / 2 ^ p)

/-- block_map.cc:339-471. -/
def makeBlockMap (a : Args) : C BlockMap := do
  C.check (a.kernelRows ≤ a.rows)
  C.check (a.kernelCols ≤ a.cols)
  C.require (a.kernelRows ≠ 0)                       -- operator% by zero
  C.check (a.rows % a.kernelRows = 0)
  C.require (a.kernelCols ≠ 0)
  C.check (a.cols % a.kernelCols = 0)
  let (rr, cr) ← getRectangularness a.rows a.cols a.kernelRows a.kernelCols
  let krLog2 ← nPotLog2 a.kernelRows
  let kcLog2 ← nPotLog2 a.kernelCols
  let ksLog2 := max kcLog2 krLog2
  let fl ← nFloorLog2 (min a.rows a.cols)
  let sizeLog2 := max ksLog2 fl
  let maxLog2 := min sizeLog2 (ksLog2 + 6)
  let best ← bestLoop a krLog2 kcLog2 (List.range' ksLog2 (maxLog2 + 1 - ksLog2)) (-2 ^ 31, -1)
  let base : Int := (sizeLog2 : Int) - best.2
  C.check (0 ≤ base)
  let base := base.toNat
  let rl := base + rr
  let cl := base + cr
  C.require (rl < 32 ∧ cl < 32)                      -- shift amounts
  let (sr, lr) ← blockSizes a.rows rl a.kernelRows
  let (sc, lc) ← blockSizes a.cols cl a.kernelCols
  let o ← getTraversalOrder (a.rows / 2 ^ rr) (a.cols / 2 ^ cr) a.depth a.lhsSize a.rhsSize a.cache
  let bm : BlockMap :=
    { threadCount := 0
      order := o
      dims := ⟨a.rows, a.cols⟩
      baseLog2 := base
      rectLog2 := ⟨rr, cr⟩
      kernelDims := ⟨a.kernelRows, a.kernelCols⟩
      smallBlockDims := ⟨sr, sc⟩
      largeBlocks := ⟨lr, lc⟩ }
  let nb ← numBlocks bm
  pure { bm with threadCount := min a.threads nb }

/-- block_map.cc:473-488. -/
def getBlockMatrixCoords (side : Side) (bm : BlockMap) (block : Nat) : C (Nat × Nat) := do
  let small := bm.smallBlockDims.get side
  let large := bm.largeBlocks.get side
  let kernel := bm.kernelDims.get side
  let p ← C.int (block * small)
  let q ← C.int (min block large * kernel)
  let start ← C.int (p + q)
  let t ← C.int (start + small)
  let stop ← C.int (t + if block < large then kernel else 0)
  C.require (kernel ≠ 0)
  C.check (start % kernel = 0)
  C.check (stop % kernel = 0)
  C.check (stop ≤ bm.dims.get side)
  C.check (start < stop)
  pure (start, stop)

end Ruy.BlockMap

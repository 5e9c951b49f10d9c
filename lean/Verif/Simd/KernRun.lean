import Verif.Simd.KernLanes
import Verif.Simd.PackRun
import Verif.Mul.Total
import Mathlib.Algebra.BigOperators.Intervals
/-
What the 8-bit kernels store.
-/
namespace Ruy.Simd.Kern
open Ruy.Mat Ruy.Mul
open Ruy.Simd.Pack (poff_block)
open Ruy.Front (ScalarType MulParams Quant)

/-! ### Specification -/

/-- An element of a packed matrix. -/
def pat (p : PMat Int) (r c : Nat) : Int := p.data.val (poff p.layout r c)

/-- A column sum (0 if there are none). -/
def psum (p : PMat Int) (c : Nat) : Int :=
  match p.sums with
  | none => 0
  | some s => s.val c

/-- The bias of a channel. -/
def biasAt (b : Option (Buf Int)) (ch : Nat) : Int :=
  match b with
  | none => 0
  | some b => b.val ch

/-- The inner product of packed columns. -/
def dot (lhs rhs : PMat Int) (i j n : Nat) : Int :=
  ∑ k ∈ Finset.range n, pat lhs k i * pat rhs k j

/-- The accumulator before reduction modulo 2^32. -/
def accOf (lhs rhs : PMat Int) (mp : MulParams Int) (i j : Nat) : Int :=
  lhs.zp * rhs.zp * lhs.layout.rows + biasAt mp.bias (channelOf mp.channelDim i j)
    - rhs.zp * psum lhs i - lhs.zp * psum rhs j + dot lhs rhs i j lhs.layout.rows

/-- Multiplier and exponent of a channel. -/
def fixedAt (q : Option Quant) (ch : Nat) : Int :=
  match q with
  | none => 0
  | some q =>
    match q.fixedPerChannel with
    | some f => f.val ch
    | none => q.fixed
def exponentAt (q : Option Quant) (ch : Nat) : Int :=
  match q with
  | none => 0
  | some q =>
    match q.exponentPerChannel with
    | some f => f.val ch
    | none => q.exponent

/-- What is stored in entry (i, j), given the multiplication `ml` by a quantized multiplier. -/
def outOf (ml : Int → Int → Int → Int) (dt : ScalarType) (lhs rhs : PMat Int) (mp : MulParams Int)
    (dzp : Int) (i j : Nat) : Int :=
  let a := wrap32 (accOf lhs rhs mp i j)
  let ch := channelOf mp.channelDim i j
  if dt = .int32 then a
  else conv dt (max (min (wrap32 (ml a (fixedAt mp.quant ch) (exponentAt mp.quant ch) + dzp))
    mp.clampMax) mp.clampMin)

/-- The end of the block in the channel dimension. -/
def channelStop (mp : MulParams Int) (stop : SidePair Nat) : Nat :=
  match mp.channelDim with
  | .row => stop.lhs
  | .col => stop.rhs

/-- The conditions under which the kernel is called. -/
structure Fits (kc : Nat) (rt dt : ScalarType) (lhs rhs : PMat Int) (mp : MulParams Int)
    (start stop : SidePair Nat) (dst : Mul.Mat Int) : Prop where
  dtype : dt ≠ .float
  lk : lhs.layout.kernel = ⟨.colMajor, 4, kc⟩
  rk : rhs.layout.kernel = ⟨.colMajor, 4, kc⟩
  lo : lhs.layout.order = .colMajor
  ro : rhs.layout.order = .colMajor
  lp : PackedOk lhs.layout
  rp : PackedOk rhs.layout
  lf : PFits lhs
  rf : PFits rhs
  depth : rhs.layout.rows = lhs.layout.rows
  startl : start.lhs % kc = 0
  startr : start.rhs % kc = 0
  stopl : stop.lhs % kc = 0
  stopr : stop.rhs % kc = 0
  endl : stop.lhs ≤ lhs.layout.cols
  endr : stop.rhs ≤ rhs.layout.cols
  dl : stop.lhs < dst.layout.rows + kc
  dr : stop.rhs < dst.layout.cols + kc
  dorder : dst.layout.order = .colMajor
  dstride : dst.layout.rows ≤ dst.layout.stride
  dfits : DFits dst
  zp1 : -2 ^ 31 ≤ lhs.zp * rhs.zp ∧ lhs.zp * rhs.zp < 2 ^ 31
  zp2 : -2 ^ 31 ≤ lhs.zp * rhs.zp * lhs.layout.rows ∧ lhs.zp * rhs.zp * lhs.layout.rows < 2 ^ 31
  bias : ∀ b, mp.bias = some b → channelStop mp stop ≤ b.size
  /-- both or none of the multiplier buffers -/
  both : ∀ q, mp.quant = some q → q.exponentPerChannel.isSome = q.fixedPerChannel.isSome
  fixed : ∀ q f, mp.quant = some q → q.fixedPerChannel = some f → channelStop mp stop ≤ f.size
  exponent : ∀ q f, mp.quant = some q → q.exponentPerChannel = some f → channelStop mp stop ≤ f.size
  /-- the int products of the kernel -/
  il : start.lhs * lhs.layout.stride < 2 ^ 31
  ir : start.rhs * rhs.layout.stride < 2 ^ 31
  id : start.rhs * dst.layout.stride < 2 ^ 31
  kl : kc * lhs.layout.stride < 2 ^ 31
  kr : kc * (sizeOf rt * rhs.layout.stride) < 2 ^ 31
  kd : kc * (sizeOf dt * dst.layout.stride) < 2 ^ 31

/-! ### The destination -/

/-- The entries in `S` have been stored, the rest of the buffer is unchanged. -/
structure Wr (st rows : Nat) (out : Nat → Nat → Int) (b0 b : Buf Int) (S : Nat → Nat → Prop) : Prop where
  size : b.size = b0.size
  inside : ∀ i j, S i j → i < rows
  val : ∀ i j, S i j → b.val (i + j * st) = out i j
  frame : ∀ o, (∀ i j, S i j → o ≠ i + j * st) → b.val o = b0.val o

theorem Wr.congr {st rows : Nat} {out : Nat → Nat → Int} {b0 b : Buf Int} {S T : Nat → Nat → Prop}
    (h : Wr st rows out b0 b S) (hST : ∀ i j, S i j ↔ T i j) : Wr st rows out b0 b T := by
  have : S = T := by funext i j; exact propext (hST i j)
  rw [← this]; exact h

theorem Wr.store {st rows : Nat} {out : Nat → Nat → Int} {b0 b : Buf Int} {S : Nat → Nat → Prop}
    (h : Wr st rows out b0 b S) {f : Nat → Int} {r0 n j off : Nat} (ho : off = r0 + j * st)
    (hr : r0 + n ≤ rows) (hst : rows ≤ st) (hf : ∀ i, i < n → f i = out (r0 + i) j) :
    Wr st rows out b0
      ⟨b.size, fun o => if off ≤ o ∧ o < off + n then f (o - off) else b.val o⟩
      (fun i' j' => S i' j' ∨ (j' = j ∧ r0 ≤ i' ∧ i' < r0 + n)) := by
  subst ho
  -- cells of the segment determine the entry
  have key : ∀ i' j', i' < rows → r0 + j * st ≤ i' + j' * st → i' + j' * st < r0 + j * st + n →
      j' = j ∧ r0 ≤ i' ∧ i' < r0 + n := by
    intro i' j' hi h1 h2
    obtain ⟨d, hd⟩ : ∃ d, i' + j' * st = j * st + (r0 + d) :=
      ⟨i' + j' * st - (r0 + j * st), by omega⟩
    have := radix_inj (M := st) (a := j') (b := j) (x := i') (y := r0 + d) (by omega) (by omega)
      (by omega)
    omega
  refine ⟨h.size, ?_, ?_, ?_⟩
  · rintro i' j' (hS | ⟨_, _, h3⟩)
    · exact h.inside _ _ hS
    · omega
  · rintro i' j' hS
    have hi' : i' < rows := by
      rcases hS with hS | ⟨_, _, h3⟩
      · exact h.inside _ _ hS
      · omega
    dsimp only
    by_cases hc : r0 + j * st ≤ i' + j' * st ∧ i' + j' * st < r0 + j * st + n
    · obtain ⟨rfl, h1, h2⟩ := key i' j' hi' hc.1 hc.2
      rw [if_pos hc, hf _ (by omega)]
      congr 1; omega
    · rw [if_neg hc]
      rcases hS with hS | ⟨rfl, h2, h3⟩
      · exact h.val _ _ hS
      · exact absurd ⟨by omega, by omega⟩ hc
  · intro o ho
    dsimp only
    rw [if_neg ?_]
    · exact h.frame o (fun i' j' hS => ho i' j' (Or.inl hS))
    · intro hc
      refine ho (r0 + (o - (r0 + j * st))) j (Or.inr ⟨rfl, by omega, by omega⟩) (by omega)

/-! ### Loads -/

theorem loadu_of {n : Nat} {b : Buf Int} {off : Nat} (h : off + n ≤ b.size) :
    loadu n b off = .ok (fun i => b.val (off + i)) := by
  unfold loadu; rw [if_pos h]

/-- A block of packed elements. -/
theorem load_packed {kc : Nat} {p : PMat Int} (hkc : kc = 8 ∨ kc = 16)
    (hk : p.layout.kernel = ⟨.colMajor, 4, kc⟩) (ho : p.layout.order = .colMajor)
    (hp : PackedOk p.layout) (hf : PFits p) {bc n : Nat} (hb : bc % kc = 0)
    (hbc : bc + kc ≤ p.layout.cols) (hn : 4 * n < p.layout.rows) :
    loadu (4 * kc) p.data (p.layout.stride * bc + 4 * kc * n) =
        .ok (fun i => p.data.val (p.layout.stride * bc + 4 * kc * n + i)) ∧
      ∀ c q, c < kc → q < 4 →
        p.data.val (p.layout.stride * bc + 4 * kc * n + (4 * c + q)) = pat p (4 * n + q) (bc + c) := by
  have hrows : 4 ∣ p.layout.rows := by have := hp.rows; rw [hk] at this; exact this
  have hpos : 0 < kc := by rcases hkc with rfl | rfl <;> omega
  have hl := poff_lt hp (r := 4 * n + 3) (c := bc + (kc - 1)) (by omega) (by omega)
  rw [poff_block hk ho hkc hb (by omega)] at hl
  have e1 : (4 * n + 3) / 4 = n := by omega
  have e2 : (4 * n + 3) % 4 = 3 := by omega
  rw [e1, e2] at hl
  have e3 : n * (4 * kc) = 4 * kc * n := Nat.mul_comm _ _
  have hd := hf.data
  refine ⟨loadu_of (by omega), ?_⟩
  intro c q hc hq
  unfold pat
  rw [poff_block hk ho hkc hb hc]
  have e4 : (4 * n + q) / 4 = n := by omega
  have e5 : (4 * n + q) % 4 = q := by omega
  rw [e4, e5]
  congr 1
  omega

/-! ### The accumulators -/

section
variable {isa : Isa} {ml : Int → Int → Int → Int} {rt dt : ScalarType} {lhs rhs : PMat Int}
  {mp : MulParams Int} {start stop : SidePair Nat} {dst : Mul.Mat Int} {k : KParams}

/-- The fields of the parameters. -/
structure Made (kc : Nat) (rt dt : ScalarType) (lhs rhs : PMat Int) (mp : MulParams Int)
    (start stop : SidePair Nat) (dst : Mul.Mat Int) (k : KParams) : Prop where
  bias : k.bias = mp.bias
  lhsSums : k.lhsSums = lhs.sums
  rhsSums : k.rhsSums = rhs.sums
  lhsData : k.lhs = lhs.data
  rhsData : k.rhs = rhs.data
  lhsBase : k.lhsBase = start.lhs * lhs.layout.stride
  rhsBase : k.rhsBase = start.rhs * rhs.layout.stride
  dstBase : k.dstBase = start.rhs * dst.layout.stride + start.lhs
  channelCol : k.channelCol = decide (mp.channelDim = .col)
  lhsZp : k.lhsZp = lhs.zp
  rhsZp : k.rhsZp = rhs.zp
  dstZp : k.dstZp = dst.zp
  prodZpDepth : k.prodZpDepth = lhs.zp * rhs.zp * lhs.layout.rows
  startRow : k.startRow = start.lhs
  startCol : k.startCol = start.rhs
  endRow : k.endRow = stop.lhs
  endCol : k.endCol = stop.rhs
  dstRows : k.dstRows = dst.layout.rows
  dstCols : k.dstCols = dst.layout.cols
  lhsStride : k.lhsStride = lhs.layout.stride
  rhsStride : k.rhsStride = rhs.layout.stride
  dstStride : k.dstStride = dst.layout.stride
  depth : k.depth = lhs.layout.rows
  clampMin : k.clampMin = mp.clampMin
  clampMax : k.clampMax = mp.clampMax
  dstType : k.dstType = dt
  rhsSize : k.rhsSize = sizeOf rt
  /-- lanes of the multiplier buffers -/
  quant : ∀ ch, ch % kc = 0 → ch + kc ≤ channelStop mp stop →
    (if k.perChannel = true then ch else 0) + kc ≤ k.fixed.size ∧
    (if k.perChannel = true then ch else 0) + kc ≤ k.exponent.size ∧
    ∀ i, i < kc →
      k.fixed.val ((if k.perChannel = true then ch else 0) + i) = fixedAt mp.quant (ch + i) ∧
      k.exponent.val ((if k.perChannel = true then ch else 0) + i) = exponentAt mp.quant (ch + i)
  /-- without per-channel buffers the multiplier is that of any channel -/
  uniform : k.perChannel = false → ∀ ch ch', fixedAt mp.quant ch = fixedAt mp.quant ch' ∧
    exponentAt mp.quant ch = exponentAt mp.quant ch'

theorem sizeOf_pos (t : ScalarType) : 1 ≤ sizeOf t := by cases t <;> decide

theorem makeParams_of {kc : Nat} (hkc : kc = 8 ∨ kc = 16)
    (h : Fits kc rt dt lhs rhs mp start stop dst) :
    ∃ k, makeParams kc rt dt lhs rhs mp start stop dst = .ok k ∧
      Made kc rt dt lhs rhs mp start stop dst k := by
  obtain ⟨f, e, pc, hq, hm, hu⟩ : ∃ f e pc, quantBuffers kc mp.quant = .ok (f, e, pc) ∧
      (∀ ch, ch % kc = 0 → ch + kc ≤ channelStop mp stop →
        (if pc = true then ch else 0) + kc ≤ f.size ∧
        (if pc = true then ch else 0) + kc ≤ e.size ∧
        ∀ i, i < kc →
          f.val ((if pc = true then ch else 0) + i) = fixedAt mp.quant (ch + i) ∧
          e.val ((if pc = true then ch else 0) + i) = exponentAt mp.quant (ch + i)) ∧
      (pc = false → ∀ ch ch', fixedAt mp.quant ch = fixedAt mp.quant ch' ∧
        exponentAt mp.quant ch = exponentAt mp.quant ch') := by
    unfold quantBuffers fixedAt exponentAt
    cases hq : mp.quant with
    | none =>
      refine ⟨_, _, _, rfl, ?_, fun _ _ _ => ⟨rfl, rfl⟩⟩
      intro ch _ _
      exact ⟨by simp, by simp, fun i _ => ⟨rfl, rfl⟩⟩
    | some q =>
      have hb := h.both q hq
      cases hf : q.fixedPerChannel with
      | none =>
        rw [hf] at hb
        have he : q.exponentPerChannel = none := by
          cases he : q.exponentPerChannel with
          | none => rfl
          | some _ => rw [he] at hb; cases hb
        simp only [hf, he]
        refine ⟨_, _, _, rfl, ?_, fun _ _ _ => by simp⟩
        intro ch _ _
        exact ⟨by simp, by simp, fun i _ => ⟨rfl, rfl⟩⟩
      | some f =>
        rw [hf] at hb
        obtain ⟨e, he⟩ : ∃ e, q.exponentPerChannel = some e := Option.isSome_iff_exists.1 hb
        simp only [hf, he]
        refine ⟨_, _, _, rfl, ?_, fun h => by cases h⟩
        intro ch _ hch
        have h1 := h.fixed q f hq hf
        have h2 := h.exponent q e hq he
        exact ⟨by rw [if_pos rfl]; omega, by rw [if_pos rfl]; omega, fun i _ => by
          rw [if_pos rfl]; exact ⟨rfl, rfl⟩⟩
  have hs1 := sizeOf_pos rt
  have hs2 := sizeOf_pos dt
  have i1 : sizeOf rt * rhs.layout.stride < 2 ^ 31 := by
    have := h.kr; rcases hkc with rfl | rfl <;> omega
  have i2 : sizeOf dt * dst.layout.stride < 2 ^ 31 := by
    have := h.kd; rcases hkc with rfl | rfl <;> omega
  unfold makeParams
  rw [C.check_of h.startl, C.ok_bind, C.check_of h.startr, C.ok_bind, C.check_of h.stopl, C.ok_bind,
    C.check_of h.stopr, C.ok_bind, C.int_of h.il, C.ok_bind, C.int_of h.ir, C.ok_bind,
    C.int_of i1, C.ok_bind, C.int_of i2, C.ok_bind, C.i32_of h.zp1.1 h.zp1.2, C.ok_bind,
    C.i32_of h.zp2.1 h.zp2.2, C.ok_bind, hq, C.ok_bind, C.check_of h.dl, C.ok_bind,
    C.check_of h.dr, C.ok_bind, C.int_of h.id, C.ok_bind]
  exact ⟨_, rfl, ⟨rfl, rfl, rfl, rfl, rfl, rfl, rfl, rfl, rfl, rfl, rfl, rfl, rfl, rfl, rfl, rfl, rfl,
    rfl, rfl, rfl, rfl, rfl, rfl, rfl, rfl, rfl, rfl, hm, hu⟩⟩

/-- What the RHS sums contribute: the value subtracted from column `col + j`. -/
def OffsOk (kc : Nat) (lhs rhs : PMat Int) (col : Nat) (offs : Option Reg) : Prop :=
  match offs with
  | none => ∀ j, j < kc → lhs.zp * psum rhs (col + j) = 0
  | some o => ∀ j, j < kc → o j = wrap32 (lhs.zp * psum rhs (col + j))

theorem rhsOffsets_of (ho : IsaOk isa ml) (h : Fits isa.kc rt dt lhs rhs mp start stop dst)
    (hk : Made isa.kc rt dt lhs rhs mp start stop dst k) {col : Nat}
    (hc : col + isa.kc ≤ stop.rhs) :
    ∃ offs, rhsOffsets isa k col = .ok offs ∧ OffsOk isa.kc lhs rhs col offs := by
  unfold rhsOffsets
  rw [hk.rhsSums, hk.lhsZp]
  cases hs : rhs.sums with
  | none =>
    refine ⟨none, rfl, fun j _ => ?_⟩
    unfold psum; rw [hs]; simp
  | some s =>
    dsimp only
    by_cases hz : lhs.zp = 0
    · rw [if_pos hz]
      exact ⟨none, rfl, fun j _ => by rw [hz, Int.zero_mul]⟩
    · rw [if_neg hz]
      have := h.rf.sums s hs
      have := h.endr
      rw [loadu_of (by omega), C.ok_bind]
      refine ⟨_, rfl, fun j hj => ?_⟩
      rw [ho.mullo _ _ _ hj]
      unfold psum; rw [hs]; rfl

theorem addRowBias_of (ho : IsaOk isa ml) (h : Fits isa.kc rt dt lhs rhs mp start stop dst)
    (hk : Made isa.kc rt dt lhs rhs mp start stop dst k) {row : Nat}
    (hr : row + isa.kc ≤ stop.lhs) {a : Reg} {x : Nat → Int} (ha : ∀ i, i < isa.kc → a i = wrap32 (x i)) :
    ∃ a', addRowBias isa k row a = .ok a' ∧ ∀ i, i < isa.kc →
      a' i = wrap32 (x i + (if mp.channelDim = .row then biasAt mp.bias (row + i) else 0)) := by
  unfold addRowBias
  rw [hk.bias, hk.channelCol]
  cases hb : mp.bias with
  | none =>
    refine ⟨a, rfl, fun i hi => ?_⟩
    rw [ha i hi]
    congr 1
    unfold biasAt
    split <;> simp
  | some b =>
    dsimp only
    by_cases hc : mp.channelDim = .col
    · rw [if_pos (by simp [hc])]
      refine ⟨a, rfl, fun i hi => ?_⟩
      rw [ha i hi, if_neg (by rw [hc]; simp), add_zero]
    · have hrow : mp.channelDim = .row := by cases hd : mp.channelDim <;> simp_all
      rw [if_neg (by simp [hc])]
      have := h.bias b hb
      unfold channelStop at this
      rw [hrow] at this
      dsimp only at this
      rw [loadu_of (by omega), C.ok_bind]
      refine ⟨_, rfl, fun i hi => ?_⟩
      rw [ho.add _ _ _ hi, ha i hi, wrap32_add_left, if_pos hrow]
      rfl

theorem subLhsSums_of (ho : IsaOk isa ml) (h : Fits isa.kc rt dt lhs rhs mp start stop dst)
    (hk : Made isa.kc rt dt lhs rhs mp start stop dst k) {row : Nat}
    (hr : row + isa.kc ≤ stop.lhs) {a : Reg} {x : Nat → Int} (ha : ∀ i, i < isa.kc → a i = wrap32 (x i)) :
    ∃ a', subLhsSums isa k row a = .ok a' ∧ ∀ i, i < isa.kc →
      a' i = wrap32 (x i - rhs.zp * psum lhs (row + i)) := by
  unfold subLhsSums
  rw [hk.lhsSums, hk.rhsZp]
  cases hs : lhs.sums with
  | none =>
    refine ⟨a, rfl, fun i hi => ?_⟩
    rw [ha i hi]
    unfold psum; rw [hs]; simp
  | some s =>
    dsimp only
    by_cases hz : rhs.zp = 0
    · rw [if_pos hz]
      exact ⟨a, rfl, fun i hi => by rw [ha i hi, hz, Int.zero_mul, sub_zero]⟩
    · rw [if_neg hz]
      have := h.lf.sums s hs
      have := h.endl
      rw [loadu_of (by omega), C.ok_bind]
      refine ⟨_, rfl, fun i hi => ?_⟩
      rw [ho.sub _ _ _ hi, ho.mullo _ _ _ hi, ha i hi, wrap32_sub_left, wrap32_sub_right]
      unfold psum; rw [hs]; rfl

theorem subOffsets_of (ho : IsaOk isa ml) {col : Nat} {offs : Option Reg}
    (hoffs : OffsOk isa.kc lhs rhs col offs) {a : Reg} {x : Nat → Int}
    (ha : ∀ i, i < isa.kc → a i = wrap32 (x i)) {i j : Nat} (hi : i < isa.kc) (hj : j < isa.kc) :
    subOffsets isa offs a j i = wrap32 (x i - lhs.zp * psum rhs (col + j)) := by
  unfold subOffsets
  cases offs with
  | none =>
    dsimp only
    rw [hoffs j hj, sub_zero, ha i hi]
  | some o =>
    dsimp only
    rw [ho.sub _ _ _ hi, ha i hi, wrap32_sub_left]
    show wrap32 (x i - o j) = _
    rw [hoffs j hj, wrap32_sub_right]

theorem addColBias_of (ho : IsaOk isa ml) (h : Fits isa.kc rt dt lhs rhs mp start stop dst)
    (hk : Made isa.kc rt dt lhs rhs mp start stop dst k) {col : Nat}
    (hc : col + isa.kc ≤ stop.rhs) {a : Nat → Reg} {x : Nat → Nat → Int}
    (ha : ∀ i j, i < isa.kc → j < isa.kc → a j i = wrap32 (x i j)) :
    ∃ a', addColBias isa k col a = .ok a' ∧ ∀ i j, i < isa.kc → j < isa.kc →
      a' j i = wrap32 (x i j + (if mp.channelDim = .col then biasAt mp.bias (col + j) else 0)) := by
  unfold addColBias
  rw [hk.bias, hk.channelCol]
  cases hb : mp.bias with
  | none =>
    refine ⟨a, rfl, fun i j hi hj => ?_⟩
    rw [ha i j hi hj]
    congr 1
    unfold biasAt
    split <;> simp
  | some b =>
    dsimp only
    by_cases hcol : mp.channelDim = .col
    · rw [if_pos (by simp [hcol])]
      have := h.bias b hb
      unfold channelStop at this
      rw [hcol] at this
      dsimp only at this
      rw [loadu_of (by omega), C.ok_bind]
      refine ⟨_, rfl, fun i j hi hj => ?_⟩
      rw [ho.add _ _ _ hi, ha i j hi hj, wrap32_add_left, ho.bcast _ _ _ hi hj, if_pos hcol]
      rfl
    · rw [if_neg (by simp [hcol])]
      refine ⟨a, rfl, fun i j hi hj => ?_⟩
      rw [ha i j hi hj, if_neg hcol, add_zero]

/-- The part of the accumulator that does not depend on the depth loop. -/
def baseOf (lhs rhs : PMat Int) (mp : MulParams Int) (i j : Nat) : Int :=
  lhs.zp * rhs.zp * lhs.layout.rows + biasAt mp.bias (channelOf mp.channelDim i j)
    - rhs.zp * psum lhs i - lhs.zp * psum rhs j

theorem initial_of (ho : IsaOk isa ml) (h : Fits isa.kc rt dt lhs rhs mp start stop dst)
    (hk : Made isa.kc rt dt lhs rhs mp start stop dst k) {row col : Nat}
    (hr : row + isa.kc ≤ stop.lhs) (hc : col + isa.kc ≤ stop.rhs) {offs : Option Reg}
    (hoffs : OffsOk isa.kc lhs rhs col offs) :
    ∃ a, initial isa k offs row col = .ok a ∧ ∀ i j, i < isa.kc → j < isa.kc →
      a j i = wrap32 (baseOf lhs rhs mp (row + i) (col + j)) := by
  unfold initial
  have h0 : ∀ i, i < isa.kc → set1 k.prodZpDepth i = wrap32 (lhs.zp * rhs.zp * lhs.layout.rows) := by
    intro i _
    rw [wrap32_of (by have := h.zp2.1; omega) (by have := h.zp2.2; omega), hk.prodZpDepth]
    rfl
  obtain ⟨a1, e1, h1⟩ := addRowBias_of ho h hk hr (x := fun _ => lhs.zp * rhs.zp * lhs.layout.rows) h0
  obtain ⟨a2, e2, h2⟩ := subLhsSums_of ho h hk hr h1
  obtain ⟨a3, e3, h3⟩ := addColBias_of ho h hk hc
    (a := subOffsets isa offs a2) (fun i j hi hj => subOffsets_of ho hoffs h2 hi hj)
  rw [e1, C.ok_bind, e2, C.ok_bind]
  refine ⟨a3, e3, fun i j hi hj => ?_⟩
  rw [h3 i j hi hj]
  unfold baseOf
  cases hd : mp.channelDim with
  | row =>
    rw [if_pos rfl, if_neg (by simp)]
    show wrap32 _ = wrap32 (_ + biasAt mp.bias (row + i) - _ - _)
    congr 1; ring
  | col =>
    rw [if_neg (by simp), if_pos rfl]
    show wrap32 _ = wrap32 (_ + biasAt mp.bias (col + j) - _ - _)
    congr 1; ring

theorem dot_four (lhs rhs : PMat Int) (i j n : Nat) :
    dot lhs rhs i j (4 * (n + 1)) = dot lhs rhs i j (4 * n) +
      (pat lhs (4 * n) i * pat rhs (4 * n) j + pat lhs (4 * n + 1) i * pat rhs (4 * n + 1) j +
        pat lhs (4 * n + 2) i * pat rhs (4 * n + 2) j + pat lhs (4 * n + 3) i * pat rhs (4 * n + 3) j) := by
  unfold dot
  rw [show 4 * (n + 1) = 4 * n + 1 + 1 + 1 + 1 by ring, Finset.sum_range_succ, Finset.sum_range_succ,
    Finset.sum_range_succ, Finset.sum_range_succ]
  ring

/-- The depth loop computes the inner products modulo 2^32. -/
theorem depth_of (ho : IsaOk isa ml) (h : Fits isa.kc rt dt lhs rhs mp start stop dst)
    (hk : Made isa.kc rt dt lhs rhs mp start stop dst k) {row col n : Nat}
    (hrm : row % isa.kc = 0) (hcm : col % isa.kc = 0)
    (hr : row + isa.kc ≤ stop.lhs) (hc : col + isa.kc ≤ stop.rhs) {a0 : Nat → Reg}
    {x : Nat → Nat → Int} (ha : ∀ i j, i < isa.kc → j < isa.kc → a0 j i = wrap32 (x i j))
    (hn : 4 * n ≤ lhs.layout.rows) :
    ∃ a, forUpTo n (depthStep isa k (lhs.layout.stride * row) (rhs.layout.stride * col)) a0 = .ok a ∧
      ∀ i j, i < isa.kc → j < isa.kc →
        a j i = wrap32 (x i j + dot lhs rhs (row + i) (col + j) (4 * n)) := by
  obtain ⟨a, e, hP⟩ := forUpTo_total
    (body := depthStep isa k (lhs.layout.stride * row) (rhs.layout.stride * col)) (s := a0) (n := n)
    (fun n (a : Nat → Reg) => ∀ i j, i < isa.kc → j < isa.kc →
        a j i = wrap32 (x i j + dot lhs rhs (row + i) (col + j) (4 * n)))
    (fun i j hi hj => by rw [ha i j hi hj]; simp [dot])
    (by
      intro n' t hn' ht
      have hel := h.endl
      have her := h.endr
      obtain ⟨l1, l2⟩ := load_packed ho.kc h.lk h.lo h.lp h.lf (bc := row) (n := n') hrm (by omega)
        (by omega)
      obtain ⟨r1, r2⟩ := load_packed ho.kc h.rk h.ro h.rp h.rf (bc := col) (n := n') hcm (by omega)
        (by rw [h.depth]; omega)
      unfold depthStep
      rw [hk.lhsData, hk.rhsData, l1, C.ok_bind, r1, C.ok_bind]
      refine ⟨_, rfl, ?_⟩
      intro i j hi hj
      rw [ho.mac _ _ _ _ _ hi hj, ht i j hi hj, wrap32_add_left, dot_four]
      have hexp : ∀ q, q < 4 → (if k.rhsSize = 1 then
          isa.expand (fun i => rhs.data.val (rhs.layout.stride * col + 4 * isa.kc * n' + i))
          else fun i => rhs.data.val (rhs.layout.stride * col + 4 * isa.kc * n' + i)) (4 * j + q) =
          pat rhs (4 * n' + q) (col + j) := by
        intro q hq
        rw [← r2 j q hj hq]
        split
        · rw [ho.expand _ _ (by omega)]
        · rfl
      have x0 := hexp 0 (by omega)
      have y0 := l2 i 0 hi (by omega)
      simp only [Nat.add_zero] at x0 y0
      rw [x0, hexp 1 (by omega), hexp 2 (by omega), hexp 3 (by omega), y0,
        l2 i 1 hi (by omega), l2 i 2 hi (by omega), l2 i 3 hi (by omega)]
      congr 1; ring)
  exact ⟨a, e, hP⟩

end
end Ruy.Simd.Kern

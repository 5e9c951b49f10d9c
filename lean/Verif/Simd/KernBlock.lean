import Verif.Simd.KernRun
/-
The blocks of the 8-bit kernels: stores, and the loops over the destination.
-/
namespace Ruy.Simd.Kern
open Ruy.Mat Ruy.Mul
open Ruy.Front (ScalarType MulParams Quant)

variable {isa : Isa} {ml : Int → Int → Int → Int} {rt dt : ScalarType} {lhs rhs : PMat Int}
  {mp : MulParams Int} {start stop : SidePair Nat} {dst : Mul.Mat Int} {k : KParams}

/-- Multiplier, zero point, clamping and narrowing. -/
theorem scale_of (ho : IsaOk isa ml) (hk : Made isa.kc rt dt lhs rhs mp start stop dst k)
    {row col : Nat} (hrm : row % isa.kc = 0) (hcm : col % isa.kc = 0)
    (hr : row + isa.kc ≤ stop.lhs) (hc : col + isa.kc ≤ stop.rhs) {a : Nat → Reg}
    (ha : ∀ i j, i < isa.kc → j < isa.kc → a j i = wrap32 (accOf lhs rhs mp (row + i) (col + j))) :
    ∃ a', scaleBlock isa k row col a = .ok a' ∧ ∀ i j, i < isa.kc → j < isa.kc →
      conv dt (clampReg isa k (a' j) i) = outOf ml dt lhs rhs mp dst.zp (row + i) (col + j) := by
  unfold scaleBlock clampReg outOf
  rw [hk.dstType]
  by_cases hd : dt = .int32
  · rw [if_pos hd]
    refine ⟨a, rfl, fun i j hi hj => ?_⟩
    rw [if_pos hd, if_pos hd, ha i j hi hj, hd]
    rfl
  · rw [if_neg hd]
    dsimp only
    simp only [if_neg hd]
    rw [hk.channelCol, hk.clampMin, hk.clampMax, hk.dstZp]
    generalize hch : (if decide (mp.channelDim = .col) = true then col else row) = ch
    have hq := hk.quant ch
      (by rw [← hch]; split <;> assumption)
      (by
        rw [← hch]; unfold channelStop
        cases mp.channelDim <;> simp <;> assumption)
    obtain ⟨q1, q2, q3⟩ := hq
    rw [loadu_of q1, C.ok_bind, loadu_of q2, C.ok_bind]
    refine ⟨_, rfl, fun i j hi hj => ?_⟩
    rw [ho.max _ _ _ hi, ho.min _ _ _ hi, ho.mult _ _ _ _ _ _ _ hi hj, ha i j hi hj]
    have key : ∀ x, x < isa.kc → ch + x = channelOf mp.channelDim (row + i) (col + j) ∨
        k.perChannel = false →
        k.fixed.val ((if k.perChannel = true then ch else 0) + x) =
          fixedAt mp.quant (channelOf mp.channelDim (row + i) (col + j)) ∧
        k.exponent.val ((if k.perChannel = true then ch else 0) + x) =
          exponentAt mp.quant (channelOf mp.channelDim (row + i) (col + j)) := by
      intro x hx hor
      obtain ⟨v1, v2⟩ := q3 x hx
      rw [v1, v2]
      rcases hor with e | e
      · rw [e]; exact ⟨rfl, rfl⟩
      · exact hk.uniform e _ _
    have hx : (if (k.perChannel && decide (mp.channelDim = .col)) = true then j else i) < isa.kc := by
      split <;> assumption
    obtain ⟨k1, k2⟩ := key _ hx (by
      cases hp : k.perChannel with
      | false => exact Or.inr rfl
      | true =>
        left
        rw [← hch]
        cases mp.channelDim <;> rfl)
    rw [k1, k2]
    rfl

/-- The rows and columns stored by a block. -/
def InBlock (kc : Nat) (dst : Mul.Mat Int) (row col i j : Nat) : Prop :=
  row ≤ i ∧ i < min (row + kc) dst.layout.rows ∧ col ≤ j ∧ j < min (col + kc) dst.layout.cols

theorem block_of (ho : IsaOk isa ml) (h : Fits isa.kc rt dt lhs rhs mp start stop dst)
    (hk : Made isa.kc rt dt lhs rhs mp start stop dst k) {row col : Nat}
    (hrm : row % isa.kc = 0) (hcm : col % isa.kc = 0)
    (hr : row + isa.kc ≤ stop.lhs) (hc : col + isa.kc ≤ stop.rhs) {offs : Option Reg}
    (hoffs : OffsOk isa.kc lhs rhs col offs) {lp rp dp : Nat}
    (elp : lp = lhs.layout.stride * row) (erp : rp = rhs.layout.stride * col)
    (edp : dp = row + col * dst.layout.stride) {b : Buf Int} {S : Nat → Nat → Prop}
    (hw : Wr dst.layout.stride dst.layout.rows (outOf ml dt lhs rhs mp dst.zp) dst.data b S) :
    ∃ b', block isa k offs row col lp rp dp b = .ok b' ∧
      Wr dst.layout.stride dst.layout.rows (outOf ml dt lhs rhs mp dst.zp) dst.data b'
        (fun i j => S i j ∨ InBlock isa.kc dst row col i j) := by
  subst elp erp edp
  have hdl := h.dl
  have hdr := h.dr
  have hrow4 : 4 ∣ lhs.layout.rows := by have := h.lp.rows; rw [h.lk] at this; exact this
  obtain ⟨a1, e1, h1⟩ := initial_of ho h hk hr hc hoffs
  obtain ⟨a2, e2, h2⟩ := depth_of (n := (lhs.layout.rows + 3) / 4) ho h hk hrm hcm hr hc h1 (by omega)
  have e4 : 4 * ((lhs.layout.rows + 3) / 4) = lhs.layout.rows := by omega
  rw [e4] at h2
  obtain ⟨a3, e3, h3⟩ := scale_of ho hk hrm hcm hr hc (a := a2) h2
  unfold block
  dsimp only
  rw [e1, C.ok_bind, hk.depth, e2, C.ok_bind, e3, C.ok_bind, hk.dstRows, hk.dstCols]
  generalize hR : min (dst.layout.rows - row) isa.kc = rows
  generalize hCc : min (dst.layout.cols - col) isa.kc = cols
  have hrows : row + rows = min (row + isa.kc) dst.layout.rows := by omega
  have hcols : col + cols = min (col + isa.kc) dst.layout.cols := by omega
  have hrows0 : 0 < rows := by have := ho.kc; omega
  obtain ⟨b', eb, hb⟩ := forUpTo_total
    (body := storeCol isa k (decide (rows = isa.kc ∧ cols = isa.kc)) (row + col * dst.layout.stride)
      rows a3) (s := b) (n := cols)
    (fun n (b : Buf Int) => Wr dst.layout.stride dst.layout.rows (outOf ml dt lhs rhs mp dst.zp) dst.data b
      (fun i j => S i j ∨ (row ≤ i ∧ i < row + rows ∧ col ≤ j ∧ j < col + n)))
    (hw.congr (fun i j => by constructor <;> [(intro h; exact Or.inl h); (rintro (h | h) <;> [exact h; omega])]))
    (by
      intro j t hj ht
      unfold storeCol
      have hj' : j < isa.kc := by omega
      have hint : j * dst.layout.stride < 2 ^ 31 := by
        have h1 := h.kd
        have h2 := sizeOf_pos dt
        have h3 : j * dst.layout.stride ≤ isa.kc * (sizeOf dt * dst.layout.stride) :=
          Nat.mul_le_mul (by omega) (Nat.le_mul_of_pos_left _ h2)
        omega
      have hst : colOffset isa k (decide (rows = isa.kc ∧ cols = isa.kc)) j =
          .ok (j * dst.layout.stride) := by
        unfold colOffset
        rw [hk.dstStride, C.int_of hint]; split <;> rfl
      rw [hst, C.ok_bind, hk.dstType]
      have hsize : row + col * dst.layout.stride + j * dst.layout.stride + rows ≤ t.size := by
        have := (h.dfits (row + (rows - 1)) (col + j) (by omega) (by omega)).2
        unfold off at this
        rw [h.dorder] at this
        dsimp only at this
        rw [ht.size]
        rw [Nat.add_mul] at this
        omega
      rw [ho.store dt _ rows h.dtype (by omega) (by simp; intro h1 _; omega) t _ _ hsize]
      refine ⟨_, rfl, ?_⟩
      refine (ht.store (f := fun i => conv dt (clampReg isa k (a3 j) i)) (r0 := row) (n := rows)
        (j := col + j) (by rw [Nat.add_mul]; omega) (by omega) h.dstride
        (fun i hi => h3 i j (by omega) hj')).congr ?_
      intro i' j'
      constructor
      · rintro ((hS | hS) | hS)
        · exact Or.inl hS
        · exact Or.inr (by omega)
        · exact Or.inr (by omega)
      · rintro (hS | hS)
        · exact Or.inl (Or.inl hS)
        · by_cases hjj : j' = col + j
          · exact Or.inr (by omega)
          · exact Or.inl (Or.inr (by omega)))
  refine ⟨b', eb, hb.congr (fun i j => ?_)⟩
  unfold InBlock
  rw [hrows, hcols]

theorem dvd_iters {kc a b n : Nat} (hkc : kc = 8 ∨ kc = 16) (ha : a % kc = 0) (hb : b % kc = 0)
    (hn : n < (b - a) / kc) : (a + kc * n) % kc = 0 ∧ a + kc * n + kc ≤ b := by
  rcases hkc with rfl | rfl <;> omega

theorem iters_cover {kc a b : Nat} (hkc : kc = 8 ∨ kc = 16) (ha : a % kc = 0) (hb : b % kc = 0)
    (hab : a ≤ b) : a + kc * ((b - a) / kc) = b := by
  rcases hkc with rfl | rfl <;> omega

theorem rows_of (ho : IsaOk isa ml) (h : Fits isa.kc rt dt lhs rhs mp start stop dst)
    (hk : Made isa.kc rt dt lhs rhs mp start stop dst k) (hle : start.lhs ≤ stop.lhs) {col : Nat}
    (hcm : col % isa.kc = 0) (hc : col + isa.kc ≤ stop.rhs) {offs : Option Reg}
    (hoffs : OffsOk isa.kc lhs rhs col offs) {rp dp : Nat} (erp : rp = rhs.layout.stride * col)
    (edp : dp = start.lhs + col * dst.layout.stride) {b : Buf Int} {S : Nat → Nat → Prop}
    (hw : Wr dst.layout.stride dst.layout.rows (outOf ml dt lhs rhs mp dst.zp) dst.data b S) :
    ∃ b', forUpTo ((k.endRow - k.startRow) / isa.kc) (rowStep isa k offs col rp dp) b = .ok b' ∧
      Wr dst.layout.stride dst.layout.rows (outOf ml dt lhs rhs mp dst.zp) dst.data b'
        (fun i j => S i j ∨ (start.lhs ≤ i ∧ i < min stop.lhs dst.layout.rows ∧ col ≤ j ∧
          j < min (col + isa.kc) dst.layout.cols)) := by
  have hkc := ho.kc
  rw [hk.endRow, hk.startRow]
  obtain ⟨b', eb, hb⟩ := forUpTo_total (body := rowStep isa k offs col rp dp) (s := b)
    (n := (stop.lhs - start.lhs) / isa.kc)
    (fun n (b : Buf Int) => Wr dst.layout.stride dst.layout.rows (outOf ml dt lhs rhs mp dst.zp) dst.data b
      (fun i j => S i j ∨ (start.lhs ≤ i ∧ i < min (start.lhs + isa.kc * n) dst.layout.rows ∧ col ≤ j ∧
          j < min (col + isa.kc) dst.layout.cols)))
    (hw.congr (fun i j => by
      constructor
      · intro h; exact Or.inl h
      · rintro (h | h)
        · exact h
        · omega))
    (by
      intro m t hm ht
      obtain ⟨hm1, hm2⟩ := dvd_iters hkc h.startl h.stopl hm
      unfold rowStep
      rw [hk.startRow, hk.lhsBase, hk.lhsStride]
      obtain ⟨t', et, ht'⟩ := block_of ho h hk hm1 hcm hm2 hc hoffs
        (lp := start.lhs * lhs.layout.stride + m * (isa.kc * lhs.layout.stride)) (rp := rp)
        (dp := dp + isa.kc * m) (by ring) erp (by rw [edp]; ring) ht
      rw [et, C.ok_bind, C.int_of h.kl, C.ok_bind]
      refine ⟨t', rfl, ht'.congr (fun i j => ?_)⟩
      unfold InBlock
      have e : start.lhs + isa.kc * (m + 1) = start.lhs + isa.kc * m + isa.kc := by ring
      rw [e]
      constructor
      · rintro ((hS | hS) | hS)
        · exact Or.inl hS
        · exact Or.inr (by omega)
        · exact Or.inr (by omega)
      · rintro (hS | hS)
        · exact Or.inl (Or.inl hS)
        · by_cases hii : i < start.lhs + isa.kc * m
          · exact Or.inl (Or.inr (by omega))
          · exact Or.inr (by omega))
  refine ⟨b', eb, ?_⟩
  rw [iters_cover hkc h.startl h.stopl hle] at hb
  exact hb

theorem kernel_of (ho : IsaOk isa ml) (h : Fits isa.kc rt dt lhs rhs mp start stop dst)
    (hk : Made isa.kc rt dt lhs rhs mp start stop dst k) (hle : start.lhs ≤ stop.lhs)
    (hre : start.rhs ≤ stop.rhs) :
    ∃ b', kernel isa k dst.data = .ok b' ∧
      Wr dst.layout.stride dst.layout.rows (outOf ml dt lhs rhs mp dst.zp) dst.data b'
        (fun i j => start.lhs ≤ i ∧ i < min stop.lhs dst.layout.rows ∧ start.rhs ≤ j ∧
          j < min stop.rhs dst.layout.cols) := by
  have hkc := ho.kc
  unfold kernel
  rw [hk.endCol, hk.startCol]
  obtain ⟨b', eb, hb⟩ := forUpTo_total (body := colStep isa k) (s := dst.data)
    (n := (stop.rhs - start.rhs) / isa.kc)
    (fun n (b : Buf Int) => Wr dst.layout.stride dst.layout.rows (outOf ml dt lhs rhs mp dst.zp) dst.data b
      (fun i j => start.lhs ≤ i ∧ i < min stop.lhs dst.layout.rows ∧ start.rhs ≤ j ∧
          j < min (start.rhs + isa.kc * n) dst.layout.cols))
    ⟨rfl, fun i j h => by omega, fun i j h => by omega, fun _ _ => rfl⟩
    (by
      intro n t hn ht
      obtain ⟨hn1, hn2⟩ := dvd_iters hkc h.startr h.stopr hn
      unfold colStep
      dsimp only
      rw [hk.startCol]
      obtain ⟨offs, eo, hoffs⟩ := rhsOffsets_of ho h hk hn2
      rw [eo, C.ok_bind]
      obtain ⟨t', et, ht'⟩ := rows_of ho h hk hle hn1 hn2 hoffs
        (rp := k.rhsBase + n * (isa.kc * k.rhsStride)) (dp := k.dstBase + n * (isa.kc * k.dstStride))
        (by rw [hk.rhsBase, hk.rhsStride]; ring) (by rw [hk.dstBase, hk.dstStride]; ring) ht
      rw [et, C.ok_bind, hk.dstType, hk.dstStride, hk.rhsSize, hk.rhsStride, C.int_of h.kd, C.ok_bind,
        C.int_of h.kr, C.ok_bind]
      refine ⟨t', rfl, ht'.congr (fun i j => ?_)⟩
      have e : start.rhs + isa.kc * (n + 1) = start.rhs + isa.kc * n + isa.kc := by ring
      rw [e]
      omega)
  refine ⟨b', eb, ?_⟩
  rw [iters_cover hkc h.startr h.stopr hre] at hb
  exact hb

theorem run_of (ho : IsaOk isa ml) (h : Fits isa.kc rt dt lhs rhs mp start stop dst)
    (hle : start.lhs ≤ stop.lhs) (hre : start.rhs ≤ stop.rhs) :
    ∃ d', run isa rt dt lhs rhs mp start stop dst = .ok d' ∧ DSame dst d' ∧
      (∀ i j, start.lhs ≤ i → i < min stop.lhs dst.layout.rows → start.rhs ≤ j →
        j < min stop.rhs dst.layout.cols →
        d'.elem i j = .ok (outOf ml dt lhs rhs mp dst.zp i j)) ∧
      DOutside (fun i j => start.lhs ≤ i ∧ i < min stop.lhs dst.layout.rows ∧ start.rhs ≤ j ∧
        j < min stop.rhs dst.layout.cols) dst d' := by
  obtain ⟨k, ek, hk⟩ := makeParams_of ho.kc h
  obtain ⟨b, eb, hb⟩ := kernel_of ho h hk hle hre
  unfold run
  rw [ek, C.ok_bind, eb, C.ok_bind]
  have hoff : ∀ i j, off dst.layout i j = i + j * dst.layout.stride := by
    intro i j; unfold off; rw [h.dorder]
  refine ⟨_, rfl, ⟨rfl, rfl, hb.size⟩, ?_, ?_⟩
  · intro i j h1 h2 h3 h4
    obtain ⟨o1, o2⟩ := h.dfits i j (by omega) (by omega)
    unfold Mat.elem
    dsimp only
    rw [offset_eq, C.int_of o1, C.ok_bind, Buf.read_of (by rw [hb.size]; exact o2), hoff,
      hb.val i j ⟨h1, h2, h3, h4⟩]
  · intro o ho'
    refine hb.frame o (fun i j hS => ?_)
    rw [← hoff]; exact ho' i j hS

end Ruy.Simd.Kern

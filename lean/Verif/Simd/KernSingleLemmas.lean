import Verif.Simd.KernSingle
import Verif.Simd.KernBlock
/-
What the single-column kernels store.
-/
namespace Ruy.Simd.Kern
open Ruy.Mat Ruy.Mul
open Ruy.Front (ScalarType MulParams Quant)

/-- What is needed of the instructions. -/
structure SingleOk (s : Single) (ml : Int → Int → Int → Int) : Prop where
  isa : IsaOk s.isa ml
  load : 4 ≤ s.rhsLoad ∧ s.rhsLoad ≤ 4 * s.isa.kc
  mac : ∀ (acc l r : Reg) i, i < s.isa.kc →
    s.mac acc (s.isa.lhsLow l) (s.isa.lhsHigh l) (fun i => r (i % 2)) (fun i => r (2 + i % 2)) i =
      wrap32 (acc i + (l (4 * i) * r 0 + l (4 * i + 1) * r 1 + l (4 * i + 2) * r 2 +
        l (4 * i + 3) * r 3))

theorem parity (i : Nat) : 2 * i % 2 = 0 ∧ (2 * i + 1) % 2 = 1 := by omega

theorem single2_ok : SingleOk single2 lane where
  isa := avx2_ok
  load := by decide
  mac acc l r i hi := by
    show map2 add32 (map2 add32 acc (madd16 _ _)) (madd16 _ _) i = _
    rw [mac_eq]
    obtain ⟨a1, a2⟩ := splitLow_at l i hi
    obtain ⟨b1, b2⟩ := splitHigh_at l i hi
    show wrap32 (acc i + (splitLow shuffle8 id l (2 * i) * r (2 * i % 2) +
      splitLow shuffle8 id l (2 * i + 1) * r ((2 * i + 1) % 2) +
      splitHigh shuffle8 id l (2 * i) * r (2 + 2 * i % 2) +
      splitHigh shuffle8 id l (2 * i + 1) * r (2 + (2 * i + 1) % 2))) = _
    rw [a1, a2, b1, b2, (parity i).1, (parity i).2]

theorem singleAvx_mac (acc l h dl dh : Reg) (i : Nat) (hi : i < 8) :
    singleAvx.mac acc l h dl dh i = map2 add32 (map2 add32 acc (madd16 l dl)) (madd16 h dh) i := by
  interval_cases i <;> rfl

theorem singleAvx_ok : SingleOk singleAvx lane where
  isa := avx_ok
  load := by decide
  mac acc l r i hi := by
    rw [singleAvx_mac _ _ _ _ _ _ hi, mac_eq]
    obtain ⟨a1, a2⟩ := splitLowAvx_at l i hi
    obtain ⟨b1, b2⟩ := splitHighAvx_at l i hi
    show wrap32 (acc i + (splitLow (Avx.halves 16 shuffle8) cvtAvx l (2 * i) * r (2 * i % 2) +
      splitLow (Avx.halves 16 shuffle8) cvtAvx l (2 * i + 1) * r ((2 * i + 1) % 2) +
      splitHigh (Avx.halves 16 shuffle8) cvtAvx l (2 * i) * r (2 + 2 * i % 2) +
      splitHigh (Avx.halves 16 shuffle8) cvtAvx l (2 * i + 1) * r (2 + (2 * i + 1) % 2))) = _
    rw [a1, a2, b1, b2, (parity i).1, (parity i).2]

theorem single512_ok : SingleOk single512 lane512 where
  isa := avx512_ok
  load := by decide
  mac acc l r i hi := by
    show map2 add32 (map2 add32 acc (madd16 _ _)) (madd16 _ _) i = _
    rw [mac_eq]
    show wrap32 (acc i + (cvt32to16 l (2 * i) * r (2 * i % 2) +
      cvt32to16 l (2 * i + 1) * r ((2 * i + 1) % 2) +
      cvt32to16 (srl16 l) (2 * i) * r (2 + 2 * i % 2) +
      cvt32to16 (srl16 l) (2 * i + 1) * r (2 + (2 * i + 1) % 2))) = _
    rw [(parity i).1, (parity i).2]
    unfold cvt32to16 srl16
    have e1 : 2 * i / 2 * 4 + 2 * i % 2 = 4 * i := by omega
    have e2 : (2 * i + 1) / 2 * 4 + (2 * i + 1) % 2 = 4 * i + 1 := by omega
    simp only [e1, e2]
    rw [if_pos (by omega), if_pos (by omega)]

variable {s : Single} {ml : Int → Int → Int → Int} {rt dt : ScalarType} {lhs rhs : PMat Int}
  {mp : MulParams Int} {start stop : SidePair Nat} {dst : Mul.Mat Int} {k : KParams}

theorem singleBias_of {isa : Isa} (h : Fits isa.kc rt dt lhs rhs mp start stop dst)
    (hk : Made isa.kc rt dt lhs rhs mp start stop dst k) (hd : mp.channelDim = .row)
    (h32 : ∀ b ch, mp.bias = some b → ch < b.size → Multiplier.isI32 (b.val ch)) {m : Nat}
    (hr : start.lhs + isa.kc * m + isa.kc ≤ stop.lhs) :
    ∃ a, singleBias isa k m = .ok a ∧ ∀ i, i < isa.kc →
      a i = wrap32 (biasAt mp.bias (start.lhs + isa.kc * m + i)) := by
  unfold singleBias
  rw [hk.bias, hk.startRow]
  cases hb : mp.bias with
  | none => exact ⟨_, rfl, fun i _ => rfl⟩
  | some b =>
    dsimp only
    have := h.bias b hb
    unfold channelStop at this
    rw [hd] at this
    dsimp only at this
    have e : start.lhs + m * isa.kc = start.lhs + isa.kc * m := by ring
    rw [e, loadu_of (by omega)]
    refine ⟨_, rfl, fun i _ => ?_⟩
    have := h32 b (start.lhs + isa.kc * m + i) hb (by have := h.bias b hb; unfold channelStop at this; rw [hd] at this; dsimp only at this; omega)
    unfold Multiplier.isI32 at this
    unfold biasAt
    dsimp only
    rw [wrap32_of (by omega) (by omega)]

theorem addProduct_of {isa : Isa} (ho : IsaOk isa ml)
    (hk : Made isa.kc rt dt lhs rhs mp start stop dst k) {a : Reg} {x : Nat → Int}
    (ha : ∀ i, i < isa.kc → a i = wrap32 (x i)) (i : Nat) (hi : i < isa.kc) :
    addProduct isa k a i = wrap32 (x i + lhs.zp * rhs.zp * lhs.layout.rows) := by
  unfold addProduct
  rw [hk.prodZpDepth]
  split
  · rw [ho.add _ _ _ hi, ha i hi, wrap32_add_left]
    rfl
  · rename_i hz
    rw [not_not] at hz
    rw [ha i hi, hz, add_zero]

theorem subFirst_of {isa : Isa} (ho : IsaOk isa ml) {offs : Option Reg}
    (hoffs : OffsOk isa.kc lhs rhs 0 offs) {a : Reg} {x : Nat → Int}
    (ha : ∀ i, i < isa.kc → a i = wrap32 (x i)) (i : Nat) (hi : i < isa.kc) :
    subFirst isa offs a i = wrap32 (x i - lhs.zp * psum rhs 0) := by
  have h0 : 0 < isa.kc := by omega
  unfold subFirst
  cases offs with
  | none =>
    have := hoffs 0 h0
    rw [Nat.add_zero] at this
    dsimp only
    rw [this, sub_zero, ha i hi]
  | some o =>
    have := hoffs 0 h0
    rw [Nat.add_zero] at this
    dsimp only
    rw [ho.sub _ _ _ hi]
    show wrap32 (a i - o 0) = _
    rw [this, wrap32_sub_right, ha i hi, wrap32_sub_left]

theorem single_depth (ho : SingleOk s ml) (h : Fits s.isa.kc rt dt lhs rhs mp start stop dst)
    (hk : Made s.isa.kc rt dt lhs rhs mp start stop dst k) {row n : Nat}
    (hrm : row % s.isa.kc = 0) (hr : row + s.isa.kc ≤ stop.lhs) (hc : s.isa.kc ≤ stop.rhs) {a0 : Reg}
    {x : Nat → Int} (ha : ∀ i, i < s.isa.kc → a0 i = wrap32 (x i))
    (hn : 4 * n ≤ lhs.layout.rows) :
    ∃ a, forUpTo n (singleStep s k (lhs.layout.stride * row) 0) a0 = .ok a ∧
      ∀ i, i < s.isa.kc → a i = wrap32 (x i + dot lhs rhs (row + i) 0 (4 * n)) := by
  obtain ⟨a, e, hP⟩ := forUpTo_total
    (body := singleStep s k (lhs.layout.stride * row) 0) (s := a0) (n := n)
    (fun n (a : Reg) => ∀ i, i < s.isa.kc →
        a i = wrap32 (x i + dot lhs rhs (row + i) 0 (4 * n)))
    (fun i hi => by rw [ha i hi]; simp [dot])
    (by
      intro n' t hn' ht
      have hel := h.endl
      have her := h.endr
      have hkc := ho.isa.kc
      obtain ⟨l1, l2⟩ := load_packed ho.isa.kc h.lk h.lo h.lp h.lf (bc := row) (n := n') hrm (by omega)
        (by omega)
      obtain ⟨r1, r2⟩ := load_packed ho.isa.kc h.rk h.ro h.rp h.rf (bc := 0) (n := n') (by simp)
        (by omega) (by rw [h.depth]; omega)
      have hload : (if k.rhsSize = 1 then s.rhsLoad else 4) ≤ 4 * s.isa.kc := by
        have := ho.load; split <;> omega
      have r1' : loadu (if k.rhsSize = 1 then s.rhsLoad else 4) rhs.data (0 + 4 * s.isa.kc * n') =
          .ok (fun i => rhs.data.val (4 * s.isa.kc * n' + i)) := by
        rw [Nat.mul_zero] at r1
        unfold loadu at r1
        split at r1
        · rw [Nat.zero_add]; exact loadu_of (by omega)
        · cases r1
      unfold singleStep
      rw [hk.lhsData, hk.rhsData, l1, C.ok_bind, r1', C.ok_bind]
      refine ⟨_, rfl, ?_⟩
      intro i hi
      have q : ∀ q, q < 4 → rhs.data.val (4 * s.isa.kc * n' + q) = pat rhs (4 * n' + q) 0 := by
        intro q hq
        have := r2 0 q (by omega) hq
        rw [Nat.mul_zero, Nat.mul_zero, Nat.zero_add, Nat.zero_add] at this
        exact this
      have q0 := q 0 (by omega)
      have y0 := l2 i 0 hi (by omega)
      simp only [Nat.add_zero] at q0 y0
      rw [ho.mac _ _ (fun i => rhs.data.val (4 * s.isa.kc * n' + i)) _ hi]
      simp only [Nat.add_zero]
      rw [q0, q 1 (by omega), q 2 (by omega), q 3 (by omega), y0,
        l2 i 1 hi (by omega), l2 i 2 hi (by omega), l2 i 3 hi (by omega),
        ht i hi, wrap32_add_left, dot_four]
      congr 1; ring)
  exact ⟨a, e, hP⟩

theorem single_scale {isa : Isa} (ho : IsaOk isa ml) (hk : Made isa.kc rt dt lhs rhs mp start stop dst k)
    (hd : mp.channelDim = .row) {row : Nat} (hrm : row % isa.kc = 0) (hr : row + isa.kc ≤ stop.lhs)
    {a : Reg} (ha : ∀ i, i < isa.kc → a i = wrap32 (accOf lhs rhs mp (row + i) 0)) :
    ∃ a', singleScale isa k row a = .ok a' ∧ ∀ i, i < isa.kc →
      conv dt (clampReg isa k a' i) = outOf ml dt lhs rhs mp dst.zp (row + i) 0 := by
  have h0 : 0 < isa.kc := by have := ho.kc; omega
  unfold singleScale clampReg outOf
  rw [hk.dstType]
  by_cases hdt : dt = .int32
  · rw [if_pos hdt]
    refine ⟨a, rfl, fun i hi => ?_⟩
    rw [if_pos hdt, if_pos hdt, ha i hi, hdt]
    rfl
  · rw [if_neg hdt]
    dsimp only
    simp only [if_neg hdt]
    rw [hk.clampMin, hk.clampMax, hk.dstZp, hd]
    obtain ⟨q1, q2, q3⟩ := hk.quant row hrm (by unfold channelStop; rw [hd]; exact hr)
    rw [loadu_of q1, C.ok_bind, loadu_of q2, C.ok_bind]
    refine ⟨_, rfl, fun i hi => ?_⟩
    rw [ho.max _ _ _ hi, ho.min _ _ _ hi, ho.mult _ _ _ _ _ _ _ hi h0, ha i hi]
    obtain ⟨v1, v2⟩ := q3 i hi
    simp only [Bool.false_eq_true, if_false]
    rw [v1, v2]
    rfl

theorem single_of (ho : SingleOk s ml) (h : Fits s.isa.kc rt dt lhs rhs mp start stop dst)
    (hk : Made s.isa.kc rt dt lhs rhs mp start stop dst k) (hd : mp.channelDim = .row)
    (hcols : dst.layout.cols = 1) (h32 : ∀ b ch, mp.bias = some b → ch < b.size → Multiplier.isI32 (b.val ch))
    (hle : start.lhs ≤ stop.lhs) (hre : start.rhs < stop.rhs) :
    ∃ b', singleKernel s k dst.data = .ok b' ∧
      Wr dst.layout.stride dst.layout.rows (outOf ml dt lhs rhs mp dst.zp) dst.data b'
        (fun i j => start.lhs ≤ i ∧ i < min stop.lhs dst.layout.rows ∧ start.rhs ≤ j ∧
          j < min stop.rhs dst.layout.cols) := by
  have hkc := ho.isa.kc
  have hsr := h.startr
  have her := h.stopr
  have hdr := h.dr
  have hdl := h.dl
  have hrow4 : 4 ∣ lhs.layout.rows := by have := h.lp.rows; rw [h.lk] at this; exact this
  have e1 : start.rhs = 0 ∧ stop.rhs = s.isa.kc := by
    generalize s.isa.kc = kc at *
    rcases hkc with rfl | rfl <;> omega
  obtain ⟨es, ee⟩ := e1
  unfold singleKernel
  rw [C.check_of (by rw [hk.dstCols, hcols]), C.ok_bind, C.check_of (by rw [hk.endCol, ee]), C.ok_bind,
    C.check_of (by rw [hk.startCol, es]), C.ok_bind]
  obtain ⟨offs, eo, hoffs⟩ := rhsOffsets_of ho.isa h hk (col := 0) (by omega)
  rw [eo, C.ok_bind, hk.endRow, hk.startRow]
  obtain ⟨b', eb, hb⟩ := forUpTo_total (body := singleRow s k offs) (s := dst.data)
    (n := (stop.lhs - start.lhs) / s.isa.kc)
    (fun n (b : Buf Int) => Wr dst.layout.stride dst.layout.rows (outOf ml dt lhs rhs mp dst.zp) dst.data b
      (fun i j => start.lhs ≤ i ∧ i < min (start.lhs + s.isa.kc * n) dst.layout.rows ∧ j = 0))
    ⟨rfl, fun i j h => by omega, fun i j h => by omega, fun _ _ => rfl⟩
    (by
      intro m t hm ht
      obtain ⟨hm1, hm2⟩ := dvd_iters hkc h.startl h.stopl hm
      unfold singleRow
      dsimp only
      rw [hk.startRow, hk.dstRows, hk.depth, hk.lhsBase, hk.lhsStride, hk.rhsBase, hk.dstBase, es]
      obtain ⟨a1, f1, g1⟩ := singleBias_of h hk hd h32 hm2
      obtain ⟨a2, f2, g2⟩ := subLhsSums_of ho.isa h hk hm2 g1
      have g3 := subFirst_of ho.isa hoffs (addProduct_of ho.isa hk g2)
      obtain ⟨a4, f4, g4⟩ := single_depth ho h hk hm1 hm2 (by omega) g3
        (n := (lhs.layout.rows + 3) / 4) (by omega)
      have e4 : 4 * ((lhs.layout.rows + 3) / 4) = lhs.layout.rows := by omega
      rw [e4] at g4
      have elp : start.lhs * lhs.layout.stride + m * (s.isa.kc * lhs.layout.stride) =
          lhs.layout.stride * (start.lhs + s.isa.kc * m) := by ring
      obtain ⟨a5, f5, g5⟩ := single_scale ho.isa hk hd hm1 hm2 (a := a4) (fun i hi => by
        rw [g4 i hi]; unfold accOf; rw [hd]
        show wrap32 _ = wrap32 (_ + biasAt mp.bias (start.lhs + s.isa.kc * m + i) - _ - _ + _)
        congr 1; ring)
      rw [f1, C.ok_bind, f2, C.ok_bind, elp, Nat.zero_mul, f4, C.ok_bind, f5, C.ok_bind, hk.dstType]
      generalize hR : min (dst.layout.rows - (start.lhs + s.isa.kc * m)) s.isa.kc = rows
      have hrows0 : 0 < rows := by omega
      have hsize : 0 * dst.layout.stride + start.lhs + s.isa.kc * m + rows ≤ t.size := by
        have := (h.dfits (start.lhs + s.isa.kc * m + (rows - 1)) 0 (by omega) (by omega)).2
        unfold off at this
        rw [h.dorder] at this
        dsimp only at this
        rw [ht.size]
        omega
      rw [Nat.zero_mul] at hsize ⊢
      rw [ho.isa.store dt _ rows h.dtype (by omega) (by simp) t _ _ hsize, C.ok_bind, C.int_of h.kl, C.ok_bind]
      refine ⟨_, rfl, ?_⟩
      refine (ht.store (f := fun i => conv dt (clampReg s.isa k a5 i))
        (r0 := start.lhs + s.isa.kc * m) (n := rows) (j := 0) (by omega) (by omega) h.dstride
        (fun i hi => g5 i (by omega))).congr ?_
      intro i' j'
      have e : start.lhs + s.isa.kc * (m + 1) = start.lhs + s.isa.kc * m + s.isa.kc := by ring
      rw [e]
      constructor
      · rintro (hS | hS) <;> omega
      · intro hS
        by_cases hii : i' < start.lhs + s.isa.kc * m
        · exact Or.inl (by omega)
        · exact Or.inr (by omega))
  have hadv : advance s k = .ok () := by
    unfold advance
    rw [hk.dstType, hk.dstStride, hk.rhsSize, hk.rhsStride, C.int_of h.kd, C.ok_bind, C.int_of h.kr,
      C.ok_bind, ite_self]
  rw [eb, C.ok_bind, hadv, C.ok_bind]
  refine ⟨b', rfl, ?_⟩
  rw [iters_cover hkc h.startl h.stopl hle] at hb
  refine hb.congr (fun i j => ?_)
  omega

theorem runAll_of (ho : SingleOk s ml) (h : Fits s.isa.kc rt dt lhs rhs mp start stop dst)
    (h32 : ∀ b ch, mp.bias = some b → ch < b.size → Multiplier.isI32 (b.val ch))
    (hle : start.lhs ≤ stop.lhs) (hre : start.rhs < stop.rhs) :
    ∃ d', runAll s rt dt lhs rhs mp start stop dst = .ok d' ∧ DSame dst d' ∧
      (∀ i j, start.lhs ≤ i → i < min stop.lhs dst.layout.rows → start.rhs ≤ j →
        j < min stop.rhs dst.layout.cols →
        d'.elem i j = .ok (outOf ml dt lhs rhs mp dst.zp i j)) ∧
      DOutside (fun i j => start.lhs ≤ i ∧ i < min stop.lhs dst.layout.rows ∧ start.rhs ≤ j ∧
        j < min stop.rhs dst.layout.cols) dst d' := by
  obtain ⟨k, ek, hk⟩ := makeParams_of ho.isa.kc h
  have hch : ∃ b', choose s k (decide (dst.layout.cols = 1 ∧ mp.channelDim = .row)) dst.data = .ok b' ∧
      Wr dst.layout.stride dst.layout.rows (outOf ml dt lhs rhs mp dst.zp) dst.data b'
        (fun i j => start.lhs ≤ i ∧ i < min stop.lhs dst.layout.rows ∧ start.rhs ≤ j ∧
          j < min stop.rhs dst.layout.cols) := by
    unfold choose
    by_cases hc : dst.layout.cols = 1 ∧ mp.channelDim = .row
    · rw [if_pos (by simpa using hc)]
      exact single_of ho h hk hc.2 hc.1 h32 hle hre
    · rw [if_neg (by simpa using hc)]
      exact kernel_of ho.isa h hk hle (by omega)
  obtain ⟨b, eb, hb⟩ := hch
  unfold runAll
  rw [ek, C.ok_bind, eb, C.ok_bind]
  have hoff : ∀ i j, off dst.layout i j = i + j * dst.layout.stride := by
    intro i j; unfold off; rw [h.dorder]
  refine ⟨_, rfl, ⟨rfl, rfl, hb.size⟩, ?_, ?_⟩
  · intro i j h1 h2 h3 h4
    obtain ⟨o1, o2⟩ := h.dfits i j (by omega) (by omega)
    unfold Mat.elem
    dsimp only
    rw [offset_eq, C.int_of o1, C.ok_bind, Buf.read_of (by rw [hb.size]; exact o2), hoff,
      hb.val i j ⟨h1, h2, h3, h4⟩]
  · intro o ho'
    refine hb.frame o (fun i j hS => ?_)
    rw [← hoff]; exact ho' i j hS

end Ruy.Simd.Kern

import Verif.Arm8.Flow
/-
Single calls of packing functions on 32-bit ARM: lemmas for property C87.
-/
namespace Ruy.Arm8.Flow
open Ruy.Mat Ruy.Mul
open Ruy.TrMul (setSide)
open Ruy.Simd.Flow (Op Covered Written)
open Ruy.Neon (byteOf PackCall RowCall Memory)
open Ruy.Neon.Flow (Source Target Task Mach packCall rowCall sideMem putSide at' depth small elem setSide_get set_same)
open Simd (wrap8 wrap16 wrap32)

theorem cols_or (s : Side) : cols s = 4 ∨ cols s = 2 := by cases s <;> simp [cols]

theorem width_cols (s : Side) : Pack.width (isLhs s) = cols s := by cases s <;> rfl

/-- What CreatePackedLayout gives. -/
theorem SideOk.facts {w : Nat} {s : Source} {p : Target} (h : SideOk w s p) :
    p.layout.stride = p.layout.rows ∧ p.layout.rows = 16 * ((s.layout.rows + 15) / 16) ∧
      s.layout.cols ≤ p.layout.cols ∧ p.layout.cols < s.layout.cols + w ∧ p.layout.cols % w = 0 ∧
      (-128 ≤ p.zp ∧ p.zp ≤ 127) := by
  obtain ⟨hp, l1, l2, l3, l4, l5, l6, l7⟩ := createPackedLayout_ok h.layout
  have d1 := hp.rows
  have d2 := hp.cols
  rw [l3] at d1 d2
  dsimp only at d1 d2 l5 l7
  obtain ⟨m, hm⟩ := d1
  obtain ⟨n, hn⟩ := d2
  refine ⟨l2, by omega, l6, l7, by rw [hn]; exact Nat.mul_mod_right _ _, ?_⟩
  have h1 := h.range
  have h2 := h.zp
  cases hu : s.unsigned <;> rw [hu] at h1 h2 <;> simp only [Bool.false_eq_true, if_false, if_true] at h1 h2 <;> omega

/-- Where row `k` and column `c` of a packed matrix are. -/
def pplace (w : Nat) (p : Target) (k c : Nat) : Nat :=
  p.layout.stride * (w * (c / w)) + 16 * w * (k / 16) + 16 * (c % w) + k % 16

/-- Column `c` of a side has been packed. -/
structure ColOk (t : Task) (m0 m : Mach) (s : Side) (c : Nat) : Prop where
  entry : ∀ k, k < (t.packed.get s).layout.rows →
    (m.packed.get s (pplace (cols s) (t.packed.get s) k c)).toInt = small t m0 s k c
  sum : ∀ b, b < 4 → m.sums.get s (4 * c + b) =
    byteOf (∑ k ∈ Finset.range (t.packed.get s).layout.rows, small t m0 s k c) b

/-- Places of columns of different groups of kernel columns. -/
theorem pplace_ne {w : Nat} (hw : w = 4 ∨ w = 2) {s : Source} {p : Target} (h : SideOk w s p) {k c k' c' : Nat} (hk : k < p.layout.rows)
    (hk' : k' < p.layout.rows) (hc : c / w ≠ c' / w) : pplace w p k c ≠ pplace w p k' c' := by
  obtain ⟨l1, l2, -⟩ := h.facts
  have key : ∀ {k c k' c' : Nat}, k < p.layout.rows → c / w < c' / w → pplace w p k c < pplace w p k' c' := by
    intro k c k' c' hk hc
    unfold pplace
    have : p.layout.stride * (w * (c / w)) + p.layout.stride * w ≤ p.layout.stride * (w * (c' / w)) := by
      rw [← Nat.mul_add]; exact Nat.mul_le_mul_left _ (by rw [← Nat.mul_succ]; exact Nat.mul_le_mul_left _ hc)
    rw [l1] at this ⊢
    rcases hw with rfl | rfl <;> omega
  rcases Nat.lt_or_gt_of_ne hc with h' | h'
  · exact Nat.ne_of_lt (key hk h')
  · exact (Nat.ne_of_lt (key hk' h')).symm

/-- Only the packed columns of one side have changed. -/
structure PackFrame (t : Task) (s : Side) (lo hi : Nat) (m m' : Mach) : Prop where
  src : m'.src = m.src
  bias : m'.bias = m.bias
  fixed : m'.fixed = m.fixed
  exponent : m'.exponent = m.exponent
  dst : m'.dst = m.dst
  other : ∀ s', s' ≠ s → m'.packed.get s' = m.packed.get s' ∧ m'.sums.get s' = m.sums.get s'
  packed : ∀ o, (∀ c, lo ≤ c → c < hi → ∀ k, k < (t.packed.get s).layout.rows → o ≠ pplace (cols s) (t.packed.get s) k c) →
    m'.packed.get s o = m.packed.get s o
  sums : ∀ o, o < 4 * lo ∨ 4 * hi ≤ o → m'.sums.get s o = m.sums.get s o

/-- A call of RunPack. -/
theorem pack_ok {t : Task} (h : TaskOk t) {s : Side} {lo hi : Nat}
    (hb : Simd.Flow.Block (cols s) (t.packed.get s).layout.cols lo hi) {m0 m : Mach} (hsrc : m.src = m0.src) :
    (∃ r, RunPack t s lo hi m r) ∧ ∀ r, RunPack t s lo hi m r → ∃ m', r = .ok m' ∧
      PackFrame t s lo hi m m' ∧ ∀ c, lo ≤ c → c < hi → c < (t.src.get s).layout.cols → ColOk t m0 m' s c := by
  have hs := h.side s
  obtain ⟨l1, l2, l3, l4, l5, l6⟩ := hs.facts
  obtain ⟨b1, b2, b3, b4⟩ := hb
  have hdep : (t.src.get s).layout.rows = depth t := by
    cases s
    · rfl
    · exact h.depth
  have hsz : (t.packed.get s).layout.stride * hi ≤ (t.packed.get s).layout.stride * (t.packed.get s).layout.cols :=
    Nat.mul_le_mul_left _ b4
  have h4 := hs.int
  have h5 := hs.size
  have h6 := hs.sums
  have h7 := hs.depth
  have hr := hs.rows
  have hrange := hs.range
  have hzp := hs.zp
  have key : ∀ (x : Memory) (w : Nat → Nat → Int),
      (∀ c, lo ≤ c → c < hi → ∀ k, k < (t.packed.get s).layout.rows → (x .packed (pplace (cols s) (t.packed.get s) k c)).toInt = w k c) →
      (∀ c, lo ≤ c → c < hi → ∀ b, b < 4 → x .sums (4 * c + b) =
        byteOf (∑ k ∈ Finset.range (t.packed.get s).layout.rows, w k c) b) →
      (∀ o, (∀ c, lo ≤ c → c < hi → ∀ k, k < (t.packed.get s).layout.rows → o ≠ pplace (cols s) (t.packed.get s) k c) →
        x .packed o = m.packed.get s o) →
      (∀ o, o < 4 * lo ∨ 4 * hi ≤ o → x .sums o = m.sums.get s o) → x .src = m.src.get s →
      (∀ k c, c < (t.src.get s).layout.cols → w k c = small t m0 s k c) →
      PackFrame t s lo hi m (putSide m s x) ∧
        ∀ c, lo ≤ c → c < hi → c < (t.src.get s).layout.cols → ColOk t m0 (putSide m s x) s c := by
    intro x w k1 k2 k3 k4 k5 k6
    refine ⟨⟨?_, rfl, rfl, rfl, rfl, fun s' hs' => ?_, fun o ho => ?_, fun o ho => ?_⟩, fun c c1 c2 c3 => ⟨fun k hk => ?_, fun b hb => ?_⟩⟩
    · show setSide m.src s (x .src) = _
      rw [k5, set_same]
    · exact ⟨by show (setSide _ _ _).get _ = _; rw [setSide_get, if_neg hs'],
        by show (setSide _ _ _).get _ = _; rw [setSide_get, if_neg hs']⟩
    · show (setSide m.packed s (x .packed)).get s o = _
      rw [setSide_get, if_pos rfl, k3 o ho]
    · show (setSide m.sums s (x .sums)).get s o = _
      rw [setSide_get, if_pos rfl, k4 o ho]
    · show ((setSide m.packed s (x .packed)).get s _).toInt = _
      rw [setSide_get, if_pos rfl, k1 c c1 c2 k hk, k6 k c c3]
    · show (setSide m.sums s (x .sums)).get s _ = _
      rw [setSide_get, if_pos rfl, k2 c c1 c2 b hb, Finset.sum_congr rfl (fun k _ => k6 k c c3)]
  unfold RunPack
  cases ho : (t.src.get s).layout.order with
  | colMajor =>
    simp only [if_true]
    have hf : Pack.CallFits (Pack.width (isLhs s)) (packCall t false s) lo hi := {
      order := by omega
      aligned := by rw [width_cols]; exact ⟨b1, b2⟩
      rows := by show (t.src.get s).layout.rows < _; omega
      zp := hrange
      stride := by show 16 * (((t.src.get s).layout.rows + 15) / 16) ≤ (t.packed.get s).layout.stride; omega
      src := fun c hc k hk => by
        have := hs.source k c hk hc
        unfold at' at this
        rw [ho] at this
        exact this
      packed := by show (t.packed.get s).layout.stride * hi ≤ (t.packed.get s).size; omega
      sums := fun _ => by show 4 * hi ≤ (t.packed.get s).sumsSize; omega
      offsets := fun c hc hn => ⟨hs.columns ho c (by omega) (by rw [← width_cols]; exact hn), by
        show (t.packed.get s).layout.stride * c < 2 ^ 31
        have : (t.packed.get s).layout.stride * c ≤ (t.packed.get s).layout.stride * hi := Nat.mul_le_mul_left _ (by omega)
        omega⟩ }
    obtain ⟨⟨x, hx⟩, hall⟩ := Pack.c84_pack (m := sideMem m s) hf
    refine ⟨⟨_, x, hx, rfl⟩, ?_⟩
    rintro r ⟨y, hy, rfl⟩
    obtain ⟨m', rfl, hp⟩ := hall y hy
    rw [width_cols] at hp
    have pr : (packCall t false s).packedRows = (t.packed.get s).layout.rows := l2.symm
    refine ⟨_, rfl, key m' ((packCall t false s).wanted (sideMem m s)) (fun c c1 c2 k hk => hp.entry c c1 c2 k (by rw [pr]; exact hk))
      (fun c c1 c2 b hb => ?_) (fun o ho => hp.restPacked o (fun c c1 c2 k hk => ho c c1 c2 k (by rw [← pr]; exact hk)))
      (fun o ho => hp.restSums o (fun _ => ho)) (hp.rest .src (by decide) (by decide) (by decide)) (fun k c hc => ?_)⟩
    · rw [hp.sum rfl c c1 c2 b hb, RowCall.byteOf_wrap32 _ hb, pr]
    · unfold PackCall.wanted small
      have e : (packCall t false s).element (sideMem m s) k c = elem t m0 s k c := by
        unfold PackCall.element elem at'
        rw [ho, ← hsrc]
        rfl
      rw [e]
      show (if k < (t.src.get s).layout.rows ∧ c < (t.src.get s).layout.cols then elem t m0 s k c else (t.src.get s).zp) -
        (if (t.src.get s).unsigned then 128 else 0) = _
      rw [hdep]
      by_cases hk : k < depth t
      · rw [if_pos ⟨hk, hc⟩, if_pos hk]
      · rw [if_neg (fun h => hk h.1), if_neg hk]
  | rowMajor =>
    simp only [reduceCtorEq, if_false]
    have src : ∀ k, k < (rowCall t s).rows → ∀ c, c < (rowCall t s).cols → (rowCall t s).stride * k + c < (rowCall t s).size .src :=
      fun k hk c hc => by
        have := hs.source k c hk hc
        unfold at' at this
        rw [ho] at this
        exact this
    have hrun : ∃ m', Row.run (cols s) (rowCall t s) lo hi (sideMem m s) = .ok m' ∧
        (∀ c, lo ≤ c → c < hi → ∀ k, k < (t.packed.get s).layout.rows →
          (m' .packed (pplace (cols s) (t.packed.get s) k c)).toInt = (rowCall t s).wanted (sideMem m s) k c) ∧
        (∀ c, lo ≤ c → c < hi → ∀ b, b < 4 → m' .sums (4 * c + b) =
          byteOf (∑ k ∈ Finset.range (t.packed.get s).layout.rows, (rowCall t s).wanted (sideMem m s) k c) b) ∧
        (∀ o, (∀ c, lo ≤ c → c < hi → ∀ k, k < (t.packed.get s).layout.rows → o ≠ pplace (cols s) (t.packed.get s) k c) →
          m' .packed o = sideMem m s .packed o) ∧
        (∀ o, o < 4 * lo ∨ 4 * hi ≤ o → m' .sums o = sideMem m s .sums o) ∧ m' .src = sideMem m s .src := by
      cases s with
      | lhs =>
        have hf : (rowCall t .lhs).Fits lo hi := {
          order := by omega
          aligned := ⟨b1, b2⟩
          depth := ⟨by show (t.packed.get .lhs).layout.rows % 16 = 0; omega, h7⟩
          zp := l6
          stride := by show (t.packed.get .lhs).layout.rows ≤ (t.packed.get .lhs).layout.stride; omega
          src := src
          packed := by show (t.packed.get .lhs).layout.stride * hi ≤ (t.packed.get .lhs).size; omega
          sums := ⟨rfl, by show 4 * hi ≤ (t.packed.get .lhs).sumsSize; omega⟩
          offsets := ⟨fun k hk => hs.lines ho k hk, by show (t.packed.get .lhs).layout.stride * hi < 2 ^ 31; omega⟩ }
        obtain ⟨m', e, hp⟩ := RowCall.c56_pack (m := sideMem m .lhs) hf
        refine ⟨m', by show Row.run 4 _ _ _ _ = _; rw [Row.c86_four]; exact e, hp.entry, hp.sum, hp.restPacked, hp.restSums,
          hp.rest .src (by decide) (by decide)⟩
      | rhs =>
        have hf : Row.Fits (rowCall t .rhs) lo hi := {
          order := by omega
          aligned := ⟨b1, b2⟩
          depth := ⟨by show (t.packed.get .rhs).layout.rows % 16 = 0; omega, h7⟩
          zp := l6
          stride := by show (t.packed.get .rhs).layout.rows ≤ (t.packed.get .rhs).layout.stride; omega
          src := src
          packed := by show (t.packed.get .rhs).layout.stride * hi ≤ (t.packed.get .rhs).size; omega
          sums := ⟨rfl, by show 4 * hi ≤ (t.packed.get .rhs).sumsSize; omega⟩
          offsets := ⟨fun k hk => hs.lines ho k hk, by show (t.packed.get .rhs).layout.stride * hi < 2 ^ 31; omega⟩ }
        obtain ⟨m', e, hp⟩ := Row.c86_pack (m := sideMem m .rhs) hf
        exact ⟨m', e, hp.entry, hp.sum, hp.restPacked, hp.restSums, hp.rest .src (by decide) (by decide)⟩
    obtain ⟨m', e, p1, p2, p3, p4, p5⟩ := hrun
    refine ⟨⟨_, rfl⟩, ?_⟩
    rintro r rfl
    rw [e]
    refine ⟨_, rfl, key m' ((rowCall t s).wanted (sideMem m s)) p1 p2 p3 p4 p5 (fun k c hc => ?_)⟩
    unfold RowCall.wanted small
    have e : (rowCall t s).element (sideMem m s) k c = elem t m0 s k c := by
      unfold RowCall.element elem at'
      rw [ho, ← hsrc]
      rfl
    rw [e, if_pos (show c < (rowCall t s).cols from hc)]
    show (if k < (t.src.get s).layout.rows then elem t m0 s k c - (if (t.src.get s).unsigned then 128 else 0) else (t.packed.get s).zp) = _
    rw [hdep, hzp]
    by_cases hk : k < depth t
    · rw [if_pos hk, if_pos hk]
    · rw [if_neg hk, if_neg hk]

/-- A column that was packed before stays packed. -/
theorem ColOk.frame {t : Task} (h : TaskOk t) {s s' : Side} {lo hi c : Nat}
    (hb : Simd.Flow.Block (cols s) (t.packed.get s).layout.cols lo hi) {m0 m m' : Mach} (hf : PackFrame t s lo hi m m')
    (hc : ColOk t m0 m s' c) (hn : s' = s → ¬(lo ≤ c ∧ c < hi)) : ColOk t m0 m' s' c := by
  obtain ⟨b1, b2, b3, b4⟩ := hb
  by_cases hs : s' = s
  · subst hs
    have hn := hn rfl
    refine ⟨fun k hk => ?_, fun b hb => ?_⟩
    · rw [hf.packed _ (fun c' c1 c2 k' hk' => pplace_ne (cols_or s') (h.side s') hk hk' (by
        rcases cols_or s' with hw | hw <;> rw [hw] at b1 b2 ⊢ <;> omega))]
      exact hc.entry k hk
    · rw [hf.sums _ (by omega)]
      exact hc.sum b hb
  · obtain ⟨e1, e2⟩ := hf.other s' hs
    exact ⟨fun k hk => by rw [e1]; exact hc.entry k hk, fun b hb => by rw [e2]; exact hc.sum b hb⟩

end Ruy.Arm8.Flow

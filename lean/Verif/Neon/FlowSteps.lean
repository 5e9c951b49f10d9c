import Verif.Neon.Flow
import Verif.Neon.ColProps
import Verif.Neon.RowProps
/-
Single calls of packing functions and kernels on AArch64: lemmas for property C59.
-/
namespace Ruy.Neon.Flow
open Ruy.Mat Ruy.Mul
open Ruy.TrMul (setSide)
open Ruy.Simd.Flow (Op Covered Written)
open Simd (wrap8 wrap16 wrap32)

theorem word_of {f : Nat → Byte} {i : Nat} {x : Int} (h : ∀ b, b < 4 → f (4 * i + b) = byteOf x b) :
    wrap32 (le4 f (4 * i)) = wrap32 x := by
  have e := getS_ofS (fun _ => x) 0
  rw [← e]
  unfold getS le4 le2 ofS
  rw [show 4 * i = 4 * i + 0 from rfl, h 0 (by omega), show 4 * i + 0 + 1 = 4 * i + 1 from rfl, h 1 (by omega),
    show 4 * i + 0 + 2 = 4 * i + 2 from rfl, h 2 (by omega), show 4 * i + 2 + 1 = 4 * i + 3 from rfl, h 3 (by omega)]

/-- What CreatePackedLayout gives. -/
theorem SideOk.facts {s : Source} {p : Target} (h : SideOk s p) :
    p.layout.stride = p.layout.rows ∧ p.layout.rows = 16 * ((s.layout.rows + 15) / 16) ∧
      s.layout.cols ≤ p.layout.cols ∧ p.layout.cols < s.layout.cols + 4 ∧ p.layout.cols % 4 = 0 ∧
      (-128 ≤ p.zp ∧ p.zp ≤ 127) := by
  obtain ⟨hp, l1, l2, l3, l4, l5, l6, l7⟩ := createPackedLayout_ok h.layout
  have d1 := hp.rows
  have d2 := hp.cols
  rw [l3] at d1 d2
  dsimp only at d1 d2 l5 l7
  obtain ⟨m, hm⟩ := d1
  obtain ⟨n, hn⟩ := d2
  refine ⟨l2, by omega, l6, l7, by omega, ?_⟩
  have h1 := h.range
  have h2 := h.zp
  cases hu : s.unsigned <;> rw [hu] at h1 h2 <;> simp only [Bool.false_eq_true, if_false, if_true] at h1 h2 <;> omega

/-- Where row `k` and column `c` of a packed matrix are. -/
def pplace (p : Target) (k c : Nat) : Nat :=
  p.layout.stride * (4 * (c / 4)) + 64 * (k / 16) + 16 * (c % 4) + k % 16

/-- Column `c` of a side has been packed. -/
structure ColOk (t : Task) (m0 m : Mach) (s : Side) (c : Nat) : Prop where
  entry : ∀ k, k < (t.packed.get s).layout.rows →
    (m.packed.get s (pplace (t.packed.get s) k c)).toInt = small t m0 s k c
  sum : ∀ b, b < 4 → m.sums.get s (4 * c + b) =
    byteOf (∑ k ∈ Finset.range (t.packed.get s).layout.rows, small t m0 s k c) b

/-- Places of columns of different groups of four. -/
theorem pplace_ne {s : Source} {p : Target} (h : SideOk s p) {k c k' c' : Nat} (hk : k < p.layout.rows)
    (hk' : k' < p.layout.rows) (hc : c / 4 ≠ c' / 4) : pplace p k c ≠ pplace p k' c' := by
  obtain ⟨l1, l2, -⟩ := h.facts
  have key : ∀ {k c k' c' : Nat}, k < p.layout.rows → c / 4 < c' / 4 → pplace p k c < pplace p k' c' := by
    intro k c k' c' hk hc
    unfold pplace
    have : p.layout.stride * (4 * (c / 4)) + p.layout.stride * 4 ≤ p.layout.stride * (4 * (c' / 4)) := by
      rw [← Nat.mul_add]; exact Nat.mul_le_mul_left _ (by omega)
    rw [l1] at this ⊢
    omega
  rcases Nat.lt_or_gt_of_ne hc with h' | h'
  · exact Nat.ne_of_lt (key hk h')
  · exact (Nat.ne_of_lt (key hk' h')).symm

theorem setSide_get {α : Type} (p : SidePair α) (s s' : Side) (x : α) :
    (setSide p s x).get s' = if s' = s then x else p.get s' := by
  cases s <;> cases s' <;> rfl

/-- Only the packed columns of one side have changed. -/
structure PackFrame (t : Task) (s : Side) (lo hi : Nat) (m m' : Mach) : Prop where
  src : m'.src = m.src
  bias : m'.bias = m.bias
  fixed : m'.fixed = m.fixed
  exponent : m'.exponent = m.exponent
  dst : m'.dst = m.dst
  other : ∀ s', s' ≠ s → m'.packed.get s' = m.packed.get s' ∧ m'.sums.get s' = m.sums.get s'
  packed : ∀ o, (∀ c, lo ≤ c → c < hi → ∀ k, k < (t.packed.get s).layout.rows → o ≠ pplace (t.packed.get s) k c) →
    m'.packed.get s o = m.packed.get s o
  sums : ∀ o, o < 4 * lo ∨ 4 * hi ≤ o → m'.sums.get s o = m.sums.get s o

theorem set_same {α : Type} (p : SidePair α) (s : Side) : setSide p s (p.get s) = p := by cases s <;> rfl

/-- A call of RunPack. -/
theorem pack_ok {t : Task} (h : TaskOk t) (a55 : Bool) {s : Side} {lo hi : Nat}
    (hb : Simd.Flow.Block 4 (t.packed.get s).layout.cols lo hi) {m0 m : Mach} (hsrc : m.src = m0.src) :
    (∃ r, RunPack t a55 s lo hi m r) ∧ ∀ r, RunPack t a55 s lo hi m r → ∃ m', r = .ok m' ∧
      PackFrame t s lo hi m m' ∧ ∀ c, lo ≤ c → c < hi → c < (t.src.get s).layout.cols → ColOk t m0 m' s c := by
  have hs := h.side s
  obtain ⟨l1, l2, l3, l4, l5, l6⟩ := hs.facts
  obtain ⟨b1, b2, b3, b4⟩ := hb
  have hdep : (t.src.get s).layout.rows = depth t := by
    cases s
    · rfl
    · exact h.depth
  have hsz : (t.packed.get s).layout.stride * hi ≤ (t.packed.get s).layout.stride * (t.packed.get s).layout.cols :=
    Nat.mul_le_mul_left _ b4
  have h4 := hs.int
  have h5 := hs.size
  have h6 := hs.sums
  have h7 := hs.depth
  have hr := hs.rows
  have hrange := hs.range
  have hzp := hs.zp
  have key : ∀ (x : Memory) (w : Nat → Nat → Int),
      (∀ c, lo ≤ c → c < hi → ∀ k, k < (t.packed.get s).layout.rows → (x .packed (pplace (t.packed.get s) k c)).toInt = w k c) →
      (∀ c, lo ≤ c → c < hi → ∀ b, b < 4 → x .sums (4 * c + b) =
        byteOf (∑ k ∈ Finset.range (t.packed.get s).layout.rows, w k c) b) →
      (∀ o, (∀ c, lo ≤ c → c < hi → ∀ k, k < (t.packed.get s).layout.rows → o ≠ pplace (t.packed.get s) k c) →
        x .packed o = m.packed.get s o) →
      (∀ o, o < 4 * lo ∨ 4 * hi ≤ o → x .sums o = m.sums.get s o) → x .src = m.src.get s →
      (∀ k c, c < (t.src.get s).layout.cols → w k c = small t m0 s k c) →
      PackFrame t s lo hi m (putSide m s x) ∧
        ∀ c, lo ≤ c → c < hi → c < (t.src.get s).layout.cols → ColOk t m0 (putSide m s x) s c := by
    intro x w k1 k2 k3 k4 k5 k6
    refine ⟨⟨?_, rfl, rfl, rfl, rfl, fun s' hs' => ?_, fun o ho => ?_, fun o ho => ?_⟩, fun c c1 c2 c3 => ⟨fun k hk => ?_, fun b hb => ?_⟩⟩
    · show setSide m.src s (x .src) = _
      rw [k5, set_same]
    · exact ⟨by show (setSide _ _ _).get _ = _; rw [setSide_get, if_neg hs'],
        by show (setSide _ _ _).get _ = _; rw [setSide_get, if_neg hs']⟩
    · show (setSide m.packed s (x .packed)).get s o = _
      rw [setSide_get, if_pos rfl, k3 o ho]
    · show (setSide m.sums s (x .sums)).get s o = _
      rw [setSide_get, if_pos rfl, k4 o ho]
    · show ((setSide m.packed s (x .packed)).get s _).toInt = _
      rw [setSide_get, if_pos rfl, k1 c c1 c2 k hk, k6 k c c3]
    · show (setSide m.sums s (x .sums)).get s _ = _
      rw [setSide_get, if_pos rfl, k2 c c1 c2 b hb, Finset.sum_congr rfl (fun k _ => k6 k c c3)]
  unfold RunPack
  cases ho : (t.src.get s).layout.order with
  | colMajor =>
    simp only [if_true]
    have hf : (packCall t a55 s).Fits lo hi := {
      order := by omega
      aligned := ⟨b1, b2⟩
      rows := by show (t.src.get s).layout.rows < _; omega
      zp := hrange
      stride := by show 16 * (((t.src.get s).layout.rows + 15) / 16) ≤ (t.packed.get s).layout.stride; omega
      src := fun c hc k hk => by
        have := hs.source k c hk hc
        unfold at' at this
        rw [ho] at this
        exact this
      packed := by show (t.packed.get s).layout.stride * hi ≤ (t.packed.get s).size; omega
      sums := fun _ => by show 4 * hi ≤ (t.packed.get s).sumsSize; omega
      offsets := fun c hc => ⟨hs.columns ho c (by omega), by
        show (t.packed.get s).layout.stride * c < 2 ^ 31
        have : (t.packed.get s).layout.stride * c ≤ (t.packed.get s).layout.stride * hi := Nat.mul_le_mul_left _ (by omega)
        omega⟩ }
    obtain ⟨⟨x, hx⟩, hall⟩ := PackCall.c55_pack (m := sideMem m s) hf
    refine ⟨⟨_, x, hx, rfl⟩, ?_⟩
    rintro r ⟨y, hy, rfl⟩
    obtain ⟨m', rfl, hp⟩ := hall y hy
    have pr : (packCall t a55 s).packedRows = (t.packed.get s).layout.rows := l2.symm
    refine ⟨_, rfl, key m' ((packCall t a55 s).wanted (sideMem m s)) (fun c c1 c2 k hk => hp.entry c c1 c2 k (by rw [pr]; exact hk))
      (fun c c1 c2 b hb => ?_) (fun o ho => hp.restPacked o (fun c c1 c2 k hk => ho c c1 c2 k (by rw [← pr]; exact hk)))
      (fun o ho => hp.restSums o (fun _ => ho)) (hp.rest .src (by decide) (by decide) (by decide)) (fun k c hc => ?_)⟩
    · rw [hp.sum rfl c c1 c2 b hb, RowCall.byteOf_wrap32 _ hb, pr]
    · unfold PackCall.wanted small
      have e : (packCall t a55 s).element (sideMem m s) k c = elem t m0 s k c := by
        unfold PackCall.element elem at'
        rw [ho, ← hsrc]
        rfl
      rw [e]
      show (if k < (t.src.get s).layout.rows ∧ c < (t.src.get s).layout.cols then elem t m0 s k c else (t.src.get s).zp) -
        (if (t.src.get s).unsigned then 128 else 0) = _
      rw [hdep]
      by_cases hk : k < depth t
      · rw [if_pos ⟨hk, hc⟩, if_pos hk]
      · rw [if_neg (fun h => hk h.1), if_neg hk]
  | rowMajor =>
    simp only [reduceCtorEq, if_false]
    have hf : (rowCall t s).Fits lo hi := {
      order := by omega
      aligned := ⟨b1, b2⟩
      depth := ⟨by show (t.packed.get s).layout.rows % 16 = 0; omega, h7⟩
      zp := l6
      stride := by show (t.packed.get s).layout.rows ≤ (t.packed.get s).layout.stride; omega
      src := fun k hk c hc => by
        have := hs.source k c hk hc
        unfold at' at this
        rw [ho] at this
        exact this
      packed := by show (t.packed.get s).layout.stride * hi ≤ (t.packed.get s).size; omega
      sums := ⟨rfl, by show 4 * hi ≤ (t.packed.get s).sumsSize; omega⟩
      offsets := ⟨fun k hk => hs.lines ho k hk, by show (t.packed.get s).layout.stride * hi < 2 ^ 31; omega⟩ }
    obtain ⟨m', e, hp⟩ := RowCall.c56_pack (m := sideMem m s) hf
    refine ⟨⟨_, rfl⟩, ?_⟩
    rintro r rfl
    rw [e]
    refine ⟨_, rfl, key m' ((rowCall t s).wanted (sideMem m s)) (fun c c1 c2 k hk => hp.entry c c1 c2 k hk)
      (fun c c1 c2 b hb => hp.sum c c1 c2 b hb) (fun o ho => hp.restPacked o ho)
      (fun o ho => hp.restSums o ho) (hp.rest .src (by decide) (by decide)) (fun k c hc => ?_)⟩
    unfold RowCall.wanted small
    have e : (rowCall t s).element (sideMem m s) k c = elem t m0 s k c := by
      unfold RowCall.element elem at'
      rw [ho, ← hsrc]
      rfl
    rw [e, if_pos (show c < (rowCall t s).cols from hc)]
    show (if k < (t.src.get s).layout.rows then elem t m0 s k c - (if (t.src.get s).unsigned then 128 else 0) else (t.packed.get s).zp) = _
    rw [hdep, hzp]
    by_cases hk : k < depth t
    · rw [if_pos hk, if_pos hk]
    · rw [if_neg hk, if_neg hk]

/-- A column that was packed before stays packed. -/
theorem ColOk.frame {t : Task} (h : TaskOk t) {s s' : Side} {lo hi c : Nat}
    (hb : Simd.Flow.Block 4 (t.packed.get s).layout.cols lo hi) {m0 m m' : Mach} (hf : PackFrame t s lo hi m m')
    (hc : ColOk t m0 m s' c) (hn : s' = s → ¬(lo ≤ c ∧ c < hi)) : ColOk t m0 m' s' c := by
  obtain ⟨b1, b2, b3, b4⟩ := hb
  by_cases hs : s' = s
  · subst hs
    have hn := hn rfl
    refine ⟨fun k hk => ?_, fun b hb => ?_⟩
    · rw [hf.packed _ (fun c' c1 c2 k' hk' => pplace_ne (h.side s') hk hk' (by omega))]
      exact hc.entry k hk
    · rw [hf.sums _ (by omega)]
      exact hc.sum b hb
  · obtain ⟨e1, e2⟩ := hf.other s' hs
    exact ⟨fun k hk => by rw [e1]; exact hc.entry k hk, fun b hb => by rw [e2]; exact hc.sum b hb⟩

end Ruy.Neon.Flow

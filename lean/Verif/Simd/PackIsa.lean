import Verif.Simd.Pack
import Verif.Front.Values
import Mathlib.Tactic.IntervalCases
/-
What the instruction-set specific parts of the x86 packers compute.
-/
namespace Ruy.Simd.Pack
open Ruy.Mat Ruy.Mul

/-- 32-bit numbers modulo 2^32. -/
abbrev Z32 := ZMod (2 ^ 32)

theorem wrap32_z (x : Int) : ((wrap32 x : Int) : Z32) = (x : Z32) := by
  rw [ZMod.intCast_eq_intCast_iff]
  show wrap32 x % ((2 ^ 32 : Nat) : Int) = x % ((2 ^ 32 : Nat) : Int)
  unfold wrap32
  norm_num

theorem wrap32_range (x : Int) : Front.InI32 (wrap32 x) := by
  unfold Front.InI32 wrap32; omega

theorem add32_z (x y : Int) : ((add32 x y : Int) : Z32) = (x : Z32) + (y : Z32) := by
  unfold add32; rw [wrap32_z]; push_cast; rfl

theorem wrap16_of {x : Int} (h1 : -32768 ≤ x) (h2 : x ≤ 32767) : wrap16 x = x := by
  unfold wrap16; omega
theorem wrap8_range (x : Int) : -128 ≤ wrap8 x ∧ wrap8 x ≤ 127 := by unfold wrap8; omega
theorem wrap8_of {x : Int} (h1 : -128 ≤ x) (h2 : x ≤ 127) : wrap8 x = x := by
  unfold wrap8; omega

/-- What the packers need from an instruction set. -/
structure IsaOk (isa : Isa) where
  blocks : ∀ x t j i, j < 8 → i < 32 → isa.blocks x t j i = xor8 (t (i / 4) (4 * j + i % 4)) x
  range : ∀ x t j i, -128 ≤ isa.blocks x t j i ∧ isa.blocks x t j i ≤ 127
  mload : ∀ src zp avail addr, avail < 32 → isa.mload src zp avail addr =
    if addr + avail ≤ src.size then
      .ok (fun i => if i < avail then wrap8 (src.val (addr + i)) else zp) else .error .ub
  /-- the sum of column `c` in the accumulators -/
  total : isa.Acc → Nat → Z32
  zero : ∀ c, c < 8 → total isa.zero c = 0
  acc : ∀ s b c, c < 8 → (∀ j i, -128 ≤ b j i ∧ b j i ≤ 127) →
    total (isa.acc s b) c = total s c +
      ∑ j ∈ Finset.range 8, ∑ r ∈ Finset.range 4, ((b j (4 * c + r) : Int) : Z32)
  final : ∀ s adj sums c, c < 8 → Front.InI32 (isa.final s adj sums c) ∧
    ((isa.final s adj sums c : Int) : Z32) = (sums c : Z32) + (adj : Z32) + total s c

/-! ### Transposition -/

theorem avx2_transpose (t : Nat → Reg) (j i : Nat) (hj : j < 8) (hi : i < 32) :
    Avx2.transpose t j i = t (i / 4) (4 * j + i % 4) := by
  interval_cases j <;> interval_cases i <;> rfl

theorem avx512_transpose (t : Nat → Reg) (j i : Nat) (hj : j < 8) (hi : i < 32) :
    Avx512.transpose t j i = t (i / 4) (4 * j + i % 4) := by
  interval_cases j <;> interval_cases i <;> rfl

theorem avx_transpose (t : Nat → Reg) (j i : Nat) (hj : j < 8) (hi : i < 32) :
    Avx.transpose t j i = t (i / 4) (4 * j + i % 4) := by
  interval_cases j <;> interval_cases i <;> rfl

/-! ### Masked loads -/

theorem maskLoad512_eq (src : Buf Int) (zp : Int) (avail addr : Nat) :
    maskLoad512 src zp avail addr = if addr + avail ≤ src.size then
      .ok (fun i => if i < avail then wrap8 (src.val (addr + i)) else zp) else .error .ub := by
  unfold maskLoad512 loadu
  split <;> rfl

theorem maskLoadu_eq (src : Buf Int) (zp : Int) (avail addr : Nat) (h : avail < 32) :
    maskLoadu src zp avail addr = if addr + avail ≤ src.size then
      .ok (fun i => if i < avail then wrap8 (src.val (addr + i)) else zp) else .error .ub := by
  unfold maskLoadu loadu
  rw [C.check_of h, C.ok_bind]
  by_cases h16 : 16 ≤ avail
  · rw [if_pos h16]
    by_cases hs : addr + avail ≤ src.size
    · rw [if_pos (by omega), C.ok_bind, if_pos (by omega), C.ok_bind, if_pos hs]
      congr 1
      funext i
      unfold join
      by_cases hi : i < 16
      · rw [if_pos hi, if_pos (by omega)]
      · rw [if_neg hi]
        dsimp only
        by_cases hi2 : i < avail
        · rw [if_pos (by omega), if_pos hi2]
          congr 2; omega
        · rw [if_neg (by omega), if_neg hi2]
    · rw [if_neg hs]
      by_cases h1 : addr + 16 ≤ src.size
      · rw [if_pos h1, C.ok_bind, if_neg (by omega)]; rfl
      · rw [if_neg h1]; rfl
  · rw [if_neg h16]
    by_cases hs : addr + avail ≤ src.size
    · rw [if_pos hs, C.ok_bind, if_pos hs]
      congr 1
      funext i
      unfold join
      by_cases hi : i < 16
      · rw [if_pos hi]
      · rw [if_neg hi, if_neg (by omega)]; rfl
    · rw [if_neg hs, if_neg hs]; rfl

/-! ### Sums -/

theorem add16_of {a b : Int} (h1 : -32768 ≤ a + b) (h2 : a + b ≤ 32767) : add16 a b = a + b :=
  wrap16_of h1 h2

/-- Eight bytes added in 16 bits. -/
theorem add16_chain {f : Nat → Int} (h : ∀ j, -128 ≤ f j ∧ f j ≤ 127) (a b c d e g k l : Nat) :
    add16 (add16 (add16 (add16 (add16 (add16 (add16 (f a) (f b)) (f c)) (f d)) (f e)) (f g)) (f k))
      (f l) = f a + f b + f c + f d + f e + f g + f k + f l := by
  have ha := h a; have hb := h b; have hc := h c; have hd := h d
  have he := h e; have hg := h g; have hk := h k; have hl := h l
  rw [add16_of (a := f a) (b := f b) (by omega) (by omega),
    add16_of (a := f a + f b) (by omega) (by omega),
    add16_of (a := f a + f b + f c) (by omega) (by omega),
    add16_of (a := f a + f b + f c + f d) (by omega) (by omega),
    add16_of (a := f a + f b + f c + f d + f e) (by omega) (by omega),
    add16_of (a := f a + f b + f c + f d + f e + f g) (by omega) (by omega),
    add16_of (a := f a + f b + f c + f d + f e + f g + f k) (by omega) (by omega)]

theorem sum8 {M : Type} [AddCommMonoid M] (f : Nat → M) : ∑ j ∈ Finset.range 8, f j =
    f 0 + f 1 + f 2 + f 3 + f 4 + f 5 + f 6 + f 7 := by
  simp only [Finset.sum_range_succ, Finset.sum_range_zero, zero_add]

theorem sum4 {M : Type} [AddCommMonoid M] (f : Nat → M) : ∑ j ∈ Finset.range 4, f j =
    f 0 + f 1 + f 2 + f 3 := by
  simp only [Finset.sum_range_succ, Finset.sum_range_zero, zero_add]

theorem avx2_sum16 {b : Nat → Reg} (hb : ∀ j i, -128 ≤ b j i ∧ b j i ≤ 127) (h i : Nat) :
    Avx2.sum16 b h i = ∑ j ∈ Finset.range 8, b j (16 * h + i) := by
  rw [sum8]
  refine (add16_chain (f := fun j => b j (16 * h + i)) (fun j => hb j _) 0 4 1 5 2 6 3 7).trans ?_
  ring

theorem avx512_sum16 {b : Nat → Reg} (hb : ∀ j i, -128 ≤ b j i ∧ b j i ≤ 127) (i : Nat) :
    Avx512.sum16 b i = ∑ j ∈ Finset.range 8, b j i := by
  rw [sum8]
  refine (add16_chain (f := fun j => b j i) (fun j => hb j _) 0 2 4 6 1 3 5 7).trans ?_
  ring

theorem madd_ones_z (a : Reg) (i : Nat) :
    ((madd16 a (set1 1) i : Int) : Z32) = (a (2 * i) : Z32) + (a (2 * i + 1) : Z32) := by
  unfold madd16 set1
  rw [wrap32_z]; push_cast; ring

/-- The sum of column `c` held in the AVX2 accumulators. -/
def total2 (s : Reg × Reg) (c : Nat) : Z32 :=
  if c < 4 then (s.1 (2 * c) : Z32) + (s.1 (2 * c + 1) : Z32)
  else (s.2 (2 * (c - 4)) : Z32) + (s.2 (2 * (c - 4) + 1) : Z32)

theorem regroup (b : Nat → Reg) (x : Nat) :
    (∑ j ∈ Finset.range 8, ∑ r ∈ Finset.range 4, ((b j (x + r) : Int) : Z32)) =
      ((∑ j ∈ Finset.range 8, b j x : Int) : Z32) + ((∑ j ∈ Finset.range 8, b j (x + 1) : Int) : Z32)
      + (((∑ j ∈ Finset.range 8, b j (x + 2) : Int) : Z32) +
        ((∑ j ∈ Finset.range 8, b j (x + 3) : Int) : Z32)) := by
  simp only [sum4, Finset.sum_add_distrib]
  push_cast
  simp only [Nat.add_zero]
  ring

theorem acc_lane {s : Reg} {a : Reg} (i : Nat) :
    ((map2 add32 s (madd16 a (set1 1)) i : Int) : Z32) =
      (s i : Z32) + ((a (2 * i) : Z32) + (a (2 * i + 1) : Z32)) := by
  show ((add32 (s i) (madd16 a (set1 1) i) : Int) : Z32) = _
  rw [add32_z, madd_ones_z]

theorem total2_acc (s : Reg × Reg) (b : Nat → Reg) (c : Nat)
    (hb : ∀ j i, -128 ≤ b j i ∧ b j i ≤ 127) :
    total2 (Avx2.acc s b) c = total2 s c +
      ∑ j ∈ Finset.range 8, ∑ r ∈ Finset.range 4, ((b j (4 * c + r) : Int) : Z32) := by
  unfold total2 Avx2.acc
  rw [regroup]
  by_cases h : c < 4
  · simp only [if_pos h, acc_lane, avx2_sum16 hb]
    rw [show 16 * 0 + 2 * (2 * c) = 4 * c by omega,
      show 16 * 0 + (2 * (2 * c) + 1) = 4 * c + 1 by omega,
      show 16 * 0 + 2 * (2 * c + 1) = 4 * c + 2 by omega,
      show 16 * 0 + (2 * (2 * c + 1) + 1) = 4 * c + 3 by omega]
    ring
  · simp only [if_neg h, acc_lane, avx2_sum16 hb]
    rw [show 16 * 1 + 2 * (2 * (c - 4)) = 4 * c by omega,
      show 16 * 1 + (2 * (2 * (c - 4)) + 1) = 4 * c + 1 by omega,
      show 16 * 1 + 2 * (2 * (c - 4) + 1) = 4 * c + 2 by omega,
      show 16 * 1 + (2 * (2 * (c - 4) + 1) + 1) = 4 * c + 3 by omega]
    ring

theorem avx2_final (s : Reg × Reg) (adj : Int) (sums : Reg) (c : Nat) (hc : c < 8) :
    Front.InI32 (Avx2.final s adj sums c) ∧
    ((Avx2.final s adj sums c : Int) : Z32) = (sums c : Z32) + (adj : Z32) + total2 s c := by
  have e : ∃ x y : Int, Avx2.final s adj sums c = add32 (add32 (add32 (sums c) adj) x) y ∧
      (x : Z32) + (y : Z32) = total2 s c := by
    interval_cases c <;> exact ⟨_, _, rfl, rfl⟩
  obtain ⟨x, y, e1, e2⟩ := e
  rw [e1, ← e2]
  refine ⟨wrap32_range _, ?_⟩
  rw [add32_z, add32_z, add32_z]; ring

/-- AVX2. -/
def avx2Ok : IsaOk Avx2.isa where
  blocks x t j i hj hi := by
    show xor8 (Avx2.transpose t j i) x = _
    rw [avx2_transpose t j i hj hi]
  range x t j i := wrap8_range _
  mload src zp avail addr h := maskLoadu_eq src zp avail addr h
  total := total2
  zero c hc := by
    show total2 (set1 0, set1 0) c = 0
    unfold total2 set1; simp
  acc s b c _ hb := total2_acc s b c hb
  final := avx2_final

/-! ### AVX: the 128-bit halves make up the 256-bit operations -/

theorem halves_map2 (n : Nat) (f : Int → Int → Int) (a b : Reg) :
    Avx.halves n n (map2 f) a b = map2 f a b := by
  funext i
  unfold Avx.halves join map2 ext
  by_cases h : i < n
  · rw [if_pos h]; simp
  · rw [if_neg h]
    rw [show n * 1 + (i - n) = i by omega]

theorem halves_madd (a b : Reg) : Avx.halves 8 4 madd16 a b = madd16 a b := by
  funext i
  unfold Avx.halves join madd16 ext
  by_cases h : i < 4
  · rw [if_pos h]; simp
  · rw [if_neg h]
    rw [show 8 * 1 + 2 * (i - 4) = 2 * i by omega, show 8 * 1 + (2 * (i - 4) + 1) = 2 * i + 1 by omega]

theorem avx_cvt (a : Reg) (i : Nat) (hi : i < 16) : Avx.cvt8to16 a i = a i := by
  interval_cases i <;> rfl

theorem avx_sum16 {b : Nat → Reg} (hb : ∀ j i, -128 ≤ b j i ∧ b j i ≤ 127) (h i : Nat)
    (hi : i < 16) : Avx.sum16 b h i = ∑ j ∈ Finset.range 8, b j (16 * h + i) := by
  have e : Avx.sum16 b h i = Avx2.sum16 b h i := by
    unfold Avx.sum16 Avx2.sum16
    simp only [halves_map2]
    simp only [map2, avx_cvt _ i hi]
  rw [e, avx2_sum16 hb]

theorem total2_avx_acc (s : Reg × Reg) (b : Nat → Reg) (c : Nat) (hc : c < 8)
    (hb : ∀ j i, -128 ≤ b j i ∧ b j i ≤ 127) :
    total2 (Avx.acc s b) c = total2 s c +
      ∑ j ∈ Finset.range 8, ∑ r ∈ Finset.range 4, ((b j (4 * c + r) : Int) : Z32) := by
  rw [← total2_acc s b c hb]
  have hm : ∀ h i, i < 8 → madd16 (Avx.sum16 b h) (set1 1) i = madd16 (Avx2.sum16 b h) (set1 1) i := by
    intro h i hi
    unfold madd16
    rw [avx_sum16 hb h _ (by omega), avx_sum16 hb h _ (by omega), avx2_sum16 hb, avx2_sum16 hb]
  unfold total2 Avx.acc Avx2.acc
  simp only [halves_map2, halves_madd]
  by_cases h : c < 4
  · simp only [if_pos h, map2]
    rw [hm 0 _ (by omega), hm 0 _ (by omega)]
  · simp only [if_neg h, map2]
    rw [hm 1 _ (by omega), hm 1 _ (by omega)]

theorem avx_final (s : Reg × Reg) (adj : Int) (sums : Reg) (c : Nat) (hc : c < 8) :
    Front.InI32 (Avx.final s adj sums c) ∧
    ((Avx.final s adj sums c : Int) : Z32) = (sums c : Z32) + (adj : Z32) + total2 s c := by
  have e : ∃ x y : Int, Avx.final s adj sums c = add32 (add32 (add32 (sums c) adj) x) y ∧
      (x : Z32) + (y : Z32) = total2 s c := by
    unfold Avx.final
    simp only [halves_map2]
    interval_cases c <;> exact ⟨_, _, rfl, rfl⟩
  obtain ⟨x, y, e1, e2⟩ := e
  rw [e1, ← e2]
  refine ⟨wrap32_range _, ?_⟩
  rw [add32_z, add32_z, add32_z]; ring

/-- AVX. -/
def avxOk : IsaOk Avx.isa where
  blocks x t j i hj hi := by
    show Avx.halves 16 16 (map2 xor8) (Avx.transpose t j) (set1 x) i = _
    rw [halves_map2]
    show xor8 (Avx.transpose t j i) x = _
    rw [avx_transpose t j i hj hi]
  range x t j i := by
    show -128 ≤ Avx.halves 16 16 (map2 xor8) (Avx.transpose t j) (set1 x) i ∧
      Avx.halves 16 16 (map2 xor8) (Avx.transpose t j) (set1 x) i ≤ 127
    rw [halves_map2]
    exact wrap8_range _
  mload src zp avail addr h := maskLoadu_eq src zp avail addr h
  total := total2
  zero c hc := by
    show total2 (set1 0, set1 0) c = 0
    unfold total2 set1; simp
  acc s b c hc hb := total2_avx_acc s b c hc hb
  final := avx_final

/-! ### AVX-512 -/

/-- The sum of column `c` held in the AVX-512 accumulator. -/
def total5 (s : Reg) (c : Nat) : Z32 := (s (2 * c) : Z32) + (s (2 * c + 1) : Z32)

theorem avx512_final (s : Reg) (adj : Int) (sums : Reg) (c : Nat) (hc : c < 8) :
    Front.InI32 (Avx512.final s adj sums c) ∧
    ((Avx512.final s adj sums c : Int) : Z32) = (sums c : Z32) + (adj : Z32) + total5 s c := by
  have e : ∃ x y : Int, Avx512.final s adj sums c = add32 (add32 (add32 (sums c) adj) x) y ∧
      (x : Z32) + (y : Z32) = total5 s c := by
    interval_cases c <;> exact ⟨_, _, rfl, rfl⟩
  obtain ⟨x, y, e1, e2⟩ := e
  rw [e1, ← e2]
  refine ⟨wrap32_range _, ?_⟩
  rw [add32_z, add32_z, add32_z]; ring

theorem total5_acc (s : Reg) (b : Nat → Reg) (c : Nat)
    (hb : ∀ j i, -128 ≤ b j i ∧ b j i ≤ 127) :
    total5 (Avx512.acc s b) c = total5 s c +
      ∑ j ∈ Finset.range 8, ∑ r ∈ Finset.range 4, ((b j (4 * c + r) : Int) : Z32) := by
  unfold total5 Avx512.acc
  rw [regroup]
  simp only [acc_lane, avx512_sum16 hb]
  rw [show 2 * (2 * c) = 4 * c by omega, show 2 * (2 * c + 1) = 4 * c + 2 by omega]
  ring

/-- AVX-512. -/
def avx512Ok : IsaOk Avx512.isa where
  blocks x t j i hj hi := by
    show xor8 (Avx512.transpose t j i) x = _
    rw [avx512_transpose t j i hj hi]
  range x t j i := wrap8_range _
  mload src zp avail addr _ := maskLoad512_eq src zp avail addr
  total := total5
  zero c hc := by
    show total5 (set1 0) c = 0
    unfold total5 set1; simp
  acc s b c _ hb := total5_acc s b c hb
  final := avx512_final

end Ruy.Simd.Pack

import Verif.BlockMap.Model
/-
Helper lemmas for C08: each decoder is a bijection from [0, 4^n) to [0, 2^n)^2.
-/
namespace Ruy.BlockMap

/-- `D` restricted to `[0, 4^n)` is a bijection onto `[0,2^n) × [0,2^n)`. -/
structure CurveBij (n : Nat) (D : Nat → Nat × Nat) : Prop where
  range : ∀ t, t < 4 ^ n → (D t).1 < 2 ^ n ∧ (D t).2 < 2 ^ n
  inj : ∀ t u, t < 4 ^ n → u < 4 ^ n → D t = D u → t = u
  surj : ∀ x y, x < 2 ^ n → y < 2 ^ n → ∃ t, t < 4 ^ n ∧ D t = (x, y)

theorem four_pow (n : Nat) : 4 ^ n = 2 ^ n * 2 ^ n := by
  rw [show (4 : Nat) = 2 * 2 from rfl, Nat.mul_pow]

/-! #### Linear -/

theorem linear_bij (n : Nat) : CurveBij n (fun t => (t % 2 ^ n, t / 2 ^ n)) := by
  have hp := Nat.two_pow_pos n
  refine ⟨?_, ?_, ?_⟩
  · intro t ht
    rw [four_pow] at ht
    exact ⟨Nat.mod_lt _ hp, Nat.div_lt_of_lt_mul ht⟩
  · intro t u _ _ h
    simp only [Prod.mk.injEq] at h
    have h1 := Nat.div_add_mod t (2 ^ n)
    have h2 := Nat.div_add_mod u (2 ^ n)
    rw [h.1, h.2] at h1
    omega
  · intro x y hx hy
    refine ⟨2 ^ n * y + x, ?_, ?_⟩
    · rw [four_pow]
      calc 2 ^ n * y + x < 2 ^ n * y + 2 ^ n := by omega
        _ = 2 ^ n * (y + 1) := by rw [Nat.mul_add, Nat.mul_one]
        _ ≤ 2 ^ n * 2 ^ n := Nat.mul_le_mul_left _ hy
    · simp only [Prod.mk.injEq]
      refine ⟨?_, ?_⟩
      · rw [Nat.mul_add_mod]; exact Nat.mod_eq_of_lt hx
      · rw [Nat.mul_add_div hp, Nat.div_eq_of_lt hx, Nat.add_zero]

/-! #### Z order -/

/-- One masked swap step of the bit shuffle. -/
def zStage (m1 m2 m3 : BitVec 32) (k : Nat) (a : BitVec 32) : BitVec 32 :=
  (a &&& m1) ||| ((a &&& m2) >>> k) ||| ((a &&& m3) <<< k)

theorem zStage_bit (m1 m2 m3 : BitVec 32) (k : Nat) (perm : Nat → Nat)
    (h : ∀ i, i < 32 →
      (m1.getLsbD i = true ∧ m2.getLsbD (k + i) = false ∧ (i < k ∨ m3.getLsbD (i - k) = false)
        ∧ perm i = i) ∨
      (m1.getLsbD i = false ∧ m2.getLsbD (k + i) = true ∧ (i < k ∨ m3.getLsbD (i - k) = false)
        ∧ perm i = k + i) ∨
      (m1.getLsbD i = false ∧ m2.getLsbD (k + i) = false ∧ ¬ i < k ∧ m3.getLsbD (i - k) = true
        ∧ perm i = i - k))
    (a : BitVec 32) (i : Nat) (hi : i < 32) :
    (zStage m1 m2 m3 k a).getLsbD i = a.getLsbD (perm i) := by
  simp only [zStage, BitVec.getLsbD_or, BitVec.getLsbD_and, BitVec.getLsbD_shiftLeft,
    BitVec.getLsbD_ushiftRight]
  rcases h i hi with ⟨h1, h2, h3, h4⟩ | ⟨h1, h2, h3, h4⟩ | ⟨h1, h2, h3, h4, h5⟩
  · rcases h3 with h3 | h3 <;> simp [h1, h2, h3, h4]
  · rcases h3 with h3 | h3 <;> simp [h1, h2, h3, h4]
  · rw [h1, h2, h4, h5]; simp only [hi, h3]; simp

/-- Bit source of a swap step: bits of the 2nd quarter and 3rd quarter of each
group of `4*k` bits are exchanged. -/
def zPerm (k i : Nat) : Nat :=
  if i / k % 4 = 1 then i + k else if i / k % 4 = 2 then i - k else i

theorem zShuffle_bits (a : BitVec 32) :
    (∀ i, i < 16 → (zShuffle a).getLsbD i = a.getLsbD (2 * i)) ∧
    (∀ i, i < 16 → (zShuffle a).getLsbD (16 + i) = a.getLsbD (2 * i + 1)) := by
  have key : ∀ i, i < 32 → (zShuffle a).getLsbD i =
      a.getLsbD (zPerm 1 (zPerm 2 (zPerm 4 (zPerm 8 i)))) := by
    intro i hi
    have e : zShuffle a = zStage 0xff0000ff#32 0x00ff0000#32 0x0000ff00#32 8
        (zStage 0xf00ff00f#32 0x0f000f00#32 0x00f000f0#32 4
          (zStage 0xc3c3c3c3#32 0x30303030#32 0x0c0c0c0c#32 2
            (zStage 0x99999999#32 0x44444444#32 0x22222222#32 1 a))) := rfl
    have r : ∀ i, i < 32 → zPerm 8 i < 32 ∧ zPerm 4 i < 32 ∧ zPerm 2 i < 32 := by decide
    rw [e, zStage_bit _ _ _ 8 (zPerm 8) (by decide) _ i hi,
      zStage_bit _ _ _ 4 (zPerm 4) (by decide) _ _ (r _ hi).1,
      zStage_bit _ _ _ 2 (zPerm 2) (by decide) _ _ (r _ (r _ hi).1).2.1,
      zStage_bit _ _ _ 1 (zPerm 1) (by decide) _ _ (r _ (r _ (r _ hi).1).2.1).2.2]
  have p : ∀ i, i < 16 → zPerm 1 (zPerm 2 (zPerm 4 (zPerm 8 i))) = 2 * i ∧
      zPerm 1 (zPerm 2 (zPerm 4 (zPerm 8 (16 + i)))) = 2 * i + 1 := by decide
  exact ⟨fun i hi => by rw [key i (by omega), (p i hi).1],
    fun i hi => by rw [key (16 + i) (by omega), (p i hi).2]⟩

/-- Interleave `n` bits of `x` (even positions) and `y` (odd positions). -/
def inter : Nat → Nat → Nat → Nat
  | 0, _, _ => 0
  | n + 1, x, y => x % 2 + 2 * (y % 2) + 4 * inter n (x / 2) (y / 2)

theorem inter_lt (n x y : Nat) : inter n x y < 4 ^ n := by
  induction n generalizing x y with
  | zero => simp [inter]
  | succ n ih =>
    have := ih (x / 2) (y / 2)
    simp only [inter, Nat.pow_succ]; omega

theorem testBit_zero' (n : Nat) : n.testBit 0 = decide (n % 2 = 1) := by
  rw [Nat.testBit_zero]

theorem inter_testBit (n x y i : Nat) (hi : i < n) :
    (inter n x y).testBit (2 * i) = x.testBit i ∧
    (inter n x y).testBit (2 * i + 1) = y.testBit i := by
  induction n generalizing x y i with
  | zero => omega
  | succ n ih =>
    have hd1 : inter (n + 1) x y / 2 = y % 2 + 2 * inter n (x / 2) (y / 2) := by
      simp only [inter]; omega
    have hd2 : inter (n + 1) x y / 2 / 2 = inter n (x / 2) (y / 2) := by rw [hd1]; omega
    rcases i with _ | i
    · constructor
      · simp only [Nat.mul_zero, Nat.testBit_zero]
        congr 1
        simp only [inter]
        apply propext
        constructor <;> intro h <;> omega
      · simp only [Nat.mul_zero, Nat.zero_add]
        rw [Nat.testBit_succ, hd1]
        simp only [Nat.testBit_zero]
        congr 1; apply propext; constructor <;> intro h <;> omega
    · have := ih (x / 2) (y / 2) i (by omega)
      constructor
      · rw [show 2 * (i + 1) = 2 * i + 1 + 1 by omega, Nat.testBit_succ, Nat.testBit_succ, hd2,
          Nat.testBit_succ x]
        exact this.1
      · rw [show 2 * (i + 1) + 1 = (2 * i + 1) + 1 + 1 by omega, Nat.testBit_succ,
          Nat.testBit_succ, hd2, Nat.testBit_succ y]
        exact this.2

/-- Nat-level view of `decodeZ`. -/
def zPair (t : Nat) : Nat × Nat :=
  ((decodeZ (BitVec.ofNat 32 t)).lhs, (decodeZ (BitVec.ofNat 32 t)).rhs)

theorem zPair_testBit (t i : Nat) (ht : t < 2 ^ 32) :
    (zPair t).1.testBit i = (decide (i < 16) && t.testBit (2 * i)) ∧
    (zPair t).2.testBit i = (decide (i < 16) && t.testBit (2 * i + 1)) := by
  have hb : ∀ j, (BitVec.ofNat 32 t).getLsbD j = t.testBit j := by
    intro j
    rw [BitVec.getLsbD, BitVec.toNat_ofNat, Nat.mod_eq_of_lt ht]
  obtain ⟨h1, h2⟩ := zShuffle_bits (BitVec.ofNat 32 t)
  constructor
  · simp only [zPair, decodeZ]
    have : (zShuffle (BitVec.ofNat 32 t) &&& 0xffff#32).toNat.testBit i =
        (zShuffle (BitVec.ofNat 32 t) &&& 0xffff#32).getLsbD i := rfl
    rw [this, BitVec.getLsbD_and]
    have hm : (0xffff#32).getLsbD i = decide (i < 16) := by
      show Nat.testBit 65535 i = _
      rw [show 65535 = 2 ^ 16 - 1 by rfl, Nat.testBit_two_pow_sub_one]
    rw [hm]
    by_cases hi : i < 16
    · simp [hi, h1 i hi, hb]
    · simp [hi]
  · simp only [zPair, decodeZ]
    have : (zShuffle (BitVec.ofNat 32 t) >>> 16).toNat.testBit i =
        (zShuffle (BitVec.ofNat 32 t) >>> 16).getLsbD i := rfl
    rw [this, BitVec.getLsbD_ushiftRight]
    by_cases hi : i < 16
    · simp [hi, h2 i hi, hb]
    · simp [hi, BitVec.getLsbD_of_ge (zShuffle (BitVec.ofNat 32 t)) (16 + i) (by omega)]

theorem lt_four_of {n t : Nat} (hn : n ≤ 16) (ht : t < 4 ^ n) : t < 2 ^ 32 := by
  have : (4 : Nat) ^ n ≤ 4 ^ 16 := Nat.pow_le_pow_right (by omega) hn
  have e : (4 : Nat) ^ 16 = 2 ^ 32 := by decide
  omega

theorem z_bij (n : Nat) (hn : n ≤ 16) : CurveBij n zPair := by
  have four_two : ∀ m, (4 : Nat) ^ m = 2 ^ (2 * m) := fun m => by
    rw [Nat.pow_mul]
  have hbig : ∀ t, t < 4 ^ n → ∀ j, 2 * n ≤ j → t.testBit j = false := by
    intro t ht j hj
    apply Nat.testBit_lt_two_pow
    rw [four_two] at ht
    exact Nat.lt_of_lt_of_le ht (Nat.pow_le_pow_right (by omega) hj)
  refine ⟨?_, ?_, ?_⟩
  · intro t ht
    have ht32 := lt_four_of hn ht
    constructor <;> apply Nat.lt_pow_two_of_testBit <;> intro i hi
    · rw [(zPair_testBit t i ht32).1, hbig t ht (2 * i) (by omega)]; simp
    · rw [(zPair_testBit t i ht32).2, hbig t ht (2 * i + 1) (by omega)]; simp
  · intro t u ht hu h
    have ht32 := lt_four_of hn ht
    have hu32 := lt_four_of hn hu
    apply Nat.eq_of_testBit_eq
    intro j
    by_cases hj : 2 * n ≤ j
    · rw [hbig t ht j hj, hbig u hu j hj]
    · have h1 := (zPair_testBit t (j / 2) ht32)
      have h2 := (zPair_testBit u (j / 2) hu32)
      rw [h] at h1
      have hj16 : j / 2 < 16 := by omega
      rcases Nat.mod_two_eq_zero_or_one j with he | ho
      · have e : 2 * (j / 2) = j := by omega
        have := h1.1.symm.trans h2.1
        simpa [hj16, e] using this
      · have e : 2 * (j / 2) + 1 = j := by omega
        have := h1.2.symm.trans h2.2
        simpa [hj16, e] using this
  · intro x y hx hy
    refine ⟨inter n x y, inter_lt n x y, ?_⟩
    have ht32 := lt_four_of hn (inter_lt n x y)
    have hb := fun i => zPair_testBit (inter n x y) i ht32
    have hlarge : ∀ z, z < 2 ^ n → ∀ i, n ≤ i → z.testBit i = false := fun z hz i hi =>
      Nat.testBit_lt_two_pow (Nat.lt_of_lt_of_le hz (Nat.pow_le_pow_right (by omega) hi))
    have h1 : (zPair (inter n x y)).1 = x := by
      apply Nat.eq_of_testBit_eq
      intro i
      rw [(hb i).1]
      by_cases hi : i < n
      · simp [show i < 16 by omega, (inter_testBit n x y i hi).1]
      · rw [hbig _ (inter_lt n x y) (2 * i) (by omega), hlarge x hx i (by omega)]; simp
    have h2 : (zPair (inter n x y)).2 = y := by
      apply Nat.eq_of_testBit_eq
      intro i
      rw [(hb i).2]
      by_cases hi : i < n
      · simp [show i < 16 by omega, (inter_testBit n x y i hi).2]
      · rw [hbig _ (inter_lt n x y) (2 * i + 1) (by omega), hlarge y hy i (by omega)]; simp
    exact Prod.ext h1 h2

/-! #### U order -/

theorem u_bij (n : Nat) (hn : n ≤ 16) : CurveBij n (fun t => ((zPair t).1 ^^^ (zPair t).2, (zPair t).2)) := by
  have hz := z_bij n hn
  refine ⟨?_, ?_, ?_⟩
  · intro t ht
    obtain ⟨h1, h2⟩ := hz.range t ht
    exact ⟨Nat.xor_lt_two_pow h1 h2, h2⟩
  · intro t u ht hu h
    simp only [Prod.mk.injEq] at h
    apply hz.inj t u ht hu
    apply Prod.ext
    · have := h.1
      rw [h.2] at this
      have e := congrArg (· ^^^ (zPair u).2) this
      simpa [Nat.xor_assoc] using e
    · exact h.2
  · intro x y hx hy
    obtain ⟨t, ht, h⟩ := hz.surj (x ^^^ y) y (Nat.xor_lt_two_pow hx hy) hy
    refine ⟨t, ht, ?_⟩
    rw [h]
    simp [Nat.xor_assoc]

/-! #### Hilbert order -/

/-- One step of the curve refinement on natural numbers: `q` is the pair of
index bits (block_map.cc:78-84), `s` the current size. -/
def hilStep (s q : Nat) (p : Nat × Nat) : Nat × Nat :=
  let (x, y) := p
  if q = 0 then (y, x)
  else if q = 1 then (x, y + s)
  else if q = 2 then (x + s, y + s)
  else (s - 1 - y + s, s - 1 - x)

/-- Hilbert position `(x, y)` of index `t` at size `2^n`, by recursion on `n`. -/
def hil : Nat → Nat → Nat × Nat
  | 0, _ => (0, 0)
  | n + 1, t => hilStep (2 ^ n) (t / 4 ^ n % 4) (hil n (t % 4 ^ n))

theorem hil_mod (n t : Nat) : hil n (t % 4 ^ n) = hil n t := by
  cases n with
  | zero => rfl
  | succ n =>
    simp only [hil]
    have h1 : t % 4 ^ (n + 1) % 4 ^ n = t % 4 ^ n := by
      apply Nat.mod_mod_of_dvd; exact ⟨4, by rw [Nat.pow_succ]⟩
    have h2 : t % 4 ^ (n + 1) / 4 ^ n % 4 = t / 4 ^ n % 4 := by
      rw [Nat.pow_succ, Nat.mod_mul_right_div_self]; simp
    rw [h1, h2]

theorem hil_range (n t : Nat) : (hil n t).1 < 2 ^ n ∧ (hil n t).2 < 2 ^ n := by
  induction n generalizing t with
  | zero => simp [hil]
  | succ n ih =>
    obtain ⟨h1, h2⟩ := ih (t % 4 ^ n)
    have hp := Nat.two_pow_pos n
    simp only [hil, hilStep, Nat.pow_succ]
    split
    · simp only; omega
    · split
      · simp only; omega
      · split <;> simp only <;> omega

theorem hil_bij (n : Nat) : CurveBij n (hil n) := by
  induction n with
  | zero =>
    refine ⟨by simp [hil], by intro t u ht hu _; simp at ht hu; omega, ?_⟩
    intro x y hx hy
    simp at hx hy
    subst hx hy
    exact ⟨0, by simp, rfl⟩
  | succ n ih =>
    have hp := Nat.two_pow_pos n
    have h4 : 0 < 4 ^ n := Nat.pow_pos (by omega)
    refine ⟨fun t _ => hil_range _ t, ?_, ?_⟩
    · intro t u ht hu h
      have ht4 : t / 4 ^ n < 4 := Nat.div_lt_of_lt_mul (by rw [Nat.pow_succ] at ht; exact ht)
      have hu4 : u / 4 ^ n < 4 := Nat.div_lt_of_lt_mul (by rw [Nat.pow_succ] at hu; exact hu)
      simp only [hil] at h
      rw [Nat.mod_eq_of_lt ht4, Nat.mod_eq_of_lt hu4] at h
      have r1 := hil_range n (t % 4 ^ n)
      have r2 := hil_range n (u % 4 ^ n)
      have key : t / 4 ^ n = u / 4 ^ n ∧ hil n (t % 4 ^ n) = hil n (u % 4 ^ n) := by
        generalize hA : hil n (t % 4 ^ n) = A at *
        generalize hB : hil n (u % 4 ^ n) = B at *
        obtain ⟨a1, a2⟩ := A
        obtain ⟨b1, b2⟩ := B
        simp only at r1 r2
        simp only [hilStep, Prod.mk.injEq] at h ⊢
        generalize t / 4 ^ n = qt at *
        generalize u / 4 ^ n = qu at *
        generalize 2 ^ n = s at *
        have : qt = 0 ∨ qt = 1 ∨ qt = 2 ∨ qt = 3 := by omega
        have : qu = 0 ∨ qu = 1 ∨ qu = 2 ∨ qu = 3 := by omega
        rcases ‹qt = 0 ∨ _› with rfl | rfl | rfl | rfl <;>
          rcases ‹qu = 0 ∨ _› with rfl | rfl | rfl | rfl <;>
            simp at h <;> omega
      have := ih.inj _ _ (Nat.mod_lt t h4) (Nat.mod_lt u h4) key.2
      have e1 := Nat.div_add_mod t (4 ^ n)
      have e2 := Nat.div_add_mod u (4 ^ n)
      rw [key.1, this] at e1
      omega
    · intro x y hx hy
      rw [Nat.pow_succ] at hx hy
      -- choose the quadrant and the position inside it
      have mk : ∀ q x' y', q < 4 → x' < 2 ^ n → y' < 2 ^ n →
          hilStep (2 ^ n) q (x', y') = (x, y) → ∃ t, t < 4 ^ (n + 1) ∧ hil (n + 1) t = (x, y) := by
        intro q x' y' hq hx' hy' hst
        obtain ⟨t0, ht0, hh⟩ := ih.surj x' y' hx' hy'
        refine ⟨4 ^ n * q + t0, ?_, ?_⟩
        · rw [Nat.pow_succ]
          calc 4 ^ n * q + t0 < 4 ^ n * q + 4 ^ n := by omega
            _ = 4 ^ n * (q + 1) := by rw [Nat.mul_add, Nat.mul_one]
            _ ≤ 4 ^ n * 4 := Nat.mul_le_mul_left _ hq
        · have e1 : (4 ^ n * q + t0) / 4 ^ n % 4 = q := by
            rw [Nat.mul_add_div h4, Nat.div_eq_of_lt ht0, Nat.add_zero, Nat.mod_eq_of_lt hq]
          have e2 : (4 ^ n * q + t0) % 4 ^ n = t0 := by
            rw [Nat.mul_add_mod]; exact Nat.mod_eq_of_lt ht0
          simp only [hil, e1, e2, hh, hst]
      by_cases hxs : x < 2 ^ n
      · by_cases hys : y < 2 ^ n
        · exact mk 0 y x (by omega) hys hxs (by simp [hilStep])
        · refine mk 1 x (y - 2 ^ n) (by omega) hxs (by omega) ?_
          simp [hilStep]; omega
      · by_cases hys : y < 2 ^ n
        · refine mk 3 (2 ^ n - 1 - y) (2 * 2 ^ n - 1 - x) (by omega) (by omega) (by omega) ?_
          simp [hilStep]; omega
        · refine mk 2 (x - 2 ^ n) (y - 2 ^ n) (by omega) (by omega) (by omega) ?_
          simp [hilStep]; omega

/-- The loop on 32-bit words computes `hil`. -/
theorem hilbertLoop_eq (n sb : Nat) (t x y : BitVec 32) (T : Nat) (hT : T < 2 ^ 32)
    (hn : sb + n ≤ 16) (ht : t.toNat = T / 4 ^ sb)
    (hxy : (x.toNat, y.toNat) = hil sb (T % 4 ^ sb)) :
    ((hilbertLoop n sb t x y).1.toNat, (hilbertLoop n sb t x y).2.toNat) =
      hil (sb + n) (T % 4 ^ (sb + n)) := by
  induction n generalizing sb t x y with
  | zero => simpa [hilbertLoop] using hxy
  | succ n ih =>
    rw [hilbertLoop]
    have hr := hil_range sb (T % 4 ^ sb)
    rw [← hxy] at hr
    simp only at hr
    have hs16 : 2 ^ sb ≤ 2 ^ 15 := Nat.pow_le_pow_right (by omega) (by omega)
    have hs : (1#32 <<< sb).toNat = 2 ^ sb := SizeUtil.toNat_one_shl (by omega)
    have hsp := Nat.two_pow_pos sb
    have e16 : 2 ^ 15 = 32768 := rfl
    have e32 : 2 ^ 32 = 4294967296 := rfl
    rw [show sb + (n + 1) = sb + 1 + n by omega]
    apply ih (sb + 1)
    · omega
    · rw [BitVec.toNat_ushiftRight, ht, Nat.shiftRight_eq_div_pow, Nat.div_div_eq_div_mul,
        Nat.pow_succ 4 sb]
    · have hq : T % 4 ^ (sb + 1) / 4 ^ sb % 4 = t.toNat % 4 := by
        rw [Nat.pow_succ, Nat.mod_mul_right_div_self, ht]; simp
      have hq2 : T % 4 ^ (sb + 1) % 4 ^ sb = T % 4 ^ sb := by
        apply Nat.mod_mod_of_dvd; exact ⟨4, by rw [Nat.pow_succ]⟩
      simp only [hil, hq, hq2]
      rw [hil_mod, ← hil_mod, ← hxy]
      have hrx : (t &&& 2#32 ≠ 0#32) ↔ 2 ≤ t.toNat % 4 := by
        rw [show (2#32) = BitVec.twoPow 32 1 from rfl, BitVec.and_twoPow]
        have hb : t.getLsbD 1 = decide (t.toNat / 2 % 2 = 1) := by
          rw [BitVec.getLsbD, Nat.testBit_succ, Nat.testBit_zero]
        rw [hb]
        by_cases h2 : t.toNat / 2 % 2 = 1
        · rw [if_pos (by simpa using h2)]
          exact ⟨fun _ => by omega, fun _ => by decide⟩
        · rw [if_neg (by simpa using h2)]
          exact ⟨fun h => absurd rfl h, fun _ => by omega⟩
      have hr1 : (t &&& 1#32 ≠ 0#32) ↔ t.toNat % 2 = 1 := by
        have : (t &&& 1#32).toNat = t.toNat % 2 := by
          rw [BitVec.toNat_and]; exact Nat.and_one_is_mod _
        constructor
        · intro h
          rcases Nat.mod_two_eq_zero_or_one t.toNat with h0 | h0
          · exfalso; apply h; apply BitVec.eq_of_toNat_eq; rw [this]; simpa using h0
          · exact h0
        · intro h h0
          have h00 := congrArg BitVec.toNat h0
          rw [this] at h00; simp at h00; omega
      have hsub : ∀ z : BitVec 32, z.toNat < 2 ^ sb →
          (1#32 <<< sb - 1#32 - z).toNat = 2 ^ sb - 1 - z.toNat := by
        intro z hz
        have h1 : (1#32 <<< sb - 1#32).toNat = 2 ^ sb - 1 := by
          rw [SizeUtil.toNat_sub_one, hs]
          intro h0; have := congrArg BitVec.toNat h0; rw [hs] at this; simp at this
        rw [BitVec.toNat_sub, h1]; omega
      have hadd : ∀ z : BitVec 32, z.toNat < 2 ^ sb →
          (z + 1#32 <<< sb).toNat = z.toNat + 2 ^ sb := by
        intro z hz; rw [BitVec.toNat_add, hs]; omega
      have hq4 : t.toNat % 4 = 0 ∨ t.toNat % 4 = 1 ∨ t.toNat % 4 = 2 ∨ t.toNat % 4 = 3 := by omega
      have b1 : decide (t &&& 2#32 ≠ 0#32) = decide (2 ≤ t.toNat % 4) := decide_eq_decide.2 hrx
      have b2 : decide (t &&& 1#32 ≠ 0#32) = decide (t.toNat % 2 = 1) := decide_eq_decide.2 hr1
      rcases hq4 with h | h | h | h
      · have : t.toNat % 2 = 0 := by omega
        simp only [b1, b2, hilStep, h, this]
        simp
      · have : t.toNat % 2 = 1 := by omega
        simp only [b1, b2, hilStep, h, this]
        simp [hadd y hr.2]
      · have : t.toNat % 2 = 0 := by omega
        simp only [b1, b2, hilStep, h, this]
        simp [hadd y hr.2, hadd x hr.1]
      · have : t.toNat % 2 = 1 := by omega
        simp only [b1, b2, hilStep, h, this]
        change (((1#32 <<< sb - 1#32 - y) + 1#32 <<< sb).toNat, (1#32 <<< sb - 1#32 - x).toNat) =
          (2 ^ sb - 1 - y.toNat + 2 ^ sb, 2 ^ sb - 1 - x.toNat)
        have e := hsub y hr.2
        rw [hadd _ (by rw [e]; omega), e, hsub x hr.1]

theorem decodeHilbert_eq (n : Nat) (hn : n ≤ 16) (idx : BitVec 32) :
    decodeHilbert n idx = ⟨(hil n idx.toNat).2, (hil n idx.toNat).1⟩ := by
  have h := hilbertLoop_eq n 0 idx 0#32 0#32 idx.toNat idx.isLt (by omega) (by simp)
    (by simp [hil])
  rw [Nat.zero_add, hil_mod] at h
  simp only [decodeHilbert, ← h]

/-! #### All orders -/

/-- Nat-level view of `decode`. -/
def decodePair (o : Order) (n t : Nat) : Nat × Nat :=
  match o with
  | .linear => (t % 2 ^ n, t / 2 ^ n)
  | .fractalZ => zPair t
  | .fractalU => ((zPair t).1 ^^^ (zPair t).2, (zPair t).2)
  | .fractalHilbert => ((hil n t).2, (hil n t).1)

theorem decodePair_bij (o : Order) (n : Nat) (hn : n ≤ 16) : CurveBij n (decodePair o n) := by
  cases o with
  | linear => exact linear_bij n
  | fractalZ => exact z_bij n hn
  | fractalU => exact u_bij n hn
  | fractalHilbert =>
    have h := hil_bij n
    refine ⟨fun t ht => (h.range t ht).symm, ?_, ?_⟩
    · intro t u ht hu e
      simp only [decodePair, Prod.mk.injEq] at e
      exact h.inj t u ht hu (Prod.ext e.2 e.1)
    · intro x y hx hy
      obtain ⟨t, ht, e⟩ := h.surj y x hy hx
      exact ⟨t, ht, by simp [decodePair, e]⟩

theorem decode_eq (o : Order) (n t : Nat) (hn : n ≤ 15) (ht : t < 4 ^ n) :
    decode o n (BitVec.ofNat 32 t) = .ok ⟨(decodePair o n t).1, (decodePair o n t).2⟩ := by
  have ht32 := lt_four_of (show n ≤ 16 by omega) ht
  have htn : (BitVec.ofNat 32 t).toNat = t := by
    rw [BitVec.toNat_ofNat]; exact Nat.mod_eq_of_lt ht32
  cases o with
  | linear =>
    simp only [decode, decodeLinear, decodePair]
    rw [C.require_of (by omega)]
    simp only [C.ok_bind, C.pure_eq]
    congr 2
    · rw [BitVec.toNat_and, htn, SizeUtil.toNat_sub_one, SizeUtil.toNat_one_shl (by omega),
        Nat.and_two_pow_sub_one_eq_mod]
      intro h0
      have := congrArg BitVec.toNat h0
      rw [SizeUtil.toNat_one_shl (by omega)] at this
      have := Nat.two_pow_pos n
      simp at *
    · rw [BitVec.toNat_ushiftRight, htn, Nat.shiftRight_eq_div_pow]
  | fractalZ => simp [decode, decodePair, zPair]
  | fractalU => simp [decode, decodePair, zPair, decodeU]
  | fractalHilbert =>
    simp only [decode, decodePair]
    rw [decodeHilbert_eq n (by omega), htn]
    rfl

end Ruy.BlockMap

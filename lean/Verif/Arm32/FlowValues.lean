import Verif.Arm32.FlowRun
/-
Values of sums of products whose products are rounded: lemmas for property C89.
-/
namespace Ruy.Arm32.Flow
open Ruy.Mat Ruy.Mul
open Ruy.Float Ruy.FloatErr
open Ruy.XFloat (dot isum)
open Ruy.NeonF (armOps armMax armMin armMax_val armMin_val lower_near upper_near Near foldl_dot dot_congr isum_range armMax_int
  armMin_int IsNan add_nan mul_nan armMax_nan armMin_nan)
open Ruy.NeonF.Flow (Mach elem depth biasAt sumIn Values exact)

/-- Arithmetic of 32-bit Advanced SIMD in a floating-point environment.  `vmla.f32` rounds the product and the sum.
Denormal results can be flushed to zero by the environment; denormal operands, which the processor takes for zero, are not
changed here (`neonOps` in `Flush.lean` does that). -/
def vmlaOps (e : Float.Env) : NeonF.Ops Fl := { armOps e with fma := fun d n m => e.add d (e.mul n m) }

/-- The multiply-add with operands in the order of `dot`. -/
def madd (e : Float.Env) (x y z : Fl) : Fl := e.add z (e.mul x y)

theorem sum_dot {e : Float.Env} {t : Task Fl} (ho : t.ops = vmlaOps e) (m : Mach Fl) (i j : Nat) :
    sumIn t m (List.range (depth t)) i j =
      dot (madd e) (.zero false) (fun k => elem t m .lhs k i) (fun k => elem t m .rhs k j) (depth t) := by
  have h : sumIn t m (List.range (depth t)) i j =
      (List.range (depth t)).foldl (fun d k => madd e (elem t m .lhs k i) (elem t m .rhs k j) d) (.zero false) := by
    unfold sumIn
    rw [ho]
    rfl
  rw [h, foldl_dot (madd e) (.zero false) (fun k => elem t m .lhs k i) (fun k => elem t m .rhs k j), List.length_range]
  have g : ∀ k, k < depth t → (List.range (depth t)).getD k 0 = k := fun k hk => by
    simp [List.getD_eq_getElem?_getD, List.getElem?_range hk]
  exact dot_congr (fun k hk => by rw [g k hk]) (fun k hk => by rw [g k hk])

theorem stored_eq {e : Float.Env} {t : Task Fl} (ho : t.ops = vmlaOps e) (m : Mach Fl) (i j : Nat) :
    stored t m i j = armMin e (armMax e (e.add (dot (madd e) (.zero false) (fun k => elem t m .lhs k i)
      (fun k => elem t m .rhs k j) (depth t)) (biasAt t m (channelOf t.mp.chan i j))) t.mp.clampMin) t.mp.clampMax := by
  unfold stored
  rw [sum_dot ho, ho]
  rfl

theorem stored_near {e : Float.Env} {u η M : ℚ} (hr : Rounding e u η M) {t : Task Fl} (ho : t.ops = vmlaOps e) {m : Mach Fl}
    {i j : Nat} {a b : Nat → ℚ} {bias : ℚ} (hv : Values t m i j a b bias) {n : Nat} (hn : n = depth t)
    (hM : (1 + u) ^ (n + 2) * (mag bias a b n + 2 * n * η) ≤ M) :
    Near (stored t m i j) (exact t a b bias)
      (((1 + u) ^ (n + 2) - 1) * mag bias a b n + (2 * n + 1) * (1 + u) ^ (n + 2) * η) := by
  have hu := hr.upos
  have hη := hr.epos
  have p1 := one_le_pow hu n
  have hS := mag_nonneg 0 a b n
  have hB := abs_nonneg bias
  have hd : (0 : ℚ) ≤ n := Nat.cast_nonneg _
  have hmb := mag_bias bias a b n
  have hsb := sum_bias bias a b n
  have key := unfused_near (init := .zero false) hr (madd := madd e) (fun _ _ _ => .inr rfl) (b := 0)
    (f := fun k => elem t m .lhs k i) (g := fun k => elem t m .rhs k j) (a := a) (c := b) (n := n) rfl
    (fun d h => hv.lhs d (hn ▸ h)) (fun d h => hv.rhs d (hn ▸ h))
  have e1 : (1 + u) ^ (n + 1) = (1 + u) ^ n * (1 + u) := pow_succ _ _
  have e2 : (1 + u) ^ (n + 2) = (1 + u) ^ n * (1 + u) * (1 + u) := by rw [pow_succ, e1]
  rw [e2, hmb] at hM ⊢
  rw [e1] at key
  generalize hpp : (1 + u) ^ n = p at *
  generalize hm0 : mag 0 a b n = S at *
  generalize hP : p * (1 + u) = P at *
  have pP : p ≤ P := by rw [← hP]; nlinarith
  have P1 : 1 ≤ P := p1.trans pP
  have hnη : 0 ≤ 2 * n * η := by positivity
  have q1 : P * (S + |bias| + 2 * n * η) ≤ M := by
    refine le_trans ?_ hM
    rw [mul_assoc P]
    refine mul_le_mul_of_nonneg_left ?_ (by linarith)
    nlinarith [mul_nonneg hu hS, mul_nonneg hu hB, mul_nonneg hu hnη]
  obtain ⟨x, hx, hxe⟩ := key (by
    refine le_trans ?_ q1
    refine mul_le_mul_of_nonneg_left ?_ (by linarith)
    linarith)
  have hsl := sum_le 0 a b n
  rw [hm0] at hsl
  have hpn : 2 * n * p * η ≤ P * (2 * n * η) := by
    have := mul_le_mul_of_nonneg_right pP hnη
    linarith
  have harg : |x + bias| ≤ P * (S + |bias| + 2 * n * η) := by
    have t1 : |x + bias| ≤ |bias| + |FloatErr.sum 0 a b n| + |x - FloatErr.sum 0 a b n| := by
      have : x + bias = bias + (FloatErr.sum 0 a b n + (x - FloatErr.sum 0 a b n)) := by ring
      rw [this]
      exact (abs_add_le _ _).trans (by linarith [abs_add_le (FloatErr.sum 0 a b n) (x - FloatErr.sum 0 a b n)])
    nlinarith [mul_nonneg (sub_nonneg.2 P1) hB]
  obtain ⟨y, hy, hye⟩ := add_near hr hx hv.bias (harg.trans q1)
  refine ⟨_, by rw [stored_eq ho, ← hn]; exact armMin_val hv.hi (armMax_val hv.lo hy), ?_⟩
  unfold exact
  refine (upper_near hv.hi _ _).trans ((lower_near hv.lo _ _).trans ?_)
  rw [← hn, hsb]
  have t2 : |y - (FloatErr.sum 0 a b n + bias)| ≤ |y - (x + bias)| + |x - FloatErr.sum 0 a b n| := by
    have : y - (FloatErr.sum 0 a b n + bias) = (y - (x + bias)) + (x - FloatErr.sum 0 a b n) := by ring
    rw [this]
    exact abs_add_le _ _
  have t3 : u * |x + bias| ≤ u * (P * (S + |bias| + 2 * n * η)) := mul_le_mul_of_nonneg_left harg hu
  have t4 : η ≤ P * η := by nlinarith
  have t5 : 0 ≤ u * (P * η) := mul_nonneg hu (mul_nonneg (by linarith) hη)
  nlinarith [mul_nonneg (sub_nonneg.2 P1) hB]

theorem stored_single {e : Float.Env} {ftz : Bool} (hr : Rounding e (2 ^ (-24 : ℤ)) (tiny ftz) maxFloat) {t : Task Fl}
    (ho : t.ops = vmlaOps e) {m : Mach Fl} {i j : Nat} {a b : Nat → ℚ}
    {bias : ℚ} (hv : Values t m i j a b bias) {n : Nat} (hn : n = depth t) (hdepth : n + 2 < 2 ^ 23)
    (hmag : mag bias a b n ≤ 2 ^ (126 : ℤ)) :
    Near (stored t m i j) (exact t a b bias) ((n + 2) * 2 ^ (-23 : ℤ) * mag bias a b n + 2 * (2 * n + 1) * tiny ftz) := by
  have hm := mag_nonneg bias a b n
  have ht := tiny_pos ftz
  have ht' := tiny_le ftz
  have hn0 : (0 : ℚ) ≤ n := Nat.cast_nonneg n
  have hnt : (0 : ℚ) ≤ n * tiny ftz := mul_nonneg hn0 ht
  obtain ⟨q1, q2⟩ := half_pow (n := n + 2) (by omega)
  push_cast at q1
  refine (stored_near hr ho hv hn ?_).mono ?_
  · refine le_trans (mul_le_mul_of_nonneg_right q2 (by linarith)) ?_
    have hn1 : (n : ℚ) ≤ 2 ^ 23 := by exact_mod_cast (by omega : n ≤ 2 ^ 23)
    have h1 : (n : ℚ) * tiny ftz ≤ 2 ^ 23 * 2 ^ (-126 : ℤ) := mul_le_mul hn1 ht' ht (by norm_num)
    have h2 : 2 * ((2 : ℚ) ^ (126 : ℤ) + 2 * (2 ^ 23 * 2 ^ (-126 : ℤ))) ≤ maxFloat := by unfold maxFloat; norm_num
    refine le_trans ?_ h2
    linarith
  · have t1 := mul_le_mul_of_nonneg_right q1 hm
    have t2 : (1 + (2 : ℚ) ^ (-24 : ℤ)) ^ (n + 2) * ((2 * n + 1) * tiny ftz) ≤ 2 * ((2 * n + 1) * tiny ftz) :=
      mul_le_mul_of_nonneg_right q2 (by positivity)
    nlinarith

theorem stored_binary32 {ftz : Bool} {t : Task Fl} (ho : t.ops = vmlaOps (binary32 ftz)) {m : Mach Fl} {i j : Nat} {a b : Nat → ℚ}
    {bias : ℚ} (hv : Values t m i j a b bias) {n : Nat} (hn : n = depth t) (hdepth : n + 2 < 2 ^ 23)
    (hmag : mag bias a b n ≤ 2 ^ (126 : ℤ)) :
    Near (stored t m i j) (exact t a b bias) ((n + 2) * 2 ^ (-23 : ℤ) * mag bias a b n + 2 * (2 * n + 1) * tiny ftz) :=
  stored_single (binary32_rounding ftz) ho hv hn hdepth hmag

/-! ### Integers -/

theorem add_swap (e : Float.Env) {x y : Fl} {a b : ℚ} (hx : IsVal x a) (hy : IsVal y b) : e.add x y = e.add y x := by
  cases x <;> cases y <;> first | exact hx.elim | exact hy.elim | rfl | skip
  · rename_i s t
    cases s <;> cases t <;> rfl
  · rename_i p q
    show (if p + q = 0 then _ else _) = (if q + p = 0 then _ else _)
    rw [add_comm]

theorem ofInt_val (n : ℤ) : IsVal (ofInt n) n := by
  unfold ofInt
  split
  · rename_i h
    subst h
    exact Int.cast_zero
  · exact rfl

theorem madd_int (ftz : Bool) {a b z : ℤ} (h : |z| + |a * b| ≤ 2 ^ 24) :
    (binary32 ftz).add (ofInt z) ((binary32 ftz).mul (ofInt a) (ofInt b)) = ofInt (z + a * b) := by
  have h0 := abs_nonneg z
  have h1 := abs_nonneg (a * b)
  have h2 := abs_add_le (a * b) z
  obtain ⟨s, hs⟩ := mul_int (e := binary32 ftz) (a := a) (b := b) (fun hne => by
    have h3 := rnd32_int ftz (n := a * b) (by omega) hne
    push_cast at h3
    rw [show (binary32 ftz).rnd = rnd32 ftz from rfl, h3]
    unfold ofInt
    rw [if_neg hne]
    push_cast
    rfl)
  have hp : IsVal ((binary32 ftz).mul (ofInt a) (ofInt b)) ((a * b : ℤ) : ℚ) := by
    rcases hs with hs | ⟨h0, hs⟩ <;> rw [hs]
    · exact ofInt_val _
    · show ((a * b : ℤ) : ℚ) = 0
      rw [h0]
      exact Int.cast_zero
  rw [add_swap _ (ofInt_val z) hp, add_int ftz (by omega) (by omega) (by omega) s hs, add_comm]

theorem dot_int (ftz : Bool) (a b : Nat → ℤ) (n : Nat) (h : ((List.range n).map fun k => |a k * b k|).sum ≤ 2 ^ 24) :
    dot (madd (binary32 ftz)) (ofInt 0) (fun k => ofInt (a k)) (fun k => ofInt (b k)) n =
      ofInt ((List.range n).map fun k => a k * b k).sum ∧
    |((List.range n).map fun k => a k * b k).sum| ≤ ((List.range n).map fun k => |a k * b k|).sum := by
  induction n with
  | zero => exact ⟨rfl, by simp⟩
  | succ n ih =>
    rw [List.range_succ, List.map_append, List.sum_append] at h ⊢
    rw [List.map_append, List.sum_append]
    simp only [List.map_cons, List.map_nil, List.sum_cons, List.sum_nil, add_zero] at h ⊢
    have h1 := abs_nonneg (a n * b n)
    obtain ⟨i1, i2⟩ := ih (by omega)
    refine ⟨?_, (abs_add_le _ _).trans (by omega)⟩
    show madd (binary32 ftz) (ofInt (a n)) (ofInt (b n)) (dot (madd (binary32 ftz)) _ _ _ n) = _
    rw [i1]
    exact madd_int ftz (by omega)

theorem stored_int {ftz : Bool} {t : Task Fl} (ho : t.ops = vmlaOps (binary32 ftz)) {m : Mach Fl} {i j : Nat}
    {a b : Nat → ℤ} {bias lo hi : ℤ} (hv : ∀ k, k < depth t → elem t m .lhs k i = ofInt (a k) ∧ elem t m .rhs k j = ofInt (b k))
    (hb : biasAt t m (channelOf t.mp.chan i j) = ofInt bias) (hlo : t.mp.clampMin = ofInt lo) (hhi : t.mp.clampMax = ofInt hi)
    (hs : |bias| + ∑ k ∈ Finset.range (depth t), |a k * b k| ≤ 2 ^ 24) :
    stored t m i j = ofInt (min (max (isum bias a b (depth t)) lo) hi) := by
  rw [← NeonF.sum_range] at hs
  have hB := abs_nonneg bias
  obtain ⟨h1, h2⟩ := dot_int ftz a b (depth t) (by omega)
  have h4 := abs_nonneg ((List.range (depth t)).map fun k => a k * b k).sum
  have h3 := abs_add_le ((List.range (depth t)).map fun k => a k * b k).sum bias
  rw [stored_eq ho, dot_congr (fun k hk => (hv k hk).1) (fun k hk => (hv k hk).2), hb, hlo, hhi,
    show (Fl.zero false) = ofInt 0 from rfl, h1, add_int ftz (s := false) (by omega) (by omega) (by omega) (.inl rfl), armMax_int,
    armMin_int, ← isum_range]

/-! ### NaN -/

theorem dot_nan {e : Float.Env} {f g : Nat → Fl} {k : Nat} (hk : IsNan (f k) ∨ IsNan (g k)) (z : Fl) {n : Nat} (h : k < n) :
    IsNan (dot (madd e) z f g n) := by
  induction n with
  | zero => omega
  | succ n ih =>
    show IsNan (madd e (f n) (g n) _)
    by_cases hn : k = n
    · subst hn
      exact add_nan (.inr (mul_nan hk))
    · exact add_nan (.inl (ih (by omega)))

theorem stored_nan {e : Float.Env} {t : Task Fl} (ho : t.ops = vmlaOps e) {m : Mach Fl} {i j : Nat}
    (hn : (∃ k, k < depth t ∧ (IsNan (elem t m .lhs k i) ∨ IsNan (elem t m .rhs k j))) ∨
      IsNan (biasAt t m (channelOf t.mp.chan i j)) ∨ IsNan t.mp.clampMin ∨ IsNan t.mp.clampMax) : IsNan (stored t m i j) := by
  rw [stored_eq ho]
  rcases hn with ⟨k, hk, hn⟩ | hn | hn | hn
  · exact armMin_nan (.inl (armMax_nan (.inl (add_nan (.inl (dot_nan hn _ hk))))))
  · exact armMin_nan (.inl (armMax_nan (.inl (add_nan (.inr hn)))))
  · exact armMin_nan (.inl (armMax_nan (.inr hn)))
  · exact armMin_nan (.inr hn)

end Ruy.Arm32.Flow

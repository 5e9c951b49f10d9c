import Verif.BlockMap.MapLemmas
/-
Helper lemmas for C10: MakeBlockMap does not fault under explicit size bounds.
-/
namespace Ruy.BlockMap
open SizeUtil

theorem log2_mono {a b : Nat} (h : a ≤ b) (ha : a ≠ 0) : a.log2 ≤ b.log2 := by
  rw [Nat.le_log2 (by omega)]
  exact Nat.le_trans (Nat.log2_self_le ha) h

theorem floorLog2Quotient_of {num denom : Nat} (hd : 1 ≤ denom) (hn : num < 2 ^ 30) :
    ∃ q : Int, floorLog2Quotient num denom = .ok q ∧ 0 ≤ q ∧ q < 32 ∧
      (denom < num → denom * 2 ^ q.toNat ≤ num) := by
  unfold floorLog2Quotient
  by_cases h : num ≤ denom
  · rw [if_pos h]; exact ⟨0, rfl, by omega, by omega, by omega⟩
  · rw [if_neg h, nFloorLog2_of (by omega), nCeilLog2_of hd]
    simp only [C.ok_bind]
    have hc1 := clog_le denom hd
    have hc2 := clog_le_succ denom hd
    have hc3 := log2_mono (a := denom) (b := num) (by omega) (by omega)
    have hl : num.log2 < 30 := (Nat.log2_lt (by omega)).2 hn
    have hself := Nat.log2_self_le (n := num) (by omega)
    rw [C.require_of (by omega)]
    simp only [C.ok_bind]
    have hle : denom * 2 ^ ((num.log2 : Int) - clog denom + 1).toNat ≤ 2 ^ 30 := by
      calc _ ≤ 2 ^ clog denom * 2 ^ ((num.log2 : Int) - clog denom + 1).toNat :=
            Nat.mul_le_mul_right _ hc1
        _ = 2 ^ (clog denom + ((num.log2 : Int) - clog denom + 1).toNat) := by rw [Nat.pow_add]
        _ ≤ 2 ^ 30 := Nat.pow_le_pow_right (by omega) (by omega)
    rw [C.int_of (by omega)]
    simp only [C.ok_bind]
    by_cases hs : denom * 2 ^ ((num.log2 : Int) - clog denom + 1).toNat ≤ num
    · rw [if_pos hs]
      exact ⟨_, rfl, by omega, by omega, fun _ => hs⟩
    · rw [if_neg hs]
      have hlq : 0 ≤ (num.log2 : Int) - clog denom := by
        rcases Int.lt_or_le ((num.log2 : Int) - clog denom) 0 with hneg | h'
        · exfalso; apply hs
          rw [show ((num.log2 : Int) - clog denom + 1).toNat = 0 by omega]; omega
        · exact h'
      refine ⟨_, rfl, hlq, by omega, fun _ => ?_⟩
      calc _ ≤ 2 ^ clog denom * 2 ^ ((num.log2 : Int) - clog denom).toNat :=
            Nat.mul_le_mul_right _ hc1
        _ = 2 ^ (clog denom + ((num.log2 : Int) - clog denom).toNat) := by rw [Nat.pow_add]
        _ = 2 ^ num.log2 := by congr 1; omega
        _ ≤ num := hself

theorem rectOf_of {big small kb ks : Nat} (hs : 1 ≤ small) (hlt : small < big)
    (hb : big < 2 ^ 30) : ∃ r, rectOf big small (2 ^ kb) (2 ^ ks) = .ok r := by
  unfold rectOf
  obtain ⟨q, hq, hq0, hq32, hqle⟩ := floorLog2Quotient_of (num := big) hs hb
  rw [nCeilLog2_of hs, nPotLog2_of, hq, nFloorLog2_of (by omega), nPotLog2_of]
  simp only [C.ok_bind]
  rw [C.require_of (by omega), C.ok_bind, C.check_of]
  · exact ⟨_, rfl⟩
  · rw [Nat.le_div_iff_mul_le (Nat.two_pow_pos _)]
    refine Nat.le_trans (Nat.mul_le_mul_left _ ?_) (hqle hlt)
    exact Nat.pow_le_pow_right (by omega) (by omega)

theorem getRectangularness_of {rows cols kr kc : Nat} (hr : 1 ≤ rows) (hc : 1 ≤ cols)
    (hr2 : rows < 2 ^ 30) (hc2 : cols < 2 ^ 30) :
    ∃ p, getRectangularness rows cols (2 ^ kr) (2 ^ kc) = .ok p := by
  unfold getRectangularness rectPair
  by_cases h1 : rows > cols
  · obtain ⟨r, h⟩ := rectOf_of (kb := kr) (ks := kc) hc h1 hr2
    rw [if_pos h1, h]; exact ⟨(r, 0), by simp [C.check_of]⟩
  · rw [if_neg h1]
    by_cases h2 : cols > rows
    · obtain ⟨r, h⟩ := rectOf_of (kb := kc) (ks := kr) hr h2 hc2
      rw [if_pos h2, h]; exact ⟨(0, r), by simp [C.check_of]⟩
    · rw [if_neg h2]; exact ⟨(0, 0), by simp [C.check_of]⟩

theorem getMultithreadingScore_of (b rows cols threads : Nat) (ht : 1 ≤ threads)
    (h : rows * cols < 2 ^ 31) :
    ∃ s, getMultithreadingScore b rows cols threads = .ok s ∧ -64 ≤ s ∧ s ≤ 16 := by
  unfold getMultithreadingScore
  have : rows / 2 ^ b * (cols / 2 ^ b) ≤ rows * cols :=
    Nat.mul_le_mul (Nat.div_le_self _ _) (Nat.div_le_self _ _)
  dsimp only
  rw [C.int_of (by omega), C.ok_bind, nFloorLog2_of (by omega), C.ok_bind]
  by_cases h1 : threads = 1
  · rw [if_pos h1]; exact ⟨0, rfl, by omega, by omega⟩
  · rw [if_neg h1, nCeilLog2_of ht, C.ok_bind]
    split_ifs <;> exact ⟨_, rfl, by omega, by omega⟩

theorem getCacheLocalityScore_of {b rows cols depth kr kc ls rs : Nat} {cp : CacheParams}
    (hb : b ≤ 30) (hr : 1 ≤ rows) (hd : 1 ≤ depth)
    (hls : 1 ≤ ls) (hcp : 1 ≤ cp.localSize) (h : (ls * rows + rs * cols) * depth < 2 ^ 31) :
    ∃ s, getCacheLocalityScore b rows cols depth kr kc ls rs cp = .ok s ∧ -64 ≤ s ∧ s ≤ 64 := by
  unfold getCacheLocalityScore
  by_cases h1 : rows ≤ 2 ^ kr ∨ cols ≤ 2 ^ kc
  · rw [if_pos h1]; exact ⟨0, rfl, by omega, by omega⟩
  · have hbp : 2 ^ b ≤ 2 ^ 30 := Nat.pow_le_pow_right (by omega) hb
    have hb1 := Nat.two_pow_pos b
    rw [if_neg h1, C.int_of (by omega), C.ok_bind]
    simp only
    have e1 : ls * min (2 ^ b) rows ≤ ls * rows := Nat.mul_le_mul_left _ (Nat.min_le_right _ _)
    have e2 : rs * min (2 ^ b) cols ≤ rs * cols := Nat.mul_le_mul_left _ (Nat.min_le_right _ _)
    have e3 : ls * rows + rs * cols ≤ (ls * rows + rs * cols) * depth :=
      Nat.le_mul_of_pos_right _ hd
    have e4 : (ls * min (2 ^ b) rows + rs * min (2 ^ b) cols) * depth ≤
        (ls * rows + rs * cols) * depth := Nat.mul_le_mul_right _ (by omega)
    have e5 : 1 ≤ ls * min (2 ^ b) rows := Nat.mul_pos hls (by omega)
    have e6 : 1 ≤ (ls * min (2 ^ b) rows + rs * min (2 ^ b) cols) * depth :=
      Nat.mul_pos (by omega) hd
    rw [C.int_of (by omega), C.ok_bind, C.int_of (by omega), C.ok_bind, C.int_of (by omega),
      C.ok_bind, C.int_of (by omega), C.ok_bind, nCeilLog2_of e6, C.ok_bind, nFloorLog2_of hcp,
      C.ok_bind]
    split_ifs <;> exact ⟨_, rfl, by omega, by omega⟩

theorem getKernelAmortizationScore_of {b rows cols kr kc : Nat} (hb : b ≤ 30)
    (h1 : kr ≤ b) (h2 : kc ≤ b) (h3 : 2 ^ kr ≤ rows) (h4 : 2 ^ kc ≤ cols)
    (h : rows * cols < 2 ^ 31) :
    ∃ s, getKernelAmortizationScore b rows cols kr kc = .ok s ∧ 0 ≤ s ∧ s ≤ 64 := by
  unfold getKernelAmortizationScore
  have hbp : 2 ^ b ≤ 2 ^ 30 := Nat.pow_le_pow_right (by omega) hb
  have a1 : 2 ^ kr ≤ 2 ^ b := Nat.pow_le_pow_right (by omega) h1
  have a2 : 2 ^ kc ≤ 2 ^ b := Nat.pow_le_pow_right (by omega) h2
  have e1 : min (2 ^ b) rows * min (2 ^ b) cols ≤ rows * cols :=
    Nat.mul_le_mul (Nat.min_le_right _ _) (Nat.min_le_right _ _)
  have e2 : 2 ^ (kr + kc) ≤ min (2 ^ b) rows * min (2 ^ b) cols := by
    rw [Nat.pow_add]; exact Nat.mul_le_mul (by omega) (by omega)
  have hpos := Nat.two_pow_pos (kr + kc)
  have e3 : kr + kc ≤ (min (2 ^ b) rows * min (2 ^ b) cols).log2 :=
    (Nat.le_log2 (by omega)).2 e2
  rw [C.int_of (by omega), C.ok_bind]
  simp only
  rw [C.int_of (by omega), C.ok_bind, nFloorLog2_of (by omega), C.ok_bind,
    C.check_of (by omega), C.ok_bind]
  split_ifs <;> exact ⟨_, rfl, by omega, by omega⟩

theorem bestLoop_of {a : Args} {kr kc : Nat} (l : List Nat) (st : Int × Int)
    (h : ∀ b ∈ l, ∃ s, scoreOf a kr kc b = .ok s) : ∃ st', bestLoop a kr kc l st = .ok st' := by
  induction l generalizing st with
  | nil => exact ⟨st, rfl⟩
  | cons b bs ih =>
    obtain ⟨s, hs⟩ := h b (by simp)
    simp only [bestLoop, hs, C.ok_bind]
    exact ih _ (fun c hc => h c (by simp [hc]))

theorem blockSizes_of {dim n p : Nat} (hd : 2 ^ p ∣ dim) (h : dim < 2 ^ 30) (hp : 2 ^ p ≤ dim) :
    ∃ r, blockSizes dim n (2 ^ p) = .ok r := by
  unfold blockSizes
  rw [nRoundDownPot_of, C.ok_bind]
  have e1 : (dim / 2 ^ n - dim / 2 ^ n % 2 ^ p) * 2 ^ n ≤ dim := by
    calc _ ≤ dim / 2 ^ n * 2 ^ n := Nat.mul_le_mul_right _ (Nat.sub_le _ _)
      _ ≤ dim := Nat.div_mul_le_self _ _
  have hdv : 2 ^ p ∣ dim - (dim / 2 ^ n - dim / 2 ^ n % 2 ^ p) * 2 ^ n :=
    Nat.dvd_sub hd (Dvd.dvd.mul_right (Nat.dvd_sub_mod _) _)
  rw [C.int_of (by omega), C.ok_bind, C.require_of e1, C.ok_bind,
    nRoundUpPot_of _ _ (by omega) hdv, C.ok_bind, nPotLog2_of]
  exact ⟨_, rfl⟩

theorem getTraversalOrder_of {rows cols depth ls rs : Nat} (cp : CacheParams) (hd : 1 ≤ depth)
    (h : (ls * rows + rs * cols) * depth < 2 ^ 31) :
    ∃ o, getTraversalOrder rows cols depth ls rs cp = .ok o := by
  unfold getTraversalOrder
  have e3 : ls * rows + rs * cols ≤ (ls * rows + rs * cols) * depth := Nat.le_mul_of_pos_right _ hd
  rw [C.int_of (by omega), C.ok_bind, C.int_of (by omega), C.ok_bind, C.int_of (by omega),
    C.ok_bind, C.int_of (by omega), C.ok_bind]
  split_ifs <;> exact ⟨_, rfl⟩

theorem makeBlockMap_of (a : Args) (kr kc : Nat)
    (hkr : a.kernelRows = 2 ^ kr) (hkc : a.kernelCols = 2 ^ kc)
    (h1 : a.kernelRows ≤ a.rows) (h2 : a.kernelCols ≤ a.cols)
    (d1 : a.kernelRows ∣ a.rows) (d2 : a.kernelCols ∣ a.cols)
    (hr : a.rows < 2 ^ 30) (hc : a.cols < 2 ^ 30) (hrc : a.rows * a.cols < 2 ^ 31)
    (hd : 1 ≤ a.depth) (hls : 1 ≤ a.lhsSize) (ht : 1 ≤ a.threads) (hcp : 1 ≤ a.cache.localSize)
    (hws : (a.lhsSize * a.rows + a.rhsSize * a.cols) * a.depth < 2 ^ 31) :
    ∃ bm, makeBlockMap a = .ok bm := by
  have p1 : 0 < a.kernelRows := by rw [hkr]; exact Nat.two_pow_pos _
  have p2 : 0 < a.kernelCols := by rw [hkc]; exact Nat.two_pow_pos _
  obtain ⟨⟨rr, cr⟩, hrect⟩ := getRectangularness_of (kr := kr) (kc := kc) (rows := a.rows)
    (cols := a.cols) (by omega) (by omega) hr hc
  rw [← hkr, ← hkc] at hrect
  have hkr30 : kr < 30 := (Nat.pow_lt_pow_iff_right (a := 2) (by omega)).1
    (show 2 ^ kr < 2 ^ 30 by omega)
  have hkc30 : kc < 30 := (Nat.pow_lt_pow_iff_right (a := 2) (by omega)).1
    (show 2 ^ kc < 2 ^ 30 by omega)
  have hl : (min a.rows a.cols).log2 < 30 := (Nat.log2_lt (by omega)).2 (by omega)
  unfold makeBlockMap
  rw [C.check_of h1, C.ok_bind, C.check_of h2, C.ok_bind, C.require_of (by omega), C.ok_bind,
    C.check_of (Nat.mod_eq_zero_of_dvd d1), C.ok_bind, C.require_of (by omega), C.ok_bind,
    C.check_of (Nat.mod_eq_zero_of_dvd d2), C.ok_bind, hrect, C.ok_bind]
  have hpr : nPotLog2 a.kernelRows = .ok kr := by rw [hkr]; exact nPotLog2_of kr
  have hpc : nPotLog2 a.kernelCols = .ok kc := by rw [hkc]; exact nPotLog2_of kc
  simp only [hpr, hpc, C.ok_bind]
  rw [nFloorLog2_of (show 1 ≤ min a.rows a.cols by omega), C.ok_bind]
  generalize hfl : (min a.rows a.cols).log2 = fl at *
  -- the loop
  obtain ⟨best, hbest⟩ := bestLoop_of (a := a) (kr := kr) (kc := kc)
    (List.range' (max kc kr) (min (max (max kc kr) fl) (max kc kr + 6) + 1 - max kc kr))
    (-2 ^ 31, -1) (by
      intro b hb
      rw [List.mem_range'_1] at hb
      obtain ⟨s1, e1, _, _⟩ := getMultithreadingScore_of b a.rows a.cols a.threads ht hrc
      obtain ⟨s2, e2, _, _⟩ := getCacheLocalityScore_of (kr := kr) (kc := kc) (b := b)
        (cp := a.cache) (by omega) (show 1 ≤ a.rows by omega) hd hls hcp hws
      obtain ⟨s3, e3, _, _⟩ := getKernelAmortizationScore_of (b := b) (kr := kr) (kc := kc)
        (rows := a.rows) (cols := a.cols) (by omega) (by omega) (by omega) (by omega) (by omega) hrc
      refine ⟨s1 + s2 + s3, ?_⟩
      rw [scoreOf, e1, C.ok_bind, e2, C.ok_bind, e3, C.ok_bind, C.i32_of (by omega) (by omega)])
  have hmem : ∃ b : Nat, best.2 = (b : Int) ∧ max kc kr ≤ b ∧
      b ≤ min (max (max kc kr) fl) (max kc kr + 6) := by
    have hb' := hbest
    rw [show min (max (max kc kr) fl) (max kc kr + 6) + 1 - max kc kr =
      (min (max (max kc kr) fl) (max kc kr + 6) - max kc kr) + 1 by omega,
      List.range'_succ] at hb'
    obtain ⟨c, hc, h⟩ := bestLoop_first _ _ _ hb'
    refine ⟨c, h, ?_⟩
    rw [← List.range'_succ, List.mem_range'_1] at hc
    omega
  obtain ⟨bst, hbst, hb1, hb2⟩ := hmem
  have hbase : ((max (max kc kr) fl : Nat) - best.2).toNat = max (max kc kr) fl - bst := by
    rw [hbst]; omega
  have room := room_of (base := ((max (max kc kr) fl : Nat) - best.2).toNat) hkr hkc h1 h2 hrect hb1
    (by rw [hfl]; exact Nat.le_trans hb2 (Nat.min_le_left _ _)) (by rw [hfl]; exact hbase)
  obtain ⟨rz, _, _, _⟩ := getRectangularness_ok hrect
  rw [hbest, C.ok_bind]
  rw [C.check_of (by rw [hbst]; omega), C.ok_bind]
  generalize ((max (max kc kr) fl : Nat) - best.2).toNat = base at *
  -- number of blocks
  have g1 : 2 ^ (base + rr) ≤ a.rows := by
    have : 1 ≤ a.rows / 2 ^ (base + rr) := by omega
    rw [Nat.le_div_iff_mul_le (Nat.two_pow_pos _)] at this; omega
  have g2 : 2 ^ (base + cr) ≤ a.cols := by
    have : 1 ≤ a.cols / 2 ^ (base + cr) := by omega
    rw [Nat.le_div_iff_mul_le (Nat.two_pow_pos _)] at this; omega
  have hN : 2 ^ (2 * base + rr + cr) < 2 ^ 31 := by
    calc 2 ^ (2 * base + rr + cr) = 2 ^ (base + rr) * 2 ^ (base + cr) := by
          rw [← Nat.pow_add]; congr 1; omega
      _ ≤ a.rows * a.cols := Nat.mul_le_mul g1 g2
      _ < 2 ^ 31 := hrc
  have hN30 : 2 * base + rr + cr < 31 := (Nat.pow_lt_pow_iff_right (a := 2) (by omega)).1 hN
  rw [C.require_of (by omega), C.ok_bind]
  obtain ⟨⟨x1, y1⟩, e1⟩ := blockSizes_of (dim := a.rows) (n := base + rr) (p := kr)
    (by rw [← hkr]; exact d1) hr (by omega)
  obtain ⟨⟨x2, y2⟩, e2⟩ := blockSizes_of (dim := a.cols) (n := base + cr) (p := kc)
    (by rw [← hkc]; exact d2) hc (by omega)
  rw [← hkr] at e1
  rw [← hkc] at e2
  rw [e1, C.ok_bind, e2, C.ok_bind]
  have hws2 : (a.lhsSize * (a.rows / 2 ^ rr) + a.rhsSize * (a.cols / 2 ^ cr)) * a.depth < 2 ^ 31 := by
    refine Nat.lt_of_le_of_lt (Nat.mul_le_mul_right _ (Nat.add_le_add ?_ ?_)) hws
    · exact Nat.mul_le_mul_left _ (Nat.div_le_self _ _)
    · exact Nat.mul_le_mul_left _ (Nat.div_le_self _ _)
  obtain ⟨o, ho⟩ := getTraversalOrder_of a.cache hd hws2
  simp only [ho, C.ok_bind, numBlocks]
  rw [C.int_of hN, C.ok_bind]
  exact ⟨_, rfl⟩

end Ruy.BlockMap

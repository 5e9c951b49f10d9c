import Verif.BlockMap.Lemmas
import Mathlib.Tactic.Linarith
import Mathlib.Tactic.Ring
/-
Helper lemmas for C09/C10: what a successful MakeBlockMap establishes, and
when it succeeds.
-/
namespace Ruy.BlockMap
open SizeUtil

/-! ### Inversion of the helpers -/

theorem nFloorLog2_ok {n k : Nat} (h : nFloorLog2 n = .ok k) : 1 ≤ n ∧ k = n.log2 := by
  unfold nFloorLog2 at h
  obtain ⟨_, h1, h⟩ := C.bind_ok h
  cases h
  exact ⟨C.check_ok h1, rfl⟩

theorem nFloorLog2_of {n : Nat} (h : 1 ≤ n) : nFloorLog2 n = .ok n.log2 := by
  simp [nFloorLog2, h]

/-- ceil(log2 n) as computed. -/
def clog (n : Nat) : Nat := if n = 1 then 0 else (n - 1).log2 + 1

theorem nCeilLog2_ok {n k : Nat} (h : nCeilLog2 n = .ok k) : 1 ≤ n ∧ k = clog n := by
  unfold nCeilLog2 at h
  obtain ⟨_, h1, h⟩ := C.bind_ok h
  refine ⟨C.check_ok h1, ?_⟩
  unfold clog
  split at h <;> cases h <;> simp_all

theorem nCeilLog2_of {n : Nat} (h : 1 ≤ n) : nCeilLog2 n = .ok (clog n) := by
  simp only [nCeilLog2, C.check_of h, C.ok_bind, clog]
  split <;> rfl

theorem clog_le (n : Nat) (h : 1 ≤ n) : n ≤ 2 ^ clog n := by
  unfold clog
  split
  · omega
  · have := Nat.lt_log2_self (n := n - 1)
    omega

theorem clog_le_succ (n : Nat) (h : 1 ≤ n) : clog n ≤ n.log2 + 1 := by
  unfold clog
  split
  · omega
  · have h1 : (n - 1).log2 ≤ n.log2 := by
      rw [Nat.le_log2 (by omega)]
      exact Nat.le_trans (Nat.log2_self_le (by omega)) (by omega)
    omega

theorem nPotLog2_ok {n k : Nat} (h : nPotLog2 n = .ok k) : n = 2 ^ k := by
  unfold nPotLog2 at h
  obtain ⟨_, h1, h⟩ := C.bind_ok h
  obtain ⟨j, rfl⟩ := nIsPot_iff.1 (C.check_ok h1)
  have := (nFloorLog2_ok h).2
  rw [Nat.log2_two_pow] at this
  rw [this]

theorem nPotLog2_of (k : Nat) : nPotLog2 (2 ^ k) = .ok k := by
  have hp : nIsPot (2 ^ k) = true := nIsPot_iff.2 ⟨k, rfl⟩
  rw [nPotLog2, C.check_of hp, C.ok_bind, nFloorLog2_of (Nat.two_pow_pos k), Nat.log2_two_pow]

theorem nRoundDownPot_ok {v m r : Nat} (h : nRoundDownPot v m = .ok r) :
    (∃ k, m = 2 ^ k) ∧ r = v - v % m := by
  unfold nRoundDownPot at h
  obtain ⟨_, h1, h⟩ := C.bind_ok h
  cases h
  exact ⟨nIsPot_iff.1 (C.check_ok h1), rfl⟩

theorem nRoundDownPot_of (v k : Nat) : nRoundDownPot v (2 ^ k) = .ok (v - v % 2 ^ k) := by
  rw [nRoundDownPot, C.check_of (nIsPot_iff.2 ⟨k, rfl⟩)]; rfl

theorem nRoundUpPot_ok {v m r : Nat} (h : nRoundUpPot v m = .ok r) (hd : m ∣ v) : r = v := by
  unfold nRoundUpPot at h
  obtain ⟨s, h1, h⟩ := C.bind_ok h
  obtain ⟨rfl, _⟩ := C.int_ok h1
  obtain ⟨⟨k, rfl⟩, rfl⟩ := nRoundDownPot_ok h
  have hk := Nat.two_pow_pos k
  obtain ⟨q, rfl⟩ := hd
  have : (2 ^ k * q + 2 ^ k - 1) % 2 ^ k = 2 ^ k - 1 := by
    rw [show 2 ^ k * q + 2 ^ k - 1 = 2 ^ k * q + (2 ^ k - 1) by omega, Nat.mul_add_mod]
    exact Nat.mod_eq_of_lt (by omega)
  rw [this]; omega

theorem nRoundUpPot_of (v k : Nat) (h : v + 2 ^ k < 2 ^ 31) (hd : 2 ^ k ∣ v) :
    nRoundUpPot v (2 ^ k) = .ok v := by
  have hk := Nat.two_pow_pos k
  rw [nRoundUpPot, C.int_of h, C.ok_bind, nRoundDownPot_of]
  obtain ⟨q, rfl⟩ := hd
  have : (2 ^ k * q + 2 ^ k - 1) % 2 ^ k = 2 ^ k - 1 := by
    rw [show 2 ^ k * q + 2 ^ k - 1 = 2 ^ k * q + (2 ^ k - 1) by omega, Nat.mul_add_mod]
    exact Nat.mod_eq_of_lt (by omega)
  rw [this]; congr 1; omega

/-! ### Rectangularness -/

/-- Inversion of `rectOf`. -/
theorem rectOf_ok {big small kb ks r : Nat} (h : rectOf big small kb ks = .ok r) :
    small ≤ big / 2 ^ r ∧ (r = 0 ∨ ∃ p, kb = 2 ^ p ∧ p + r ≤ big.log2) := by
  unfold rectOf at h
  obtain ⟨cs, h1, h⟩ := C.bind_ok h
  obtain ⟨ps, h2, h⟩ := C.bind_ok h
  obtain ⟨q, h3, h⟩ := C.bind_ok h
  obtain ⟨fb, h4, h⟩ := C.bind_ok h
  obtain ⟨pb, h5, h⟩ := C.bind_ok h
  obtain ⟨_, h6, h⟩ := C.bind_ok h
  obtain ⟨_, h7, h⟩ := C.bind_ok h
  cases h
  refine ⟨C.check_ok h7, ?_⟩
  have h6 := C.require_ok h6
  obtain ⟨hb, rfl⟩ := nFloorLog2_ok h4
  by_cases h0 : (min q (max 0 ((big.log2 : Int) - pb - max 0 (3 - ((cs : Int) - ps))))).toNat = 0
  · exact .inl h0
  · exact .inr ⟨pb, nPotLog2_ok h5, by omega⟩

theorem getRectangularness_ok {rows cols kr kc rr cr : Nat}
    (h : getRectangularness rows cols kr kc = .ok (rr, cr)) :
    (rr = 0 ∨ cr = 0) ∧
    (rows > cols → cr = 0 ∧ rectOf rows cols kr kc = .ok rr) ∧
    (cols > rows → rr = 0 ∧ rectOf cols rows kc kr = .ok cr) ∧
    (rows = cols → rr = 0 ∧ cr = 0) := by
  unfold getRectangularness at h
  obtain ⟨rc, h1, h⟩ := C.bind_ok h
  obtain ⟨_, h2, h⟩ := C.bind_ok h
  have h2 := C.check_ok h2
  cases h
  unfold rectPair at h1
  refine ⟨h2, ?_⟩
  by_cases hgt : rows > cols
  · rw [if_pos hgt] at h1
    obtain ⟨x, h3, h1⟩ := C.bind_ok h1
    cases h1
    exact ⟨fun _ => ⟨rfl, h3⟩, fun h => by omega, fun h => by omega⟩
  · rw [if_neg hgt] at h1
    by_cases hlt : cols > rows
    · rw [if_pos hlt] at h1
      obtain ⟨x, h3, h1⟩ := C.bind_ok h1
      cases h1
      exact ⟨fun h => by omega, fun _ => ⟨rfl, h3⟩, fun h => by omega⟩
    · rw [if_neg hlt] at h1
      cases h1
      exact ⟨fun h => by omega, fun h => by omega, fun _ => ⟨rfl, rfl⟩⟩

/-! ### The candidate loop -/

theorem bestLoop_mem {a : Args} {kr kc : Nat} (l : List Nat) (st st' : Int × Int)
    (h : bestLoop a kr kc l st = .ok st') :
    st'.2 = st.2 ∨ ∃ b ∈ l, st'.2 = (b : Int) := by
  induction l generalizing st with
  | nil => simp [bestLoop] at h; left; rw [h]
  | cons b bs ih =>
    simp only [bestLoop] at h
    obtain ⟨s, h1, h⟩ := C.bind_ok h
    rcases ih _ h with h2 | ⟨c, hc, h2⟩
    · split at h2
      · exact .inr ⟨b, by simp, h2⟩
      · exact .inl h2
    · exact .inr ⟨c, by simp [hc], h2⟩

theorem bestLoop_first {a : Args} {kr kc b : Nat} (l : List Nat) (x : Int) (st' : Int × Int)
    (h : bestLoop a kr kc (b :: l) (-2 ^ 31, x) = .ok st') :
    ∃ c ∈ b :: l, st'.2 = (c : Int) := by
  simp only [bestLoop] at h
  obtain ⟨s, h1, h⟩ := C.bind_ok h
  have hs : s ≥ -2 ^ 31 := by
    unfold scoreOf at h1
    obtain ⟨_, _, h1⟩ := C.bind_ok h1
    obtain ⟨_, _, h1⟩ := C.bind_ok h1
    obtain ⟨_, _, h1⟩ := C.bind_ok h1
    obtain ⟨rfl, h2, _⟩ := C.i32_ok h1
    exact h2
  rw [if_pos hs] at h
  rcases bestLoop_mem _ _ _ h with h2 | ⟨c, hc, h2⟩
  · exact ⟨b, by simp, h2⟩
  · exact ⟨c, by simp [hc], h2⟩

/-! ### Grid arithmetic -/

theorem le_div_pow {x k b : Nat} (hx : x ≠ 0) (h : k + b ≤ x.log2) : 2 ^ k ≤ x / 2 ^ b := by
  rw [Nat.le_div_iff_mul_le (Nat.two_pow_pos b), ← Nat.pow_add]
  exact (Nat.le_log2 hx).1 h

/-- Inversion of `blockSizes` for a dimension that is a multiple of the kernel
size: writing `dim = kernel * R`, the block sizes are `kernel * (R / 2^n)` and
the number of larger blocks is `R % 2^n`. -/
theorem blockSizes_ok {dim n kernel sm lg : Nat} (h : blockSizes dim n kernel = .ok (sm, lg))
    (hd : kernel ∣ dim) :
    sm = kernel * (dim / kernel / 2 ^ n) ∧ lg = dim / kernel % 2 ^ n := by
  unfold blockSizes at h
  obtain ⟨s, h1, h⟩ := C.bind_ok h
  obtain ⟨t, h2, h⟩ := C.bind_ok h
  obtain ⟨_, h3, h⟩ := C.bind_ok h
  obtain ⟨r, h4, h⟩ := C.bind_ok h
  obtain ⟨p, h5, h⟩ := C.bind_ok h
  cases h
  obtain ⟨rfl, _⟩ := C.int_ok h2
  obtain ⟨_, rfl⟩ := nRoundDownPot_ok h1
  have hk : kernel = 2 ^ p := nPotLog2_ok h5
  have hkp : 0 < kernel := by rw [hk]; exact Nat.two_pow_pos p
  obtain ⟨R, rfl⟩ := hd
  have hR : kernel * R / kernel = R := Nat.mul_div_cancel_left R hkp
  have hn := Nat.two_pow_pos n
  have hsm : kernel * R / 2 ^ n - kernel * R / 2 ^ n % kernel = kernel * (R / 2 ^ n) := by
    have h6 := Nat.div_add_mod (kernel * R / 2 ^ n) kernel
    have h7 : kernel * R / 2 ^ n / kernel = R / 2 ^ n := by
      rw [Nat.div_div_eq_div_mul, Nat.mul_comm (2 ^ n), ← Nat.div_div_eq_div_mul, hR]
    rw [h7] at h6; omega
  rw [hsm] at h3 h4 ⊢
  rw [hR]
  refine ⟨rfl, ?_⟩
  have e : kernel * R - kernel * (R / 2 ^ n) * 2 ^ n = kernel * (R % 2 ^ n) := by
    have h8 := Nat.div_add_mod R (2 ^ n)
    have : kernel * R = kernel * (R / 2 ^ n) * 2 ^ n + kernel * (R % 2 ^ n) := by
      conv => lhs; rw [← h8]
      rw [Nat.mul_add, Nat.mul_assoc, Nat.mul_comm (2 ^ n)]
    omega
  rw [e] at h4
  have := nRoundUpPot_ok h4 ⟨_, rfl⟩
  rw [this, ← hk, Nat.mul_div_cancel_left _ hkp]

theorem room_of {rows cols kR kC rr cr kr kc bst base : Nat}
    (hkr : kR = 2 ^ kr) (hkc : kC = 2 ^ kc) (h1 : kR ≤ rows) (h2 : kC ≤ cols)
    (hrect : getRectangularness rows cols kR kC = .ok (rr, cr))
    (hb1 : max kc kr ≤ bst) (hb2 : bst ≤ max (max kc kr) (min rows cols).log2)
    (hbase : base = max (max kc kr) (min rows cols).log2 - bst) :
    kR ≤ rows / 2 ^ (base + rr) ∧ kC ≤ cols / 2 ^ (base + cr) := by
  obtain ⟨hrc, hgt, hlt, heq⟩ := getRectangularness_ok hrect
  have hK1 : kc ≤ max kc kr := Nat.le_max_left _ _
  have hK2 : kr ≤ max kc kr := Nat.le_max_right _ _
  generalize max kc kr = K at *
  have hkrK : kR ≤ 2 ^ K := by
    rw [hkr]; exact Nat.pow_le_pow_right (by omega) (by omega)
  have hkcK : kC ≤ 2 ^ K := by
    rw [hkc]; exact Nat.pow_le_pow_right (by omega) (by omega)
  have hrpos : 0 < kR := by rw [hkr]; exact Nat.two_pow_pos _
  have hcpos : 0 < kC := by rw [hkc]; exact Nat.two_pow_pos _
  have divadd : ∀ x r, x / 2 ^ (base + r) = x / 2 ^ r / 2 ^ base := by
    intro x r; rw [Nat.div_div_eq_div_mul, ← Nat.pow_add, Nat.add_comm]
  rcases Nat.lt_trichotomy rows cols with hlt' | heq' | hgt'
  · obtain ⟨hrr, hro⟩ := hlt hlt'
    rw [Nat.min_eq_left (by omega)] at hb2 hbase
    have e1 : K ≤ rows.log2 → K + base ≤ rows.log2 := by omega
    have e2 : ¬ K ≤ rows.log2 → base = 0 := by omega
    have e3 : rows ≠ 0 ∧ cols ≠ 0 := by omega
    obtain ⟨hs, hk⟩ := rectOf_ok hro
    subst hrr
    by_cases hK : K ≤ rows.log2
    · have h1' : 2 ^ K ≤ rows / 2 ^ base := le_div_pow (by simp [e3]) (e1 hK)
      have h2' : rows / 2 ^ base ≤ cols / 2 ^ cr / 2 ^ base := Nat.div_le_div_right hs
      rw [divadd cols]
      exact ⟨by simpa using Nat.le_trans hkrK h1', Nat.le_trans hkcK (Nat.le_trans h1' h2')⟩
    · have := e2 hK
      subst this
      refine ⟨by simpa using h1, ?_⟩
      rcases hk with h0 | ⟨p, hp, hle⟩
      · subst h0; simpa using h2
      · rw [hp, Nat.zero_add]; exact le_div_pow (by simp [e3]) hle
  · obtain ⟨hrr, hcc⟩ := heq heq'
    subst hrr hcc heq'
    rw [Nat.min_self] at hb2 hbase
    by_cases hK : K ≤ rows.log2
    · have h1' : 2 ^ K ≤ rows / 2 ^ base := le_div_pow (by omega) (by omega)
      exact ⟨by simpa using Nat.le_trans hkrK h1', by simpa using Nat.le_trans hkcK h1'⟩
    · have : base = 0 := by omega
      subst this
      exact ⟨by simpa using h1, by simpa using h2⟩
  · obtain ⟨hrr, hro⟩ := hgt hgt'
    rw [Nat.min_eq_right (by omega)] at hb2 hbase
    have e1 : K ≤ cols.log2 → K + base ≤ cols.log2 := by omega
    have e2 : ¬ K ≤ cols.log2 → base = 0 := by omega
    have e3 : rows ≠ 0 ∧ cols ≠ 0 := by omega
    obtain ⟨hs, hk⟩ := rectOf_ok hro
    subst hrr
    by_cases hK : K ≤ cols.log2
    · have h1' : 2 ^ K ≤ cols / 2 ^ base := le_div_pow (by simp [e3]) (e1 hK)
      have h2' : cols / 2 ^ base ≤ rows / 2 ^ rr / 2 ^ base := Nat.div_le_div_right hs
      rw [divadd rows]
      exact ⟨Nat.le_trans hkrK (Nat.le_trans h1' h2'), by simpa using Nat.le_trans hkcK h1'⟩
    · have := e2 hK
      subst this
      refine ⟨?_, by simpa using h2⟩
      rcases hk with h0 | ⟨p, hp, hle⟩
      · subst h0; simpa using h1
      · rw [hp, Nat.zero_add]; exact le_div_pow (by simp [e3]) hle

/-- Everything a successful MakeBlockMap establishes about one side. -/
structure SideFacts (bm : BlockMap) (side : Side) : Prop where
  pot : ∃ p, bm.kernelDims.get side = 2 ^ p
  dvd : bm.kernelDims.get side ∣ bm.dims.get side
  room : bm.kernelDims.get side ≤
    bm.dims.get side / 2 ^ (bm.baseLog2 + bm.rectLog2.get side)
  small : bm.smallBlockDims.get side = bm.kernelDims.get side *
    (bm.dims.get side / bm.kernelDims.get side / 2 ^ (bm.baseLog2 + bm.rectLog2.get side))
  large : bm.largeBlocks.get side = bm.dims.get side / bm.kernelDims.get side %
    2 ^ (bm.baseLog2 + bm.rectLog2.get side)

/-- Inversion of `makeBlockMap`. -/
theorem makeBlockMap_ok {a : Args} {bm : BlockMap} (h : makeBlockMap a = .ok bm) :
    (∀ side, SideFacts bm side) ∧
    bm.dims = ⟨a.rows, a.cols⟩ ∧ bm.kernelDims = ⟨a.kernelRows, a.kernelCols⟩ ∧
    (bm.rectLog2.lhs = 0 ∨ bm.rectLog2.rhs = 0) ∧
    2 * bm.baseLog2 + bm.rectLog2.lhs + bm.rectLog2.rhs ≤ 30 ∧
    bm.threadCount = min a.threads (2 ^ (2 * bm.baseLog2 + bm.rectLog2.lhs + bm.rectLog2.rhs)) ∧
    getTraversalOrder (a.rows / 2 ^ bm.rectLog2.lhs) (a.cols / 2 ^ bm.rectLog2.rhs) a.depth
      a.lhsSize a.rhsSize a.cache = .ok bm.order := by
  unfold makeBlockMap at h
  obtain ⟨_, h1, h⟩ := C.bind_ok h
  obtain ⟨_, h2, h⟩ := C.bind_ok h
  obtain ⟨_, h3, h⟩ := C.bind_ok h
  obtain ⟨_, h4, h⟩ := C.bind_ok h
  obtain ⟨_, h5, h⟩ := C.bind_ok h
  obtain ⟨_, h6, h⟩ := C.bind_ok h
  obtain ⟨⟨rr, cr⟩, h7, h⟩ := C.bind_ok h
  obtain ⟨kr, h8, h⟩ := C.bind_ok h
  obtain ⟨kc, h9, h⟩ := C.bind_ok h
  obtain ⟨fl, h10, h⟩ := C.bind_ok h
  obtain ⟨best, h11, h⟩ := C.bind_ok h
  obtain ⟨_, h12, h⟩ := C.bind_ok h
  obtain ⟨_, h13, h⟩ := C.bind_ok h
  obtain ⟨⟨sr, lr⟩, h14, h⟩ := C.bind_ok h
  obtain ⟨⟨sc, lc⟩, h15, h⟩ := C.bind_ok h
  obtain ⟨o, h16, h⟩ := C.bind_ok h
  obtain ⟨nb, h17, h⟩ := C.bind_ok h
  cases h
  have h1 := C.check_ok h1
  have h2 := C.check_ok h2
  have h3 := C.require_ok h3
  have h4 := C.check_ok h4
  have h5 := C.require_ok h5
  have h6 := C.check_ok h6
  have h12 := C.check_ok h12
  have h13 := C.require_ok h13
  have hkr := nPotLog2_ok h8
  have hkc := nPotLog2_ok h9
  obtain ⟨h10a, rfl⟩ := nFloorLog2_ok h10
  obtain ⟨hrc, hgt, hlt, heq⟩ := getRectangularness_ok h7
  obtain ⟨hnb, hnb2⟩ := C.int_ok h17
  obtain ⟨bst, hbst, hb1, hb2⟩ : ∃ b : Nat, best.2 = (b : Int) ∧ max kc kr ≤ b ∧
      b ≤ min (max (max kc kr) (min a.rows a.cols).log2) (max kc kr + 6) := by
    rw [show min (max (max kc kr) (min a.rows a.cols).log2) (max kc kr + 6) + 1 - max kc kr =
      (min (max (max kc kr) (min a.rows a.cols).log2) (max kc kr + 6) - max kc kr) + 1 by omega,
      List.range'_succ] at h11
    obtain ⟨c, hc, h⟩ := bestLoop_first _ _ _ h11
    refine ⟨c, h, ?_⟩
    rw [← List.range'_succ, List.mem_range'_1] at hc
    omega
  have hbase : ((max (max kc kr) (min a.rows a.cols).log2 : Nat) - best.2).toNat =
      max (max kc kr) (min a.rows a.cols).log2 - bst := by rw [hbst]; omega
  have h13' : ((max (max kc kr) (min a.rows a.cols).log2 : Nat) - best.2).toNat + rr < 32 ∧
      ((max (max kc kr) (min a.rows a.cols).log2 : Nat) - best.2).toNat + cr < 32 := h13
  generalize ((max (max kc kr) (min a.rows a.cols).log2 : Nat) - best.2).toNat = base at *
  have dr : a.kernelRows ∣ a.rows := Nat.dvd_of_mod_eq_zero h4
  have dc : a.kernelCols ∣ a.cols := Nat.dvd_of_mod_eq_zero h6
  have hN : 2 ^ (2 * base + rr + cr) < 2 ^ 31 := hnb2
  have hN30 : 2 * base + rr + cr ≤ 30 := by
    have := (Nat.pow_lt_pow_iff_right (a := 2) (by omega)).1 hN
    omega
  have room := room_of hkr hkc h1 h2 h7 hb1 (Nat.le_trans hb2 (Nat.min_le_left _ _)) hbase
  obtain ⟨s1, l1⟩ := blockSizes_ok h14 dr
  obtain ⟨s2, l2⟩ := blockSizes_ok h15 dc
  refine ⟨?_, rfl, rfl, hrc, hN30, ?_, h16⟩
  · intro side
    cases side with
    | lhs => exact ⟨⟨kr, hkr⟩, dr, room.1, s1, l1⟩
    | rhs => exact ⟨⟨kc, hkc⟩, dc, room.2, s2, l2⟩
  · rw [hnb]

/-! ### Block coordinates -/

/-- GetBlockMatrixCoords when the dimension is `k * R` with `R = N * S + L`. -/
theorem coords_eq {bm : BlockMap} {side : Side} {k S L N R b : Nat}
    (hkd : bm.kernelDims.get side = k) (hdm : bm.dims.get side = k * R)
    (hsm : bm.smallBlockDims.get side = k * S) (hlg : bm.largeBlocks.get side = L)
    (hk : 0 < k) (hS1 : 1 ≤ S) (hsum : N * S + L = R) (hLN : L < N) (hb : b < N)
    (hkR : k * R < 2 ^ 31) :
    getBlockMatrixCoords side bm b = .ok (k * (b * S + min b L), k * ((b + 1) * S + min (b + 1) L))
      ∧ k * (b * S + min b L) < k * ((b + 1) * S + min (b + 1) L) := by
  have hend : (b + 1) * S + min (b + 1) L ≤ R := by
    have : (b + 1) * S ≤ N * S := Nat.mul_le_mul_right _ hb
    omega
  have hstep : (b + 1) * S + min (b + 1) L = b * S + min b L + S + (if b < L then 1 else 0) := by
    rw [Nat.add_mul, Nat.one_mul]
    split <;> omega
  have hendk : k * ((b + 1) * S + min (b + 1) L) ≤ k * R := Nat.mul_le_mul_left _ hend
  have hstepk : k * ((b + 1) * S + min (b + 1) L) =
      k * (b * S + min b L) + k * S + (if b < L then k else 0) := by
    rw [hstep, Nat.mul_add, Nat.mul_add]
    congr 1
    split <;> simp
  have hlt : k * (b * S + min b L) < k * ((b + 1) * S + min (b + 1) L) := by
    apply Nat.mul_lt_mul_of_pos_left _ hk
    omega
  refine ⟨?_, hlt⟩
  have e1 : b * (k * S) = k * (b * S) := by rw [Nat.mul_left_comm]
  have e2 : min b L * k = k * min b L := Nat.mul_comm _ _
  have e3 := Nat.mul_add k (b * S) (min b L)
  unfold getBlockMatrixCoords
  simp only [hsm, hlg, hkd, hdm]
  rw [C.int_of (by omega), C.ok_bind, C.int_of (by omega), C.ok_bind, C.int_of (by omega),
    C.ok_bind, C.int_of (by omega), C.ok_bind, C.int_of (by omega), C.ok_bind,
    C.require_of (by omega), C.ok_bind]
  rw [show b * (k * S) + min b L * k = k * (b * S + min b L) by omega, ← hstepk]
  rw [C.check_of (Nat.mul_mod_right _ _), C.ok_bind, C.check_of (Nat.mul_mod_right _ _), C.ok_bind,
    C.check_of (by omega), C.ok_bind, C.check_of hlt, C.ok_bind]
  rfl

theorem coords_of_facts {bm : BlockMap} {side : Side} (f : SideFacts bm side)
    (hdim : bm.dims.get side < 2 ^ 31) :
    ∃ S L, (∀ b, b < 2 ^ (bm.baseLog2 + bm.rectLog2.get side) →
      getBlockMatrixCoords side bm b = .ok (bm.kernelDims.get side * (b * S + min b L),
        bm.kernelDims.get side * ((b + 1) * S + min (b + 1) L)) ∧
      bm.kernelDims.get side * (b * S + min b L) <
        bm.kernelDims.get side * ((b + 1) * S + min (b + 1) L)) ∧
      bm.kernelDims.get side * (2 ^ (bm.baseLog2 + bm.rectLog2.get side) * S +
        min (2 ^ (bm.baseLog2 + bm.rectLog2.get side)) L) = bm.dims.get side := by
  obtain ⟨⟨p, hp⟩, ⟨R, hR⟩, hroom, hsm, hlg⟩ := f
  have hk : 0 < bm.kernelDims.get side := by rw [hp]; exact Nat.two_pow_pos p
  generalize hkd : bm.kernelDims.get side = k at *
  have hn := Nat.two_pow_pos (bm.baseLog2 + bm.rectLog2.get side)
  generalize 2 ^ (bm.baseLog2 + bm.rectLog2.get side) = N at *
  have hRk : bm.dims.get side / k = R := by rw [hR]; exact Nat.mul_div_cancel_left R hk
  rw [hRk] at hsm hlg
  have hS1 : 1 ≤ R / N := by
    rw [hR, Nat.le_div_iff_mul_le hn] at hroom
    rw [Nat.le_div_iff_mul_le hn, Nat.one_mul]
    exact Nat.le_of_mul_le_mul_left hroom hk
  have hsum := Nat.div_add_mod R N
  have hLN := Nat.mod_lt R hn
  refine ⟨R / N, R % N, ?_, ?_⟩
  · intro b hb
    exact coords_eq hkd hR hsm hlg hk hS1 hsum hLN hb (by rw [← hR]; exact hdim)
  · rw [Nat.min_eq_right (by omega), hsum, hR]

end Ruy.BlockMap

import Verif.Mat.Model
import Mathlib.Tactic.Ring
/-
Closed forms of the offset functions and their arithmetic.
-/
namespace Ruy.Mat
open SizeUtil

/-! ### Plain layouts -/

/-- The offset as a number. -/
def off (l : MatLayout) (row col : Nat) : Nat :=
  match l.order with
  | .colMajor => row + col * l.stride
  | .rowMajor => row * l.stride + col

theorem offset_eq (l : MatLayout) (row col : Nat) : offset l row col = C.int (off l row col) := by
  unfold offset off
  cases l.order <;> simp

theorem offset_ok {l : MatLayout} {row col o : Nat} (h : offset l row col = .ok o) :
    o = off l row col := by
  rw [offset_eq] at h
  exact (C.int_ok h).1

theorem radix_inj {M a b x y : Nat} (hx : x < M) (hy : y < M) (h : a * M + x = b * M + y) :
    a = b ∧ x = y := by
  have hM : 0 < M := by omega
  have h1 : (a * M + x) / M = a := by
    rw [Nat.mul_comm, Nat.mul_add_div hM, Nat.div_eq_of_lt hx]; omega
  have h2 : (b * M + y) / M = b := by
    rw [Nat.mul_comm, Nat.mul_add_div hM, Nat.div_eq_of_lt hy]; omega
  have : a = b := by rw [← h1, ← h2, h]
  subst this
  exact ⟨rfl, by omega⟩

theorem radix_lt {M N a x : Nat} (hx : x < M) (ha : a < N) : a * M + x < N * M := by
  have : (a + 1) * M ≤ N * M := Nat.mul_le_mul_right M ha
  rw [Nat.add_mul] at this
  omega

/-- A layout whose stride covers the contiguous dimension. -/
def StrideOk (l : MatLayout) : Prop :=
  match l.order with
  | .colMajor => l.rows ≤ l.stride
  | .rowMajor => l.cols ≤ l.stride

theorem off_inj {l : MatLayout} (hs : StrideOk l) {r c r' c' : Nat} (hr : r < l.rows)
    (hc : c < l.cols) (hr' : r' < l.rows) (hc' : c' < l.cols) (h : off l r c = off l r' c') :
    r = r' ∧ c = c' := by
  unfold StrideOk at hs
  unfold off at h
  cases ho : l.order <;> rw [ho] at hs h <;> dsimp only at hs h
  · have := radix_inj (M := l.stride) (a := c) (b := c') (x := r) (y := r') (by omega) (by omega)
      (by omega)
    exact ⟨this.2, this.1⟩
  · exact radix_inj (M := l.stride) (by omega) (by omega) h

theorem off_lt {l : MatLayout} (hs : StrideOk l) {r c : Nat} (hr : r < l.rows)
    (hc : c < l.cols) : off l r c < flatSize l := by
  unfold StrideOk at hs
  unfold off flatSize
  cases ho : l.order <;> rw [ho] at hs <;> dsimp only at hs ⊢
  · have := radix_lt (M := l.stride) (N := l.cols) (a := c) (x := r) (by omega) hc
    rw [Nat.mul_comm l.stride]; omega
  · have := radix_lt (M := l.stride) (N := l.rows) (a := r) (x := c) (by omega) hr
    rw [Nat.mul_comm l.stride]; omega

theorem off_transpose (l : MatLayout) (r c : Nat) : off l.transpose c r = off l r c := by
  unfold off MatLayout.transpose
  cases l.order <;> simp only [Order.transpose] <;> omega

theorem offset_transpose (l : MatLayout) (r c : Nat) :
    offset l.transpose c r = offset l r c := by
  rw [offset_eq, offset_eq, off_transpose]

/-! ### Packed layouts -/

/-- Position inside a kernel block. -/
def innerOff (k : KernelLayout) (r c : Nat) : Nat :=
  match k.order with
  | .colMajor => c * k.rows + r
  | .rowMajor => r * k.cols + c

/-- The offset in a packed layout, as a number. -/
def poff (l : PMatLayout) (row col : Nat) : Nat :=
  match l.order with
  | .colMajor => (col / l.kernel.cols) * (l.kernel.cols * l.stride) +
      ((row / l.kernel.rows) * (l.kernel.rows * l.kernel.cols) +
        innerOff l.kernel (row % l.kernel.rows) (col % l.kernel.cols))
  | .rowMajor => (row / l.kernel.rows) * (l.kernel.rows * l.stride) +
      ((col / l.kernel.cols) * (l.kernel.rows * l.kernel.cols) +
        innerOff l.kernel (row % l.kernel.rows) (col % l.kernel.cols))

/-- Kernel blocks have power-of-two dimensions (static_assert, kernel.h:110-113). -/
structure KernelOk (k : KernelLayout) : Prop where
  rows : ∃ n, k.rows = 2 ^ n
  cols : ∃ n, k.cols = 2 ^ n

theorem KernelOk.rows_pos {k : KernelLayout} (h : KernelOk k) : 0 < k.rows := by
  obtain ⟨n, hn⟩ := h.rows; rw [hn]; exact Nat.two_pow_pos n
theorem KernelOk.cols_pos {k : KernelLayout} (h : KernelOk k) : 0 < k.cols := by
  obtain ⟨n, hn⟩ := h.cols; rw [hn]; exact Nat.two_pow_pos n

theorem roundDown_eq (v m : Nat) : v - v % m = v / m * m := by
  have := Nat.div_add_mod v m
  rw [Nat.mul_comm] at this
  omega

theorem poffset_eq {l : PMatLayout} (hk : KernelOk l.kernel) (row col : Nat) :
    poffset l row col = C.int (poff l row col) := by
  unfold poffset nRoundDownPot
  rw [C.check_of (nIsPot_iff.2 hk.rows), C.check_of (nIsPot_iff.2 hk.cols)]
  simp only [C.ok_bind, C.pure_eq]
  congr 1
  have e1 : row - (row - row % l.kernel.rows) = row % l.kernel.rows := by
    have := Nat.mod_le row l.kernel.rows; omega
  have e2 : col - (col - col % l.kernel.cols) = col % l.kernel.cols := by
    have := Nat.mod_le col l.kernel.cols; omega
  rw [e1, e2, roundDown_eq, roundDown_eq]
  unfold poff innerOff
  generalize row / l.kernel.rows = R
  generalize col / l.kernel.cols = K
  generalize row % l.kernel.rows = r
  generalize col % l.kernel.cols = c
  cases l.order <;> cases l.kernel.order <;>
    simp only [if_true, if_false, reduceCtorEq] <;> ring

theorem poffset_ok {l : PMatLayout} {row col o : Nat} (h : poffset l row col = .ok o) :
    KernelOk l.kernel ∧ o = poff l row col := by
  have hk : KernelOk l.kernel := by
    unfold poffset at h
    obtain ⟨_, h1, h⟩ := C.bind_ok h
    obtain ⟨_, h2, h⟩ := C.bind_ok h
    exact ⟨nIsPot_iff.1 (C.check_ok h1), nIsPot_iff.1 (C.check_ok h2)⟩
  rw [poffset_eq hk] at h
  exact ⟨hk, (C.int_ok h).1⟩

theorem innerOff_lt {k : KernelLayout} {r c : Nat} (hr : r < k.rows) (hc : c < k.cols) :
    innerOff k r c < k.rows * k.cols := by
  unfold innerOff
  cases k.order <;> dsimp only
  · rw [Nat.mul_comm k.rows]; exact radix_lt hr hc
  · exact radix_lt hc hr

theorem innerOff_inj {k : KernelLayout} {r c r' c' : Nat} (hr : r < k.rows) (hc : c < k.cols)
    (hr' : r' < k.rows) (hc' : c' < k.cols) (h : innerOff k r c = innerOff k r' c') :
    r = r' ∧ c = c' := by
  unfold innerOff at h
  cases ho : k.order <;> rw [ho] at h <;> dsimp only at h
  · exact (radix_inj hr hr' h).symm
  · exact radix_inj hc hc' h

/-- A packed layout: whole kernel blocks, stride covering the contiguous dimension. -/
structure PackedOk (l : PMatLayout) : Prop where
  kernel : KernelOk l.kernel
  rows : l.kernel.rows ∣ l.rows
  cols : l.kernel.cols ∣ l.cols
  stride : match l.order with
    | .colMajor => l.rows ≤ l.stride
    | .rowMajor => l.cols ≤ l.stride

theorem div_mul_add_le {k n x : Nat} (hd : k ∣ n) (hx : x < n) : x / k * k + k ≤ n := by
  obtain ⟨q, rfl⟩ := hd
  have hq : x / k < q := Nat.div_lt_of_lt_mul hx
  calc x / k * k + k = (x / k + 1) * k := by rw [Nat.add_mul, Nat.one_mul]
    _ ≤ q * k := Nat.mul_le_mul_right k hq
    _ = k * q := Nat.mul_comm _ _

/-- Column-major outer order: the offset within one panel of kernel.cols columns. -/
theorem panel_lt {l : PMatLayout} (h : KernelOk l.kernel) {row col : Nat}
    (hd : l.kernel.rows ∣ l.rows) (hs : l.rows ≤ l.stride) (hr : row < l.rows) :
    (row / l.kernel.rows) * (l.kernel.rows * l.kernel.cols) +
        innerOff l.kernel (row % l.kernel.rows) (col % l.kernel.cols) <
      l.kernel.cols * l.stride := by
  have h1 := innerOff_lt (k := l.kernel) (Nat.mod_lt row h.rows_pos) (Nat.mod_lt col h.cols_pos)
  have h2 := div_mul_add_le hd hr
  have h3 := Nat.mul_le_mul_left l.kernel.cols (Nat.le_trans h2 hs)
  calc _ < (row / l.kernel.rows) * (l.kernel.rows * l.kernel.cols) +
        l.kernel.rows * l.kernel.cols := by omega
    _ = l.kernel.cols * (row / l.kernel.rows * l.kernel.rows + l.kernel.rows) := by ring
    _ ≤ _ := h3

theorem panel_lt' {l : PMatLayout} (h : KernelOk l.kernel) {row col : Nat}
    (hd : l.kernel.cols ∣ l.cols) (hs : l.cols ≤ l.stride) (hc : col < l.cols) :
    (col / l.kernel.cols) * (l.kernel.rows * l.kernel.cols) +
        innerOff l.kernel (row % l.kernel.rows) (col % l.kernel.cols) <
      l.kernel.rows * l.stride := by
  have h1 := innerOff_lt (k := l.kernel) (Nat.mod_lt row h.rows_pos) (Nat.mod_lt col h.cols_pos)
  have h2 := div_mul_add_le hd hc
  have h3 := Nat.mul_le_mul_left l.kernel.rows (Nat.le_trans h2 hs)
  calc _ < (col / l.kernel.cols) * (l.kernel.rows * l.kernel.cols) +
        l.kernel.rows * l.kernel.cols := by omega
    _ = l.kernel.rows * (col / l.kernel.cols * l.kernel.cols + l.kernel.cols) := by ring
    _ ≤ _ := h3

theorem eq_of_div_mod {k x y : Nat} (h1 : x / k = y / k) (h2 : x % k = y % k) : x = y := by
  rw [← Nat.div_add_mod x k, ← Nat.div_add_mod y k, h1, h2]

theorem poff_inj {l : PMatLayout} (h : PackedOk l) {r c r' c' : Nat} (hr : r < l.rows)
    (hc : c < l.cols) (hr' : r' < l.rows) (hc' : c' < l.cols) (he : poff l r c = poff l r' c') :
    r = r' ∧ c = c' := by
  have hs := h.stride
  have hk := h.kernel
  unfold poff at he
  cases ho : l.order <;> rw [ho] at hs he <;> dsimp only at hs he
  · obtain ⟨e1, e2⟩ := radix_inj (panel_lt hk h.rows hs hr) (panel_lt hk h.rows hs hr') he
    obtain ⟨e3, e4⟩ := radix_inj
      (innerOff_lt (Nat.mod_lt r hk.rows_pos) (Nat.mod_lt c hk.cols_pos))
      (innerOff_lt (Nat.mod_lt r' hk.rows_pos) (Nat.mod_lt c' hk.cols_pos)) e2
    obtain ⟨e5, e6⟩ := innerOff_inj (Nat.mod_lt _ hk.rows_pos) (Nat.mod_lt _ hk.cols_pos)
      (Nat.mod_lt _ hk.rows_pos) (Nat.mod_lt _ hk.cols_pos) e4
    exact ⟨eq_of_div_mod e3 e5, eq_of_div_mod e1 e6⟩
  · obtain ⟨e1, e2⟩ := radix_inj (panel_lt' hk h.cols hs hc) (panel_lt' hk h.cols hs hc') he
    obtain ⟨e3, e4⟩ := radix_inj
      (innerOff_lt (Nat.mod_lt r hk.rows_pos) (Nat.mod_lt c hk.cols_pos))
      (innerOff_lt (Nat.mod_lt r' hk.rows_pos) (Nat.mod_lt c' hk.cols_pos)) e2
    obtain ⟨e5, e6⟩ := innerOff_inj (Nat.mod_lt _ hk.rows_pos) (Nat.mod_lt _ hk.cols_pos)
      (Nat.mod_lt _ hk.rows_pos) (Nat.mod_lt _ hk.cols_pos) e4
    exact ⟨eq_of_div_mod e1 e5, eq_of_div_mod e3 e6⟩

theorem poff_lt {l : PMatLayout} (h : PackedOk l) {r c : Nat} (hr : r < l.rows)
    (hc : c < l.cols) : poff l r c < pflatSize l := by
  have hs := h.stride
  have hk := h.kernel
  unfold poff pflatSize
  cases ho : l.order <;> rw [ho] at hs <;> dsimp only at hs ⊢
  · have h1 := panel_lt (col := c) hk h.rows hs hr
    have h2 := Nat.mul_le_mul_left l.stride (div_mul_add_le h.cols hc)
    calc _ < (c / l.kernel.cols) * (l.kernel.cols * l.stride) + l.kernel.cols * l.stride := by omega
      _ = l.stride * (c / l.kernel.cols * l.kernel.cols + l.kernel.cols) := by ring
      _ ≤ _ := h2
  · have h1 := panel_lt' (row := r) hk h.cols hs hc
    have h2 := Nat.mul_le_mul_left l.stride (div_mul_add_le h.rows hr)
    calc _ < (r / l.kernel.rows) * (l.kernel.rows * l.stride) + l.kernel.rows * l.stride := by omega
      _ = l.stride * (r / l.kernel.rows * l.kernel.rows + l.kernel.rows) := by ring
      _ ≤ _ := h2

theorem innerOff_surj {k : KernelLayout} {i : Nat} (hi : i < k.rows * k.cols) :
    ∃ r c, r < k.rows ∧ c < k.cols ∧ innerOff k r c = i := by
  have hr : 0 < k.rows := by rcases Nat.eq_zero_or_pos k.rows with h | h; simp [h] at hi; exact h
  have hc : 0 < k.cols := by rcases Nat.eq_zero_or_pos k.cols with h | h; simp [h] at hi; exact h
  unfold innerOff
  cases k.order <;> dsimp only
  · exact ⟨i % k.rows, i / k.rows, Nat.mod_lt _ hr, Nat.div_lt_of_lt_mul hi, by
      rw [Nat.mul_comm]; exact Nat.div_add_mod i k.rows⟩
  · exact ⟨i / k.cols, i % k.cols, Nat.div_lt_of_lt_mul (by rwa [Nat.mul_comm]), Nat.mod_lt _ hc, by
      rw [Nat.mul_comm]; exact Nat.div_add_mod i k.cols⟩

/-- The packed layouts made by CreatePackedLayout are filled without gaps. -/
theorem poff_surj {l : PMatLayout} (h : PackedOk l) (ho : l.order = .colMajor)
    (hst : l.stride = l.rows) {o : Nat} (hlt : o < pflatSize l) :
    ∃ r c, r < l.rows ∧ c < l.cols ∧ poff l r c = o := by
  have hk := h.kernel
  have hkr := hk.rows_pos
  have hkc := hk.cols_pos
  obtain ⟨nr, hnr⟩ := h.rows
  obtain ⟨nc, hnc⟩ := h.cols
  unfold pflatSize at hlt
  rw [ho] at hlt
  dsimp only at hlt
  rw [hst, hnc] at hlt
  have hP : 0 < l.kernel.cols * l.rows := by
    rcases Nat.eq_zero_or_pos l.rows with h0 | h0
    · rw [h0] at hlt; omega
    · exact Nat.mul_pos hkc h0
  have hpan : o % (l.kernel.cols * l.rows) < nr * (l.kernel.rows * l.kernel.cols) := by
    have := Nat.mod_lt o hP
    calc _ < l.kernel.cols * l.rows := this
      _ = nr * (l.kernel.rows * l.kernel.cols) := by rw [hnr]; ring
  have hB : 0 < l.kernel.rows * l.kernel.cols := Nat.mul_pos hkr hkc
  obtain ⟨r, c, hr, hc, hin⟩ := innerOff_surj
    (Nat.mod_lt (o % (l.kernel.cols * l.rows)) hB)
  have hR : o % (l.kernel.cols * l.rows) / (l.kernel.rows * l.kernel.cols) < nr :=
    Nat.div_lt_of_lt_mul (by rwa [Nat.mul_comm (l.kernel.rows * l.kernel.cols)])
  have hC : o / (l.kernel.cols * l.rows) < nc :=
    Nat.div_lt_of_lt_mul (by
      calc o < l.rows * (l.kernel.cols * nc) := hlt
        _ = _ := by ring)
  have dm : ∀ a b k : Nat, 0 < k → b < k → (a * k + b) / k = a ∧ (a * k + b) % k = b := by
    intro a b k hk hb
    constructor
    · rw [Nat.mul_comm, Nat.mul_add_div hk, Nat.div_eq_of_lt hb]; omega
    · rw [Nat.mul_comm, Nat.mul_add_mod]; exact Nat.mod_eq_of_lt hb
  obtain ⟨q1, q2⟩ := dm (o % (l.kernel.cols * l.rows) / (l.kernel.rows * l.kernel.cols)) r _ hkr hr
  obtain ⟨q3, q4⟩ := dm (o / (l.kernel.cols * l.rows)) c _ hkc hc
  refine ⟨o % (l.kernel.cols * l.rows) / (l.kernel.rows * l.kernel.cols) * l.kernel.rows + r,
    o / (l.kernel.cols * l.rows) * l.kernel.cols + c, ?_, ?_, ?_⟩
  · have := radix_lt hr hR
    rw [Nat.mul_comm nr, ← hnr] at this
    exact this
  · rw [hnc, Nat.mul_comm l.kernel.cols nc]
    exact radix_lt hc hC
  · unfold poff
    rw [ho]
    dsimp only
    rw [q1, q2, q3, q4, hin, hst, Nat.mul_comm (_ / (l.kernel.rows * l.kernel.cols)),
      Nat.div_add_mod, Nat.mul_comm (o / _), Nat.div_add_mod]

/-! ### CreatePackedLayout -/

theorem nRoundUpPot_ge {v m r : Nat} (h : nRoundUpPot v m = .ok r) :
    (∃ k, m = 2 ^ k) ∧ v ≤ r ∧ r < v + m ∧ m ∣ r ∧ v + m < 2 ^ 31 := by
  unfold nRoundUpPot at h
  obtain ⟨s, hs, h⟩ := C.bind_ok h
  obtain ⟨rfl, hlt⟩ := C.int_ok hs
  unfold nRoundDownPot at h
  obtain ⟨_, h1, h⟩ := C.bind_ok h
  obtain ⟨k, hk⟩ := nIsPot_iff.1 (C.check_ok h1)
  cases h
  have hp : 0 < m := by rw [hk]; exact Nat.two_pow_pos k
  have := Nat.mod_lt (v + m - 1) hp
  refine ⟨⟨k, hk⟩, by omega, by omega, Nat.dvd_sub_mod _, hlt⟩

theorem nRoundUpPot_total {v k : Nat} (h : v + 2 ^ k < 2 ^ 31) :
    ∃ r, nRoundUpPot v (2 ^ k) = .ok r := by
  unfold nRoundUpPot nRoundDownPot
  rw [C.int_of h, C.ok_bind, C.check_of (nIsPot_iff.2 ⟨k, rfl⟩)]
  exact ⟨_, rfl⟩

theorem createPackedLayout_ok {src : MatLayout} {k : KernelLayout} {l : PMatLayout}
    (h : createPackedLayout src k = .ok l) :
    PackedOk l ∧ l.order = .colMajor ∧ l.stride = l.rows ∧ l.kernel = k ∧
      src.rows ≤ l.rows ∧ l.rows < src.rows + k.rows ∧
      src.cols ≤ l.cols ∧ l.cols < src.cols + k.cols := by
  unfold createPackedLayout at h
  obtain ⟨r, hr, h⟩ := C.bind_ok h
  obtain ⟨c, hc, h⟩ := C.bind_ok h
  cases h
  obtain ⟨p1, a1, a2, a3, _⟩ := nRoundUpPot_ge hr
  obtain ⟨p2, b1, b2, b3, _⟩ := nRoundUpPot_ge hc
  exact ⟨⟨⟨p1, p2⟩, a3, b3, Nat.le_refl _⟩, rfl, rfl, rfl, a1, a2, b1, b2⟩

end Ruy.Mat

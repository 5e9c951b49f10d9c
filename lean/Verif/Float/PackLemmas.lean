import Verif.Float.Model
import Verif.Mul.Total
import Verif.Mul.Value
/-
What the memcpy-based float packing does to the packed data.
-/
namespace Ruy.Float
open Ruy.Mat Ruy.Mul Ruy.Front

variable {A : Type}

theorem memcpy_ok {n s d : Nat} {src dst dst' : Buf A} (h : memcpy n src s dst d = .ok dst') :
    dst'.size = dst.size ∧ (∀ i, i < n → dst'.val (d + i) = src.val (s + i)) ∧
      (∀ o, (∀ i, i < n → o ≠ d + i) → dst'.val o = dst.val o) := by
  unfold memcpy at h
  refine forUpTo_inv (P := fun n (b : Buf A) => b.size = dst.size ∧
    (∀ i, i < n → b.val (d + i) = src.val (s + i)) ∧
      (∀ o, (∀ i, i < n → o ≠ d + i) → b.val o = dst.val o))
    ⟨rfl, fun i hi => absurd hi (by omega), fun _ _ => rfl⟩ ?_ h
  rintro k t t' _ ⟨i1, i2, i3⟩ hstep
  obtain ⟨x, hx, hstep⟩ := C.bind_ok hstep
  obtain ⟨_, hx⟩ := Buf.read_ok hx
  obtain ⟨w1, w2, w3, w4⟩ := Buf.write_ok hstep
  refine ⟨w2.trans i1, fun i hi => ?_, fun o ho => ?_⟩
  · by_cases hik : i = k
    · subst hik; rw [w3, hx]
    · rw [w4 _ (by omega)]; exact i2 i (by omega)
  · rw [w4 _ (ho k (by omega))]
    exact i3 o (fun i hi => ho i (by omega))

theorem memset_ok {z : A} {n d : Nat} {dst dst' : Buf A} (h : memset z n dst d = .ok dst') :
    dst'.size = dst.size ∧ (∀ i, i < n → dst'.val (d + i) = z) ∧
      (∀ o, (∀ i, i < n → o ≠ d + i) → dst'.val o = dst.val o) := by
  unfold memset at h
  refine forUpTo_inv (P := fun n (b : Buf A) => b.size = dst.size ∧
    (∀ i, i < n → b.val (d + i) = z) ∧
      (∀ o, (∀ i, i < n → o ≠ d + i) → b.val o = dst.val o))
    ⟨rfl, fun i hi => absurd hi (by omega), fun _ _ => rfl⟩ ?_ h
  rintro k t t' _ ⟨i1, i2, i3⟩ hstep
  obtain ⟨w1, w2, w3, w4⟩ := Buf.write_ok hstep
  refine ⟨w2.trans i1, fun i hi => ?_, fun o ho => ?_⟩
  · by_cases hik : i = k
    · subst hik; rw [w3]
    · rw [w4 _ (by omega)]; exact i2 i (by omega)
  · rw [w4 _ (ho k (by omega))]
    exact i3 o (fun i hi => ho i (by omega))

theorem memcpy_total {n s d : Nat} {src dst : Buf A} (hs : s + n ≤ src.size) (hd : d + n ≤ dst.size) :
    ∃ dst', memcpy n src s dst d = .ok dst' := by
  unfold memcpy
  obtain ⟨t, h, _⟩ := forUpTo_total (n := n) (s := dst)
    (body := fun i b => do
      let x ← src.read (s + i)
      b.write (d + i) x) (fun _ b => b.size = dst.size) rfl
    (by
      intro i t hi ht
      rw [Buf.read_of (show s + i < src.size by omega), C.ok_bind]
      obtain ⟨t', h'⟩ := Buf.write_of (b := t) (x := src.val (s + i)) (show d + i < t.size by omega)
      exact ⟨t', h', (Buf.write_ok h').2.1.trans ht⟩)
  exact ⟨t, h⟩

theorem memset_total {z : A} {n d : Nat} {dst : Buf A} (hd : d + n ≤ dst.size) :
    ∃ dst', memset z n dst d = .ok dst' := by
  unfold memset
  obtain ⟨t, h, _⟩ := forUpTo_total (n := n) (s := dst)
    (body := fun i b => b.write (d + i) z) (fun _ b => b.size = dst.size) rfl
    (by
      intro i t hi ht
      obtain ⟨t', h'⟩ := Buf.write_of (b := t) (x := z) (show d + i < t.size by omega)
      exact ⟨t', h', (Buf.write_ok h').2.1.trans ht⟩)
  exact ⟨t, h⟩

/-- Offsets in a packed matrix of 1 × kcols row-major kernel blocks. -/
theorem poff_row (l : PMatLayout) (ho : l.order = .colMajor) {k : Nat}
    (hk : l.kernel = ⟨.rowMajor, 1, k⟩) (r c : Nat) :
    poff l r c = (c / k) * (k * l.stride) + (k * r + c % k) := by
  unfold poff innerOff
  rw [ho, hk]
  simp only [Nat.div_one, Nat.mod_one, Nat.one_mul, Nat.zero_mul, Nat.zero_add]
  rw [Nat.mul_comm r k]

/-- A value copied by the row loop: the source element, or zero beyond the source's columns. -/
def rowVal (z : A) (src : Mul.Mat A) (r c : Nat) : A :=
  if c < src.layout.cols then src.at r c else z

/-- Everything the packing relies on. -/
structure Fits (kcols : Nat) (src : Mul.Mat A) (l : PMatLayout) (lo hi : Nat) : Prop where
  ord : src.layout.order = .rowMajor
  layout : createPackedLayout src.layout ⟨.rowMajor, 1, kcols⟩ = .ok l
  dlo : kcols ∣ lo
  dhi : kcols ∣ hi
  hic : hi ≤ l.cols

section
variable {kcols : Nat} {src : Mul.Mat A} {l : PMatLayout} {lo hi : Nat}

theorem Fits.pos (h : Fits kcols src l lo hi) : 0 < kcols := by
  obtain ⟨hp, _, _, hk, _⟩ := createPackedLayout_ok h.layout
  have := hp.kernel.cols_pos
  rw [hk] at this; exact this

theorem Fits.rows (h : Fits kcols src l lo hi) : l.rows = src.layout.rows := by
  obtain ⟨_, _, _, _, h1, h2, _⟩ := createPackedLayout_ok h.layout
  change l.rows < src.layout.rows + 1 at h2
  omega

theorem Fits.poff (h : Fits kcols src l lo hi) (r c : Nat) :
    poff l r c = (c / kcols) * (kcols * l.stride) + (kcols * r + c % kcols) := by
  obtain ⟨_, ho, _, hk, _⟩ := createPackedLayout_ok h.layout
  exact poff_row l ho hk r c

theorem Fits.at (h : Fits kcols src l lo hi) (r c : Nat) :
    src.at r c = src.data.val (src.layout.stride * r + c) := by
  unfold Mat.at Mat.off
  rw [h.ord]
  dsimp only
  congr 1
  ring

theorem div_block {k a i : Nat} (hk : 0 < k) (hi : i < k) : (a * k + i) / k = a ∧ (a * k + i) % k = i := by
  constructor
  · rw [Nat.mul_comm, Nat.mul_add_div hk, Nat.div_eq_of_lt hi, Nat.add_zero]
  · rw [Nat.mul_comm, Nat.mul_add_mod, Nat.mod_eq_of_lt hi]

/-- Effect of one iteration of the row loop. -/
theorem memcpyRow_ok (h : Fits kcols src l lo hi) {z : A} {r : Nat} {b b' : Buf A}
    (hrr : r < src.layout.rows) (hr : memcpyRow z kcols src l lo hi r b = .ok b') :
    b'.size = b.size ∧ (∀ c, lo ≤ c → c < hi → b'.val (poff l r c) = rowVal z src r c) ∧
      (∀ o, (∀ c, lo ≤ c → c < hi → o ≠ poff l r c) → b'.val o = b.val o) := by
  have hk := h.pos
  obtain ⟨a, ha⟩ := h.dlo
  obtain ⟨e, he⟩ := h.dhi
  have hic := h.hic
  obtain ⟨hp, ho, hst, hkl, _, _, hc1, hc2⟩ := createPackedLayout_ok h.layout
  change l.cols < src.layout.cols + kcols at hc2
  have hlr : r < l.rows := by rw [h.rows]; exact hrr
  unfold memcpyRow at hr
  obtain ⟨s0, h1, hr⟩ := C.bind_ok hr
  obtain ⟨d0, h2, hr⟩ := C.bind_ok hr
  obtain ⟨d1, h3, hr⟩ := C.bind_ok hr
  obtain ⟨step, h4, hr⟩ := C.bind_ok hr
  obtain ⟨rfl, _⟩ := C.int_ok h1
  obtain ⟨rfl, _⟩ := C.int_ok h2
  obtain ⟨rfl, _⟩ := C.int_ok h3
  obtain ⟨rfl, _⟩ := C.int_ok h4
  dsimp only at hr
  obtain ⟨b1, hb1, hr⟩ := C.bind_ok hr
  generalize hn : (min hi src.layout.cols - lo) = n at hb1 hr
  -- position of the i-th element of the m-th block
  have pos : ∀ m i, i < kcols → poff l r (lo + (m * kcols + i)) =
      l.stride * lo + kcols * r + m * (kcols * l.stride) + i := by
    intro m i hi'
    rw [h.poff]
    have : lo + (m * kcols + i) = (a + m) * kcols + i := by rw [ha]; ring
    rw [this, (div_block hk hi').1, (div_block hk hi').2, ha]
    ring
  have spos : ∀ m i, src.data.val (src.layout.stride * r + lo + m * kcols + i) =
      src.at r (lo + (m * kcols + i)) := fun m i => by
    rw [h.at]; congr 1; ring
  have inj : ∀ c c', lo + c < l.cols → lo + c' < l.cols →
      poff l r (lo + c) = poff l r (lo + c') → c = c' := fun c c' h1 h2 e => by
    have := (poff_inj hp hlr h1 hlr h2 e).2
    omega
  have hndm : n / kcols * kcols + n % kcols = n := by
    rw [Nat.mul_comm]; exact Nat.div_add_mod n kcols
  have hmlt := Nat.mod_lt n hk
  -- the whole blocks
  obtain ⟨f1, f2, f3⟩ := forUpTo_inv (P := fun m (t : Buf A) => t.size = b.size ∧
      (∀ c, c < m * kcols → t.val (poff l r (lo + c)) = src.at r (lo + c)) ∧
      (∀ o, (∀ c, c < m * kcols → o ≠ poff l r (lo + c)) → t.val o = b.val o))
    (s := b) (s' := b1)
    ⟨rfl, fun c hc => absurd hc (by omega), fun _ _ => rfl⟩
    (by
      rintro m t t' hm ⟨i1, i2, i3⟩ hs
      obtain ⟨m1, m2, m3⟩ := memcpy_ok hs
      have hle : (m + 1) * kcols ≤ n / kcols * kcols := Nat.mul_le_mul_right _ hm
      have e1 : (m + 1) * kcols = m * kcols + kcols := by ring
      refine ⟨m1.trans i1, fun c hc => ?_, fun o hoo => ?_⟩
      · by_cases hcm : c < m * kcols
        · rw [m3 _ (fun i hi' e => ?_)]
          · exact i2 c hcm
          · rw [← pos m i hi'] at e
            have := inj _ _ (by omega) (by omega) e
            omega
        · obtain ⟨i, rfl⟩ : ∃ i, c = m * kcols + i := ⟨c - m * kcols, by omega⟩
          rw [pos m i (by omega), m2 i (by omega), spos]
      · rw [m3 _ (fun i hi' => ?_)]
        · exact i3 o (fun c hc => hoo c (by omega))
        · rw [← pos m i hi']; exact hoo _ (by omega))
    hb1
  -- the remaining columns
  unfold memcpyTail at hr
  have hrem : n - n / kcols * kcols = n % kcols := by omega
  rw [hrem] at hr
  split at hr
  · rename_i hpos
    obtain ⟨b2, hb2, hr⟩ := C.bind_ok hr
    obtain ⟨m1, m2, m3⟩ := memcpy_ok hb2
    obtain ⟨z1, z2, z3⟩ := memset_ok hr
    -- there are remaining columns, so the range ends beyond the source
    have hend : src.layout.cols < hi ∧ lo ≤ src.layout.cols ∧ hi = lo + (n / kcols * kcols + kcols) := by
      have hlt : src.layout.cols < hi := by
        by_contra hge
        have : n = hi - lo := by omega
        have hd : kcols ∣ n := by rw [this]; exact Nat.dvd_sub h.dhi h.dlo
        have := Nat.mod_eq_zero_of_dvd hd
        omega
      refine ⟨hlt, by omega, ?_⟩
      have hcc : kcols ∣ hi - lo := Nat.dvd_sub h.dhi h.dlo
      obtain ⟨q, hq⟩ := hcc
      have hnn : n = src.layout.cols - lo := by omega
      have hq1 : hi - lo < n + kcols := by omega
      have hq2 : n < hi - lo := by omega
      have hqe : q = n / kcols + 1 := by
        have h1 : n / kcols < q := by
          rw [Nat.div_lt_iff_lt_mul hk, Nat.mul_comm, ← hq]; exact hq2
        have h2 : q < n / kcols + 2 := by
          by_contra hge
          have : kcols * (n / kcols + 2) ≤ kcols * q := Nat.mul_le_mul_left _ (by omega)
          have e3 : kcols * (n / kcols + 2) = n / kcols * kcols + 2 * kcols := by ring
          omega
        omega
      have : hi - lo = n / kcols * kcols + kcols := by rw [hq, hqe]; ring
      omega
    obtain ⟨hlt, hle, hhi⟩ := hend
    refine ⟨z1.trans (m1.trans f1), fun c hc1' hc2' => ?_, fun o hoo => ?_⟩
    · obtain ⟨c', rfl⟩ : ∃ c', c = lo + c' := ⟨c - lo, by omega⟩
      by_cases hcn : c' < n / kcols * kcols
      · rw [z3 _ (fun i hi' e => ?_), m3 _ (fun i hi' e => ?_), f2 c' hcn]
        · unfold rowVal; rw [if_pos (by omega)]
        · rw [← pos _ i (by omega)] at e
          have := inj _ _ (by omega) (by omega) e
          omega
        · rw [Nat.add_assoc, ← pos _ _ (by omega)] at e
          have := inj _ _ (by omega) (by omega) e
          omega
      · obtain ⟨i, rfl⟩ : ∃ i, c' = n / kcols * kcols + i := ⟨c' - n / kcols * kcols, by omega⟩
        by_cases hin : i < n % kcols
        · rw [z3 _ (fun i' hi' e => ?_), pos _ i (by omega), m2 i hin, spos]
          · unfold rowVal; rw [if_pos (by omega)]
          · rw [Nat.add_assoc, ← pos _ _ (by omega)] at e
            have := inj _ _ (by omega) (by omega) e
            omega
        · have := z2 (i - n % kcols) (by omega)
          rw [pos _ i (by omega)]
          have e4 : l.stride * lo + kcols * r + n / kcols * (kcols * l.stride) + i =
              l.stride * lo + kcols * r + n / kcols * (kcols * l.stride) + n % kcols + (i - n % kcols) := by
            omega
          rw [e4, this]
          unfold rowVal; rw [if_neg (by omega)]
    · rw [z3 _ (fun i hi' e => ?_), m3 _ (fun i hi' e => ?_), f3 o (fun c hc => ?_)]
      · exact hoo _ (by omega) (by omega)
      · rw [← pos _ i (by omega)] at e
        exact hoo _ (by omega) (by omega) e
      · rw [Nat.add_assoc, ← pos _ _ (by omega)] at e
        exact hoo _ (by omega) (by omega) e
  · rename_i hpos
    cases hr
    have hend : lo ≤ hi → hi ≤ src.layout.cols ∨ n = 0 ∧ src.layout.cols ≤ lo ∨
        src.layout.cols ≤ hi ∧ n = src.layout.cols - lo := by omega
    -- a whole number of blocks, so the range ends within the source
    have hin : ∀ c, lo ≤ c → c < hi → c - lo < n / kcols * kcols ∧ c < src.layout.cols := by
      intro c h1 h2
      have hn0 : n % kcols = 0 := by omega
      by_cases hle : hi ≤ src.layout.cols
      · omega
      · exfalso
        -- then src.cols is a multiple of kcols that is not the packed width
        have : n = src.layout.cols - lo := by omega
        have hd : kcols ∣ hi - lo := Nat.dvd_sub h.dhi h.dlo
        obtain ⟨q, hq⟩ := hd
        have hq1 : hi - lo < n + kcols ∨ src.layout.cols < lo := by omega
        have hn' : n = kcols * (n / kcols) := by rw [Nat.mul_comm]; omega
        rcases hq1 with hq1 | hq1
        · have hlt : kcols * (n / kcols) < kcols * q := by omega
          have hlt' := Nat.lt_of_mul_lt_mul_left hlt
          have : kcols * (n / kcols + 1) ≤ kcols * q := Nat.mul_le_mul_left _ hlt'
          have e3 : kcols * (n / kcols + 1) = kcols * (n / kcols) + kcols := by ring
          omega
        · have hlt : kcols * a < kcols * e := by omega
          have hlt' := Nat.lt_of_mul_lt_mul_left hlt
          have : kcols * (a + 1) ≤ kcols * e := Nat.mul_le_mul_left _ hlt'
          have e3 : kcols * (a + 1) = kcols * a + kcols := by ring
          omega
    refine ⟨f1, fun c h1 h2 => ?_, fun o hoo => f3 o (fun c hc => hoo _ (by omega) ?_)⟩
    · obtain ⟨g1, g2⟩ := hin c h1 h2
      have := f2 (c - lo) g1
      rw [show lo + (c - lo) = c by omega] at this
      rw [this]
      unfold rowVal; rw [if_pos g2]
    · have : n ≤ hi - lo := by omega
      omega

/-- Effect of the memcpy-based packing. -/
theorem memcpyPack_ok {z : A} {p q : PMat A} (h : Fits kcols src p.layout lo hi)
    (hr : memcpyPack z kcols src lo hi p = .ok q) :
    q.layout = p.layout ∧ q.zp = p.zp ∧ q.sums = p.sums ∧ q.data.size = p.data.size ∧
      (∀ r c, r < src.layout.rows → lo ≤ c → c < hi →
        q.data.val (poff p.layout r c) = rowVal z src r c) ∧
      (∀ o, (∀ r c, r < src.layout.rows → lo ≤ c → c < hi → o ≠ poff p.layout r c) →
        q.data.val o = p.data.val o) := by
  unfold memcpyPack at hr
  obtain ⟨_, _, hr⟩ := C.bind_ok hr
  obtain ⟨_, _, hr⟩ := C.bind_ok hr
  obtain ⟨_, _, hr⟩ := C.bind_ok hr
  obtain ⟨d, hd, hr⟩ := C.bind_ok hr
  cases hr
  have hp := (createPackedLayout_ok h.layout).1
  have hic := h.hic
  have hrows := h.rows
  obtain ⟨i1, i2, i3⟩ := forUpTo_inv (P := fun n (t : Buf A) => t.size = p.data.size ∧
      (∀ r c, r < n → lo ≤ c → c < hi → t.val (poff p.layout r c) = rowVal z src r c) ∧
      (∀ o, (∀ r c, r < n → lo ≤ c → c < hi → o ≠ poff p.layout r c) → t.val o = p.data.val o))
    (s := p.data) (s' := d)
    ⟨rfl, fun r c hr => absurd hr (by omega), fun _ _ => rfl⟩
    (by
      rintro n t t' hn ⟨i1, i2, i3⟩ hs
      obtain ⟨m1, m2, m3⟩ := memcpyRow_ok h hn hs
      refine ⟨m1.trans i1, fun r c hr h1 h2 => ?_, fun o ho => ?_⟩
      · by_cases hrn : r = n
        · subst hrn; exact m2 c h1 h2
        · rw [m3 _ (fun c' h1' h2' e => ?_)]
          · exact i2 r c (by omega) h1 h2
          · have := (poff_inj hp (by omega) (by omega) (by omega) (by omega) e).1
            omega
      · rw [m3 _ (fun c h1 h2 => ho n c (by omega) h1 h2)]
        exact i3 o (fun r c hr => ho r c (by omega)))
    hd
  exact ⟨rfl, rfl, rfl, i1, i2, i3⟩

theorem memcpyRow_total (h : Fits kcols src l lo hi) {z : A} {r : Nat} {b : Buf A}
    (hrr : r < src.layout.rows) (hlohi : lo < hi) (hint : pflatSize l < 2 ^ 31)
    (hsz : pflatSize l ≤ b.size) (hsrc : DFits src) :
    ∃ b', memcpyRow z kcols src l lo hi r b = .ok b' := by
  have hk := h.pos
  obtain ⟨a, ha⟩ := h.dlo
  have hic := h.hic
  obtain ⟨hp, ho, hst, hkl, _, _, hc1, hc2⟩ := createPackedLayout_ok h.layout
  change l.cols < src.layout.cols + kcols at hc2
  have hlr : r < l.rows := by rw [h.rows]; exact hrr
  have hdl : kcols ∣ hi - lo := Nat.dvd_sub h.dhi h.dlo
  have hkhi : lo + kcols ≤ hi := by
    have := Nat.le_of_dvd (by omega) hdl
    omega
  have hloc : lo < src.layout.cols := by
    have hcd : kcols ∣ l.cols := by have := hp.cols; rw [hkl] at this; exact this
    have hd2 : kcols ∣ l.cols - lo := Nat.dvd_sub hcd h.dlo
    have := Nat.le_of_dvd (by omega) hd2
    omega
  have pos : ∀ m i, i < kcols → poff l r (lo + (m * kcols + i)) =
      l.stride * lo + kcols * r + m * (kcols * l.stride) + i := by
    intro m i hi'
    rw [h.poff]
    have : lo + (m * kcols + i) = (a + m) * kcols + i := by rw [ha]; ring
    rw [this, (div_block hk hi').1, (div_block hk hi').2, ha]
    ring
  have hoff : ∀ c, off src.layout r c = src.layout.stride * r + c := fun c => by
    unfold off
    rw [h.ord]
    dsimp only
    ring
  have hflat : pflatSize l = l.stride * l.cols := by unfold pflatSize; rw [ho]
  -- the four int products
  have e1 : src.layout.stride * r < 2 ^ 31 := by
    have := (hsrc r lo hrr hloc).1
    rw [hoff] at this; omega
  have e2 : l.stride * lo < 2 ^ 31 := by
    have : l.stride * lo ≤ l.stride * l.cols := Nat.mul_le_mul_left _ (by omega)
    omega
  have e4 : kcols * l.stride < 2 ^ 31 := by
    have : l.stride * kcols ≤ l.stride * l.cols := Nat.mul_le_mul_left _ (by omega)
    rw [Nat.mul_comm] at this
    omega
  have e3 : kcols * r < 2 ^ 31 := by
    have : kcols * r ≤ kcols * l.stride := Nat.mul_le_mul_left _ (by omega)
    omega
  unfold memcpyRow
  rw [C.int_of e1, C.ok_bind, C.int_of e2, C.ok_bind, C.int_of e3, C.ok_bind, C.int_of e4, C.ok_bind]
  dsimp only
  generalize hn : (min hi src.layout.cols - lo) = n
  have hndm : n / kcols * kcols + n % kcols = n := by
    rw [Nat.mul_comm]; exact Nat.div_add_mod n kcols
  have hmlt := Nat.mod_lt n hk
  obtain ⟨b1, hb1, hs1⟩ := forUpTo_total (n := n / kcols) (s := b)
    (body := fun i b => memcpy kcols src.data (src.layout.stride * r + lo + i * kcols) b
      (l.stride * lo + kcols * r + i * (kcols * l.stride))) (fun _ t => t.size = b.size) rfl
    (by
      intro m t hm ht
      have hle : (m + 1) * kcols ≤ n / kcols * kcols := Nat.mul_le_mul_right _ hm
      have q1 : (m + 1) * kcols = m * kcols + kcols := by ring
      have q2 := poff_lt hp hlr (show lo + (m * kcols + (kcols - 1)) < l.cols by omega)
      rw [pos m _ (by omega)] at q2
      have q3 := (hsrc r (lo + (m * kcols + (kcols - 1))) hrr (by omega)).2
      rw [hoff] at q3
      obtain ⟨t', ht'⟩ := memcpy_total (n := kcols) (src := src.data) (dst := t)
        (s := src.layout.stride * r + lo + m * kcols)
        (d := l.stride * lo + kcols * r + m * (kcols * l.stride)) (by omega) (by omega)
      exact ⟨t', ht', (memcpy_ok ht').1.trans ht⟩)
  rw [hb1, C.ok_bind]
  unfold memcpyTail
  have hrem : n - n / kcols * kcols = n % kcols := by omega
  rw [hrem]
  split
  · rename_i hpos
    have q2 := poff_lt hp hlr (show lo + (n / kcols * kcols + (kcols - 1)) < l.cols by
      -- the block of the last source column lies within the packed matrix
      have hcd : kcols ∣ l.cols := by have := hp.cols; rw [hkl] at this; exact this
      have hd2 : kcols ∣ l.cols - lo := Nat.dvd_sub hcd h.dlo
      obtain ⟨q, hq⟩ := hd2
      have hlt : n / kcols < q := by
        have : kcols * (n / kcols) < kcols * q := by
          rw [← hq, Nat.mul_comm]; omega
        exact Nat.lt_of_mul_lt_mul_left this
      have : kcols * (n / kcols + 1) ≤ kcols * q := Nat.mul_le_mul_left _ hlt
      have e3 : kcols * (n / kcols + 1) = n / kcols * kcols + kcols := by ring
      omega)
    rw [pos _ _ (by omega)] at q2
    have q3 := (hsrc r (lo + (n - 1)) hrr (by omega)).2
    rw [hoff] at q3
    obtain ⟨b2, hb2⟩ := memcpy_total (n := n % kcols) (src := src.data) (dst := b1)
      (s := src.layout.stride * r + lo + n / kcols * kcols)
      (d := l.stride * lo + kcols * r + n / kcols * (kcols * l.stride)) (by omega) (by omega)
    rw [hb2, C.ok_bind]
    have hs2 := (memcpy_ok hb2).1
    exact memset_total (by omega)
  · exact ⟨_, rfl⟩

/-- The memcpy-based packing does not fault. -/
theorem memcpyPack_total {z : A} {p : PMat A} (h : Fits kcols src p.layout lo hi) (hlohi : lo < hi)
    (hint : pflatSize p.layout < 2 ^ 31) (hsz : pflatSize p.layout ≤ p.data.size) (hsrc : DFits src) :
    ∃ q, memcpyPack z kcols src lo hi p = .ok q := by
  unfold memcpyPack
  rw [C.check_of h.ord, C.ok_bind, C.check_of (createPackedLayout_ok h.layout).2.1, C.ok_bind,
    C.check_of (Nat.mod_eq_zero_of_dvd h.dlo), C.ok_bind]
  obtain ⟨d, hd, _⟩ := forUpTo_total (n := src.layout.rows) (s := p.data)
    (body := memcpyRow z kcols src p.layout lo hi) (fun _ t => t.size = p.data.size) rfl
    (by
      intro r t hr ht
      obtain ⟨t', ht'⟩ := memcpyRow_total (z := z) (b := t) h hr hlohi hint (by omega) hsrc
      exact ⟨t', ht', (memcpyRow_ok h hr ht').1.trans ht⟩)
  rw [hd]
  exact ⟨_, rfl⟩

end
end Ruy.Float

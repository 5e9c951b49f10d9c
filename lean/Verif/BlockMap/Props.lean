import Verif.BlockMap.SafeLemmas
/-
Properties C08 (traversal orders are bijections), C09 (blocks tile the
destination), C10 (no undefined behaviour in the heuristics), and the
block-map part of C36 (thread count).

Specifications used here: `2 ^ _` grid sizes, intervals `[start, stop)` of
matrix rows/columns, and `Except.ok` = "returns without undefined behaviour and
without a failing check".
-/
namespace Ruy.BlockMap

/-! ### C08 -/

/-- C08: for every traversal order `bm.order`, every base grid size
`2^base × 2^base` and every rectangularness (on at most one side), as long as
the number of blocks is an `int`: the number of blocks is (blocks of rows) ×
(blocks of columns); each index below it decodes, without fault, to a block of
the grid; and each block of the grid is decoded from exactly one index. -/
theorem c08_traversal_bijection (bm : BlockMap)
    (hrect : bm.rectLog2.lhs = 0 ∨ bm.rectLog2.rhs = 0)
    (hsize : 2 * bm.baseLog2 + bm.rectLog2.lhs + bm.rectLog2.rhs ≤ 30) :
    ∃ nl nr, numBlocksPerSide bm .lhs = .ok nl ∧ numBlocksPerSide bm .rhs = .ok nr ∧
      numBlocks bm = .ok (nl * nr) ∧ 0 < nl * nr ∧
      (∀ i, i < nl * nr → ∃ l r, getBlockByIndex bm i = .ok ⟨l, r⟩ ∧ l < nl ∧ r < nr) ∧
      (∀ l r, l < nl → r < nr →
        ∃ i, (i < nl * nr ∧ getBlockByIndex bm i = .ok ⟨l, r⟩) ∧
          ∀ j, j < nl * nr → getBlockByIndex bm j = .ok ⟨l, r⟩ → j = i) := by
  obtain ⟨hr, hi, hs⟩ := blockOf_bij bm (by omega) hrect
  have hmul : 2 ^ (bm.baseLog2 + bm.rectLog2.lhs) * 2 ^ (bm.baseLog2 + bm.rectLog2.rhs) =
      2 ^ (2 * bm.baseLog2 + bm.rectLog2.lhs + bm.rectLog2.rhs) := by
    rw [← Nat.pow_add]; congr 1; omega
  have lt31 : ∀ k, k ≤ 30 → 2 ^ k < 2 ^ 31 := fun k hk => by
    have : 2 ^ k ≤ 2 ^ 30 := Nat.pow_le_pow_right (by omega) hk
    omega
  refine ⟨2 ^ (bm.baseLog2 + bm.rectLog2.lhs), 2 ^ (bm.baseLog2 + bm.rectLog2.rhs), ?_, ?_, ?_, ?_,
    ?_, ?_⟩
  · exact C.int_of (lt31 _ (by simp only [SidePair.get_lhs]; omega))
  · exact C.int_of (lt31 _ (by simp only [SidePair.get_rhs]; omega))
  · rw [hmul]; exact C.int_of (lt31 _ hsize)
  · rw [hmul]; exact Nat.two_pow_pos _
  · intro i hlt
    rw [hmul] at hlt
    exact ⟨_, _, getBlockByIndex_eq bm i hsize hlt, (hr i).1, (hr i).2⟩
  · intro l r hl hr'
    obtain ⟨i, hlt, he⟩ := hs l r hl hr'
    rw [hmul]
    refine ⟨i, ⟨hlt, ?_⟩, ?_⟩
    · rw [getBlockByIndex_eq bm i hsize hlt, he]
    · intro j hj hj2
      rw [getBlockByIndex_eq bm j hsize hj] at hj2
      simp only [Except.ok.injEq, SidePair.mk.injEq] at hj2
      exact hi j i hj hlt (by rw [he]; exact Prod.ext hj2.1 hj2.2)

/-- A 8 × 32 grid in Hilbert order meets the hypotheses of C08, and index 37 is
block (7, 4) of it. -/
example : let bm : BlockMap := ⟨4, .fractalHilbert, ⟨64, 256⟩, 3, ⟨0, 2⟩, ⟨8, 8⟩, ⟨8, 8⟩, ⟨0, 0⟩⟩
    (bm.rectLog2.lhs = 0 ∨ bm.rectLog2.rhs = 0) ∧
    2 * bm.baseLog2 + bm.rectLog2.lhs + bm.rectLog2.rhs ≤ 30 ∧
    numBlocks bm = .ok 256 ∧ getBlockByIndex bm 37 = .ok ⟨7, 4⟩ ∧
    getBlockByIndex bm 101 = .ok ⟨7, 12⟩ := by decide

/-- The restriction to one rectangular side is not vacuous: with both sides
rectangular, GetBlockByIndex would not be a bijection (MakeBlockMap never
produces that, see `c09_map_shape`). -/
example : let bm : BlockMap := ⟨1, .linear, ⟨4, 4⟩, 0, ⟨1, 1⟩, ⟨1, 1⟩, ⟨2, 2⟩, ⟨0, 0⟩⟩
    getBlockByIndex bm 0 = getBlockByIndex bm 2 := by decide

/-! ### C09 -/

/-- The map that MakeBlockMap returns satisfies the hypotheses of C08 and
describes the matrix it was made for. -/
theorem c09_map_shape (a : Args) (bm : BlockMap) (h : makeBlockMap a = .ok bm) :
    (bm.rectLog2.lhs = 0 ∨ bm.rectLog2.rhs = 0) ∧
    2 * bm.baseLog2 + bm.rectLog2.lhs + bm.rectLog2.rhs ≤ 30 ∧
    bm.dims = ⟨a.rows, a.cols⟩ ∧ bm.kernelDims = ⟨a.kernelRows, a.kernelCols⟩ := by
  obtain ⟨_, h1, h2, h3, h4, _, _⟩ := makeBlockMap_ok h
  exact ⟨h3, h4, h1, h2⟩

/-- Specification of a tiling: `n` consecutive, non-empty, `kernel`-aligned
intervals, given by `coords`, starting at 0 and ending at `dim`. -/
structure Tiles (n dim kernel : Nat) (coords : Nat → C (Nat × Nat)) : Prop where
  nonempty : 0 < n
  block : ∀ b, b < n → ∃ s e, coords b = .ok (s, e) ∧ s < e ∧ kernel ∣ s ∧ kernel ∣ e
  first : ∃ e, coords 0 = .ok (0, e)
  next : ∀ b s e s' e', b + 1 < n → coords b = .ok (s, e) → coords (b + 1) = .ok (s', e') → e = s'
  last : ∀ s e, coords (n - 1) = .ok (s, e) → e = dim

/-- C09: whenever a block map is made, on each side the blocks tile the matrix
dimension (which, being an `int`, is below 2^31). -/
theorem c09_blocks_tile (a : Args) (bm : BlockMap) (h : makeBlockMap a = .ok bm)
    (side : Side) (hdim : bm.dims.get side < 2 ^ 31) :
    ∃ n, numBlocksPerSide bm side = .ok n ∧
      Tiles n (bm.dims.get side) (bm.kernelDims.get side) (getBlockMatrixCoords side bm) := by
  obtain ⟨hf, _, _, _, hN30, _, _⟩ := makeBlockMap_ok h
  obtain ⟨S, L, hc, he⟩ := coords_of_facts (hf side) hdim
  have hn := Nat.two_pow_pos (bm.baseLog2 + bm.rectLog2.get side)
  have hle : bm.baseLog2 + bm.rectLog2.get side ≤ 30 := by cases side <;> simp <;> omega
  have h30 : 2 ^ (bm.baseLog2 + bm.rectLog2.get side) ≤ 2 ^ 30 :=
    Nat.pow_le_pow_right (by omega) hle
  refine ⟨2 ^ (bm.baseLog2 + bm.rectLog2.get side), C.int_of (by omega), hn, ?_, ?_, ?_, ?_⟩
  · intro b hb
    obtain ⟨h1, h2⟩ := hc b hb
    exact ⟨_, _, h1, h2, ⟨_, rfl⟩, ⟨_, rfl⟩⟩
  · obtain ⟨h1, _⟩ := hc 0 hn
    simp only [Nat.zero_mul, Nat.zero_min, Nat.add_zero, Nat.mul_zero] at h1
    exact ⟨_, h1⟩
  · intro b s e s' e' hb h1 h2
    rw [(hc b (by omega)).1] at h1
    rw [(hc (b + 1) hb).1] at h2
    cases h1; cases h2; rfl
  · intro s e h1
    rw [(hc _ (by omega)).1] at h1
    cases h1
    rw [Nat.sub_add_cancel hn]
    exact he

/-- Consequence of a tiling: every row (column) is in exactly one block. -/
theorem c09_each_index_in_one_block {n dim kernel : Nat} {coords : Nat → C (Nat × Nat)}
    (t : Tiles n dim kernel coords) (x : Nat) (hx : x < dim) :
    ∃ b, (b < n ∧ ∃ s e, coords b = .ok (s, e) ∧ s ≤ x ∧ x < e) ∧
      ∀ c s e, c < n → coords c = .ok (s, e) → s ≤ x → x < e → c = b := by
  -- ends are strictly increasing
  have mono : ∀ d b s e s' e', b + d + 1 < n → coords b = .ok (s, e) →
      coords (b + d + 1) = .ok (s', e') → e ≤ s' := by
    intro d
    induction d with
    | zero => intro b s e s' e' hb h1 h2; exact Nat.le_of_eq (t.next b s e s' e' hb h1 h2)
    | succ d ih =>
      intro b s e s' e' hb h1 h2
      obtain ⟨s2, e2, h3, hlt, _⟩ := t.block (b + d + 1) (by omega)
      have := ih b s e s2 e2 (by omega) h1 h3
      have := t.next (b + d + 1) s2 e2 s' e' (by omega) h3 h2
      omega
  -- find the first block whose end is past x
  have find : ∀ m, m < n → (∃ s e, coords m = .ok (s, e) ∧ x < e) →
      ∃ b, b < n ∧ ∃ s e, coords b = .ok (s, e) ∧ s ≤ x ∧ x < e := by
    intro m
    induction m with
    | zero =>
      rintro hm ⟨s, e, h1, h2⟩
      obtain ⟨e', h3⟩ := t.first
      rw [h3] at h1; cases h1
      exact ⟨0, hm, _, _, h3, Nat.zero_le _, h2⟩
    | succ m ih =>
      rintro hm ⟨s, e, h1, h2⟩
      by_cases hs : s ≤ x
      · exact ⟨m + 1, hm, s, e, h1, hs, h2⟩
      · obtain ⟨s', e', h3, _, _⟩ := t.block m (by omega)
        have := t.next m s' e' s e hm h3 h1
        exact ih (by omega) ⟨s', e', h3, by omega⟩
  have hn := t.nonempty
  obtain ⟨s, e, h1, _, _⟩ := t.block (n - 1) (by omega)
  have he := t.last s e h1
  obtain ⟨b, hb, sb, eb, hc, h2, h3⟩ := find (n - 1) (by omega) ⟨s, e, h1, by omega⟩
  refine ⟨b, ⟨hb, sb, eb, hc, h2, h3⟩, ?_⟩
  intro c s' e' hcn h4 h5 h6
  rcases Nat.lt_trichotomy c b with hlt | heq | hgt
  · obtain ⟨d, rfl⟩ : ∃ d, b = c + d + 1 := ⟨b - c - 1, by omega⟩
    have := mono d c s' e' sb eb hb h4 hc
    omega
  · exact heq
  · obtain ⟨d, rfl⟩ : ∃ d, c = b + d + 1 := ⟨c - b - 1, by omega⟩
    have := mono d b sb eb s' e' hcn hc h4
    omega

/-- A map made for a 1000 × 216 × 300 product of 8-bit matrices on 4 threads, kernel 8 × 8: 16 × 4
blocks with unequal block sizes. -/
example : ∃ bm, makeBlockMap ⟨1000, 216, 300, 8, 8, 1, 1, 4, ⟨32768, 524288⟩⟩ = .ok bm ∧
    numBlocksPerSide bm .lhs = .ok 16 ∧ numBlocksPerSide bm .rhs = .ok 4 ∧
    getBlockMatrixCoords .lhs bm 12 = .ok (768, 832) ∧
    getBlockMatrixCoords .lhs bm 13 = .ok (832, 888) ∧
    getBlockMatrixCoords .lhs bm 15 = .ok (944, 1000) := by
  refine ⟨_, rfl, ?_⟩; decide

/-! ### C10 -/

/-- C10 (partial): under explicit size conditions MakeBlockMap returns normally:
no overflow, no bad shift, no failing check.  Missing for the full property:
the conditions `rows * cols < 2^31`, `(lhs_size * rows + rhs_size * cols) *
depth < 2^31` and `rows, cols < 2^30` are not implied by "the matrices fit in
memory"; see the counterexamples below. -/
theorem c10_make_block_map_safe_partial (a : Args)
    (hkr : ∃ k, a.kernelRows = 2 ^ k) (hkc : ∃ k, a.kernelCols = 2 ^ k)
    (h1 : 1 ≤ a.rows) (h2 : 1 ≤ a.cols) (hd : 1 ≤ a.depth)
    (d1 : a.kernelRows ∣ a.rows) (d2 : a.kernelCols ∣ a.cols)
    (hls : 1 ≤ a.lhsSize) (ht : 1 ≤ a.threads) (hcp : 1 ≤ a.cache.localSize)
    (hr : a.rows < 2 ^ 30) (hc : a.cols < 2 ^ 30) (hrc : a.rows * a.cols < 2 ^ 31)
    (hws : (a.lhsSize * a.rows + a.rhsSize * a.cols) * a.depth < 2 ^ 31) :
    ∃ bm, makeBlockMap a = .ok bm := by
  obtain ⟨kr, hkr⟩ := hkr
  obtain ⟨kc, hkc⟩ := hkc
  exact makeBlockMap_of a kr kc hkr hkc (Nat.le_of_dvd h1 d1) (Nat.le_of_dvd h2 d2) d1 d2 hr hc hrc
    hd hls ht hcp hws

/-- A 4096 × 4096 × 4096 product of float matrices (64 MiB each) on 8 threads meets the hypotheses
of `c10_make_block_map_safe_partial`. -/
example : let a : Args := ⟨4096, 4096, 4096, 8, 8, 4, 4, 8, ⟨32768, 524288⟩⟩
    (1 ≤ a.cache.localSize ∧ a.rows < 2 ^ 30 ∧ a.cols < 2 ^ 30 ∧ a.rows * a.cols < 2 ^ 31 ∧
    (a.lhsSize * a.rows + a.rhsSize * a.cols) * a.depth < 2 ^ 31) ∧
    a.kernelRows ∣ a.rows ∧ a.kernelRows = 2 ^ 3 := by decide

/-- C10 fails: for a 16384 × 16384 × 16384 product of float matrices (1 GiB each)
the working-set computation overflows `int` (block_map.cc:142-143). -/
theorem c10_overflow_working_set :
    makeBlockMap ⟨16384, 16384, 16384, 8, 8, 4, 4, 8, ⟨32768, 524288⟩⟩ = .error .ub := by
  decide

/-- C10 fails: `denom << (log2_quotient + 1)` overflows for 2^30 rows and one
column with a 1 × 1 kernel (a 1 GiB int8 LHS; block_map.cc:163). -/
theorem c10_overflow_quotient :
    makeBlockMap ⟨2 ^ 30, 1, 1, 1, 1, 1, 1, 1, ⟨32768, 524288⟩⟩ = .error .ub := by
  decide

/-- C10 fails: the candidate block count of GetMultithreadingScore overflows for
a 65536 × 65536 int8 outer product with a 1 × 1 kernel (block_map.cc:221-222). -/
theorem c10_overflow_block_count :
    makeBlockMap ⟨65536, 65536, 1, 1, 1, 1, 1, 1, ⟨32768, 524288⟩⟩ = .error .ub := by
  decide

/-! ### C36, block-map part -/

/-- The thread count of the block map is at least one, at most the requested
count, and at most the number of blocks. -/
theorem c36_block_map_threads (a : Args) (bm : BlockMap) (h : makeBlockMap a = .ok bm)
    (ht : 1 ≤ a.threads) :
    ∃ n, numBlocks bm = .ok n ∧ 1 ≤ bm.threadCount ∧ bm.threadCount ≤ a.threads ∧
      bm.threadCount ≤ n := by
  obtain ⟨_, _, _, _, hN, hth, _⟩ := makeBlockMap_ok h
  have hp := Nat.two_pow_pos (2 * bm.baseLog2 + bm.rectLog2.lhs + bm.rectLog2.rhs)
  have h30 : 2 ^ (2 * bm.baseLog2 + bm.rectLog2.lhs + bm.rectLog2.rhs) ≤ 2 ^ 30 :=
    Nat.pow_le_pow_right (by omega) hN
  exact ⟨_, C.int_of (by omega), by omega, by omega, by omega⟩

example : ∃ bm, makeBlockMap ⟨64, 64, 300, 8, 8, 1, 1, 100, ⟨32768, 524288⟩⟩ = .ok bm ∧
    bm.threadCount = 1 := by
  refine ⟨_, rfl, ?_⟩; decide

end Ruy.BlockMap

import Verif.CpuInfo.Model
import Verif.BlockMap.Props
import Mathlib.Tactic.SplitIfs
import Mathlib.Data.List.Induction
/-
C41: the cache sizes used by the heuristics.
-/
namespace Ruy.CpuInfo

/-! ### Specification -/

/-- The numbers of the first and last processor that share a cache (32-bit unsigned). -/
def firstIdx (c : Cache) : Nat := c.processorStart
def lastIdx (c : Cache) : Nat := (c.processorStart + c.processorCount - 1) % 2 ^ 32

/-- A cache is taken into account if it serves processors that the library knows. -/
def usable (t : Topology) (c : Cache) : Bool :=
  decide (c.processorCount ≠ 0 ∧ firstIdx c < t.processors.length ∧ lastIdx c < t.processors.length)

/-- All processors that use it belong to one core. -/
def isPrivate (t : Topology) (c : Cache) : Bool :=
  decide ((t.processors[firstIdx c]?).map (·.core) = (t.processors[lastIdx c]?).map (·.core))

/-- The usable data caches of a processor, lowest level first. -/
def caches (t : Topology) (p : Processor) : List Cache :=
  ([p.l1d, p.l2, p.l3].filterMap id).filter (usable t)

/-- Size of the highest level, 0 if there is none. -/
def lastLevel (t : Topology) (p : Processor) : Nat := ((caches t p).getLast?.map (·.size)).getD 0

/-- Size of the highest level that is private to the core; without one, that of the last level. -/
def localLevel (t : Topology) (p : Processor) : Nat :=
  (((caches t p).filter (isPrivate t)).getLast?.map (·.size)).getD (lastLevel t p)

/-- All sizes reported by the library are positive and less than 2 GiB, and higher levels that are
shared are not smaller than lower ones that are private. -/
structure Sane (t : Topology) : Prop where
  small : ∀ p ∈ t.processors, ∀ c ∈ caches t p, 0 < c.size ∧ c.size < 2 ^ 31
  levels : ∀ p ∈ t.processors, localLevel t p ≤ lastLevel t p
  some : t.processors ≠ []

/-! ### Lemmas -/

theorem asInt_of {n : Nat} (h : n < 2 ^ 31) : asInt n = n := by unfold asInt; rw [if_pos h]

theorem idx_eq (c : Cache) (h : c.processorCount ≠ 0) :
    (c.processorStart + c.processorCount + (2 ^ 32 - 1)) % 2 ^ 32 = lastIdx c := by
  unfold lastIdx; omega

theorem cacheStep_eq (t : Topology) (s : Int × Int) (c : Cache) :
    cacheStep t s (some c) =
      if usable t c then (if isPrivate t c then asInt c.size else s.1, asInt c.size) else s := by
  unfold cacheStep usable isPrivate
  dsimp only
  by_cases h0 : c.processorCount = 0
  · rw [if_pos h0, if_neg]; simp [h0]
  · rw [if_neg h0, idx_eq c h0]
    unfold firstIdx
    cases h1 : t.processors[c.processorStart]? with
    | none =>
      have := List.getElem?_eq_none_iff.mp h1
      rw [if_neg]; simp; omega
    | some a =>
      have h1' := (List.getElem?_eq_some_iff.mp h1).1
      cases h2 : t.processors[lastIdx c]? with
      | none =>
        have := List.getElem?_eq_none_iff.mp h2
        rw [if_neg]; simp; omega
      | some b =>
        have h2' := (List.getElem?_eq_some_iff.mp h2).1
        rw [if_pos (by simp [h0, h1', h2'])]
        simp

theorem foldl_eq (t : Topology) : ∀ (l : List (Option Cache)) (s : Int × Int),
    l.foldl (cacheStep t) s =
      (((((l.filterMap id).filter (usable t)).filter (isPrivate t)).getLast?.map (fun c => asInt c.size)).getD s.1,
       (((l.filterMap id).filter (usable t)).getLast?.map (fun c => asInt c.size)).getD s.2) := by
  intro l
  induction l using List.reverseRecOn with
  | nil => intro s; rfl
  | append_singleton l o ih =>
    intro s
    rw [List.foldl_append, ih s]
    show cacheStep t _ o = _
    cases o with
    | none => simp [cacheStep]
    | some c =>
      rw [cacheStep_eq]
      simp only [List.filterMap_append, List.filter_append]
      by_cases hu : usable t c = true
      · rw [if_pos hu]
        by_cases hp : isPrivate t c = true
        · simp [hu, hp]
        · simp [hu, hp]
      · rw [if_neg hu]
        simp [hu]

theorem processorSizes_eq (t : Topology) (p : Processor)
    (h : ∀ c ∈ caches t p, 0 < c.size ∧ c.size < 2 ^ 31) :
    processorSizes t p = ((localLevel t p : Int), (lastLevel t p : Int)) := by
  unfold processorSizes localLevel lastLevel
  rw [foldl_eq]
  have hcs : ([p.l1d, p.l2, p.l3].filterMap id).filter (usable t) = caches t p := rfl
  rw [hcs]
  dsimp only
  have hl : ((caches t p).getLast?.map (fun c => asInt c.size)).getD 0 =
      (((caches t p).getLast?.map (·.size)).getD 0 : Nat) := by
    cases hc : (caches t p).getLast? with
    | none => rfl
    | some c => exact asInt_of (h c (List.mem_of_getLast? hc)).2
  rw [hl]
  cases hc : ((caches t p).filter (isPrivate t)).getLast? with
  | none => simp
  | some c =>
    have hm := h c ((List.mem_filter.mp (List.mem_of_getLast? hc)).1)
    simp only [Option.map_some, Option.getD_some]
    rw [asInt_of hm.2, if_neg (by omega)]

theorem queryLoop_ok (t : Topology) : ∀ (ps : List Processor) (o r : Int × Int),
    queryLoop t ps o = .ok (some r) →
    (∀ p ∈ ps, (processorSizes t p).1 ≠ 0 ∧ (processorSizes t p).2 ≠ 0 ∧
      (processorSizes t p).1 ≤ (processorSizes t p).2 ∧
      r.1 ≤ (processorSizes t p).1 ∧ r.2 ≤ (processorSizes t p).2) ∧
    r.1 ≤ o.1 ∧ r.2 ≤ o.2 ∧
    (r.1 = o.1 ∨ ∃ p ∈ ps, r.1 = (processorSizes t p).1) ∧
    (r.2 = o.2 ∨ ∃ p ∈ ps, r.2 = (processorSizes t p).2) := by
  intro ps
  induction ps with
  | nil =>
    intro o r h
    cases h
    exact ⟨by simp, Int.le_refl _, Int.le_refl _, .inl rfl, .inl rfl⟩
  | cons p ps ih =>
    intro o r h
    unfold queryLoop at h
    dsimp only at h
    split_ifs at h with h0
    · cases h
    obtain ⟨_, hc, h⟩ := C.bind_ok h
    have hc := C.check_ok hc
    obtain ⟨h1, h2, h3, h4, h5⟩ := ih _ _ h
    dsimp only at h2 h3 h4 h5
    have a1 : r.1 ≤ o.1 := Int.le_trans h2 (Int.min_le_left _ _)
    have a2 : r.2 ≤ o.2 := Int.le_trans h3 (Int.min_le_left _ _)
    have b1 : r.1 ≤ (processorSizes t p).1 := Int.le_trans h2 (Int.min_le_right _ _)
    have b2 : r.2 ≤ (processorSizes t p).2 := Int.le_trans h3 (Int.min_le_right _ _)
    refine ⟨?_, a1, a2, ?_, ?_⟩
    · intro q hq
      rcases List.mem_cons.mp hq with rfl | hq
      · exact ⟨fun h => h0 (.inl h), fun h => h0 (.inr h), hc, b1, b2⟩
      · exact h1 q hq
    · rcases h4 with h4 | ⟨q, hq, he⟩
      · rcases Int.le_total o.1 (processorSizes t p).1 with hle | hle
        · exact .inl (h4.trans (Int.min_eq_left hle))
        · exact .inr ⟨p, by simp, h4.trans (Int.min_eq_right hle)⟩
      · exact .inr ⟨q, List.mem_cons_of_mem _ hq, he⟩
    · rcases h5 with h5 | ⟨q, hq, he⟩
      · rcases Int.le_total o.2 (processorSizes t p).2 with hle | hle
        · exact .inl (h5.trans (Int.min_eq_left hle))
        · exact .inr ⟨p, by simp, h5.trans (Int.min_eq_right hle)⟩
      · exact .inr ⟨q, List.mem_cons_of_mem _ hq, he⟩

theorem queryLoop_returns (t : Topology) : ∀ (ps : List Processor) (o : Int × Int),
    (∀ p ∈ ps, (processorSizes t p).1 ≤ (processorSizes t p).2) →
    ∃ r, queryLoop t ps o = .ok r ∧
      (r = none ↔ ∃ p ∈ ps, (processorSizes t p).1 = 0 ∨ (processorSizes t p).2 = 0) := by
  intro ps
  induction ps with
  | nil => intro o _; exact ⟨some o, rfl, by simp⟩
  | cons p ps ih =>
    intro o h
    unfold queryLoop
    dsimp only
    split_ifs with h0
    · exact ⟨none, rfl, ⟨fun _ => ⟨p, by simp, h0⟩, fun _ => rfl⟩⟩
    · rw [C.check_of (h p (by simp)), C.ok_bind]
      obtain ⟨r, hr, hi⟩ := ih (min o.1 (processorSizes t p).1, min o.2 (processorSizes t p).2)
        (fun q hq => h q (List.mem_cons_of_mem _ hq))
      refine ⟨r, hr, hi.trans ?_⟩
      simp only [List.mem_cons, exists_eq_or_imp]
      simp [h0]

theorem cacheParams_new {t : Topology} {junk : Int × Int} {s : State} {r : Int × Int}
    (h : cacheParams t (.new junk) = .ok (s, r)) :
    s.params = r ∧ s.writes = 1 ∧
    ((s.status = .initialized ∧ t.initializes = true ∧ queryCacheParams t = .ok (some r)) ∨
     (s.status = .failed ∧ r = dummy ∧ (t.initializes = false ∨ queryCacheParams t = .ok none))) := by
  unfold cacheParams at h
  obtain ⟨⟨s1, b⟩, he, h⟩ := C.bind_ok h
  cases h
  unfold ensureInitialized at he
  obtain ⟨s2, hi, he⟩ := C.bind_ok he
  cases he
  unfold attemptOnce at hi
  rw [if_pos (show (State.new junk).status = InitStatus.notYetAttempted from rfl)] at hi
  obtain ⟨s3, hi, h3⟩ := C.bind_ok hi
  obtain ⟨_, _, h3⟩ := C.bind_ok h3
  cases h3
  unfold initInfo at hi
  obtain ⟨_, _, hi⟩ := C.bind_ok hi
  split_ifs at hi with ht
  · obtain ⟨q, hq, hi⟩ := C.bind_ok hi
    cases q with
    | none => cases hi; exact ⟨rfl, rfl, .inr ⟨rfl, rfl, .inr hq⟩⟩
    | some q => cases hi; exact ⟨rfl, rfl, .inl ⟨rfl, ht, hq⟩⟩
  · cases hi; exact ⟨rfl, rfl, .inr ⟨rfl, rfl, .inl (by simpa using ht)⟩⟩

/-! ### C41 -/

/-- C41: for every topology with cache sizes below 2 GiB, if CacheParams returns then both sizes are
positive and the local one does not exceed the last-level one. -/
theorem c41_positive_ordered (t : Topology) (junk : Int × Int) (s : State) (r : Int × Int)
    (hs : ∀ p ∈ t.processors, ∀ c ∈ caches t p, 0 < c.size ∧ c.size < 2 ^ 31)
    (h : cacheParams t (.new junk) = .ok (s, r)) : 0 < r.1 ∧ r.1 ≤ r.2 := by
  obtain ⟨_, _, ⟨_, _, hq⟩ | ⟨_, rfl, _⟩⟩ := cacheParams_new h
  · unfold queryCacheParams at hq
    obtain ⟨_, hc, hq⟩ := C.bind_ok hq
    have hc := C.check_ok hc
    obtain ⟨h1, h2, h3, h4, h5⟩ := queryLoop_ok t _ _ _ hq
    have hpos : 0 < r.1 := by
      rcases h4 with h4 | ⟨p, hp, he⟩
      · dsimp only at h4; omega
      · have := (h1 p hp).1
        rw [processorSizes_eq t p (hs p hp)] at he this
        dsimp only at he this
        omega
    refine ⟨hpos, ?_⟩
    rcases h5 with h5 | ⟨p, hp, he⟩
    · rw [h5]; exact h2
    · have := (h1 p hp).2.2
      omega
  · decide

/-- C41: if the library initialises and knows a cache of every processor, the sizes are the minima
over all processors: they are no larger than those of any processor, and each is that of one. -/
theorem c41_conservative_partial (t : Topology) (junk : Int × Int) (s : State) (r : Int × Int)
    (hs : ∀ p ∈ t.processors, ∀ c ∈ caches t p, 0 < c.size ∧ c.size < 2 ^ 31)
    (h : cacheParams t (.new junk) = .ok (s, r)) (hi : s.status = .initialized) :
    (∀ p ∈ t.processors, r.1 ≤ localLevel t p ∧ r.2 ≤ lastLevel t p) ∧
    (∃ p ∈ t.processors, r.1 = localLevel t p) ∧ (∃ p ∈ t.processors, r.2 = lastLevel t p) := by
  obtain ⟨_, _, ⟨_, _, hq⟩ | ⟨hf, _, _⟩⟩ := cacheParams_new h
  · unfold queryCacheParams at hq
    obtain ⟨_, hc, hq⟩ := C.bind_ok hq
    have hc := C.check_ok hc
    obtain ⟨h1, h2, h3, h4, h5⟩ := queryLoop_ok t _ _ _ hq
    have hlt : ∀ p ∈ t.processors, lastLevel t p < 2 ^ 31 := by
      intro p hp
      unfold lastLevel
      cases hc : (caches t p).getLast? with
      | none => simp
      | some c => exact (hs p hp c (List.mem_of_getLast? hc)).2
    obtain ⟨p0, hp0⟩ : ∃ p, p ∈ t.processors := List.exists_mem_of_length_pos hc
    have hle : ∀ p ∈ t.processors, r.1 ≤ localLevel t p ∧ r.2 ≤ lastLevel t p ∧
        localLevel t p ≤ lastLevel t p := by
      intro p hp
      have := (h1 p hp).2.2
      rw [processorSizes_eq t p (hs p hp)] at this
      dsimp only at this
      exact ⟨this.2.1, this.2.2, by omega⟩
    refine ⟨fun p hp => ⟨(hle p hp).1, (hle p hp).2.1⟩, ?_, ?_⟩
    · rcases h4 with h4 | ⟨p, hp, he⟩
      · have := hle p0 hp0; have := hlt p0 hp0; dsimp only at h4
        exact ⟨p0, hp0, by omega⟩
      · rw [processorSizes_eq t p (hs p hp)] at he
        exact ⟨p, hp, he⟩
    · rcases h5 with h5 | ⟨p, hp, he⟩
      · have := hle p0 hp0; have := hlt p0 hp0; dsimp only at h5
        exact ⟨p0, hp0, by omega⟩
      · rw [processorSizes_eq t p (hs p hp)] at he
        exact ⟨p, hp, he⟩
  · rw [hf] at hi; cases hi

/-- C41: for every sane topology CacheParams returns; it falls back to the constants exactly if the
library does not initialise or some processor has no usable cache. -/
theorem c41_returns (t : Topology) (junk : Int × Int) (hs : Sane t) :
    ∃ s r, cacheParams t (.new junk) = .ok (s, r) ∧
      ((t.initializes = false ∨ ∃ p ∈ t.processors, caches t p = []) → r = (32768, 524288)) ∧
      (s.status = .failed ↔ (t.initializes = false ∨ ∃ p ∈ t.processors, caches t p = [])) := by
  have hlen : 0 < t.processors.length := List.length_pos_iff.mpr hs.some
  have hz : ∀ p ∈ t.processors, ((processorSizes t p).1 = 0 ∨ (processorSizes t p).2 = 0) ↔
      caches t p = [] := by
    intro p hp
    rw [processorSizes_eq t p (hs.small p hp)]
    dsimp only
    have hll : lastLevel t p = 0 ↔ caches t p = [] := by
      unfold lastLevel
      cases hc : (caches t p).getLast? with
      | none => simpa using List.getLast?_eq_none_iff.mp hc
      | some c =>
        have := hs.small p hp c (List.mem_of_getLast? hc)
        simp only [Option.map_some, Option.getD_some]
        constructor
        · intro h; omega
        · intro h; rw [h] at hc; cases hc
    rw [← hll]
    have hloc : localLevel t p = 0 → lastLevel t p = 0 := by
      intro h
      unfold localLevel at h
      cases hc : ((caches t p).filter (isPrivate t)).getLast? with
      | none => rw [hc] at h; exact h
      | some c =>
        rw [hc] at h
        have := hs.small p hp c ((List.mem_filter.mp (List.mem_of_getLast? hc)).1)
        simp only [Option.map_some, Option.getD_some] at h
        omega
    constructor
    · rintro (h | h)
      · exact hloc (by exact_mod_cast h)
      · exact_mod_cast h
    · intro h; exact .inr (by exact_mod_cast h)
  have hord : ∀ p ∈ t.processors, (processorSizes t p).1 ≤ (processorSizes t p).2 := by
    intro p hp
    rw [processorSizes_eq t p (hs.small p hp)]
    dsimp only
    exact_mod_cast hs.levels p hp
  obtain ⟨q, hq, hqn⟩ := queryLoop_returns t t.processors (2 ^ 31 - 1, 2 ^ 31 - 1) hord
  have hqq : queryCacheParams t = .ok q := by
    unfold queryCacheParams; rw [C.check_of hlen]; exact hq
  have hqn' : q = none ↔ ∃ p ∈ t.processors, caches t p = [] := by
    rw [hqn]
    constructor
    · rintro ⟨p, hp, h⟩; exact ⟨p, hp, (hz p hp).mp h⟩
    · rintro ⟨p, hp, h⟩; exact ⟨p, hp, (hz p hp).mpr h⟩
  unfold cacheParams ensureInitialized attemptOnce initInfo
  rw [if_pos (show (State.new junk).status = InitStatus.notYetAttempted from rfl), C.check_of (show (State.new junk).status = InitStatus.notYetAttempted from rfl),
    C.ok_bind]
  by_cases ht : t.initializes = true
  · rw [if_pos ht, hqq, C.ok_bind]
    cases q with
    | none =>
      refine ⟨_, _, rfl, fun _ => rfl, ?_⟩
      simp [ht, hqn'.mp rfl]
    | some q =>
      have hno : ¬ ∃ p ∈ t.processors, caches t p = [] := fun h => by cases hqn'.mpr h
      refine ⟨_, _, rfl, ?_, ?_⟩
      · rintro (h | h)
        · rw [ht] at h; cases h
        · exact absurd h hno
      · simp [ht, hno]
  · rw [if_neg ht]
    refine ⟨_, _, rfl, fun _ => rfl, ?_⟩
    simp at ht
    simp [ht]

/-- C41: the sizes are computed once.  After the first query nothing is ever written again, so that
queries from several threads after that do not conflict; all queries report the same sizes. -/
theorem c41_computed_once (t : Topology) (junk : Int × Int) (s : State) (r : Int × Int)
    (h : cacheParams t (.new junk) = .ok (s, r)) (ops : List Op) :
    run t ops s = .ok s ∧ cacheParams t s = .ok (s, r) ∧ s.writes = 1 := by
  obtain ⟨hp, hw, hst⟩ := cacheParams_new h
  have hne : s.status ≠ .notYetAttempted := by
    rcases hst with ⟨h, _⟩ | ⟨h, _⟩ <;> rw [h] <;> decide
  have he : ensureInitialized t s = .ok (s, decide (s.status = .initialized)) := by
    unfold ensureInitialized attemptOnce; rw [if_neg hne]; rfl
  have hc : cacheParams t s = .ok (s, r) := by
    unfold cacheParams; rw [he, ← hp]; rfl
  refine ⟨?_, hc, hw⟩
  induction ops with
  | nil => rfl
  | cons o ops ih =>
    have : step t s o = .ok s := by
      cases o
      · unfold step; rw [hc]; rfl
      · unfold step; rw [he]; rfl
    unfold run
    rw [this]
    exact ih

/-- C41, for the block map (C06 to C10): the sizes satisfy what MakeBlockMap needs of them. -/
theorem c41_block_map (t : Topology) (junk : Int × Int) (s : State) (r : Int × Int)
    (hs : ∀ p ∈ t.processors, ∀ c ∈ caches t p, 0 < c.size ∧ c.size < 2 ^ 31)
    (h : cacheParams t (.new junk) = .ok (s, r)) :
    ∃ cp : BlockMap.CacheParams, (cp.localSize : Int) = r.1 ∧ (cp.lastLevelSize : Int) = r.2 ∧
      1 ≤ cp.localSize ∧ cp.localSize ≤ cp.lastLevelSize := by
  obtain ⟨h1, h2⟩ := c41_positive_ordered t junk s r hs h
  exact ⟨⟨r.1.toNat, r.2.toNat⟩, by dsimp only; omega, by dsimp only; omega, by dsimp only; omega, by dsimp only; omega⟩

/-! ### Examples and disagreements -/

/-- Two cores with two processors each: private 32 KiB and 256 KiB, shared 8 MiB. -/
def desktop : Topology :=
  let p (core : Nat) : Processor := ⟨core, some ⟨32768, 2 * core, 2⟩, some ⟨262144, 2 * core, 2⟩,
    some ⟨8388608, 0, 4⟩⟩
  ⟨true, [p 0, p 0, p 1, p 1]⟩

/-- A big core and a little one without private L2. -/
def phone : Topology :=
  ⟨true, [⟨0, some ⟨65536, 0, 1⟩, some ⟨524288, 0, 1⟩, some ⟨2097152, 0, 2⟩⟩,
    ⟨1, some ⟨32768, 1, 1⟩, none, some ⟨2097152, 0, 2⟩⟩]⟩

example : cacheParams desktop (.new (0, 0)) = .ok (⟨.initialized, (262144, 8388608), 1⟩, (262144, 8388608)) := by
  decide
example : cacheParams phone (.new (0, 0)) = .ok (⟨.initialized, (32768, 2097152), 1⟩, (32768, 2097152)) := by
  decide
example : Sane phone := ⟨by decide, by decide, by decide⟩
example : Sane desktop := ⟨by decide, by decide, by decide⟩

/-- C41, disagreement: one processor without known caches (or a library that does not initialise)
makes ruy assume 32 KiB and 512 KiB although all known caches are smaller. -/
theorem c41_fallback_not_conservative :
    let t : Topology := ⟨true, [⟨0, some ⟨16384, 0, 1⟩, none, none⟩, ⟨1, none, none, none⟩]⟩
    Sane t ∧ ∃ s, cacheParams t (.new (0, 0)) = .ok (s, (32768, 524288)) ∧
      ∃ p ∈ t.processors, 0 < lastLevel t p ∧ lastLevel t p < 32768 :=
  ⟨⟨by decide, by decide, by decide⟩, _, rfl, _, List.mem_cons_self, by decide, by decide⟩

/-- C41, disagreement: the uint32 size of a cache of 2 GiB becomes a negative int, and is reported. -/
theorem c41_negative_size :
    let t : Topology := ⟨true, [⟨0, some ⟨2 ^ 31, 0, 1⟩, none, none⟩]⟩
    ∃ s, cacheParams t (.new (0, 0)) = .ok (s, (-2 ^ 31, -2 ^ 31)) := ⟨_, rfl⟩

/-- A shared level smaller than a private one stops a debug build. -/
theorem c41_inverted_levels_stop :
    let t : Topology := ⟨true, [⟨0, none, some ⟨1048576, 0, 1⟩, some ⟨524288, 0, 2⟩⟩,
      ⟨1, none, none, some ⟨524288, 0, 2⟩⟩]⟩
    cacheParams t (.new (0, 0)) = .error .abort := rfl

end Ruy.CpuInfo

import Verif.Prof.Lemmas
import Verif.Prof.View

/-!
# C78: a profile counts every sample once at every level

The buffer of samples, read back, is the list of the scopes each sampled thread was in; in the tree of
a thread a list of labels leads to a node whose weight is the number of samples that begin with it, and
the children of a node account for all of its weight. -/

namespace Ruy.Prof

/-! ## The samples -/

/-- Whatever the threads and the profiler do, unless the program aborts or has undefined behaviour the
buffer of samples reads back as the samples taken: for each, the number of the thread's stack modulo
2^32 and the scopes that the thread was in, outermost first. -/
theorem c78_samples {es : List Ev} {s : St} (h : run .init es = .ok s) :
    readAll s.buf = some ((Abs.after es).taken.map fun x => (.ofNat 32 x.1, x.2)) :=
  read_run h

/-- The program goes well exactly if there are never more than 64 nested scopes on a thread, no scope
ends that has not begun, and the samples take less than 2^31 bytes. -/
theorem c78_ok_iff (es : List Ev) :
    (∃ s, run .init es = .ok s) ↔
      ∀ pre e post, es = pre ++ e :: post → Harmless (Abs.after pre) e :=
  run_ok es

/-- Two scopes and four samples. -/
def exRaw (k : Nat) : Raw := ⟨.ofNat 64 k, 1, .ofNat 32 (10 * k), 0, 0, 0, 7⟩

/-- Two threads, samples in between. -/
def exEvs : List Ev :=
  [.push 5 (exRaw 1), .sample 5, .push 5 (exRaw 2), .push 3 (exRaw 4), .sample 5, .sample 3, .pop 5,
    .push 5 (exRaw 3), .sample 5, .pop 5, .pop 5, .sample 5, .exit 5, .sample 5]

theorem exEvs_taken : (Abs.after exEvs).taken =
    [(0, [exRaw 1]), (0, [exRaw 1, exRaw 2]), (1, [exRaw 4]), (0, [exRaw 1, exRaw 3])] := by
  simp [exEvs, Abs.after, Abs.step, Abs.init, Function.update]

theorem exEvs_ok : ∃ s, run .init exEvs = .ok s :=
  ⟨_, by
    simp only [exEvs, run, step, St.local, St.init, Stack.push, St.fresh, maxSize, bind, Except.bind, pure,
      Except.pure, Function.update_self, Function.update_of_ne, ne_eq, Nat.reduceEqDiff, not_false_eq_true,
      Nat.reduceLeDiff, if_false, Stack.bufferSize, List.length_append, List.length_nil, toBuffer_eq,
      encode_length, content_length, Nat.reduceAdd, Nat.reduceMul, Nat.reducePow, Nat.reduceSub,
      Nat.add_one_ne_zero, if_true]
    rfl⟩

example : ∃ s, run .init exEvs = .ok s ∧ readAll s.buf =
    some [(0, [exRaw 1]), (0, [exRaw 1, exRaw 2]), (1, [exRaw 4]), (0, [exRaw 1, exRaw 3])] := by
  obtain ⟨s, hs⟩ := exEvs_ok
  exact ⟨s, hs, by rw [c78_samples hs, exEvs_taken]; rfl⟩

/-- Different threads have stacks with different ids, as long as there are at most 2^32 stacks. -/
theorem c78_ids {es : List Ev} {s : St} (h : run .init es = .ok s) (hc : s.next ≤ 2 ^ 32)
    {t u : Nat} (htu : t ≠ u) {k l : Stack} (hk : s.stacks t = some k) (hl : s.stacks u = some l) :
    k.id ≠ l.id := by
  have ha := agree_run agree_init h
  have inv : ∀ es : List Ev, (∀ t i ls, (Abs.after es).scopes t = some (i, ls) → i < (Abs.after es).count) ∧
      ∀ t u i ls j ms, t ≠ u → (Abs.after es).scopes t = some (i, ls) →
        (Abs.after es).scopes u = some (j, ms) → i ≠ j := by
    intro es
    induction es using List.reverseRecOn with
    | nil => exact ⟨fun t i ls h => by simp [Abs.after, Abs.init] at h,
        fun t u i ls j ms _ h => by simp [Abs.after, Abs.init] at h⟩
    | append_singleton es e ih =>
      have he : Abs.after (es ++ [e]) = (Abs.after es).step e := by simp [Abs.after]
      rw [he]
      generalize Abs.after es = a at ih ⊢
      obtain ⟨ih1, ih2⟩ := ih
      have old : ∀ (sc : Nat → Option (Nat × List Raw)) (n : Nat), a.count ≤ n →
          (∀ t i ls, sc t = some (i, ls) → (∃ ms, a.scopes t = some (i, ms)) ∨
            (i = a.count ∧ a.scopes t = none ∧ i < n ∧ ∀ u, u ≠ t → sc u = a.scopes u)) →
          (∀ t i ls, sc t = some (i, ls) → i < n) ∧
          ∀ t u i ls j ms, t ≠ u → sc t = some (i, ls) → sc u = some (j, ms) → i ≠ j := by
        intro sc n hn hsc
        refine ⟨fun t i ls hi => ?_, fun t u i ls j ms htu hi hj => ?_⟩
        · rcases hsc t i ls hi with ⟨ms, h1⟩ | h1
          · exact Nat.lt_of_lt_of_le (ih1 _ _ _ h1) hn
          · exact h1.2.2.1
        · rcases hsc t i ls hi with ⟨ms', h1⟩ | ⟨h1, h2, h3, h4⟩
          · rcases hsc u j ms hj with ⟨ms'', h5⟩ | ⟨h5, h6, h7, h8⟩
            · exact ih2 _ _ _ _ _ _ htu h1 h5
            · have := ih1 _ _ _ h1
              omega
          · have := h4 u htu.symm
            rw [this] at hj
            have := ih1 _ _ _ hj
            omega
      have upd : ∀ (t : Nat) (v : Option (Nat × List Raw)) (n : Nat), a.count ≤ n →
          (∀ i ls, v = some (i, ls) → (∃ ms, a.scopes t = some (i, ms)) ∨
            (i = a.count ∧ a.scopes t = none ∧ i < n)) →
          (∀ u i ls, Function.update a.scopes t v u = some (i, ls) → i < n) ∧
          ∀ u w i ls j ms, u ≠ w → Function.update a.scopes t v u = some (i, ls) →
            Function.update a.scopes t v w = some (j, ms) → i ≠ j := by
        intro t v n hn hv
        refine old _ n hn fun u i ls hu => ?_
        by_cases e : u = t
        · subst e
          rw [Function.update_self] at hu
          rcases hv i ls hu with h1 | ⟨h1, h2, h3⟩
          · exact .inl h1
          · exact .inr ⟨h1, h2, h3, fun w hw => Function.update_of_ne hw _ _⟩
        · rw [Function.update_of_ne e] at hu
          exact .inl ⟨ls, hu⟩
      cases e with
      | push t l =>
        simp only [Abs.step]
        split
        · next hn =>
          refine upd t _ _ (Nat.le_succ _) fun i ls hv => .inr ?_
          obtain ⟨rfl, -⟩ : a.count = i ∧ _ := by simpa using hv
          exact ⟨rfl, hn, Nat.lt_succ_self _⟩
        · next i ls hs =>
          refine upd t _ _ (Nat.le_refl _) fun j ms hv => .inl ⟨ls, ?_⟩
          obtain ⟨rfl, -⟩ : i = j ∧ _ := by simpa using hv
          exact hs
      | pop t =>
        simp only [Abs.step]
        refine upd t _ _ (Nat.le_refl _) fun j ms hv => .inl ?_
        cases hs : a.scopes t with
        | none => rw [hs] at hv; simp at hv
        | some x =>
          rw [hs] at hv
          obtain ⟨h1, -⟩ : x.1 = j ∧ _ := by simpa using hv
          exact ⟨x.2, by rw [← h1]⟩
      | exit t =>
        simp only [Abs.step]
        exact upd t _ _ (Nat.le_refl _) fun j ms hv => by simp at hv
      | sample t =>
        simp only [Abs.step]
        split <;> exact ⟨ih1, ih2⟩
  have inv := inv es
  have h1 := ha.stacks t
  have h2 := ha.stacks u
  rw [hk] at h1
  rw [hl] at h2
  have hn := ha.next
  change _ = Option.map stored ((Abs.after es).scopes t) at h1
  change _ = Option.map stored ((Abs.after es).scopes u) at h2
  change _ = (Abs.after es).count at hn
  cases ht : (Abs.after es).scopes t with
  | none => rw [ht] at h1; simp at h1
  | some x =>
    cases hu : (Abs.after es).scopes u with
    | none => rw [hu] at h2; simp at h2
    | some y =>
      rw [ht] at h1
      rw [hu] at h2
      simp only [Option.map_some, stored, Option.some.injEq, Prod.mk.injEq] at h1 h2
      rw [h1.1, h2.1]
      have h3 := inv.1 t x.1 x.2 ht
      have h4 := inv.1 u y.1 y.2 hu
      have h5 := inv.2 t u x.1 x.2 y.1 y.2 htu ht hu
      intro e
      have := congrArg BitVec.toNat e
      simp only [BitVec.toNat_ofNat] at this
      omega

example : ∃ s k l, run .init [.push 0 (exRaw 1), .push 7 (exRaw 2)] = .ok s ∧ s.next ≤ 2 ^ 32 ∧
    s.stacks 0 = some k ∧ s.stacks 7 = some l ∧ k.id ≠ l.id := by
  refine ⟨_, _, _, rfl, ?_, rfl, rfl, by decide⟩
  show 2 ≤ 2 ^ 32
  omega

/-- A profile that runs for long goes wrong: a thread in one scope, sampled 2^31 / 40 times (fifteen
hours at a thousand samples a second), makes the size of the buffer overflow an `int`.  With deeper
stacks or more threads it takes less. -/
theorem c78_overflow (l : Raw) {n : Nat} (hn : 2 ^ 31 ≤ 40 * n) :
    ∀ s, run .init (.push 0 l :: List.replicate n (.sample 0)) ≠ .ok s := by
  intro s hs
  have h := agree_run agree_init hs
  have key : ∀ n, (Abs.after (.push 0 l :: List.replicate n (.sample 0))).scopes 0 = some (0, [l]) ∧
      sampleBytes (Abs.after (.push 0 l :: List.replicate n (.sample 0))).taken = 40 * n := by
    intro n
    induction n with
    | zero => simp [Abs.after, Abs.step, Abs.init, sampleBytes]
    | succ n ih =>
      have he : Abs.after (.push 0 l :: List.replicate (n + 1) (.sample 0)) =
          (Abs.after (.push 0 l :: List.replicate n (.sample 0))).step (.sample 0) := by
        rw [List.replicate_succ']
        simp [Abs.after]
      rw [he]
      generalize Abs.after (.push 0 l :: List.replicate n (.sample 0)) = a at ih
      simp only [Abs.step, ih.1, true_and]
      have := ih.2
      simp only [sampleBytes, List.map_append, List.sum_append, List.map_cons, List.map_nil, List.sum_cons,
        List.sum_nil, List.length_cons, List.length_nil] at this ⊢
      omega
  have h1 := h.small
  rw [h.buf, flatMap_length] at h1
  have h2 := (key n).2
  have h3 : sampleBytes (List.foldl Abs.step Abs.init (.push 0 l :: List.replicate n (.sample 0))).taken
    = 40 * n := h2
  rw [h3] at h1
  omega

example : 2 ^ 31 ≤ 40 * 53687092 := by decide

/-! ## The trees -/

/-- There is a tree view for any samples. -/
theorem c78_exists (ss : List (Nat × List Label)) : ∃ ts, Populate ss ts := by
  have : ∀ m : List (Nat × Node), ∃ ts, List.Forall₂
      (fun a b : Nat × Node => a.1 = b.1 ∧ ∃ m, Sorts (addOther a.2) m ∧ b.2 = setLabel a.1 m) m ts := by
    intro m
    induction m with
    | nil => exact ⟨[], .nil⟩
    | cons x m ih =>
      obtain ⟨ts, h⟩ := ih
      obtain ⟨k, hk⟩ := sorts_exists _ (addOther x.2) (Nat.le_refl _)
      exact ⟨(x.1, setLabel x.1 k) :: ts, .cons ⟨rfl, k, hk, rfl⟩ h⟩
  obtain ⟨ts, h⟩ := this (rawRoots ss)
  exact ⟨ts, ⟨h⟩⟩

/-- There is one tree for each id that occurs in the samples, in the order of the ids. -/
theorem c78_roots {ss ts} (h : Populate ss ts) :
    (ts.map Prod.fst).Pairwise (· < ·) ∧ ∀ i, i ∈ ts.map Prod.fst ↔ i ∈ ss.map Prod.fst := by
  obtain ⟨h⟩ := h
  obtain ⟨h1, h2, -⟩ := rawRoots_spec ss
  have : ts.map Prod.fst = (rawRoots ss).map Prod.fst := by
    clear h1 h2
    generalize rawRoots ss = rs at h
    induction h with
    | nil => rfl
    | cons h _ ih => simp [h.1, ih]
  rw [this]
  refine ⟨h1, fun i => ?_⟩
  rw [h2]
  simp [samplesOf]

/-- A node of the tree of a thread, reached by some labels: its weight is the number of samples of the
thread that begin with these labels, and not zero; or it is an `[other]` entry without children, and
its weight is the number of samples that end where it is, again not zero. -/
theorem c78_weight {ss ts i t p m} (h : Populate ss ts) (ht : (i, t) ∈ ts) (ha : At t p m) :
    (m.weight = through p (samplesOf i ss) ∧ 0 < through p (samplesOf i ss)) ∨
    ∃ q, p = q ++ [other] ∧ m.children = [] ∧ m.weight = exactly q (samplesOf i ss) ∧
      0 < exactly q (samplesOf i ss) := by
  have hne := (at_final h ht).1
  obtain ⟨n, hn, ⟨k, k', h1, h2, h3, -⟩ | ⟨q, k, h1, h2, h3, h4, h5, h6⟩⟩ := at_cases h ht ha
  · have hc := counts_at hn hne h1
    refine .inl ⟨?_, ?_⟩
    · rw [h3, sorts_weight h2, addOther_weight, counts_weight hc.1, subs_length]
    · rw [← subs_length]
      exact List.length_pos_iff.mpr hc.2
  · have hc := counts_at hn hne h2
    have ht := counts_total hc.1
    have hw := counts_weight hc.1
    rw [subs_exactly] at ht
    refine .inr ⟨q, h1, h4, ?_, ?_⟩ <;> omega

/-- Every beginning of a sample leads to a node, which counts the samples with this beginning. -/
theorem c78_complete {ss ts i t} (h : Populate ss ts) (ht : (i, t) ∈ ts) {s p : List Label}
    (hs : (i, s) ∈ ss) (hp : p <+: s) : ∃ m, At t p m ∧ m.weight = through p (samplesOf i ss) := by
  obtain ⟨_, n, hn, u, hu, rfl⟩ := at_final h ht
  have hs : s ∈ samplesOf i ss := by
    simp only [samplesOf, List.mem_map, List.mem_filter]
    exact ⟨(i, s), ⟨hs, by simp⟩, rfl⟩
  have hpos : subs p (samplesOf i ss) ≠ [] := by
    rw [← List.length_pos_iff, subs_length]
    exact through_pos.mpr ⟨s, hs, hp⟩
  obtain ⟨k, hk⟩ := counts_find p hn hpos
  obtain ⟨k', h1, h2⟩ := at_sorts_of hu (at_addOther_of hk)
  obtain ⟨m, h3, h4, -⟩ := at_setLabel_of (i := i) h1
  refine ⟨m, h3, ?_⟩
  rw [h4, sorts_weight h2, addOther_weight, counts_weight (counts_at hn ‹_› hk).1, subs_length]

/-- A node with children has exactly the weight of its children together. -/
theorem c78_sum {ss ts i t p m} (h : Populate ss ts) (ht : (i, t) ∈ ts) (ha : At t p m)
    (hm : m.children ≠ []) : m.weight = (m.children.map Node.weight).sum := by
  have hne := (at_final h ht).1
  obtain ⟨n, hn, ⟨k, k', h1, h2, h3, h4⟩ | ⟨q, k, h1, h2, h3, h4, h5, h6⟩⟩ := at_cases h ht ha
  · have hc := counts_at hn hne h1
    rw [← total_map, h3, h4, (sorts_children h2).1, sorts_weight h2, addOther_weight, addOther_children,
      total_append]
    have e : total (k.children.map addOther) = total k.children := by
      rw [← addOthers_eq, total_addOthers]
    rw [e]
    unfold others
    split
    · simp [total, Node.weight]
      omega
    · next hh =>
      have : total k.children = k.weight := by
        by_contra hq
        have h0 : total k.children = 0 := by
          by_contra h0
          exact hh ⟨h0, hq⟩
        have hk : k.children = [] := by
          obtain ⟨a1, a2, a3, a4⟩ := hc.1
          rename_i l cs
          cases cs with
          | nil => rfl
          | cons c cs =>
            exfalso
            have pos : ∀ ds : List Node, (∀ d ∈ ds, sub d.label (subs p (samplesOf i ss)) ≠ []) →
                (∀ d ∈ ds, Counts (sub d.label (subs p (samplesOf i ss))) d) → 0 ≤ total ds := by
              intro ds
              induction ds with
              | nil => intros; simp [total]
              | cons d ds ihd =>
                intro b1 b2
                have := ihd (fun x hx => b1 x (List.mem_cons_of_mem _ hx)) (fun x hx => b2 x (List.mem_cons_of_mem _ hx))
                rw [total, counts_weight (b2 d List.mem_cons_self)]
                omega
            have p1 := pos cs (fun x hx => a2 x (List.mem_cons_of_mem _ hx)) (fun x hx => a4 x (List.mem_cons_of_mem _ hx))
            have p2 := counts_weight (a4 c List.mem_cons_self)
            have p3 := List.length_pos_iff.mpr (a2 c List.mem_cons_self)
            simp only [Node.children, total] at h0
            omega
        apply hm
        rw [h4]
        have := (sorts_children h2).2.1.length_eq
        rw [addOther_children, hk] at this
        unfold others at this
        rw [if_neg (by simp [total])] at this
        simpa using this
      simp [total, this]
  · exact absurd h4 hm

/-- Children are in the order of their weights, heaviest first. -/
theorem c78_sorted {ss ts i t p m} (h : Populate ss ts) (ht : (i, t) ∈ ts) (ha : At t p m) :
    m.children.Pairwise fun a b => b.weight ≤ a.weight := by
  obtain ⟨n, hn, ⟨k, k', h1, h2, h3, h4⟩ | ⟨q, k, h1, h2, h3, h4, h5, h6⟩⟩ := at_cases h ht ha
  · rw [h4]
    exact (sorts_children h2).2.2
  · rw [h4]
    exact .nil

/-- The children of a node have different labels, provided that no scope is called `[other]`. -/
theorem c78_distinct_partial {ss ts i t p m} (h : Populate ss ts) (ht : (i, t) ∈ ts) (ha : At t p m)
    (ho : ∀ s, (i, s) ∈ ss → other ∉ s) : (m.children.map Node.label).Nodup := by
  have hne := (at_final h ht).1
  obtain ⟨n, hn, ⟨k, k', h1, h2, h3, h4⟩ | ⟨q, k, h1, h2, h3, h4, h5, h6⟩⟩ := at_cases h ht ha
  · have hc := counts_at hn hne h1
    rw [h4, (sorts_children h2).2.1.nodup_iff, addOther_children, List.map_append]
    have e : (k.children.map addOther).map Node.label = k.children.map Node.label := by
      rw [List.map_map]
      exact List.map_congr_left fun c _ => addOther_label c
    rw [e, List.nodup_append]
    have hk : (k.children.map Node.label).Nodup := by
      obtain ⟨a1, -⟩ := hc.1
      exact a1
    refine ⟨hk, ?_, ?_⟩
    · unfold others
      split <;> simp
    · rintro x hx y hy rfl
      obtain ⟨d, hd, rfl⟩ := List.mem_map.mp hy
      obtain ⟨rfl, -⟩ := mem_others hd
      obtain ⟨c, hc', hl⟩ := List.mem_map.mp hx
      have hl : c.label = other := hl
      obtain ⟨_, hb⟩ := counts_at hn hne (p := p ++ [c.label]) (m := c) (by
        have : ∀ {n p k}, At n p k → c ∈ k.children → At n (p ++ [c.label]) c := by
          intro n p k hk
          induction hk with
          | here => exact fun hc => .down hc (.here c)
          | down hd _ ih => exact fun hc => .down hd (ih hc)
        exact this h1 hc')
      rw [← List.length_pos_iff, subs_length] at hb
      obtain ⟨s, hs, hpre⟩ := through_pos.mp hb
      simp only [samplesOf, List.mem_map, List.mem_filter] at hs
      obtain ⟨⟨j, s'⟩, ⟨h7, h8⟩, rfl⟩ := hs
      have h8 : j = i := by simpa using h8
      refine ho s' (h8 ▸ h7) (hpre.subset ?_)
      rw [hl]
      simp
  · rw [h4]
    exact List.nodup_nil

/-- A scope of the user may be called `[other]` as well, and then a node may have two children with
this label: full distinctness is false. -/
theorem c78_distinct_false : ∃ ss ts i t p m, Populate ss ts ∧ (i, t) ∈ ts ∧ At t p m ∧
    ¬ (m.children.map Node.label).Nodup := by
  refine ⟨[(0, [other]), (0, [])], [(0, setLabel 0 (.mk default 2 [.mk other 1 [], .mk other 1 []]))], 0, _,
    [], _, ⟨?_⟩, List.mem_singleton.mpr rfl, .here _, ?_⟩
  · refine .cons ⟨rfl, .mk default 2 [.mk other 1 [], .mk other 1 []], ?_, rfl⟩ .nil
    have : addOther (addStack [] (addStack [other] (.mk default 0 []))) =
        .mk default 2 [.mk other 1 [], .mk other 1 []] := by
      simp [addStack, addTo, addOther, addOthers, others, total, Node.weight]
    show Sorts (addOther (addStack [] (addStack [other] (.mk default 0 [])))) _
    rw [this]
    refine .mk (.refl _) (by simp [Node.weight]) (.cons (.mk .nil .nil .nil) (.cons (.mk .nil .nil .nil) .nil))
  · simp [setLabel, Node.children, Node.label]

/-- The depth of the tree of a thread is the number of labels of its longest sample. -/
theorem c78_depth {ss ts i t} (h : Populate ss ts) (ht : (i, t) ∈ ts) :
    (∃ s, (i, s) ∈ ss ∧ s.length = depth t) ∧ ∀ s, (i, s) ∈ ss → s.length ≤ depth t := by
  have up : ∀ s, (i, s) ∈ ss → s.length ≤ depth t := fun s hs => by
    obtain ⟨m, hm, -⟩ := c78_complete h ht hs (List.prefix_refl s)
    exact depth_at hm
  have mem : ∀ s, s ∈ samplesOf i ss → (i, s) ∈ ss := fun s hs => by
    simp only [samplesOf, List.mem_map, List.mem_filter] at hs
    obtain ⟨⟨j, s'⟩, ⟨h7, h8⟩, rfl⟩ := hs
    have h8 : j = i := by simpa using h8
    exact h8 ▸ h7
  refine ⟨?_, up⟩
  obtain ⟨p, m, hm, hp⟩ := depth_reach _ t rfl
  have hne := (at_final h ht).1
  obtain ⟨n, hn, ⟨k, k', h1, -⟩ | ⟨q, k, h1, h2, -, -, h5, -⟩⟩ := at_cases h ht hm
  · have hc := (counts_at hn hne h1).2
    rw [← List.length_pos_iff, subs_length] at hc
    obtain ⟨s, hs, hpre⟩ := through_pos.mp hc
    have := up s (mem s hs)
    have := hpre.length_le
    exact ⟨s, mem s hs, by omega⟩
  · have hcq := counts_at hn hne h2
    obtain ⟨c, hc⟩ : ∃ c, c ∈ k.children := by
      cases hk : k.children with
      | nil => rw [hk] at h5; exact absurd rfl h5
      | cons c _ => exact ⟨c, List.mem_cons_self⟩
    obtain ⟨_, hb⟩ := counts_at hn hne (p := q ++ [c.label]) (m := c) (by
      have : ∀ {n p k}, At n p k → c ∈ k.children → At n (p ++ [c.label]) c := by
        intro n p k hk
        induction hk with
        | here => exact fun hc => .down hc (.here c)
        | down hd _ ih => exact fun hc => .down hd (ih hc)
      exact this h2 hc)
    rw [← List.length_pos_iff, subs_length] at hb
    obtain ⟨s, hs, hpre⟩ := through_pos.mp hb
    have h6 := up s (mem s hs)
    have h7 := hpre.length_le
    rw [h1] at hp
    simp only [List.length_append, List.length_cons, List.length_nil] at hp h7
    exact ⟨s, mem s hs, by omega⟩

/-- The weight of the nodes whose labels have some property: every sample of the thread counts once for
each of its labels with the property.  The property must not hold for `[other]`, nor for the label of
the root. -/
theorem c78_matching {ss ts i t} (h : Populate ss ts) (ht : (i, t) ∈ ts) {f : Label → Bool}
    (ho : f other = false) (hr : f t.label = false) :
    weightBelow f t = (((samplesOf i ss).map (List.countP f)).sum : Nat) := by
  obtain ⟨_, n, hn, u, hu, rfl⟩ := at_final h ht
  rw [← counts_matching f hn, weightBelow_eq, hr, setLabel_children]
  have h1 := sorts_matching f hu
  rw [addOther_matching ho, weightBelow_eq, weightBelow_eq, sorts_label hu, sorts_weight hu, addOther_label,
    addOther_weight] at h1
  simp only [Bool.false_eq_true, if_false]
  omega

/-- So it is the number of samples with such a label, if scopes with such labels are not nested. -/
theorem c78_matching_once {ss ts i t} (h : Populate ss ts) (ht : (i, t) ∈ ts) {f : Label → Bool}
    (ho : f other = false) (hr : f t.label = false) (h1 : ∀ s, (i, s) ∈ ss → s.countP f ≤ 1) :
    weightBelow f t = ((samplesOf i ss).countP fun s => s.any f : Nat) := by
  rw [c78_matching h ht ho hr]
  have mem : ∀ s, s ∈ samplesOf i ss → s.countP f ≤ 1 := fun s hs => by
    simp only [samplesOf, List.mem_map, List.mem_filter] at hs
    obtain ⟨⟨j, s'⟩, ⟨h7, h8⟩, rfl⟩ := hs
    have h8 : j = i := by simpa using h8
    exact h1 s' (h8 ▸ h7)
  congr 1
  generalize samplesOf i ss = S at mem
  induction S with
  | nil => rfl
  | cons s S ih =>
    have hs := mem s List.mem_cons_self
    have ih := ih fun x hx => mem x (List.mem_cons_of_mem _ hx)
    rw [List.map_cons, List.sum_cons, ih, List.countP_cons, Nat.add_comm]
    congr 1
    by_cases ha : s.any f = true
    · rw [if_pos ha]
      have : 0 < s.countP f := by
        rw [List.countP_pos_iff]
        simpa using ha
      omega
    · rw [if_neg ha, List.countP_eq_zero]
      intro x hx hf
      exact ha (List.any_eq_true.mpr ⟨x, hx, hf⟩)

/-- Collapsing at a depth keeps exactly the nodes up to this depth, with their labels and weights. -/
theorem c78_collapse (d : Nat) (n : Node) (p : List Label) (l : Label) (w : Int) :
    (∃ m, At (collapse d n) p m ∧ m.label = l ∧ m.weight = w) ↔
      p.length ≤ d ∧ ∃ m, At n p m ∧ m.label = l ∧ m.weight = w := by
  constructor
  · rintro ⟨m', h, h1, h2⟩
    obtain ⟨m, h3, h4, rfl⟩ := at_collapse.mp h
    exact ⟨h4, m, h3, by rw [← h1, collapse_label], by rw [← h2, collapse_weight]⟩
  · rintro ⟨hd, m, h, h1, h2⟩
    exact ⟨_, at_collapse.mpr ⟨m, h, hd, rfl⟩, by rw [collapse_label, h1], by rw [collapse_weight, h2]⟩

/-- Collapsing the nodes that match at a depth keeps exactly the nodes that are at most this depth below
the first node on their path that matches, and those with no such node on their path, with their
labels and weights. -/
theorem c78_collapse_matching (d : Nat) (f : Label → Bool) (n : Node) (p : List Label) (l : Label) (w : Int) :
    (∃ m, At (collapseSub d f n) p m ∧ m.label = l ∧ m.weight = w) ↔
      p.length ≤ (n.label :: p).findIdx f + d ∧ ∃ m, At n p m ∧ m.label = l ∧ m.weight = w := by
  constructor
  · rintro ⟨m', h, h1, h2⟩
    obtain ⟨h3, m, h4, h5, h6⟩ := at_collapseSub h
    exact ⟨h3, m, h4, by rw [← h5, h1], by rw [← h6, h2]⟩
  · rintro ⟨hd, m, h, h1, h2⟩
    obtain ⟨m', h3, h4, h5⟩ := at_collapseSub_of h hd
    exact ⟨m', h3, by rw [h4, h1], by rw [h5, h2]⟩

/-! ## From events to trees -/

/-- The stacks as `Populate` sees them, given the strings that the pointers point to. -/
def decode (str : BitVec 64 → String) (rs : List (BitVec 32 × List Raw)) : List (Nat × List Label) :=
  rs.map fun r => (r.1.toNat, r.2.map (Raw.label str))

/-- The whole way: in the tree of a thread the weight of a node reached by some labels is the number of
samples taken of this thread in whose scopes it was, or, for an `[other]` entry, in exactly whose scopes
it was; all weights fit into an `int`. -/
theorem c78_profile {es : List Ev} {s : St} (h : run .init es = .ok s) (str : BitVec 64 → String) :
    ∃ rs, readAll s.buf = some rs ∧
      ∀ ts i t p m, Populate (decode str rs) ts → (i, t) ∈ ts → At t p m →
        (m.weight = ((Abs.after es).taken.countP fun x =>
            x.1 % 2 ^ 32 = i ∧ p <+: x.2.map (Raw.label str) : Nat) ∨
          ∃ q, p = q ++ [other] ∧ m.children = [] ∧ m.weight = ((Abs.after es).taken.countP fun x =>
            x.1 % 2 ^ 32 = i ∧ x.2.map (Raw.label str) = q : Nat)) ∧
        0 < m.weight ∧ m.weight < 2 ^ 31 := by
  refine ⟨_, c78_samples h, fun ts i t p m hp ht ha => ?_⟩
  have hA := agree_run agree_init h
  have hsm := hA.small
  rw [hA.buf, flatMap_length] at hsm
  change sampleBytes (Abs.after es).taken < _ at hsm
  have hlen : (Abs.after es).taken.length ≤ sampleBytes (Abs.after es).taken := by
    generalize (Abs.after es).taken = T
    induction T with
    | nil => simp [sampleBytes]
    | cons x T ih =>
      simp only [sampleBytes, List.map_cons, List.sum_cons, List.length_cons] at ih ⊢
      omega
  have e1 : ∀ q, through q (samplesOf i (decode str ((Abs.after es).taken.map fun x => (.ofNat 32 x.1, x.2)))) =
      (Abs.after es).taken.countP fun x => x.1 % 2 ^ 32 = i ∧ q <+: x.2.map (Raw.label str) := by
    intro q
    simp only [through, samplesOf, decode, List.countP_map, List.countP_filter, List.map_map]
    refine List.countP_congr fun x _ => ?_
    simp [and_comm]
  have e2 : ∀ q, exactly q (samplesOf i (decode str ((Abs.after es).taken.map fun x => (.ofNat 32 x.1, x.2)))) =
      (Abs.after es).taken.countP fun x => x.1 % 2 ^ 32 = i ∧ x.2.map (Raw.label str) = q := by
    intro q
    simp only [exactly, samplesOf, decode, List.countP_map, List.countP_filter, List.map_map]
    refine List.countP_congr fun x _ => ?_
    simp [and_comm]
  rcases c78_weight hp ht ha with ⟨h1, h2⟩ | ⟨q, h0, h1, h2, h3⟩
  · rw [e1] at h1 h2
    have := List.countP_le_length (p := fun x : Nat × List Raw => decide (x.1 % 2 ^ 32 = i ∧ p <+: x.2.map (Raw.label str)))
      (l := (Abs.after es).taken)
    exact ⟨.inl h1, by omega, by omega⟩
  · rw [e2] at h2 h3
    have := List.countP_le_length (p := fun x : Nat × List Raw => decide (x.1 % 2 ^ 32 = i ∧ x.2.map (Raw.label str) = q))
      (l := (Abs.after es).taken)
    exact ⟨.inr ⟨q, h0, h1, h2⟩, by omega, by omega⟩

/-- The run above: the tree of thread 0 says that it was sampled three times in its outer scope. -/
example : ∃ s rs ts t m, run .init exEvs = .ok s ∧ readAll s.buf = some rs ∧
    Populate (decode (fun _ => "f") rs) ts ∧ (0, t) ∈ ts ∧ At t [(exRaw 1).label fun _ => "f"] m ∧
    m.weight = 3 := by
  obtain ⟨s, hs⟩ := exEvs_ok
  have hr := c78_samples hs
  rw [exEvs_taken] at hr
  obtain ⟨ts, h⟩ := c78_exists (decode (fun _ => "f") [(0, [exRaw 1]), (0, [exRaw 1, exRaw 2]),
    (1, [exRaw 4]), (0, [exRaw 1, exRaw 3])])
  have h2 : 0 ∈ ts.map Prod.fst := (c78_roots h).2 0 |>.mpr (by simp [decode])
  obtain ⟨⟨i, t⟩, ht, rfl⟩ := List.mem_map.mp h2
  obtain ⟨m, h1, h3⟩ := c78_complete h ht (s := [(exRaw 1).label fun _ => "f"])
    (p := [(exRaw 1).label fun _ => "f"]) (by simp [decode]) (by simp)
  exact ⟨s, _, ts, t, m, hs, hr, h, ht, h1, by rw [h3]; decide⟩

/-! ## An example -/

/-- A label with a single character and no arguments. -/
def lab (s : String) : Label := ⟨s, []⟩

/-- Five samples of thread 2, one of thread 0. -/
def exSamples : List (Nat × List Label) :=
  [(2, [lab "a"]), (2, [lab "a", lab "b"]), (0, [lab "z"]), (2, [lab "a", lab "c"]),
   (2, [lab "a", lab "c"]), (2, [lab "d", lab "c"])]

theorem exSamples_of : samplesOf 2 exSamples =
    [[lab "a"], [lab "a", lab "b"], [lab "a", lab "c"], [lab "a", lab "c"], [lab "d", lab "c"]] := rfl

/-- Every tree view of these samples: "a" has weight 4, "a", "c" has 2, there is an entry for the sample
that stops in "a", the depth is 2, and there are three samples with a label "c". -/
example : ∃ ts, Populate exSamples ts ∧ ∃ t, (2, t) ∈ ts ∧
    (∃ m, At t [lab "a"] m ∧ m.weight = 4) ∧ (∃ m, At t [lab "a", lab "c"] m ∧ m.weight = 2) ∧
    (∀ m, At t [lab "b"] m → False) ∧
    depth t = 2 ∧ weightBelow (fun l => l = lab "c") t = 3 := by
  obtain ⟨ts, h⟩ := c78_exists exSamples
  have h2 : 2 ∈ ts.map Prod.fst := (c78_roots h).2 2 |>.mpr (by simp [exSamples])
  obtain ⟨⟨i, t⟩, ht, rfl⟩ := List.mem_map.mp h2
  refine ⟨ts, h, t, ht, ?_, ?_, ?_, ?_, ?_⟩
  · obtain ⟨m, h1, h2⟩ := c78_complete h ht (s := [lab "a"]) (p := [lab "a"]) (by simp [exSamples]) (by simp)
    exact ⟨m, h1, by rw [h2, exSamples_of]; decide⟩
  · obtain ⟨m, h1, h2⟩ := c78_complete h ht (s := [lab "a", lab "c"]) (p := [lab "a", lab "c"])
      (by simp [exSamples]) (by simp)
    exact ⟨m, h1, by rw [h2, exSamples_of]; decide⟩
  · intro m hm
    rcases c78_weight h ht hm with ⟨-, h1⟩ | ⟨q, h1, -⟩
    · rw [exSamples_of] at h1
      exact absurd h1 (by decide)
    · have := congrArg List.getLast? h1
      simp [lab, other] at this
  · obtain ⟨⟨s, h1, h3⟩, h4⟩ := c78_depth h ht
    have h5 := h4 [lab "d", lab "c"] (by simp [exSamples])
    have : s.length ≤ 2 := by
      simp only [exSamples, List.mem_cons, Prod.mk.injEq, List.not_mem_nil, or_false] at h1
      rcases h1 with h1 | h1 | h1 | h1 | h1 | h1 <;> rw [h1.2] <;> simp
    simp only [List.length_cons, List.length_nil] at h5
    omega
  · rw [c78_matching_once h ht (f := fun l => l = lab "c") (by decide) ?_ ?_]
    · rw [exSamples_of]
      decide
    · obtain ⟨_, n, _, u, _, rfl⟩ := at_final h ht
      cases u
      simp [setLabel, Node.label, lab]
    · intro s hs
      simp only [exSamples, List.mem_cons, Prod.mk.injEq, List.not_mem_nil, or_false] at hs
      rcases hs with h1 | h1 | h1 | h1 | h1 | h1 <;> rw [h1.2] <;> decide

/-- Nested scopes with matching labels count twice: one sample, weight 2. -/
theorem c78_matching_nested : ∃ ss ts i t, ∃ f : Label → Bool, Populate ss ts ∧ (i, t) ∈ ts ∧
    f other = false ∧ f t.label = false ∧ (samplesOf i ss).length = 1 ∧ weightBelow f t = 2 := by
  obtain ⟨ts, h⟩ := c78_exists [(0, [lab "a", lab "a"])]
  have h2 : 0 ∈ ts.map Prod.fst := (c78_roots h).2 0 |>.mpr (by simp)
  obtain ⟨⟨i, t⟩, ht, rfl⟩ := List.mem_map.mp h2
  have hr : (fun l => decide (l = lab "a")) t.label = false := by
    obtain ⟨_, n, _, u, _, rfl⟩ := at_final h ht
    cases u
    simp [setLabel, Node.label, lab]
  exact ⟨_, ts, 0, t, fun l => l = lab "a", h, ht, by decide, hr, rfl, by
    rw [c78_matching h ht (by decide) hr]; decide⟩

/-- Collapsing at depth one: the node "a" is kept, what is below it is not. -/
example : (∃ m, At (collapse 1 (.mk (lab "r") 2 [.mk (lab "a") 2 [.mk (lab "b") 1 []]])) [lab "a"] m ∧
      m.label = lab "a" ∧ m.weight = 2) ∧
    ¬ ∃ m, At (collapse 1 (.mk (lab "r") 2 [.mk (lab "a") 2 [.mk (lab "b") 1 []]])) [lab "a", lab "b"] m ∧
      m.label = lab "b" ∧ m.weight = 1 := by
  refine ⟨(c78_collapse ..).mpr ⟨by simp, .mk (lab "a") 2 [.mk (lab "b") 1 []], ?_, rfl, rfl⟩, fun h => ?_⟩
  · exact .down (c := .mk (lab "a") 2 [.mk (lab "b") 1 []]) (by simp [Node.children]) (.here _)
  · exact absurd ((c78_collapse ..).mp h).1 (by simp)

/-- Collapsing below "a" at depth zero: "b" goes, "d" with its child stays. -/
example : (∃ m, At (collapseSub 0 (fun l => l = lab "a")
      (.mk (lab "r") 3 [.mk (lab "a") 2 [.mk (lab "b") 1 []], .mk (lab "d") 1 [.mk (lab "b") 1 []]]))
      [lab "d", lab "b"] m ∧ m.label = lab "b" ∧ m.weight = 1) ∧
    ¬ ∃ m, At (collapseSub 0 (fun l => l = lab "a")
      (.mk (lab "r") 3 [.mk (lab "a") 2 [.mk (lab "b") 1 []], .mk (lab "d") 1 [.mk (lab "b") 1 []]]))
      [lab "a", lab "b"] m ∧ m.label = lab "b" ∧ m.weight = 1 := by
  refine ⟨(c78_collapse_matching ..).mpr ⟨by decide, .mk (lab "b") 1 [], ?_, rfl, rfl⟩, fun h => ?_⟩
  · exact .down (c := .mk (lab "d") 1 [.mk (lab "b") 1 []]) (by simp [Node.children])
      (.down (c := .mk (lab "b") 1 []) (by simp [Node.children]) (.here _))
  · exact absurd ((c78_collapse_matching ..).mp h).1 (by decide)

end Ruy.Prof

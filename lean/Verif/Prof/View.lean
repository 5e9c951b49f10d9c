import Verif.Prof.Tree

/-! # Profiler: depth, matching and collapsing; the finished tree -/

namespace Ruy.Prof

/-! ## Depth -/

theorem depth_children (n : Node) : depth n = if n.children.isEmpty then 0 else 1 + depths n.children := by
  cases n; simp [depth, Node.children]

theorem depths_mem {cs : List Node} {c} (h : c ∈ cs) : depth c ≤ depths cs := by
  induction cs with
  | nil => simp at h
  | cons d cs ih =>
    rw [depths]
    rcases List.mem_cons.mp h with rfl | h
    · exact Nat.le_max_left _ _
    · exact Nat.le_trans (ih h) (Nat.le_max_right _ _)

theorem depths_find {cs : List Node} (h : cs ≠ []) : ∃ c ∈ cs, depth c = depths cs := by
  induction cs with
  | nil => exact absurd rfl h
  | cons d cs ih =>
    rw [depths]
    by_cases hc : cs = []
    · subst hc
      exact ⟨d, List.mem_cons_self, by simp [depths]⟩
    · obtain ⟨c, h1, h2⟩ := ih hc
      rcases Nat.le_total (depth d) (depths cs) with h3 | h3
      · exact ⟨c, List.mem_cons_of_mem _ h1, by rw [h2, Nat.max_eq_right h3]⟩
      · exact ⟨d, List.mem_cons_self, by rw [Nat.max_eq_left h3]⟩

theorem depth_at {n p m} (h : At n p m) : p.length ≤ depth n := by
  induction h with
  | here => simp
  | down hc _ ih =>
    rw [depth_children, if_neg (by rintro he; rw [List.isEmpty_iff] at he; rw [he] at hc; simp at hc)]
    have := depths_mem hc
    simp only [List.length_cons]
    omega

theorem depth_reach : ∀ (d : Nat) (n : Node), depth n = d → ∃ p m, At n p m ∧ p.length = d
  | 0, n, _ => ⟨[], n, .here n, rfl⟩
  | d + 1, n, h => by
    rw [depth_children] at h
    split at h
    · omega
    · next he =>
      rw [List.isEmpty_iff] at he
      obtain ⟨c, hc, hd⟩ := depths_find he
      obtain ⟨p, m, h1, h2⟩ := depth_reach d c (by omega)
      exact ⟨c.label :: p, m, .down hc h1, by simp [h2]⟩

/-! ## Matching -/

theorem weightBelow_eq (f : Label → Bool) (n : Node) :
    weightBelow f n = (if f n.label then n.weight else 0) + weightsBelow f n.children := by
  cases n; rw [weightBelow]; rfl

theorem weightsBelow_append (f : Label → Bool) (a b : List Node) :
    weightsBelow f (a ++ b) = weightsBelow f a + weightsBelow f b := by
  induction a with
  | nil => simp [weightsBelow]
  | cons c a ih => simp only [List.cons_append, weightsBelow, ih]; omega

theorem weightsBelow_perm (f : Label → Bool) {a b : List Node} (h : a.Perm b) :
    weightsBelow f a = weightsBelow f b := by
  induction h with
  | nil => rfl
  | cons x _ ih => simp only [weightsBelow, ih]
  | swap x y l => simp only [weightsBelow]; omega
  | trans _ _ h1 h2 => exact h1.trans h2

/-- A sum over samples is the sum over the first labels. -/
theorem sum_sub_gen (g : List Label → Nat) (hg : g [] = 0) (xs : List Label) (hn : xs.Nodup)
    (ss : List (List Label)) (h : ∀ x s, x :: s ∈ ss → x ∈ xs) :
    (xs.map fun x => ((sub x ss).map fun s => g (x :: s)).sum).sum = (ss.map g).sum := by
  induction ss with
  | nil => simp [sub]
  | cons s ss ih =>
    replace ih := ih fun x t ht => h x t (List.mem_cons_of_mem _ ht)
    cases s with
    | nil => simpa [sub, hg] using ih
    | cons y ys =>
      have hy := h y ys List.mem_cons_self
      rw [List.map_cons, List.sum_cons, ← ih]
      clear ih h
      induction xs with
      | nil => simp at hy
      | cons x xs ihx =>
        rw [List.nodup_cons] at hn
        simp only [List.map_cons, List.sum_cons]
        by_cases hyx : y = x
        · subst hyx
          have h1 : sub y ((y :: ys) :: ss) = ys :: sub y ss := by simp [sub]
          have h2 : (xs.map fun x => ((sub x ((y :: ys) :: ss)).map fun s => g (x :: s)).sum) =
              xs.map fun x => ((sub x ss).map fun s => g (x :: s)).sum := by
            apply List.map_congr_left
            intro x hx
            have : ¬ y = x := fun e => hn.1 (e ▸ hx)
            simp [sub, this]
          rw [h1, h2, List.map_cons, List.sum_cons]
          omega
        · have h1 : sub x ((y :: ys) :: ss) = sub x ss := by simp [sub, hyx]
          have := ihx hn.2 ((List.mem_cons.mp hy).resolve_left hyx)
          rw [h1, this]
          omega

theorem counts_matching (f : Label → Bool) {ss n} (h : Counts ss n) :
    weightsBelow f n.children = ((ss.map (List.countP f)).sum : Nat) := by
  induction h with
  | mk h1 h2 h3 h4 ih =>
    rename_i ss l cs
    have hs := sum_sub_gen (List.countP f) rfl _ h1 ss h3
    rw [← hs]
    simp only [Node.children]
    clear hs h1 h2 h3
    induction cs with
    | nil => rfl
    | cons c cs ihc =>
      have hw : ∀ (ts : List (List Label)), ((ts.map fun s => List.countP f (c.label :: s)).sum : Int) =
          (if f c.label then (ts.length : Int) else 0) + ((ts.map (List.countP f)).sum : Nat) := by
        intro ts
        induction ts with
        | nil => simp
        | cons t ts iht =>
          simp only [List.map_cons, List.sum_cons, Int.natCast_add, List.countP_cons, List.length_cons] at iht ⊢
          rw [iht]
          split
          · simp only [Int.natCast_one]; omega
          · simp only [Int.natCast_zero]; omega
      rw [weightsBelow, weightBelow_eq, ih c List.mem_cons_self, counts_weight (h4 c List.mem_cons_self),
        ihc (fun d hd => h4 d (List.mem_cons_of_mem _ hd)) (fun d hd => ih d (List.mem_cons_of_mem _ hd))]
      simp only [List.map_cons, List.sum_cons, Int.natCast_add, hw]

mutual
theorem addOther_matching {f : Label → Bool} (hf : f other = false) :
    ∀ n : Node, weightBelow f (addOther n) = weightBelow f n
  | .mk l w cs => by
    have h : weightsBelow f (others w (total (addOthers cs))) = 0 := by
      unfold others
      split <;> simp [weightsBelow, weightBelow, hf]
    rw [addOther, weightBelow, weightBelow, weightsBelow_append, h, addOthers_matching hf cs]
    omega
theorem addOthers_matching {f : Label → Bool} (hf : f other = false) :
    ∀ cs : List Node, weightsBelow f (addOthers cs) = weightsBelow f cs
  | [] => by simp [addOthers]
  | c :: cs => by rw [addOthers, weightsBelow, weightsBelow, addOther_matching hf c, addOthers_matching hf cs]
end

mutual
theorem sorts_matching (f : Label → Bool) : ∀ {n m : Node}, Sorts n m → weightBelow f m = weightBelow f n
  | .mk _ _ _, _, .mk h1 _ h3 => by
    rw [weightBelow, weightBelow, sortsAll_matching f h3, weightsBelow_perm f h1]
theorem sortsAll_matching (f : Label → Bool) :
    ∀ {cs ds : List Node}, SortsAll cs ds → weightsBelow f ds = weightsBelow f cs
  | _, _, .nil => rfl
  | _, _, .cons h1 h2 => by
    rw [weightsBelow, weightsBelow, sorts_matching f h1, sortsAll_matching f h2]
end

/-! ## Collapsing -/

theorem collapse_label (d n) : (collapse d n).label = n.label := by cases n; cases d <;> rfl
theorem collapse_weight (d n) : (collapse d n).weight = n.weight := by cases n; cases d <;> rfl

theorem collapse_zero (n : Node) : (collapse 0 n).children = [] := by cases n; rfl
theorem collapse_succ (d) (n : Node) : (collapse (d + 1) n).children = n.children.map (collapse d) := by
  cases n; rfl

theorem at_collapse {d n p m'} : At (collapse d n) p m' ↔
    ∃ m, At n p m ∧ p.length ≤ d ∧ m' = collapse (d - p.length) m := by
  constructor
  · intro h
    generalize hn : collapse d n = n' at h
    induction h generalizing d n with
    | here => exact ⟨n, .here n, Nat.zero_le _, hn.symm⟩
    | down hc _ ih =>
      subst hn
      cases d with
      | zero => rw [collapse_zero] at hc; simp at hc
      | succ d =>
        rw [collapse_succ] at hc
        obtain ⟨c, h1, rfl⟩ := List.mem_map.mp hc
        obtain ⟨m, h2, h3, h4⟩ := ih rfl
        rw [collapse_label]
        exact ⟨m, .down h1 h2, by simpa using h3, by simpa using h4⟩
  · rintro ⟨m, h, hd, rfl⟩
    induction h generalizing d with
    | here => exact .here _
    | down hc _ ih =>
      cases d with
      | zero => simp at hd
      | succ d =>
        rw [← collapse_label d]
        refine .down (by rw [collapse_succ]; exact List.mem_map_of_mem hc) ?_
        simpa using ih (d := d) (by simpa using hd)

theorem collapseSub_label (d f n) : (collapseSub d f n).label = n.label := by
  cases n; rw [collapseSub]; split
  · exact collapse_label _ _
  · rfl

theorem collapseSub_weight (d f n) : (collapseSub d f n).weight = n.weight := by
  cases n; rw [collapseSub]; split
  · exact collapse_weight _ _
  · rfl

theorem collapseSubs_eq (d f cs) : collapseSubs d f cs = cs.map (collapseSub d f) := by
  induction cs with
  | nil => simp [collapseSubs]
  | cons c cs ih => simp [collapseSubs, ih]

theorem collapseSub_match {d f n} (h : f n.label = true) : collapseSub d f n = collapse d n := by
  cases n; simp only [Node.label] at h; rw [collapseSub, if_pos h]

theorem collapseSub_children {d f n} (h : f n.label = false) :
    (collapseSub d f n).children = n.children.map (collapseSub d f) := by
  cases n; simp only [Node.label] at h; rw [collapseSub, if_neg (by simp [h]), ← collapseSubs_eq]; rfl

theorem at_collapseSub {d f n p m'} (h : At (collapseSub d f n) p m') :
    p.length ≤ (n.label :: p).findIdx f + d ∧
      ∃ m, At n p m ∧ m'.label = m.label ∧ m'.weight = m.weight := by
  induction p generalizing n with
  | nil =>
    cases h
    exact ⟨by simp, n, .here n, collapseSub_label _ _ _, collapseSub_weight _ _ _⟩
  | cons x p ih =>
    cases hf : f n.label with
    | true =>
      rw [collapseSub_match hf] at h
      obtain ⟨m, h1, h2, rfl⟩ := at_collapse.mp h
      exact ⟨by simp [List.findIdx_cons, hf]; simpa using h2, m, h1, collapse_label _ _, collapse_weight _ _⟩
    | false =>
      generalize hp : x :: p = q at h
      cases h with
      | here => simp at hp
      | down hc hm =>
        rw [collapseSub_children hf] at hc
        obtain ⟨c, h1, rfl⟩ := List.mem_map.mp hc
        rw [collapseSub_label] at hp ⊢
        obtain ⟨rfl, rfl⟩ : x = c.label ∧ p = _ := by simpa using hp
        obtain ⟨h2, m, h3, h4⟩ := ih hm
        refine ⟨?_, m, .down h1 h3, h4⟩
        rw [List.findIdx_cons, hf]
        simp only [cond_false, List.length_cons]
        omega

theorem at_collapseSub_of {d f n p m} (h : At n p m) (hd : p.length ≤ (n.label :: p).findIdx f + d) :
    ∃ m', At (collapseSub d f n) p m' ∧ m'.label = m.label ∧ m'.weight = m.weight := by
  induction h with
  | here n => exact ⟨_, .here _, collapseSub_label _ _ _, collapseSub_weight _ _ _⟩
  | down hc hm ih =>
    rename_i n c p m
    cases hf : f n.label with
    | true =>
      rw [collapseSub_match hf]
      refine ⟨_, at_collapse.mpr ⟨m, .down hc hm, ?_, rfl⟩, collapse_label _ _, collapse_weight _ _⟩
      rw [List.findIdx_cons, hf] at hd
      simpa using hd
    | false =>
      rw [List.findIdx_cons, hf] at hd
      simp only [cond_false, List.length_cons] at hd
      obtain ⟨m', h1, h2⟩ := ih (by omega)
      refine ⟨m', ?_, h2⟩
      rw [← collapseSub_label d f c]
      exact .down (by rw [collapseSub_children hf]; exact List.mem_map_of_mem hc) h1

/-! ## The finished tree -/

/-- A node of the finished tree: it comes from a node of the tree of the samples, or is an entry of
its own. -/
theorem at_final {ss ts i t} (h : Populate ss ts) (ht : (i, t) ∈ ts) :
    samplesOf i ss ≠ [] ∧ ∃ n, Counts (samplesOf i ss) n ∧ ∃ u, Sorts (addOther n) u ∧ t = setLabel i u := by
  obtain ⟨h⟩ := h
  obtain ⟨h1, h2, h3⟩ := rawRoots_spec ss
  obtain ⟨⟨j, n⟩, hn, he⟩ : ∃ a ∈ rawRoots ss, a.1 = i ∧ ∃ m, Sorts (addOther a.2) m ∧ t = setLabel a.1 m := by
    clear h1 h2 h3
    generalize rawRoots ss = rs at h
    induction h with
    | nil => simp at ht
    | cons h _ ih =>
      rcases List.mem_cons.mp ht with rfl | ht
      · exact ⟨_, List.mem_cons_self, h⟩
      · obtain ⟨a, h1, h2⟩ := ih ht
        exact ⟨a, List.mem_cons_of_mem _ h1, h2⟩
  obtain ⟨rfl, u, hu, rfl⟩ := he
  exact ⟨(h2 j).mp (List.mem_map.mpr ⟨_, hn, rfl⟩), n, h3 j n hn, u, hu, rfl⟩

theorem setLabel_children (i n) : (setLabel i n).children = n.children := by cases n; rfl
theorem setLabel_weight (i n) : (setLabel i n).weight = n.weight := by cases n; rfl

theorem at_setLabel {i n p m} (h : At (setLabel i n) p m) :
    ∃ k, At n p k ∧ m.weight = k.weight ∧ m.children = k.children := by
  generalize hn : setLabel i n = n' at h
  cases h with
  | here => exact ⟨n, .here n, by rw [← hn, setLabel_weight], by rw [← hn, setLabel_children]⟩
  | down hc hm =>
    rw [← hn, setLabel_children] at hc
    exact ⟨m, .down hc hm, rfl, rfl⟩

theorem at_setLabel_of {i n p k} (h : At n p k) :
    ∃ m, At (setLabel i n) p m ∧ m.weight = k.weight ∧ m.children = k.children := by
  cases h with
  | here => exact ⟨_, .here _, setLabel_weight _ _, setLabel_children _ _⟩
  | down hc hm => exact ⟨k, .down (by rw [setLabel_children]; exact hc) hm, rfl, rfl⟩

/-- Every tree can be sorted. -/
theorem sorts_exists : ∀ (d : Nat) (n : Node), depth n ≤ d → ∃ m, Sorts n m := by
  have all : ∀ (cs : List Node), (∀ c ∈ cs, ∃ m, Sorts c m) → ∃ ds, SortsAll cs ds := by
    intro cs
    induction cs with
    | nil => exact fun _ => ⟨[], .nil⟩
    | cons c cs ih =>
      intro h
      obtain ⟨m, hm⟩ := h c List.mem_cons_self
      obtain ⟨ds, hd⟩ := ih fun c hc => h c (List.mem_cons_of_mem _ hc)
      exact ⟨m :: ds, .cons hm hd⟩
  have sort : ∀ cs : List Node, ∃ ds, cs.Perm ds ∧ ds.Pairwise fun a b => b.weight ≤ a.weight := by
    intro cs
    refine ⟨cs.mergeSort fun a b => decide (b.weight ≤ a.weight), (List.mergeSort_perm _ _).symm, ?_⟩
    have := List.pairwise_mergeSort (le := fun a b : Node => decide (b.weight ≤ a.weight))
      (fun a b c h1 h2 => by simp only [decide_eq_true_eq] at *; omega)
      (fun a b => by simp only [Bool.or_eq_true, decide_eq_true_eq]; omega) cs
    simpa using this
  intro d
  induction d with
  | zero =>
    rintro ⟨l, w, cs⟩ h
    rw [depth_children] at h
    simp only [Node.children] at h
    cases cs with
    | nil => exact ⟨_, .mk .nil .nil .nil⟩
    | cons => simp at h
  | succ d ih =>
    rintro ⟨l, w, cs⟩ h
    obtain ⟨ds, h1, h2⟩ := sort cs
    obtain ⟨es, h3⟩ := all ds fun c hc => ih c (by
      have hc := h1.mem_iff.mpr hc
      rw [depth_children, if_neg (by
        simp only [Node.children]; intro he; rw [List.isEmpty_iff] at he; simp [he] at hc)] at h
      have := depths_mem hc
      simp only [Node.children] at h
      omega)
    exact ⟨_, .mk h1 h2 h3⟩

/-- Where a node of the finished tree comes from. -/
theorem at_cases {ss ts i t p m} (h : Populate ss ts) (ht : (i, t) ∈ ts) (ha : At t p m) :
    ∃ n, Counts (samplesOf i ss) n ∧
      ((∃ k k', At n p k ∧ Sorts (addOther k) k' ∧ m.weight = k'.weight ∧ m.children = k'.children) ∨
       ∃ q k, p = q ++ [other] ∧ At n q k ∧ m.weight = k.weight - total k.children ∧ m.children = [] ∧
         total k.children ≠ 0 ∧ total k.children ≠ k.weight) := by
  obtain ⟨_, n, hn, u, hu, rfl⟩ := at_final h ht
  obtain ⟨k1, h1, h2, h3⟩ := at_setLabel ha
  obtain ⟨k2, h4, h5⟩ := at_sorts hu h1
  refine ⟨n, hn, ?_⟩
  rcases at_addOther h4 with ⟨k, h6, rfl⟩ | ⟨q, k, rfl, h6, rfl, h7⟩
  · exact .inl ⟨k, k1, h6, h5, h2, h3⟩
  · refine .inr ⟨q, k, rfl, h6, ?_, ?_, h7⟩
    · rw [h2, sorts_weight h5]; rfl
    · rw [h3]
      cases h5 with
      | mk a b c =>
        have := a.length_eq
        cases a.symm.eq_nil
        cases c
        rfl

theorem sorts_children {n m} (h : Sorts n m) :
    total m.children = total n.children ∧ (m.children.map Node.label).Perm (n.children.map Node.label) ∧
      m.children.Pairwise fun a b => b.weight ≤ a.weight := by
  cases h with
  | mk a b c =>
    obtain ⟨h1, h2⟩ := sortsAll_map c
    refine ⟨?_, ?_, ?_⟩
    · simp only [Node.children]
      rw [total_map, h1, ← total_map, total_perm a]
    · simp only [Node.children]
      rw [h2]
      exact (a.map _).symm
    · simp only [Node.children]
      have : (List.map Node.weight _).Pairwise (fun x y : Int => y ≤ x) := List.pairwise_map.mpr b
      rw [← h1] at this
      exact List.pairwise_map.mp this

theorem through_pos {p ss} : 0 < through p ss ↔ ∃ s ∈ ss, p <+: s := by
  simp [through, List.countP_pos_iff]

theorem exactly_pos {p ss} : 0 < exactly p ss ↔ p ∈ ss := by
  simp [exactly, List.countP_pos_iff]

end Ruy.Prof

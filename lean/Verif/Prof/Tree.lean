import Verif.Prof.Spec
import Mathlib.Data.List.Induction

/-! # Profiler: the tree against the samples -/

namespace Ruy.Prof

theorem sameArgs_iff : ∀ {a b : List Int}, a.length = b.length → (sameArgs a b = true ↔ a = b)
  | [], [], _ => by simp [sameArgs]
  | x :: a, y :: b, h => by
    have ih := sameArgs_iff (a := a) (b := b) (by simpa using h)
    rw [sameArgs]
    split
    · next hx => simpa using fun e => absurd e hx
    · next hx =>
      have hx : x = y := not_not.mp hx
      simp [ih, hx]

theorem same_iff {a b : Label} : a.same b = true ↔ a = b := by
  unfold Label.same
  cases a with | mk f as => ?_
  cases b with | mk g bs => ?_
  simp only [Label.mk.injEq]
  split
  · next h => simpa using fun e => absurd e h
  · next h =>
    split
    · next h' => simpa using fun _ e => h' (congrArg _ e)
    · next h' =>
      rw [sameArgs_iff (not_not.mp h')]
      simp [not_not.mp h]

/-! ## The tree of some samples -/

/-- The samples that begin with a label, without it. -/
def sub (x : Label) (ss : List (List Label)) : List (List Label) :=
  ss.filterMap fun s => match s with
    | [] => none
    | y :: ys => if y = x then some ys else none

theorem sub_append (x ss ts) : sub x (ss ++ ts) = sub x ss ++ sub x ts := by
  simp [sub, List.filterMap_append]

/-- The node counts exactly these samples, before other entries are added. -/
inductive Counts : List (List Label) → Node → Prop
  | mk {ss l cs} : (cs.map Node.label).Nodup → (∀ c ∈ cs, sub c.label ss ≠ []) →
      (∀ x xs, x :: xs ∈ ss → x ∈ cs.map Node.label) →
      (∀ c ∈ cs, Counts (sub c.label ss) c) → Counts ss (.mk l ss.length cs)

theorem addStack_label (s : List Label) (n : Node) : (addStack s n).label = n.label := by
  cases n
  cases s <;> rfl

theorem addTo_labels {f : Node → Node} (hf : ∀ n, (f n).label = n.label) (x : Label) (cs : List Node) :
    (addTo f x cs).map Node.label =
      if x ∈ cs.map Node.label then cs.map Node.label else cs.map Node.label ++ [x] := by
  induction cs with
  | nil => simp only [addTo, List.map_cons, List.map_nil, hf]; rfl
  | cons c cs ih =>
    rw [addTo]
    split
    · next h =>
      have h := same_iff.mp h
      simp [h, hf]
    · next h =>
      have h : ¬ c.label = x := fun e => h (same_iff.mpr e)
      have h' : ¬ x = c.label := fun e => h e.symm
      rw [List.map_cons, ih]
      by_cases hx : x ∈ cs.map Node.label
      · rw [if_pos hx, if_pos (by simpa using Or.inr (List.mem_map.mp hx)), List.map_cons]
      · rw [if_neg hx, if_neg]
        · rfl
        · rw [List.map_cons, List.mem_cons]
          exact fun e => e.elim h' hx

theorem mem_addTo {f : Node → Node} {x : Label} {cs : List Node} (hn : (cs.map Node.label).Nodup)
    {d : Node} (h : d ∈ addTo f x cs) :
    (d ∈ cs ∧ d.label ≠ x) ∨ (∃ c ∈ cs, c.label = x ∧ d = f c) ∨
      (x ∉ cs.map Node.label ∧ d = f (.mk x 0 [])) := by
  induction cs with
  | nil => exact .inr (.inr ⟨by simp, by simpa [addTo] using h⟩)
  | cons c cs ih =>
    rw [addTo] at h
    rw [List.map_cons, List.nodup_cons] at hn
    split at h
    · next hs =>
      have hs := same_iff.mp hs
      rcases List.mem_cons.mp h with rfl | h
      · exact .inr (.inl ⟨c, List.mem_cons_self, hs, rfl⟩)
      · refine .inl ⟨List.mem_cons_of_mem _ h, fun e => hn.1 ?_⟩
        rw [hs, ← e]
        exact List.mem_map.mpr ⟨d, h, rfl⟩
    · next hs =>
      have hs : ¬ c.label = x := fun e => hs (same_iff.mpr e)
      rcases List.mem_cons.mp h with rfl | h
      · exact .inl ⟨List.mem_cons_self, hs⟩
      · rcases ih hn.2 h with ⟨h1, h2⟩ | ⟨c', h1, h2⟩ | ⟨h1, h2⟩
        · exact .inl ⟨List.mem_cons_of_mem _ h1, h2⟩
        · exact .inr (.inl ⟨c', List.mem_cons_of_mem _ h1, h2⟩)
        · refine .inr (.inr ⟨?_, h2⟩)
          rw [List.map_cons, List.mem_cons]
          exact fun e => e.elim (fun e => hs e.symm) h1

theorem counts_nil (l : Label) : Counts [] (.mk l 0 []) :=
  Counts.mk (ss := []) (by simp) (by simp) (by simp) (by simp)

theorem counts_add {ss n} (s : List Label) (h : Counts ss n) : Counts (ss ++ [s]) (addStack s n) := by
  induction s generalizing ss n with
  | nil =>
    obtain ⟨h1, h2, h3, h4⟩ := h
    have hs : ∀ x, sub x (ss ++ [[]]) = sub x ss := fun x => by rw [sub_append]; simp [sub]
    have := Counts.mk (ss := ss ++ [[]]) (l := ‹_›) h1 (fun c hc => by rw [hs]; exact h2 c hc)
      (fun x xs hx => h3 x xs (by simpa using hx)) (fun c hc => by rw [hs]; exact h4 c hc)
    simpa [addStack] using this
  | cons x xs ih =>
    obtain ⟨h1, h2, h3, h4⟩ := h
    rename_i l cs
    have hx : sub x (ss ++ [x :: xs]) = sub x ss ++ [xs] := by rw [sub_append]; simp [sub]
    have hne : ∀ y, y ≠ x → sub y (ss ++ [x :: xs]) = sub y ss := fun y hy => by
      rw [sub_append]; simp [sub, hy.symm]
    have hl := addTo_labels (f := addStack xs) (addStack_label xs) x cs
    have hnew : x ∉ cs.map Node.label → sub x ss = [] := fun hn => by
      simp only [sub, List.filterMap_eq_nil_iff]
      intro s hs
      cases s with
      | nil => rfl
      | cons y ys =>
        by_cases hy : y = x
        · subst hy
          exact absurd (h3 _ _ hs) hn
        · simp [hy]
    have hlab : (addStack xs (Node.mk x 0 [])).label = x := addStack_label _ _
    have key : Counts (ss ++ [x :: xs]) (.mk l (ss ++ [x :: xs]).length (addTo (addStack xs) x cs)) := by
      refine Counts.mk ?_ ?_ ?_ ?_
      · rw [hl]
        split
        · exact h1
        · next hm =>
          rw [List.nodup_append]
          exact ⟨h1, by simp, fun a ha b hb e => hm (by
            rw [List.mem_singleton] at hb; rw [← hb, ← e]; exact ha)⟩
      · intro c hc
        rcases mem_addTo h1 hc with ⟨h5, h6⟩ | ⟨c', h5, h6, rfl⟩ | ⟨h5, rfl⟩
        · rw [hne _ h6]
          exact h2 c h5
        · rw [addStack_label, h6, hx]
          simp
        · rw [hlab, hx]
          simp
      · intro y ys hy
        rw [hl]
        rcases List.mem_append.mp hy with hy | hy
        · have := h3 y ys hy
          split
          · exact this
          · exact List.mem_append_left _ this
        · obtain ⟨rfl, rfl⟩ : y = x ∧ ys = xs := by simpa using hy
          split
          · assumption
          · simp
      · intro c hc
        rcases mem_addTo h1 hc with ⟨h5, h6⟩ | ⟨c', h5, h6, rfl⟩ | ⟨h5, rfl⟩
        · rw [hne _ h6]
          exact h4 c h5
        · rw [addStack_label, h6, hx]
          have := h4 c' h5
          rw [h6] at this
          exact ih this
        · rw [hlab, hx, hnew h5]
          exact ih (counts_nil x)
    simpa [addStack] using key

theorem counts_fold (l : Label) (ss : List (List Label)) :
    Counts ss (ss.foldl (fun n s => addStack s n) (.mk l 0 [])) := by
  suffices ∀ ts n, Counts ts n → Counts (ts ++ ss) (ss.foldl (fun n s => addStack s n) n) from
    this [] _ (counts_nil l)
  induction ss with
  | nil => intro ts n h; simpa using h
  | cons s ss ih =>
    intro ts n h
    have := ih (ts ++ [s]) _ (counts_add s h)
    simpa using this

/-! ## The nodes of the tree before other entries are added -/

/-- The samples that begin with some labels, without them. -/
def subs : List Label → List (List Label) → List (List Label)
  | [], ss => ss
  | x :: p, ss => subs p (sub x ss)

theorem through_cons (x p ss) : through (x :: p) ss = through p (sub x ss) := by
  induction ss with
  | nil => rfl
  | cons s ss ih =>
    simp only [through, sub] at ih ⊢
    cases s with
    | nil => simpa [List.countP_cons] using ih
    | cons y ys =>
      by_cases hy : y = x
      · subst hy
        simp [List.countP_cons, ih, List.cons_prefix_cons]
      · have hy' : ¬ x = y := fun e => hy e.symm
        simp [ih, List.cons_prefix_cons, hy, hy']

theorem subs_length (p ss) : (subs p ss).length = through p ss := by
  induction p generalizing ss with
  | nil => simp [subs, through]
  | cons x p ih => rw [subs, ih, through_cons]

theorem exactly_cons (x p ss) : exactly (x :: p) ss = exactly p (sub x ss) := by
  induction ss with
  | nil => rfl
  | cons s ss ih =>
    simp only [exactly, sub] at ih ⊢
    cases s with
    | nil => simpa [List.countP_cons] using ih
    | cons y ys =>
      by_cases hy : y = x
      · subst hy
        simp [List.countP_cons, ih]
      · simp [ih, hy]

theorem subs_exactly (p ss) : exactly [] (subs p ss) = exactly p ss := by
  induction p generalizing ss with
  | nil => rfl
  | cons x p ih => rw [subs, ih, exactly_cons]

theorem counts_weight {ss n} (h : Counts ss n) : n.weight = ss.length := by
  cases h; rfl

theorem counts_at {ss n p m} (h : Counts ss n) (hn : ss ≠ []) (ha : At n p m) :
    Counts (subs p ss) m ∧ subs p ss ≠ [] := by
  induction ha generalizing ss with
  | here => exact ⟨h, hn⟩
  | down hc _ ih =>
    obtain ⟨h1, h2, h3, h4⟩ := h
    exact ih (h4 _ hc) (h2 _ hc)

theorem counts_find {ss n} (p : List Label) (h : Counts ss n) (hp : subs p ss ≠ []) : ∃ m, At n p m := by
  induction p generalizing ss n with
  | nil => exact ⟨n, .here n⟩
  | cons x p ih =>
    obtain ⟨h1, h2, h3, h4⟩ := h
    rename_i l cs
    obtain ⟨s, hs⟩ : ∃ s, s ∈ sub x ss := by
      cases hq : sub x ss with
      | nil =>
        rw [subs, hq] at hp
        exact absurd (by clear hp ih; induction p with
          | nil => rfl
          | cons y p ihp => simpa [subs, sub] using ihp) hp
      | cons s _ => exact ⟨s, by simp⟩
    have hx : x :: s ∈ ss := by
      simp only [sub, List.mem_filterMap] at hs
      obtain ⟨t, ht, he⟩ := hs
      cases t with
      | nil => simp at he
      | cons y ys =>
        by_cases hy : y = x
        · subst hy
          obtain rfl : ys = s := by simpa using he
          exact ht
        · simp [hy] at he
    obtain ⟨c, hc, rfl⟩ := List.mem_map.mp (h3 x s hx)
    obtain ⟨m, hm⟩ := ih (h4 c hc) hp
    exact ⟨m, .down hc hm⟩

/-! ## The sum of the children -/

theorem total_append (a b : List Node) : total (a ++ b) = total a + total b := by
  induction a with
  | nil => simp [total]
  | cons c a ih => rw [List.cons_append, total, total, ih]; omega

theorem total_perm {a b : List Node} (h : a.Perm b) : total a = total b := by
  induction h with
  | nil => rfl
  | cons x _ ih => simp only [total, ih]
  | swap x y l => simp only [total]; omega
  | trans _ _ h1 h2 => exact h1.trans h2

/-- Every sample that is not empty is below exactly one of some different labels. -/
theorem sum_sub (xs : List Label) (hn : xs.Nodup) (ss : List (List Label))
    (h : ∀ x s, x :: s ∈ ss → x ∈ xs) :
    (xs.map fun x => (sub x ss).length).sum + exactly [] ss = ss.length := by
  induction ss with
  | nil =>
    simp only [sub, exactly, List.filterMap_nil, List.length_nil, List.countP_nil, Nat.add_zero]
    induction xs with
    | nil => rfl
    | cons x xs _ => simp
  | cons s ss ih =>
    replace ih := ih fun x t ht => h x t (List.mem_cons_of_mem _ ht)
    cases s with
    | nil =>
      simp only [sub, exactly, List.filterMap_cons, List.countP_cons, decide_true, if_true,
        List.length_cons] at ih ⊢
      omega
    | cons y ys =>
      have hy := h y ys List.mem_cons_self
      have : (xs.map fun x => (sub x ((y :: ys) :: ss)).length).sum =
          (xs.map fun x => (sub x ss).length).sum + 1 := by
        clear h ih
        induction xs with
        | nil => simp at hy
        | cons x xs ihx =>
          rw [List.nodup_cons] at hn
          simp only [List.map_cons, List.sum_cons]
          by_cases hyx : y = x
          · subst hyx
            have h1 : (sub y ((y :: ys) :: ss)).length = (sub y ss).length + 1 := by simp [sub]
            have h2 : (xs.map fun x => (sub x ((y :: ys) :: ss)).length) =
                xs.map fun x => (sub x ss).length := by
              apply List.map_congr_left
              intro x hx
              have : ¬ y = x := fun e => hn.1 (e ▸ hx)
              simp [sub, this]
            rw [h1, h2]
            omega
          · have h1 : (sub x ((y :: ys) :: ss)).length = (sub x ss).length := by simp [sub, hyx]
            have := ihx hn.2 ((List.mem_cons.mp hy).resolve_left hyx)
            rw [h1, this]
            omega
      have he : exactly [] ((y :: ys) :: ss) = exactly [] ss := by simp [exactly]
      rw [this, he, List.length_cons]
      omega

theorem counts_total {ss n} (h : Counts ss n) : total n.children + exactly [] ss = ss.length := by
  obtain ⟨h1, h2, h3, h4⟩ := h
  rename_i l cs
  have hs := sum_sub _ h1 ss h3
  have : total cs = (((cs.map Node.label).map fun x => (sub x ss).length).sum : Nat) := by
    clear hs h1 h2 h3
    induction cs with
    | nil => rfl
    | cons c cs ih =>
      rw [total, ih fun d hd => h4 d (List.mem_cons_of_mem _ hd), counts_weight (h4 c List.mem_cons_self)]
      simp
  simp only [Node.children]
  omega

/-! ## Other entries, sorting, and the label of the root -/

theorem addOther_label (n) : (addOther n).label = n.label := by cases n; simp [addOther, Node.label]
theorem addOther_weight (n) : (addOther n).weight = n.weight := by cases n; simp [addOther, Node.weight]

theorem addOthers_eq (cs) : addOthers cs = cs.map addOther := by
  induction cs with
  | nil => simp [addOthers]
  | cons c cs ih => simp [addOthers, ih]

theorem total_addOthers (cs) : total (addOthers cs) = total cs := by
  induction cs with
  | nil => simp [addOthers]
  | cons c cs ih => simp [addOthers, total, ih, addOther_weight]

theorem addOther_children (n : Node) :
    (addOther n).children = n.children.map addOther ++ others n.weight (total n.children) := by
  cases n
  simp only [addOther, Node.children, Node.weight, total_addOthers]
  rw [addOthers_eq]

theorem mem_others {w t c} (h : c ∈ others w t) : c = .mk other (w - t) [] ∧ t ≠ 0 ∧ t ≠ w := by
  unfold others at h
  split at h
  · next hh => exact ⟨by simpa using h, hh⟩
  · simp at h

theorem at_addOther {n p m} (h : At (addOther n) p m) :
    (∃ k, At n p k ∧ m = addOther k) ∨
    ∃ q k, p = q ++ [other] ∧ At n q k ∧ m = .mk other (k.weight - total k.children) [] ∧
      total k.children ≠ 0 ∧ total k.children ≠ k.weight := by
  generalize hk : addOther n = n' at h
  induction h generalizing n with
  | here => exact .inl ⟨n, .here n, hk.symm⟩
  | down hc ha ih =>
    subst hk
    rename_i c p m
    rw [addOther_children] at hc
    rcases List.mem_append.mp hc with hc | hc
    · obtain ⟨d, hd, rfl⟩ := List.mem_map.mp hc
      rw [addOther_label]
      rcases ih rfl with ⟨k, h1, rfl⟩ | ⟨q, k, rfl, h1, h2⟩
      · exact .inl ⟨k, .down hd h1, rfl⟩
      · exact .inr ⟨d.label :: q, k, rfl, .down hd h1, h2⟩
    · obtain ⟨rfl, h1⟩ := mem_others hc
      cases ha with
      | here => exact .inr ⟨[], n, rfl, .here n, rfl, h1⟩
      | down hd _ => simp [Node.children] at hd

theorem at_addOther_of {n p m} (h : At n p m) : At (addOther n) p (addOther m) := by
  induction h with
  | here n => exact .here _
  | down hc _ ih =>
    rw [← addOther_label]
    exact .down (by rw [addOther_children]; exact List.mem_append_left _ (List.mem_map_of_mem hc)) ih

theorem sorts_label {n m} (h : Sorts n m) : m.label = n.label := by cases h; rfl
theorem sorts_weight {n m} (h : Sorts n m) : m.weight = n.weight := by cases h; rfl

theorem sortsAll_mem {cs ds} (h : SortsAll cs ds) {d} (hd : d ∈ ds) : ∃ c ∈ cs, Sorts c d := by
  induction cs generalizing ds with
  | nil => cases h; simp at hd
  | cons c cs ih =>
    cases h with
    | cons h1 h2 =>
      rcases List.mem_cons.mp hd with rfl | hd
      · exact ⟨c, List.mem_cons_self, h1⟩
      · obtain ⟨c', h3, h4⟩ := ih h2 hd
        exact ⟨c', List.mem_cons_of_mem _ h3, h4⟩

theorem sortsAll_mem' {cs ds} (h : SortsAll cs ds) {c} (hc : c ∈ cs) : ∃ d ∈ ds, Sorts c d := by
  induction cs generalizing ds with
  | nil => simp at hc
  | cons c' cs ih =>
    cases h with
    | cons h1 h2 =>
      rcases List.mem_cons.mp hc with rfl | hc
      · exact ⟨_, List.mem_cons_self, h1⟩
      · obtain ⟨d, h3, h4⟩ := ih h2 hc
        exact ⟨d, List.mem_cons_of_mem _ h3, h4⟩

theorem sortsAll_map {cs ds} (h : SortsAll cs ds) :
    ds.map Node.weight = cs.map Node.weight ∧ ds.map Node.label = cs.map Node.label := by
  induction cs generalizing ds with
  | nil => cases h; simp
  | cons c cs ih =>
    cases h with
    | cons h1 h2 => simp [sorts_label h1, sorts_weight h1, ih h2]

theorem total_map (cs : List Node) : total cs = (cs.map Node.weight).sum := by
  induction cs with
  | nil => rfl
  | cons c cs ih => simp [total, ih]

theorem at_sorts {n n' p m'} (h : Sorts n n') (ha : At n' p m') : ∃ m, At n p m ∧ Sorts m m' := by
  induction ha generalizing n with
  | here => exact ⟨n, .here n, h⟩
  | down hc _ ih =>
    cases h with
    | mk h1 h2 h3 =>
      obtain ⟨c, h4, h5⟩ := sortsAll_mem h3 hc
      obtain ⟨m, h6, h7⟩ := ih h5
      rw [sorts_label h5]
      exact ⟨m, .down (n := .mk _ _ _) (h1.mem_iff.mpr h4) h6, h7⟩

theorem at_sorts_of {n n' p m} (h : Sorts n n') (ha : At n p m) : ∃ m', At n' p m' ∧ Sorts m m' := by
  induction ha generalizing n' with
  | here => exact ⟨n', .here n', h⟩
  | down hc _ ih =>
    cases h with
    | mk h1 h2 h3 =>
      obtain ⟨d, h4, h5⟩ := sortsAll_mem' h3 (h1.mem_iff.mp hc)
      obtain ⟨m', h6, h7⟩ := ih h5
      rw [← sorts_label h5]
      exact ⟨m', .down (n := .mk _ _ _) h4 h6, h7⟩

/-! ## The map of roots -/

theorem addRoot_keys (id : Nat) (ls : List Label) (m : List (Nat × Node))
    (h : (m.map Prod.fst).Pairwise (· < ·)) :
    ((addRoot id ls m).map Prod.fst).Pairwise (· < ·) ∧
    ∀ i, i ∈ (addRoot id ls m).map Prod.fst ↔ i = id ∨ i ∈ m.map Prod.fst := by
  induction m with
  | nil => simp [addRoot]
  | cons x m ih =>
    obtain ⟨i, n⟩ := x
    rw [List.map_cons, List.pairwise_cons] at h
    have ih := ih h.2
    rw [addRoot]
    split
    · next hlt =>
      refine ⟨?_, fun j => by simp⟩
      simp only [List.map_cons, List.pairwise_cons]
      refine ⟨fun j hj => ?_, h⟩
      rcases List.mem_cons.mp hj with rfl | hj
      · exact hlt
      · exact Nat.lt_trans hlt (h.1 j hj)
    · next hlt =>
      split
      · next he =>
        subst he
        refine ⟨by simpa [List.pairwise_cons] using h, fun j => by simp⟩
      · next he =>
        refine ⟨?_, fun j => ?_⟩
        · rw [List.map_cons, List.pairwise_cons]
          refine ⟨fun j hj => ?_, ih.1⟩
          rcases (ih.2 j).mp hj with rfl | hj
          · omega
          · exact h.1 j hj
        · rw [List.map_cons, List.mem_cons, ih.2 j, List.map_cons, List.mem_cons]
          tauto

theorem addRoot_mem {id : Nat} {ls : List Label} {m : List (Nat × Node)}
    (h : (m.map Prod.fst).Pairwise (· < ·)) {i n} (hm : (i, n) ∈ addRoot id ls m) :
    (i ≠ id ∧ (i, n) ∈ m) ∨ (i = id ∧ ∃ k, (i, k) ∈ m ∧ n = addStack ls k) ∨
      (i = id ∧ id ∉ m.map Prod.fst ∧ n = addStack ls (.mk default 0 [])) := by
  induction m with
  | nil => exact .inr (.inr (by simpa [addRoot] using hm))
  | cons x m ih =>
    obtain ⟨j, k⟩ := x
    rw [List.map_cons, List.pairwise_cons] at h
    rw [addRoot] at hm
    split at hm
    · next hlt =>
      have hno : id ∉ ((j, k) :: m).map Prod.fst := by
        rw [List.map_cons, List.mem_cons]
        rintro (e | e)
        · simp only at e; omega
        · have := h.1 _ e; simp only at this; omega
      rcases List.mem_cons.mp hm with e | hm
      · obtain ⟨rfl, rfl⟩ : i = id ∧ n = _ := by simpa using e
        exact .inr (.inr ⟨rfl, hno, rfl⟩)
      · exact .inl ⟨fun e => hno (e ▸ List.mem_map.mpr ⟨_, hm, rfl⟩), hm⟩
    · next hlt =>
      split at hm
      · next he =>
        subst he
        rcases List.mem_cons.mp hm with e | hm
        · obtain ⟨rfl, rfl⟩ : i = id ∧ n = _ := by simpa using e
          exact .inr (.inl ⟨rfl, k, List.mem_cons_self, rfl⟩)
        · have := h.1 i (List.mem_map.mpr ⟨_, hm, rfl⟩)
          simp only at this
          exact .inl ⟨by omega, List.mem_cons_of_mem _ hm⟩
      · next he =>
        rcases List.mem_cons.mp hm with e | hm
        · obtain ⟨rfl, rfl⟩ : i = j ∧ n = k := by simpa using e
          exact .inl ⟨fun e => he e.symm, List.mem_cons_self⟩
        · rcases ih h.2 hm with ⟨h1, h2⟩ | ⟨h1, k', h2, h3⟩ | ⟨h1, h2, h3⟩
          · exact .inl ⟨h1, List.mem_cons_of_mem _ h2⟩
          · exact .inr (.inl ⟨h1, k', List.mem_cons_of_mem _ h2, h3⟩)
          · refine .inr (.inr ⟨h1, ?_, h3⟩)
            rw [List.map_cons, List.mem_cons]
            exact fun e => e.elim he h2

theorem samplesOf_append (id ss s) : samplesOf id (ss ++ [s]) =
    samplesOf id ss ++ if s.1 = id then [s.2] else [] := by
  simp only [samplesOf, List.filter_append, List.map_append]
  by_cases h : s.1 = id <;> simp [h]

theorem rawRoots_spec (ss : List (Nat × List Label)) :
    ((rawRoots ss).map Prod.fst).Pairwise (· < ·) ∧
    (∀ i, i ∈ (rawRoots ss).map Prod.fst ↔ samplesOf i ss ≠ []) ∧
    ∀ i n, (i, n) ∈ rawRoots ss → Counts (samplesOf i ss) n := by
  induction ss using List.reverseRecOn with
  | nil => simp [rawRoots, samplesOf]
  | append_singleton ss s ih =>
    obtain ⟨h1, h2, h3⟩ := ih
    have hr : rawRoots (ss ++ [s]) = addRoot s.1 s.2 (rawRoots ss) := by
      simp [rawRoots, List.foldl_append]
    rw [hr]
    have hk := addRoot_keys s.1 s.2 _ h1
    refine ⟨hk.1, fun i => ?_, fun i n hn => ?_⟩
    · rw [hk.2, h2, samplesOf_append]
      by_cases h : s.1 = i
      · simp [h]
      · have : ¬ i = s.1 := fun e => h e.symm
        simp [h, this]
    · rw [samplesOf_append]
      rcases addRoot_mem h1 hn with ⟨h4, h5⟩ | ⟨h4, k, h5, rfl⟩ | ⟨h4, h5, rfl⟩
      · rw [if_neg fun e => h4 e.symm, List.append_nil]
        exact h3 _ _ h5
      · rw [if_pos h4.symm]
        exact counts_add _ (h3 _ _ h5)
      · rw [if_pos h4.symm]
        have : samplesOf i ss = [] := by
          rw [h2] at h5
          rw [h4]
          exact not_not.mp h5
        rw [this]
        exact counts_add _ (counts_nil _)

end Ruy.Prof

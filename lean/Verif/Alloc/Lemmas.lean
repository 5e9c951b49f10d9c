import Mathlib.Data.List.Perm.Basic
import Mathlib.Algebra.BigOperators.Group.List.Basic
import Mathlib.Order.Interval.Finset.Nat
import Mathlib.Data.Finset.Card
import Verif.Alloc.Model
/-
Invariant of the allocator.
-/
namespace Ruy.Alloc

/-- The bump buffer, if there is one. -/
def held (s : State) : List Block := if s.ptr = 0 then [] else [⟨s.ptr, s.size⟩]

/-- Where a handed-out block lies. -/
def Placed (s : State) (b : Block) : Prop :=
  (s.ptr ≠ 0 ∧ Block.Inside b ⟨s.ptr, s.current⟩) ∨ ∃ f ∈ s.heap, f.addr ≠ s.ptr ∧ Block.Inside b f

def Good (space : Nat) (b : Block) : Prop :=
  0 < b.addr ∧ b.addr % 64 = 0 ∧ 0 < b.size ∧ b.addr + b.size ≤ space

structure Inv (space : Nat) (s : State) : Prop where
  perm : ∃ fb : List Block, s.heap.Perm (held s ++ fb) ∧ fb.map Block.addr = s.fallback ∧
    (fb.map Block.size).sum = s.total
  good : ∀ b ∈ s.heap, Good space b
  disj : s.heap.Pairwise Block.Disjoint
  cur : s.current ≤ s.size ∧ s.current % 64 = 0
  nul : s.lost = false → s.ptr = 0 → s.size = 0
  live : s.lost = false → ∀ b ∈ s.live, 0 < b.addr ∧ b.addr % 64 = 0 ∧ Placed s b
  sep : s.lost = false → s.live.Pairwise Block.Disjoint

theorem init_inv (space : Nat) : Inv space init where
  perm := ⟨[], .nil, rfl, rfl⟩
  good := by intro b hb; cases hb
  disj := .nil
  cur := ⟨Nat.le_refl _, rfl⟩
  nul := fun _ _ => rfl
  live := by intro _ b hb; cases hb
  sep := fun _ => .nil

theorem pd_ok {x y : Nat} (h : pd x = .ok y) : y = x ∧ x < 2 ^ 63 := by
  unfold pd at h
  split at h
  · cases h; exact ⟨rfl, by assumption⟩
  · cases h

theorem Block.Disjoint.symm {a b : Block} (h : a.Disjoint b) : b.Disjoint a := h.elim .inr .inl

theorem Block.Disjoint.sub {a b c : Block} (h : a.Disjoint b) (hc : c.Inside a) : c.Disjoint b := by
  unfold Block.Disjoint Block.Inside at *
  omega

theorem pairwise_of_mem {l : List Block} (hd : l.Pairwise Block.Disjoint) {a b : Block} (ha : a ∈ l)
    (hb : b ∈ l) (hne : a ≠ b) : a.Disjoint b := by
  induction l with
  | nil => cases ha
  | cons c l ih =>
    rw [List.pairwise_cons] at hd
    rcases List.mem_cons.mp ha with rfl | ha'
    · rcases List.mem_cons.mp hb with rfl | hb'
      · exact absurd rfl hne
      · exact hd.1 b hb'
    · rcases List.mem_cons.mp hb with rfl | hb'
      · exact (hd.1 a ha').symm
      · exact ih hd.2 ha' hb'

/-- Addresses identify the blocks. -/
theorem addr_inj {space : Nat} {l : List Block} (hd : l.Pairwise Block.Disjoint)
    (hg : ∀ b ∈ l, Good space b) {a b : Block} (ha : a ∈ l) (hb : b ∈ l) (h : a.addr = b.addr) : a = b := by
  by_contra hne
  have := pairwise_of_mem hd ha hb hne
  have g1 := hg a ha
  have g2 := hg b hb
  unfold Good at g1 g2
  unfold Block.Disjoint at this
  omega

/-- Disjoint blocks in an address space have at most its size together. -/
theorem sum_le (space : Nat) : ∀ (l : List Block), l.Pairwise Block.Disjoint →
    (∀ b ∈ l, b.addr + b.size ≤ space) → (l.map Block.size).sum ≤ space := by
  intro l hd hg
  have key : ∀ l : List Block, l.Pairwise Block.Disjoint → (∀ b ∈ l, b.addr + b.size ≤ space) →
      ∃ F : Finset Nat, F ⊆ Finset.range space ∧ F.card = (l.map Block.size).sum ∧
        ∀ x ∈ F, ∃ b ∈ l, b.addr ≤ x ∧ x < b.addr + b.size := by
    intro l
    induction l with
    | nil => intro _ _; exact ⟨∅, by simp, by simp, by simp⟩
    | cons c l ih =>
      intro hd hg
      rw [List.pairwise_cons] at hd
      obtain ⟨F, h1, h2, h3⟩ := ih hd.2 (fun b hb => hg b (List.mem_cons_of_mem _ hb))
      have hc := hg c List.mem_cons_self
      have hdis : Disjoint (Finset.Ico c.addr (c.addr + c.size)) F := by
        rw [Finset.disjoint_left]
        intro x hx hx'
        rw [Finset.mem_Ico] at hx
        obtain ⟨b, hb, hb'⟩ := h3 x hx'
        have := hd.1 b hb
        unfold Block.Disjoint at this
        omega
      refine ⟨Finset.Ico c.addr (c.addr + c.size) ∪ F, ?_, ?_, ?_⟩
      · intro x hx
        rcases Finset.mem_union.mp hx with h | h
        · rw [Finset.mem_Ico] at h
          rw [Finset.mem_range]; omega
        · exact h1 h
      · rw [Finset.card_union_of_disjoint hdis, h2]
        simp
      · intro x hx
        rcases Finset.mem_union.mp hx with h | h
        · rw [Finset.mem_Ico] at h
          exact ⟨c, List.mem_cons_self, h⟩
        · obtain ⟨b, hb, hb'⟩ := h3 x h
          exact ⟨b, List.mem_cons_of_mem _ hb, hb'⟩
  obtain ⟨F, h1, h2, -⟩ := key l hd hg
  rw [← h2]
  exact le_trans (Finset.card_le_card h1) (by simp)

/-! ## Freeing -/

theorem noDup_flag {space : Nat} {heap : List Block} (hd : heap.Pairwise Block.Disjoint)
    (hg : ∀ b ∈ heap, Good space b) (p : Nat) :
    heap.Pairwise fun a b => (a.addr == p) = true → (b.addr == p) = true → False := by
  refine List.Pairwise.imp_of_mem ?_ hd
  intro a b ha hb hab h1 h2
  have g1 := hg a ha
  have g2 := hg b hb
  simp at h1 h2
  unfold Good at g1 g2
  unfold Block.Disjoint at hab
  omega

/-- Freeing a block that is held. -/
theorem sysFree_cons {space : Nat} {heap bs : List Block} {b : Block} (hp : heap.Perm (b :: bs))
    (hd : heap.Pairwise Block.Disjoint) (hg : ∀ b ∈ heap, Good space b) :
    ∃ heap', sysFree b.addr heap = .ok heap' ∧ heap'.Perm bs ∧
      heap'.Pairwise Block.Disjoint ∧ (∀ x ∈ heap', Good space x) := by
  have hb : b ∈ heap := hp.mem_iff.mpr List.mem_cons_self
  have hg' := hg b hb
  refine ⟨heap.eraseP (fun x => x.addr == b.addr), ?_, ?_, ?_, ?_⟩
  · unfold sysFree
    rw [if_neg (by unfold Good at hg'; omega), C.require_of ⟨b, hb, rfl⟩]
    rfl
  · have := List.Perm.eraseP (fun x : Block => x.addr == b.addr) (noDup_flag hd hg b.addr) hp
    rwa [List.eraseP_cons_of_pos (by simp)] at this
  · exact hd.sublist List.eraseP_sublist
  · intro x hx
    exact hg x (List.mem_of_mem_eraseP hx)

theorem freeList_all {space : Nat} : ∀ (bs heap : List Block), heap.Perm bs →
    heap.Pairwise Block.Disjoint → (∀ b ∈ heap, Good space b) →
    freeList (bs.map Block.addr) heap = .ok []
  | [], heap, hp, _, _ => by
    rw [List.Perm.eq_nil hp]; rfl
  | b :: bs, heap, hp, hd, hg => by
    obtain ⟨h', h1, h2, h3, h4⟩ := sysFree_cons hp hd hg
    show (sysFree b.addr heap >>= fun h => freeList (bs.map Block.addr) h) = _
    rw [h1]
    exact freeList_all bs h' h2 h3 h4

/-! ## The operations -/

theorem sysAlloc_lost (sys : System) (s : State) (n : Nat) : (sysAlloc sys s n).2.lost = s.lost := by
  unfold sysAlloc; split <;> rfl

/-- FreeAll frees valid blocks only, and keeps the invariant. -/
theorem freeAll_inv {space : Nat} {sys : System} {s : State} (hs : Honest space sys)
    (inv : Inv space s) (hb : s.fallback ≠ [] → s.size + s.total < 2 ^ 63) :
    ∃ s', freeAll sys s = .ok s' ∧ Inv space s' ∧ s'.live = [] ∧ s'.current = 0 ∧
      s'.heap.length ≤ 1 ∧ s'.fallback = [] ∧ s'.size = s.size + s.total ∧
      (s'.lost = false → s.lost = false) := by
  obtain ⟨fb, hp, hfa, hfs⟩ := inv.perm
  unfold freeAll
  by_cases hf : s.fallback = []
  · rw [if_pos hf]
    have hfb : fb = [] := by
      rw [hf] at hfa; exact List.map_eq_nil_iff.mp hfa
    subst hfb
    refine ⟨_, rfl, ?_, rfl, rfl, ?_, hf, ?_, id⟩
    · exact
        { perm := ⟨[], hp, hfa, hfs⟩
          good := inv.good
          disj := inv.disj
          cur := ⟨Nat.zero_le _, rfl⟩
          nul := inv.nul
          live := by intro _ b hb; cases hb
          sep := fun _ => .nil }
    · show s.heap.length ≤ 1
      rw [hp.length_eq]
      unfold held; split <;> simp
    · show s.size = s.size + s.total
      simp at hfs; omega
  · rw [if_neg hf]
    have h1 : ∃ h1, sysFree s.ptr s.heap = .ok h1 ∧ h1.Perm fb ∧ h1.Pairwise Block.Disjoint ∧
        ∀ x ∈ h1, Good space x := by
      unfold held at hp
      by_cases h0 : s.ptr = 0
      · rw [if_pos h0] at hp
        refine ⟨s.heap, ?_, hp, inv.disj, inv.good⟩
        unfold sysFree; rw [if_pos h0]
      · rw [if_neg h0] at hp
        exact sysFree_cons hp inv.disj inv.good
    obtain ⟨h1, e1, p1, d1, g1⟩ := h1
    have e2 := freeList_all fb h1 p1 d1 g1
    rw [hfa] at e2
    rw [e1, C.ok_bind, e2, C.ok_bind]
    unfold pd
    rw [if_pos (hb hf), C.ok_bind]
    have hpos : 0 < s.size + s.total := by
      cases fb with
      | nil => exact absurd hfa.symm hf
      | cons b fb =>
        have : b ∈ s.heap := hp.mem_iff.mpr (by simp)
        have := (inv.good b this).2.2.1
        simp at hfs
        omega
    refine ⟨_, rfl, ?_, rfl, rfl, ?_, rfl, rfl, ?_⟩
    · unfold sysAlloc
      dsimp only
      cases hsys : sys s.calls [] (s.size + s.total) with
      | none =>
        exact
          { perm := ⟨[], .nil, rfl, rfl⟩
            good := by intro b hb; cases hb
            disj := .nil
            cur := ⟨Nat.zero_le _, rfl⟩
            nul := by intro h; simp at h
            live := by intro _ b hb; cases hb
            sep := fun _ => .nil }
      | some a =>
        obtain ⟨ha, ha1, ha2, -⟩ := hs _ _ _ _ hsys
        exact
          { perm := by
              refine ⟨[], ?_, rfl, rfl⟩
              unfold held
              rw [if_neg (show a ≠ 0 by omega)]
              exact List.Perm.refl _
            good := by
              intro b hb
              rcases List.mem_singleton.mp hb with rfl
              exact ⟨ha, ha1, hpos, ha2⟩
            disj := List.pairwise_singleton _ _
            cur := ⟨Nat.zero_le _, rfl⟩
            nul := by intro _ h; dsimp only at h; omega
            live := by intro _ b hb; cases hb
            sep := fun _ => .nil }
    · unfold sysAlloc
      dsimp only
      split <;> simp
    · intro h
      simp at h
      exact h.1

/-- A block of `r` bytes at `p` that can be handed out. -/
structure Fresh (s' : State) (live : List Block) (p r : Nat) : Prop where
  pos : 0 < p
  align : p % 64 = 0
  placed : ∀ c : Block, c.Inside ⟨p, r⟩ → Placed s' c
  apart : ∀ c : Block, c.Inside ⟨p, r⟩ → ∀ b ∈ live, c.Disjoint b

/-- AllocateBytes, before recording. -/
theorem raw_inv {space : Nat} {sys : System} {s s' : State} {n p : Nat} (hs : Honest space sys)
    (inv : Inv space s) (h : allocateRaw sys s n = .ok (p, s')) :
    Inv space s' ∧ s'.live = s.live ∧ s'.lost = s.lost ∧
      (p = 0 ∨ (0 < n ∧ (s.lost = false → ∃ r, n ≤ r ∧ Fresh s' s.live p r))) := by
  unfold allocateRaw at h
  split at h
  · cases h; exact ⟨inv, rfl, rfl, .inl rfl⟩
  rename_i hn
  obtain ⟨r, hr, h⟩ := C.bind_ok h
  obtain ⟨x, hx, hr⟩ := C.bind_ok hr
  obtain ⟨rfl, -⟩ := pd_ok hx
  cases hr
  generalize hrr : (n + 64 - 1) - (n + 64 - 1) % 64 = r at h
  have hr0 : 0 < r := by omega
  have hr64 : r % 64 = 0 := by omega
  have hnr : n ≤ r := by omega
  obtain ⟨f, hf, h⟩ := C.bind_ok h
  -- the fast path keeps the invariant
  have hfast : Inv space f.2 ∧ f.2.live = s.live ∧ f.2.lost = s.lost ∧ f.2.heap = s.heap ∧
      f.2.ptr = s.ptr ∧ (f.1 ≠ 0 → s.lost = false → Fresh f.2 s.live f.1 r) := by
    unfold allocateFast at hf
    obtain ⟨c, hc, hf⟩ := C.bind_ok hf
    obtain ⟨rfl, -⟩ := pd_ok hc
    split at hf
    · cases hf
      exact ⟨inv, rfl, rfl, rfl, rfl, fun h => absurd rfl h⟩
    · rename_i hle
      cases hf
      have hcur := inv.cur
      refine ⟨?_, rfl, rfl, rfl, rfl, ?_⟩
      · exact
          { perm := inv.perm
            good := inv.good
            disj := inv.disj
            cur := by
              refine ⟨by show s.current + r ≤ s.size; omega, ?_⟩
              show (s.current + r) % 64 = 0
              omega
            nul := inv.nul
            live := by
              intro hl b hb
              obtain ⟨h1, h2, h3⟩ := inv.live hl b hb
              refine ⟨h1, h2, ?_⟩
              rcases h3 with ⟨h3, h4⟩ | h3
              · refine .inl ⟨h3, ?_⟩
                unfold Block.Inside at *
                dsimp only at *
                omega
              · exact .inr h3
            sep := inv.sep }
      · intro hp hl
        dsimp only at hp
        have hptr : s.ptr ≠ 0 := by
          intro h0
          have := inv.nul hl h0
          omega
        have hmem : (⟨s.ptr, s.size⟩ : Block) ∈ s.heap := by
          obtain ⟨fb, hp, -, -⟩ := inv.perm
          refine hp.mem_iff.mpr ?_
          unfold held; rw [if_neg hptr]; simp
        have hgood := inv.good _ hmem
        unfold Good at hgood
        dsimp only at hgood
        refine ⟨by dsimp only; omega, by dsimp only; omega, ?_, ?_⟩
        · intro c hc
          refine .inl ⟨hptr, ?_⟩
          unfold Block.Inside at *
          dsimp only at *
          omega
        · intro c hc b hb
          obtain ⟨h1, h2, h3⟩ := inv.live hl b hb
          rcases h3 with ⟨-, h4⟩ | ⟨f, hfm, hfa, h4⟩
          · unfold Block.Inside Block.Disjoint at *
            dsimp only at *
            omega
          · have hd := pairwise_of_mem inv.disj hfm hmem (by intro he; rw [he] at hfa; exact hfa rfl)
            have hcin : c.Inside ⟨s.ptr, s.size⟩ := by
              unfold Block.Inside at *
              dsimp only at *
              omega
            exact ((hd.sub h4).symm.sub hcin)
  obtain ⟨i1, i2, i3, i4, i5, i6⟩ := hfast
  split at h
  · rename_i hne
    injection h with h
    subst h
    refine ⟨i1, i2, i3, .inr ⟨by omega, fun hl => ⟨r, hnr, i6 hne hl⟩⟩⟩
  · unfold allocateSlow sysAlloc at h
    dsimp only at h
    cases hsys : sys f.2.calls f.2.heap r with
    | none =>
      rw [hsys] at h
      dsimp only at h
      rw [if_pos rfl] at h
      cases h
      refine ⟨?_, i2, i3, .inl rfl⟩
      exact
        { perm := i1.perm, good := i1.good, disj := i1.disj, cur := i1.cur, nul := i1.nul
          live := i1.live, sep := i1.sep }
    | some a =>
      rw [hsys] at h
      dsimp only at h
      obtain ⟨ha, ha1, ha2, ha3⟩ := hs _ _ _ _ hsys
      rw [if_neg (by omega)] at h
      obtain ⟨t, ht, h⟩ := C.bind_ok h
      obtain ⟨rfl, -⟩ := pd_ok ht
      cases h
      have haptr : p ≠ f.2.ptr := by
        intro heq
        have hp0 : f.2.ptr ≠ 0 := by omega
        have hmem : (⟨f.2.ptr, f.2.size⟩ : Block) ∈ f.2.heap := by
          obtain ⟨fb, hp, -, -⟩ := i1.perm
          refine hp.mem_iff.mpr ?_
          unfold held; rw [if_neg hp0]; simp
        have h1 := ha3 _ hmem
        have h2 := i1.good _ hmem
        unfold Good at h2
        unfold Block.Disjoint at h1
        dsimp only at h1 h2
        omega
      refine ⟨?_, i2, i3, .inr ⟨by omega, fun hl => ⟨r, hnr, ?_⟩⟩⟩
      · exact
          { perm := by
              obtain ⟨fb, hpm, hfa, hfs⟩ := i1.perm
              refine ⟨fb ++ [⟨p, r⟩], ?_, ?_, ?_⟩
              · show (⟨p, r⟩ :: f.2.heap).Perm (held f.2 ++ (fb ++ [⟨p, r⟩]))
                rw [← List.append_assoc]
                refine ((List.Perm.cons _ hpm).trans ?_)
                exact List.perm_append_comm (l₁ := [(⟨p, r⟩ : Block)])
              · simp [hfa]
              · simp [hfs]
            good := by
              intro b hb
              rcases List.mem_cons.mp hb with rfl | hb
              · exact ⟨ha, ha1, hr0, ha2⟩
              · exact i1.good b hb
            disj := List.pairwise_cons.mpr ⟨ha3, i1.disj⟩
            cur := i1.cur
            nul := i1.nul
            live := by
              intro hl b hb
              obtain ⟨h1, h2, h3⟩ := i1.live hl b hb
              refine ⟨h1, h2, ?_⟩
              rcases h3 with h3 | ⟨g, hg, h3⟩
              · exact .inl h3
              · exact .inr ⟨g, List.mem_cons_of_mem _ hg, h3⟩
            sep := i1.sep }
      · refine ⟨ha, ha1, ?_, ?_⟩
        · intro c hc
          exact .inr ⟨_, List.mem_cons_self, haptr, hc⟩
        · intro c hc b hb
          have hl' : f.2.lost = false := by rw [i3]; exact hl
          rw [← i2] at hb
          obtain ⟨h1, h2, h3⟩ := i1.live hl' b hb
          rcases h3 with ⟨h3, h4⟩ | ⟨g, hg, -, h4⟩
          · have hmem : (⟨f.2.ptr, f.2.size⟩ : Block) ∈ f.2.heap := by
              obtain ⟨fb, hp, -, -⟩ := i1.perm
              refine hp.mem_iff.mpr ?_
              unfold held; rw [if_neg h3]; simp
            have hd := (ha3 _ hmem).sub hc
            have hcur := i1.cur.1
            unfold Block.Inside Block.Disjoint at *
            dsimp only at *
            omega
          · exact (((ha3 g hg).sub hc).symm.sub h4).symm

/-- Recording a block that lies inside a fresh one. -/
theorem record_inv {space : Nat} {s s' : State} {n p r q : Nat} (inv : Inv space s')
    (hlive : s'.live = s.live) (hf : s'.lost = false → Fresh s' s.live p r) (hq0 : q ≠ 0)
    (hin : Block.Inside ⟨q, n⟩ ⟨p, r⟩) (hal : (q - p) % 64 = 0) :
    Inv space (record n (q, s')).2 := by
  unfold record
  rw [if_neg hq0]
  exact
    { perm := inv.perm, good := inv.good, disj := inv.disj, cur := inv.cur, nul := inv.nul
      live := by
        intro hl b hb
        have hf := hf hl
        rcases List.mem_cons.mp hb with rfl | hb
        · have h1 := hf.align
          have h2 := hf.pos
          have hin' := hin
          unfold Block.Inside at hin'
          dsimp only at hin'
          refine ⟨by dsimp only; omega, by dsimp only; omega, hf.placed _ hin⟩
        · exact inv.live hl b hb
      sep := by
        intro hl
        refine List.pairwise_cons.mpr ⟨?_, inv.sep hl⟩
        intro b hb
        rw [hlive] at hb
        exact (hf hl).apart _ hin b hb }

theorem aliasOffset_cases (p a : Nat) : aliasOffset p a = 0 ∨ aliasOffset p a = 512 := by
  unfold aliasOffset
  dsimp only
  split
  · right; rfl
  · left; rfl

/-- Every operation keeps the invariant. -/
theorem step_inv {space : Nat} {sys : System} {s : State} {op : Op} {x : Nat × State}
    (hs : Honest space sys) (inv : Inv space s) (h : step sys s op = .ok x) :
    Inv space x.2 ∧ (x.2.lost = false → s.lost = false) := by
  cases op with
  | alloc n =>
    obtain ⟨⟨p, s'⟩, h1, h⟩ := C.bind_ok h
    cases h
    obtain ⟨i1, i2, i3, i4⟩ := raw_inv hs inv h1
    by_cases hp : p = 0
    · subst hp
      unfold record
      rw [if_pos rfl]
      exact ⟨i1, fun h => by rw [← i3]; exact h⟩
    · have hl : (record n (p, s')).2.lost = s'.lost := by unfold record; rw [if_neg hp]
      refine ⟨?_, fun h => by rw [← i3, ← hl]; exact h⟩
      rcases i4 with h | ⟨-, h⟩
      · exact absurd h hp
      · cases hll : s.lost with
        | false =>
          obtain ⟨r, hnr, hf⟩ := h hll
          exact record_inv i1 i2 (fun _ => hf) hp (by unfold Block.Inside; dsimp only; omega) (by omega)
        | true =>
          exact record_inv (r := n) (p := p) i1 i2 (fun h => by rw [i3, hll] at h; cases h) hp
            (by unfold Block.Inside; dsimp only; omega) (by omega)
  | avoid n a =>
    unfold step allocateAvoiding at h
    dsimp only at h
    split at h
    · cases h; exact ⟨inv, id⟩
    · obtain ⟨m, hm, h⟩ := C.bind_ok h
      obtain ⟨rfl, -⟩ := pd_ok hm
      obtain ⟨⟨p, s'⟩, h1, h⟩ := C.bind_ok h
      obtain ⟨i1, i2, i3, i4⟩ := raw_inv hs inv h1
      dsimp only at h
      split at h
      · cases h; exact ⟨i1, fun h => by rw [← i3]; exact h⟩
      · rename_i hp
        cases h
        have ho := aliasOffset_cases p a
        generalize hoo : aliasOffset p a = o at ho
        have hq : p + o ≠ 0 := by omega
        have hl : (record n (p + o, s')).2.lost = s'.lost := by unfold record; rw [if_neg hq]
        refine ⟨?_, fun h => by rw [← i3, ← hl]; exact h⟩
        rcases i4 with h | ⟨-, h⟩
        · exact absurd h hp
        · cases hll : s.lost with
          | false =>
            obtain ⟨r, hnr, hf⟩ := h hll
            exact record_inv i1 i2 (fun _ => hf) hq (by unfold Block.Inside; dsimp only; omega)
              (by omega)
          | true =>
            exact record_inv (r := n + 1024) (p := p) i1 i2 (fun h => by rw [i3, hll] at h; cases h) hq
              (by unfold Block.Inside; dsimp only; omega) (by omega)
  | freeAll =>
    obtain ⟨s', h1, h⟩ := C.bind_ok h
    cases h
    obtain ⟨s'', h2, i1, -, -, -, -, -, i2⟩ := freeAll_inv hs inv (by
      intro hne
      unfold freeAll at h1
      rw [if_neg hne] at h1
      obtain ⟨_, -, h1⟩ := C.bind_ok h1
      obtain ⟨_, -, h1⟩ := C.bind_ok h1
      obtain ⟨_, hn, -⟩ := C.bind_ok h1
      exact (pd_ok hn).2)
    rw [h1] at h2
    cases h2
    exact ⟨i1, i2⟩

theorem run_inv {space : Nat} {sys : System} (hs : Honest space sys) : ∀ (ops : List Op) (s s' : State),
    Inv space s → run sys ops s = .ok s' → Inv space s' ∧ (s'.lost = false → s.lost = false)
  | [], s, s', inv, h => by cases h; exact ⟨inv, id⟩
  | op :: ops, s, s', inv, h => by
    obtain ⟨x, h1, h⟩ := C.bind_ok h
    obtain ⟨i1, l1⟩ := step_inv hs inv h1
    obtain ⟨i2, l2⟩ := run_inv hs ops x.2 s' i1 h
    exact ⟨i2, fun h => l1 (l2 h)⟩

end Ruy.Alloc

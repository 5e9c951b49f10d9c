import Verif.Cache.Model
import Mathlib.Data.List.Perm.Basic
import Mathlib.Data.List.Nodup
/-
The invariant of the prepacked cache.
-/
namespace Ruy.Cache
open Ruy.Mat

/-- The byte counts are representable. -/
def Sizes (p : PE) : Prop :=
  pflatSize p.layout * p.dataSize < 2 ^ 63 ∧ p.layout.cols * p.sumsSize < 2 ^ 31

/-- What ejecting an entry subtracts from the reported size. -/
def rep (e : Entry) : Nat := pflatSize e.mat.layout * e.mat.dataSize + e.mat.layout.cols * e.mat.sumsSize

/-- The buffers of an entry. -/
def blocks (p : PE) : List (Nat × Nat) :=
  (if p.data = 0 then [] else [(p.data, pflatSize p.layout * p.dataSize)]) ++
  (if p.sums = 0 then [] else [(p.sums, p.layout.cols * p.sumsSize)])

/-- `L` are the entries of `c`, most recently used first; `X` are buffers not (yet) in the cache. -/
structure Inv (c : Cache) (L : List Entry) (X : List (Nat × Nat)) : Prop where
  perm : L.Perm c.entries
  sorted : L.Pairwise fun a b => b.stamp < a.stamp
  clock : ∀ e ∈ L, e.stamp < c.clock
  keys : (L.map Entry.key).Nodup
  key : ∀ e ∈ L, e.mat.layout = e.key.layout ∧ e.mat.zp = e.key.zp
  sizes : ∀ e ∈ L, Sizes e.mat
  held : c.held.Perm (X ++ L.flatMap fun e => blocks e.mat)
  ids : (c.held.map Prod.fst).Nodup
  range : ∀ b ∈ c.held, b.1 ≠ 0 ∧ b.1 ≤ c.calls

theorem init_inv (cap : Int) : Inv (init cap) [] [] :=
  ⟨.nil, .nil, by simp, .nil, by simp, by simp, .nil, .nil, by simp [init]⟩

theorem eraseP_perm {α β : Type} [DecidableEq β] (f : α → β) : ∀ (l m : List α) (a : α),
    l.Perm (a :: m) → (l.map f).Nodup → (l.eraseP fun x => f x == f a).Perm m
  | [], m, a, hp, _ => absurd hp.length_eq (by simp)
  | x :: t, m, a, hp, hn => by
    rw [List.map_cons, List.nodup_cons] at hn
    by_cases hx : f x = f a
    · rw [List.eraseP_cons_of_pos (by simpa using hx)]
      have hxa : x = a := by
        have ha : a ∈ x :: t := hp.symm.subset List.mem_cons_self
        rcases List.mem_cons.mp ha with h | h
        · exact h.symm
        · exact absurd (hx ▸ List.mem_map_of_mem h) hn.1
      subst hxa
      exact hp.cons_inv
    · rw [List.eraseP_cons_of_neg (by simpa using hx)]
      have hxm : x ∈ m := by
        rcases List.mem_cons.mp (hp.subset List.mem_cons_self) with h | h
        · exact absurd (congrArg f h) hx
        · exact h
      obtain ⟨m1, m2, rfl⟩ := List.append_of_mem hxm
      have hmid : (m1 ++ x :: m2).Perm (x :: (m1 ++ m2)) := List.perm_middle
      have h1 : (x :: t).Perm (x :: a :: (m1 ++ m2)) :=
        hp.trans ((hmid.cons a).trans (.swap _ _ _))
      exact ((eraseP_perm f t (m1 ++ m2) a h1.cons_inv hn.2).cons x).trans hmid.symm

/-- Freeing a buffer that is held. -/
theorem sysFree_held {c : Cache} {b : Nat × Nat} {rest : List (Nat × Nat)}
    (hp : c.held.Perm (b :: rest)) (hi : (c.held.map Prod.fst).Nodup)
    (hr : ∀ b ∈ c.held, b.1 ≠ 0 ∧ b.1 ≤ c.calls) :
    ∃ h', sysFree b.1 c = .ok { c with held := h' } ∧ h'.Perm rest ∧ (h'.map Prod.fst).Nodup ∧
      ∀ b ∈ h', b.1 ≠ 0 ∧ b.1 ≤ c.calls := by
  have hb : b ∈ c.held := hp.symm.subset List.mem_cons_self
  have hp' := eraseP_perm Prod.fst c.held rest b hp hi
  have hsub : (c.held.eraseP fun x => x.1 == b.1).Sublist c.held := List.eraseP_sublist
  refine ⟨c.held.eraseP fun x => x.1 == b.1, ?_, hp', hi.sublist (hsub.map _),
    fun x hx => hr x (hsub.subset hx)⟩
  unfold sysFree
  rw [if_neg (hr b hb).1, C.require_of ⟨b, hb, rfl⟩, C.ok_bind]

theorem freeBuffers_held {c : Cache} {p : PE} {rest : List (Nat × Nat)}
    (hp : c.held.Perm (blocks p ++ rest)) (hi : (c.held.map Prod.fst).Nodup)
    (hr : ∀ b ∈ c.held, b.1 ≠ 0 ∧ b.1 ≤ c.calls) :
    ∃ h', freeBuffers p c = .ok { c with held := h' } ∧ h'.Perm rest ∧ (h'.map Prod.fst).Nodup ∧
      ∀ b ∈ h', b.1 ≠ 0 ∧ b.1 ≤ c.calls := by
  have second : ∀ (h : List (Nat × Nat)),
      h.Perm ((if p.sums = 0 then [] else [(p.sums, p.layout.cols * p.sumsSize)]) ++ rest) →
      (h.map Prod.fst).Nodup → (∀ b ∈ h, b.1 ≠ 0 ∧ b.1 ≤ c.calls) →
      ∃ h', sysFree p.sums { c with held := h } = .ok { c with held := h' } ∧ h'.Perm rest ∧
        (h'.map Prod.fst).Nodup ∧ ∀ b ∈ h', b.1 ≠ 0 ∧ b.1 ≤ c.calls := by
    intro h hp hi hr
    by_cases h0 : p.sums = 0
    · rw [if_pos h0] at hp
      refine ⟨h, ?_, hp, hi, hr⟩
      unfold sysFree
      rw [if_pos h0]
    · rw [if_neg h0] at hp
      obtain ⟨h', e1, e2, e3, e4⟩ := sysFree_held (c := { c with held := h })
        (b := (p.sums, p.layout.cols * p.sumsSize)) hp hi hr
      exact ⟨h', e1, e2, e3, e4⟩
  unfold freeBuffers
  unfold blocks at hp
  by_cases h0 : p.data = 0
  · rw [if_pos h0] at hp
    have e : sysFree p.data c = .ok c := by unfold sysFree; rw [if_pos h0]
    rw [e, C.ok_bind]
    exact second c.held hp hi hr
  · rw [if_neg h0, List.append_assoc] at hp
    obtain ⟨h', e1, e2, e3, e4⟩ := sysFree_held (b := (p.data, pflatSize p.layout * p.dataSize)) hp hi hr
    dsimp only at e1
    rw [e1, C.ok_bind]
    exact second h' e2 e3 e4

theorem oldest_spec : ∀ (es : List Entry) (o : Entry), (oldest es o = o ∨ oldest es o ∈ es) ∧
    (oldest es o).stamp ≤ o.stamp ∧ ∀ e ∈ es, (oldest es o).stamp ≤ e.stamp
  | [], o => ⟨.inl rfl, Nat.le_refl _, by simp⟩
  | e :: es, o => by
    unfold oldest
    obtain ⟨h1, h2, h3⟩ := oldest_spec es (if e.stamp < o.stamp then e else o)
    by_cases h : e.stamp < o.stamp
    · rw [if_pos h] at h1 h2 h3 ⊢
      refine ⟨.inr ?_, by omega, ?_⟩
      · rcases h1 with h1 | h1
        · rw [h1]; exact List.mem_cons_self
        · exact List.mem_cons_of_mem _ h1
      · intro x hx
        rcases List.mem_cons.mp hx with rfl | hx
        · exact h2
        · exact h3 x hx
    · rw [if_neg h] at h1 h2 h3 ⊢
      refine ⟨?_, h2, ?_⟩
      · rcases h1 with h1 | h1
        · exact .inl h1
        · exact .inr (List.mem_cons_of_mem _ h1)
      · intro x hx
        rcases List.mem_cons.mp hx with rfl | hx
        · omega
        · exact h3 x hx

theorem bytes_of_sizes {p : PE} (h : Sizes p) :
    dataBytes p = .ok (pflatSize p.layout * p.dataSize) ∧ sumsBytes p = .ok (p.layout.cols * p.sumsSize) := by
  unfold dataBytes sumsBytes
  rw [if_pos h.1, C.int_of h.2]
  exact ⟨rfl, rfl⟩

/-- EjectOne removes the least recently used entry. -/
theorem ejectOne_spec {c : Cache} {L : List Entry} {o : Entry} {X : List (Nat × Nat)}
    (inv : Inv c (L ++ [o]) X) :
    ∃ c', ejectOne c = .ok c' ∧ Inv c' L X ∧ c'.cap = c.cap ∧ c'.clock = c.clock ∧
      c'.calls = c.calls ∧ c'.bytes = c.bytes - (rep o : Nat) ∧ c'.held.Sublist c.held := by
  have ho : o ∈ c.entries := inv.perm.subset (by simp)
  have hmin : ∀ x ∈ L, o.stamp < x.stamp := by
    intro x hx
    exact (List.pairwise_append.mp inv.sorted).2.2 x hx o (by simp)
  unfold ejectOne
  cases he : c.entries with
  | nil => rw [he] at ho; cases ho
  | cons e es =>
    dsimp only
    have hold : oldest (e :: es) e = o := by
      obtain ⟨h1, -, h3⟩ := oldest_spec (e :: es) e
      have hm : oldest (e :: es) e ∈ e :: es := by
        rcases h1 with h1 | h1
        · rw [h1]; exact List.mem_cons_self
        · exact h1
      have hle := h3 o (he ▸ ho)
      rw [← he] at hm
      have hm' := inv.perm.symm.subset hm
      rw [he] at hm'
      rcases List.mem_append.mp hm' with h | h
      · have := hmin _ h
        omega
      · exact List.mem_singleton.mp h
    rw [hold]
    obtain ⟨b1, b2⟩ := bytes_of_sizes (inv.sizes o (by simp))
    rw [b1, C.ok_bind, b2, C.ok_bind]
    have hperm : c.held.Perm (blocks o.mat ++ (X ++ L.flatMap fun e => blocks e.mat)) := by
      refine inv.held.trans ?_
      rw [List.flatMap_append]
      simp only [List.flatMap_cons, List.flatMap_nil, List.append_nil]
      rw [← List.append_assoc]
      exact List.perm_append_comm
    generalize hb : c.bytes - ((pflatSize o.mat.layout * o.mat.dataSize +
      o.mat.layout.cols * o.mat.sumsSize : Nat) : Int) = b'
    obtain ⟨h', e1, e2, e3, e4⟩ := freeBuffers_held (c := { c with bytes := b' }) hperm inv.ids inv.range
    have hsubl : h'.Sublist c.held := by
      have aux : ∀ (h : Nat) (c c' : Cache), sysFree h c = .ok c' → c'.held.Sublist c.held := by
        intro h c c' hf
        unfold sysFree at hf
        split at hf
        · cases hf; exact .refl _
        · obtain ⟨_, -, hf⟩ := C.bind_ok hf
          cases hf; exact List.eraseP_sublist
      obtain ⟨c1, f1, f2⟩ := C.bind_ok e1
      exact (aux _ _ _ f2).trans (aux _ { c with bytes := b' } _ f1)
    rw [← he, e1, C.ok_bind]
    refine ⟨_, rfl, ⟨?_, ?_, ?_, ?_, ?_, ?_, e2, e3, e4⟩, rfl, rfl, rfl, hb.symm, hsubl⟩
    · have h1 : c.entries.Perm (o :: L) := inv.perm.symm.trans List.perm_append_comm
      have h2 : (c.entries.map Entry.key).Nodup := (inv.perm.map Entry.key).nodup_iff.mp inv.keys
      exact (eraseP_perm Entry.key c.entries L o h1 h2).symm
    · exact (List.pairwise_append.mp inv.sorted).1
    · intro x hx; exact inv.clock x (by simp [hx])
    · have := inv.keys
      rw [List.map_append] at this
      exact (List.nodup_append.mp this).1
    · intro x hx; exact inv.key x (by simp [hx])
    · intro x hx; exact inv.sizes x (by simp [hx])

/-- The sum of what ejecting the entries subtracts. -/
def reps (L : List Entry) : Nat := (L.map rep).sum

theorem reps_append (A B : List Entry) : reps (A ++ B) = reps A + reps B := by
  simp [reps]

/-- EjectUntilRoomFor removes as few least recently used entries as needed. -/
theorem ejectLoop_spec (new : Nat) (X : List (Nat × Nat)) : ∀ (n : Nat) (c : Cache) (L : List Entry),
    L.length = n → Inv c L X →
    ∃ kept dropped c', L = kept ++ dropped ∧ ejectLoop new n c = .ok c' ∧ Inv c' kept X ∧
      c'.cap = c.cap ∧ c'.clock = c.clock ∧ c'.calls = c.calls ∧
      c'.bytes = c.bytes - (reps dropped : Nat) ∧
      (kept = [] ∨ c'.bytes + new ≤ c.cap) ∧
      (∀ S, S <:+ dropped → S ≠ dropped → c.bytes - (reps S : Nat) + new > c.cap) ∧
      c'.held.Sublist c.held
  | 0, c, L, hl, inv => by
    have : L = [] := List.length_eq_zero_iff.mp hl
    subst this
    refine ⟨[], [], c, rfl, rfl, inv, rfl, rfl, rfl, by simp [reps], .inl rfl, ?_, .refl _⟩
    intro S hS hne
    exact absurd (List.suffix_nil.mp hS) hne
  | n + 1, c, L, hl, inv => by
    unfold ejectLoop
    have hlen : c.entries.length = n + 1 := by rw [← inv.perm.length_eq]; exact hl
    have hne : c.entries ≠ [] := by intro h; rw [h] at hlen; cases hlen
    by_cases hc : c.bytes + new > c.cap
    · rw [if_pos ⟨hne, hc⟩]
      have hL : L ≠ [] := by intro h; rw [h] at hl; cases hl
      obtain ⟨L0, o, rfl⟩ : ∃ L0 o, L = L0 ++ [o] :=
        ⟨L.dropLast, L.getLast hL, (List.dropLast_append_getLast hL).symm⟩
      obtain ⟨c1, e1, i1, a1, a2, a3, a4, a5⟩ := ejectOne_spec inv
      obtain ⟨kept, dropped, c', b1, b2, b3, b4, b5, b6, b7, b8, b9, b10⟩ :=
        ejectLoop_spec new X n c1 L0 (by simpa using hl) i1
      refine ⟨kept, dropped ++ [o], c', by rw [b1, List.append_assoc], ?_, b3, by omega, by omega,
        by omega, ?_, ?_, ?_, b10.trans a5⟩
      · rw [e1]; exact b2
      · rw [b7, a4, reps_append]
        simp only [reps, List.map_cons, List.map_nil, List.sum_cons, List.sum_nil]
        omega
      · rcases b8 with b8 | b8
        · exact .inl b8
        · right; omega
      · intro S hS hSne
        rcases List.eq_nil_or_concat S with rfl | ⟨S0, x, hx⟩
        · simp [reps]; omega
        · subst hx
          rw [List.concat_eq_append] at hS hSne ⊢
          obtain ⟨T, hT⟩ := hS
          rw [← List.append_assoc] at hT
          obtain ⟨h1, h2⟩ := List.append_inj' hT rfl
          have hxo : x = o := by simpa using h2
          subst hxo
          have h3 := b9 S0 ⟨T, h1⟩ (by intro h; exact hSne (by rw [h]))
          rw [reps_append]
          simp only [reps, List.map_cons, List.map_nil, List.sum_cons, List.sum_nil] at h3 ⊢
          omega
    · rw [if_neg (fun h => hc h.2)]
      refine ⟨L, [], c, by simp, rfl, inv, rfl, rfl, rfl, by simp [reps], .inr (by omega), ?_, .refl _⟩
      intro S hS hne
      exact absurd (List.suffix_nil.mp hS) hne

/-- The size of what a request allocates. -/
def newBytes (r : Req) : Nat :=
  pflatSize r.layout * r.dataSize + (if r.sumsFloat then 0 else r.layout.cols * r.sumsSize)

/-- What AllocateBuffers does. -/
theorem allocateBuffers_spec {sys : Nat → Bool} {c : Cache} {L : List Entry} {r : Req}
    (inv : Inv c L []) (hs : Sizes r.mat) :
    ∃ m c', allocateBuffers sys c r.mat = .ok (newBytes r, m, c') ∧ Inv c' L (blocks m) ∧
      c'.cap = c.cap ∧ c'.clock = c.clock ∧ c'.bytes = c.bytes ∧ c'.entries = c.entries ∧
      (m.layout = r.layout ∧ m.zp = r.zp ∧ m.dataSize = r.dataSize ∧ m.sumsSize = r.sumsSize ∧
        m.sumsFloat = r.sumsFloat) ∧
      (m.data = 0 ∨ c.calls < m.data) ∧ (m.sums = 0 ∨ c.calls < m.sums) ∧
      (m.data ≠ 0 → m.data ≠ m.sums) ∧
      (r.sumsFloat = true → m.sums = 0) ∧
      ((∀ k, sys k = true) → m.data ≠ 0 ∧ (r.sumsFloat = false → m.sums ≠ 0)) := by
  obtain ⟨b1, b2⟩ := bytes_of_sizes hs
  unfold allocateBuffers
  rw [b1, C.ok_bind, b2]
  dsimp only
  have grow : ∀ {c1 c2 : Cache} {X : List (Nat × Nat)} {n : Nat} {h : Nat}, Inv c1 L X →
      sysAlloc sys c1 n = (h, c2) →
      Inv c2 L (if h = 0 then X else (h, n) :: X) ∧ c2.cap = c1.cap ∧ c2.clock = c1.clock ∧
        c2.bytes = c1.bytes ∧ c2.entries = c1.entries ∧ c2.calls = c1.calls + 1 ∧
        (h = 0 ∨ h = c1.calls + 1) ∧ (sys c1.calls = true → h ≠ 0) := by
    intro c1 c2 X n h i e
    unfold sysAlloc at e
    by_cases hk : sys c1.calls = true
    · rw [if_pos hk] at e
      obtain ⟨rfl, rfl⟩ := Prod.mk.inj e
      rw [if_neg (by omega)]
      refine ⟨⟨i.perm, i.sorted, i.clock, i.keys, i.key, i.sizes, ?_, ?_, ?_⟩, rfl, rfl, rfl, rfl,
        rfl, .inr rfl, fun _ => by omega⟩
      · exact i.held.cons _
      · show ((c1.calls + 1) :: c1.held.map Prod.fst).Nodup
        rw [List.nodup_cons]
        refine ⟨?_, i.ids⟩
        intro hm
        obtain ⟨b, hb, hb'⟩ := List.mem_map.mp hm
        have := (i.range b hb).2
        omega
      · intro b hb
        rcases List.mem_cons.mp hb with rfl | hb
        · exact ⟨by dsimp only; omega, Nat.le_refl _⟩
        · exact ⟨(i.range b hb).1, Nat.le_succ_of_le (i.range b hb).2⟩
    · rw [if_neg hk] at e
      obtain ⟨rfl, rfl⟩ := Prod.mk.inj e
      rw [if_pos rfl]
      exact ⟨⟨i.perm, i.sorted, i.clock, i.keys, i.key, i.sizes, i.held, i.ids,
        fun b hb => ⟨(i.range b hb).1, Nat.le_succ_of_le (i.range b hb).2⟩⟩, rfl, rfl, rfl, rfl, rfl,
        .inl rfl, fun h => absurd h hk⟩
  cases h1 : sysAlloc sys c (pflatSize r.mat.layout * r.mat.dataSize) with
  | mk d c1 =>
  dsimp only
  obtain ⟨i1, a1, a2, a3, a4, a5, a6, a7⟩ := grow inv h1
  by_cases hf : r.mat.sumsFloat = true
  · rw [if_pos hf]
    have hf' : r.sumsFloat = true := hf
    refine ⟨_, c1, by rw [show newBytes r = pflatSize r.mat.layout * r.mat.dataSize by
      unfold newBytes; rw [if_pos hf']; rfl], ?_, a1, a2, a3, a4, ⟨rfl, rfl, rfl, rfl, rfl⟩, ?_, .inl rfl,
      fun h => h, fun _ => rfl, fun h => ⟨a7 (h _), fun h => absurd hf' (by rw [h]; decide)⟩⟩
    · unfold blocks
      have hsums : r.mat.sums = 0 := rfl
      dsimp only
      rw [if_pos hsums, List.append_nil]
      exact i1
    · dsimp only; rcases a6 with h | h
      · exact .inl h
      · right; omega
  · rw [if_neg hf]
    have hf' : ¬ r.sumsFloat = true := hf
    rw [C.ok_bind]
    cases h2 : sysAlloc sys c1 (r.mat.layout.cols * r.mat.sumsSize) with
    | mk s c2 =>
    dsimp only
    obtain ⟨i2, p1, p2, p3, p4, p5, p6, p7⟩ := grow i1 h2
    refine ⟨_, c2, by rw [show newBytes r = pflatSize r.mat.layout * r.mat.dataSize +
      r.mat.layout.cols * r.mat.sumsSize by unfold newBytes; rw [if_neg hf']; rfl], ?_, by omega, by omega,
      by omega, by rw [p4, a4], ⟨rfl, rfl, rfl, rfl, rfl⟩, ?_, ?_, ?_, fun h => absurd h hf',
      fun h => ⟨a7 (h _), fun _ => p7 (h _)⟩⟩
    · have : (blocks { r.mat with data := d, sums := s }).Perm (if s = 0 then (if d = 0 then [] else
          [(d, pflatSize r.mat.layout * r.mat.dataSize)]) else
          (s, r.mat.layout.cols * r.mat.sumsSize) :: (if d = 0 then [] else
          [(d, pflatSize r.mat.layout * r.mat.dataSize)])) := by
        unfold blocks
        dsimp only
        split <;> split <;> first | exact List.Perm.refl _ | exact List.Perm.swap _ _ _
      exact { i2 with held := i2.held.trans (this.symm.append_right _) }
    · dsimp only; rcases a6 with h | h
      · exact .inl h
      · right; omega
    · dsimp only; rcases p6 with h | h
      · exact .inl h
      · right; omega
    · dsimp only
      intro hd
      rcases a6 with h | h
      · exact absurd h hd
      · rcases p6 with h' | h' <;> omega

/-- The result of a request for a matrix that is present. -/
structure Hit (c : Cache) (L : List Entry) (r : Req) (m : PE) (c' : Cache) (L' : List Entry) : Prop where
  split : ∃ e L1 L2, L = L1 ++ e :: L2 ∧ e.key = r.key ∧ m = e.mat ∧
    L' = { e with stamp := c.clock } :: (L1 ++ L2)
  bytes : c'.bytes = c.bytes
  held : c'.held = c.held

/-- The result of a request for a matrix that is not present. -/
structure Miss (sys : Nat → Bool) (c : Cache) (L : List Entry) (r : Req) (m : PE) (c' : Cache)
    (L' : List Entry) : Prop where
  absent : r.key ∉ L.map Entry.key
  split : ∃ kept dropped, L = kept ++ dropped ∧ L' = ⟨r.key, m, c.clock⟩ :: kept ∧
    c'.bytes = c.bytes - (reps dropped : Nat) + (newBytes r : Nat) ∧
    (kept = [] ∨ c'.bytes ≤ c.cap) ∧
    ∀ S, S <:+ dropped → S ≠ dropped → c.bytes - (reps S : Nat) + (newBytes r : Nat) > c.cap
  fields : m.layout = r.layout ∧ m.zp = r.zp ∧ m.dataSize = r.dataSize ∧ m.sumsSize = r.sumsSize ∧
    m.sumsFloat = r.sumsFloat
  fresh : (m.data = 0 ∨ c.calls < m.data) ∧ (m.sums = 0 ∨ c.calls < m.sums) ∧
    (m.data ≠ 0 → m.data ≠ m.sums)
  float : r.sumsFloat = true → m.sums = 0
  served : (∀ k, sys k = true) → m.data ≠ 0 ∧ (r.sumsFloat = false → m.sums ≠ 0)

theorem get_spec {sys : Nat → Bool} {c : Cache} {L : List Entry} {r : Req} (inv : Inv c L [])
    (hs : Sizes r.mat) :
    ∃ m ins c' L', get sys c r = .ok (m, ins, c') ∧ Inv c' L' [] ∧ c'.cap = c.cap ∧
      c.calls ≤ c'.calls ∧
      ((ins = false ∧ Hit c L r m c' L') ∨ (ins = true ∧ Miss sys c L r m c' L')) := by
  unfold get
  cases hf : c.entries.find? fun e => e.key == r.key with
  | some e =>
    dsimp only
    have hek : e.key = r.key := by simpa using List.find?_some hf
    have heL : e ∈ L := inv.perm.symm.subset (List.mem_of_find?_eq_some hf)
    obtain ⟨L1, L2, rfl⟩ := List.append_of_mem heL
    have hkeys := inv.keys
    rw [List.map_append, List.map_cons, List.nodup_append, List.nodup_cons] at hkeys
    obtain ⟨k1, ⟨k2, k3⟩, k4⟩ := hkeys
    have hsort := List.pairwise_append.mp inv.sorted
    have hsort2 := List.pairwise_cons.mp hsort.2.1
    refine ⟨e.mat, false, _, { e with stamp := c.clock } :: (L1 ++ L2), rfl, ?_, rfl, Nat.le_refl _,
      .inl ⟨rfl, ⟨e, L1, L2, rfl, hek, rfl, rfl⟩, rfl, rfl⟩⟩
    have hmem : ∀ x ∈ L1 ++ L2, x ∈ L1 ++ e :: L2 := by
      intro x hx
      rcases List.mem_append.mp hx with h | h <;> simp [h]
    refine ⟨?_, ?_, ?_, ?_, ?_, ?_, ?_, inv.ids, inv.range⟩
    · have hmap : ∀ l : List Entry, (∀ x ∈ l, x.key ≠ r.key) →
          (l.map fun x => if x.key = r.key then { x with stamp := c.clock } else x) = l := by
        intro l hl
        induction l with
        | nil => rfl
        | cons x l ih =>
          rw [List.map_cons, if_neg (hl x List.mem_cons_self),
            ih (fun y hy => hl y (List.mem_cons_of_mem _ hy))]
      refine List.Perm.trans ?_ (inv.perm.map _)
      rw [List.map_append, List.map_cons, if_pos hek, hmap L1, hmap L2]
      · exact List.perm_middle.symm
      · intro x hx hc
        exact k2 (by rw [hek, ← hc]; exact List.mem_map_of_mem hx)
      · intro x hx hc
        exact k4 _ (List.mem_map_of_mem hx) e.key List.mem_cons_self (by rw [hc, hek])
    · rw [List.pairwise_cons]
      refine ⟨?_, ?_⟩
      · intro x hx
        exact inv.clock x (hmem x hx)
      · rw [List.pairwise_append]
        exact ⟨hsort.1, hsort2.2, fun a ha b hb => hsort.2.2 a ha b (List.mem_cons_of_mem _ hb)⟩
    · intro x hx
      rcases List.mem_cons.mp hx with rfl | hx
      · exact Nat.lt_succ_self _
      · exact Nat.lt_succ_of_lt (inv.clock x (hmem x hx))
    · rw [List.map_cons, List.nodup_cons, List.map_append]
      refine ⟨?_, ?_⟩
      · rw [List.mem_append]
        rintro (h | h)
        · exact k4 _ h e.key List.mem_cons_self rfl
        · exact k2 h
      · rw [List.nodup_append]
        exact ⟨k1, k3, fun a ha b hb => k4 a ha b (List.mem_cons_of_mem _ hb)⟩
    · intro x hx
      rcases List.mem_cons.mp hx with rfl | hx
      · exact inv.key e (by simp)
      · exact inv.key x (hmem x hx)
    · intro x hx
      rcases List.mem_cons.mp hx with rfl | hx
      · exact inv.sizes e (by simp)
      · exact inv.sizes x (hmem x hx)
    · refine inv.held.trans ?_
      show (List.flatMap (fun e => blocks e.mat) (L1 ++ e :: L2)).Perm
        (List.flatMap (fun e => blocks e.mat) ({ e with stamp := c.clock } :: (L1 ++ L2)))
      exact (List.perm_middle (a := e) (l₁ := L1) (l₂ := L2)).flatMap_right (fun e => blocks e.mat)
  | none =>
    dsimp only
    have habs : r.key ∉ L.map Entry.key := by
      intro hm
      obtain ⟨e, he, hk⟩ := List.mem_map.mp hm
      have := List.find?_eq_none.mp hf e (inv.perm.subset he)
      exact this (by simpa using hk)
    obtain ⟨m, c1, e1, i1, a1, a2, a3, a4, a5, a6, a7, a8, a9, a10⟩ :=
      allocateBuffers_spec (sys := sys) inv hs
    have hcalls : c.calls ≤ c1.calls := by
      have aux : ∀ (c : Cache) (n : Nat), c.calls ≤ (sysAlloc sys c n).2.calls := by
        intro c n
        unfold sysAlloc
        split <;> exact Nat.le_succ _
      unfold allocateBuffers at e1
      obtain ⟨d, -, e1⟩ := C.bind_ok e1
      dsimp only at e1
      split at e1
      · rw [← (Prod.mk.inj (Prod.mk.inj (Except.ok.inj e1)).2).2]; exact aux _ _
      · obtain ⟨s, -, e1⟩ := C.bind_ok e1
        rw [← (Prod.mk.inj (Prod.mk.inj (Except.ok.inj e1)).2).2]
        exact Nat.le_trans (aux _ _) (aux _ _)
    rw [e1, C.ok_bind]
    dsimp only
    unfold ejectUntilRoomFor
    have hlen : c1.entries.length = L.length := i1.perm.length_eq.symm
    obtain ⟨kept, dropped, c2, b1, b2, b3, b4, b5, b6, b7, b8, b9, -⟩ :=
      ejectLoop_spec (newBytes r) (blocks m) L.length c1 L rfl i1
    rw [hlen, b2, C.ok_bind]
    refine ⟨m, true, _, ⟨r.key, m, c.clock⟩ :: kept, rfl, ?_, by dsimp only; omega, by dsimp only; omega,
      .inr ⟨rfl, habs, ⟨kept, dropped, b1, rfl, ?_, ?_, ?_⟩, a5, ⟨a6, a7, a8⟩, a9, a10⟩⟩
    · refine ⟨?_, ?_, ?_, ?_, ?_, ?_, ?_, b3.ids, b3.range⟩
      · rw [show c.clock = c2.clock by omega]
        exact b3.perm.cons _
      · rw [List.pairwise_cons]
        refine ⟨fun x hx => ?_, b3.sorted⟩
        have := b3.clock x hx
        show x.stamp < c.clock
        omega
      · intro x hx
        rcases List.mem_cons.mp hx with rfl | hx
        · show c.clock < c2.clock + 1
          omega
        · exact Nat.lt_succ_of_lt (b3.clock x hx)
      · rw [List.map_cons, List.nodup_cons]
        refine ⟨fun h => habs ?_, b3.keys⟩
        rw [b1, List.map_append]
        exact List.mem_append_left _ h
      · intro x hx
        rcases List.mem_cons.mp hx with rfl | hx
        · exact ⟨a5.1, a5.2.1⟩
        · exact b3.key x hx
      · intro x hx
        rcases List.mem_cons.mp hx with rfl | hx
        · unfold Sizes at hs ⊢
          dsimp only
          rw [a5.1, a5.2.2.1, a5.2.2.2.1]
          exact hs
        · exact b3.sizes x hx
      · exact b3.held
    · dsimp only; omega
    · rcases b8 with b8 | b8
      · exact .inl b8
      · right; dsimp only; omega
    · intro S h1 h2
      have := b9 S h1 h2
      omega

/-- A history keeps the invariant. -/
theorem run_spec {sys : Nat → Bool} : ∀ (rs : List Req) (c : Cache) (L : List Entry), Inv c L [] →
    (∀ r ∈ rs, Sizes r.mat) → ∃ c' L', run sys rs c = .ok c' ∧ Inv c' L' [] ∧ c'.cap = c.cap
  | [], c, L, inv, _ => ⟨c, L, rfl, inv, rfl⟩
  | r :: rs, c, L, inv, hs => by
    obtain ⟨m, ins, c1, L1, e1, i1, a1, -, -⟩ := get_spec (sys := sys) inv (hs r List.mem_cons_self)
    obtain ⟨c', L', e2, i2, a2⟩ := run_spec rs c1 L1 i1 (fun x hx => hs x (List.mem_cons_of_mem _ hx))
    refine ⟨c', L', ?_, i2, by omega⟩
    show (get sys c r >>= fun x => run sys rs x.2.2) = _
    rw [e1]; exact e2

end Ruy.Cache

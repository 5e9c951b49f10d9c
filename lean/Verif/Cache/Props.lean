import Verif.Cache.Lemmas
/-
C19, C20, C22: the prepacked cache, for all histories of requests.
-/
namespace Ruy.Cache
open Ruy.Mat

/-- Bytes held. -/
def heldBytes (c : Cache) : Nat := (c.held.map Prod.snd).sum

/-! ### C22 -/

/-- C22: no history of requests, and no pattern of failures of the system allocator, leads to a
double or invalid free; and destroying the cache then frees everything. -/
theorem c22_no_leak_no_double_free (sys : Nat → Bool) (cap : Int) (rs : List Req)
    (hs : ∀ r ∈ rs, Sizes r.mat) :
    ∃ c, run sys rs (init cap) = .ok c ∧ ∃ c', destroy c = .ok c' ∧ c'.held = [] := by
  obtain ⟨c, L, h1, inv, -⟩ := run_spec (sys := sys) rs (init cap) [] (init_inv cap) hs
  refine ⟨c, h1, ?_⟩
  have key : ∀ (es : List Entry) (c : Cache), c.held.Perm (es.flatMap fun e => blocks e.mat) →
      (c.held.map Prod.fst).Nodup → (∀ b ∈ c.held, b.1 ≠ 0 ∧ b.1 ≤ c.calls) →
      ∃ c', freeEntries es c = .ok c' ∧ c'.held = [] := by
    intro es
    induction es with
    | nil => intro c hp _ _; exact ⟨c, rfl, hp.eq_nil⟩
    | cons e es ih =>
      intro c hp hi hr
      obtain ⟨h', e1, e2, e3, e4⟩ := freeBuffers_held (p := e.mat) (rest := es.flatMap fun e => blocks e.mat)
        hp hi hr
      obtain ⟨c', f1, f2⟩ := ih { c with held := h' } e2 e3 e4
      refine ⟨c', ?_, f2⟩
      show (freeBuffers e.mat c >>= fun c => freeEntries es c) = _
      rw [e1]; exact f1
  exact key c.entries c (inv.held.trans (inv.perm.flatMap_right _)) inv.ids inv.range

/-- C22: the buffers of the matrices present are allocated, with the right sizes, and different
matrices have different buffers. -/
theorem c22_present_buffers_alive (sys : Nat → Bool) (cap : Int) (rs : List Req) (c : Cache)
    (hs : ∀ r ∈ rs, Sizes r.mat) (h : run sys rs (init cap) = .ok c) :
    (∀ e ∈ c.entries, (e.mat.data ≠ 0 → (e.mat.data, pflatSize e.mat.layout * e.mat.dataSize) ∈ c.held) ∧
      (e.mat.sums ≠ 0 → (e.mat.sums, e.mat.layout.cols * e.mat.sumsSize) ∈ c.held)) ∧
    ((c.entries.flatMap fun e => blocks e.mat).map Prod.fst).Nodup := by
  obtain ⟨c1, L, h1, inv, -⟩ := run_spec (sys := sys) rs (init cap) [] (init_inv cap) hs
  rw [h] at h1
  cases h1
  have hp : c.held.Perm (c.entries.flatMap fun e => blocks e.mat) :=
    inv.held.trans (inv.perm.flatMap_right _)
  refine ⟨fun e he => ⟨fun h0 => ?_, fun h0 => ?_⟩, (hp.map _).nodup_iff.mp inv.ids⟩
  · refine hp.symm.subset (List.mem_flatMap.mpr ⟨e, he, ?_⟩)
    unfold blocks; rw [if_neg h0]; simp
  · refine hp.symm.subset (List.mem_flatMap.mpr ⟨e, he, ?_⟩)
    unfold blocks; rw [if_neg h0]; simp

/-- C22: so are the buffers a request returns, whether it was found or inserted. -/
theorem c22_returned_buffers_alive (sys : Nat → Bool) (cap : Int) (rs : List Req) (r : Req)
    (c c' : Cache) (m : PE) (ins : Bool) (hs : ∀ r ∈ rs, Sizes r.mat) (hr : Sizes r.mat)
    (h : run sys rs (init cap) = .ok c) (hg : get sys c r = .ok (m, ins, c')) :
    m.layout = r.layout ∧ m.zp = r.zp ∧
    (m.data ≠ 0 → (m.data, pflatSize m.layout * m.dataSize) ∈ c'.held) ∧
      (m.sums ≠ 0 → (m.sums, m.layout.cols * m.sumsSize) ∈ c'.held) := by
  obtain ⟨c1, L, h1, inv, -⟩ := run_spec (sys := sys) rs (init cap) [] (init_inv cap) hs
  rw [h] at h1
  cases h1
  obtain ⟨m1, ins1, c2, L', g1, inv', -, -, g2⟩ := get_spec (sys := sys) inv hr
  rw [hg] at g1
  cases g1
  have hm : ∃ e ∈ L', e.mat = m ∧ e.key = r.key := by
    rcases g2 with ⟨-, g2⟩ | ⟨-, g2⟩
    · obtain ⟨e, L1, L2, -, k, rfl, rfl⟩ := g2.split
      exact ⟨_, List.mem_cons_self, rfl, k⟩
    · obtain ⟨kept, dropped, -, rfl, -⟩ := g2.split
      exact ⟨_, List.mem_cons_self, rfl, rfl⟩
  obtain ⟨e, he, rfl, hk⟩ := hm
  obtain ⟨k1, k2⟩ := inv'.key e he
  refine ⟨by rw [k1, hk]; rfl, by rw [k2, hk]; rfl, fun h0 => ?_, fun h0 => ?_⟩
  · refine inv'.held.symm.subset (List.mem_flatMap.mpr ⟨e, he, ?_⟩)
    unfold blocks; rw [if_neg h0]; simp
  · refine inv'.held.symm.subset (List.mem_flatMap.mpr ⟨e, he, ?_⟩)
    unfold blocks; rw [if_neg h0]; simp

/-! ### C19 -/

/-- What the accounting of C19 needs: the sums of the matrix are integers. -/
structure Acc (c : Cache) (L : List Entry) : Prop where
  bytes : c.bytes = (reps L : Nat)
  held : heldBytes c = reps L
  real : ∀ e ∈ L, e.mat.data ≠ 0 ∧ e.mat.sums ≠ 0
  room : c.bytes ≤ c.cap ∨ L.length = 1

theorem heldBytes_eq {c : Cache} {L : List Entry} (inv : Inv c L [])
    (hr : ∀ e ∈ L, e.mat.data ≠ 0 ∧ e.mat.sums ≠ 0) : heldBytes c = reps L := by
  unfold heldBytes reps
  rw [(inv.held.map Prod.snd).sum_nat]
  have : ∀ L : List Entry, (∀ e ∈ L, e.mat.data ≠ 0 ∧ e.mat.sums ≠ 0) →
      ((L.flatMap fun e => blocks e.mat).map Prod.snd).sum = (L.map rep).sum := by
    intro L
    induction L with
    | nil => intro _; rfl
    | cons e L ih =>
      intro h
      rw [List.flatMap_cons, List.map_append, List.sum_append, List.map_cons, List.sum_cons,
        ih (fun x hx => h x (List.mem_cons_of_mem _ hx))]
      congr 1
      obtain ⟨h1, h2⟩ := h e List.mem_cons_self
      unfold blocks rep
      rw [if_neg h1, if_neg h2]
      simp
  exact this L hr

theorem acc_run {sys : Nat → Bool} (hsys : ∀ k, sys k = true) : ∀ (rs : List Req) (c c' : Cache)
    (L : List Entry), Inv c L [] → Acc c L → (∀ r ∈ rs, Sizes r.mat ∧ r.sumsFloat = false) →
    run sys rs c = .ok c' → ∃ L', Inv c' L' [] ∧ Acc c' L' ∧ c'.cap = c.cap
  | [], c, c', L, inv, acc, _, h => by cases h; exact ⟨L, inv, acc, rfl⟩
  | r :: rs, c, c', L, inv, acc, hs, h => by
    obtain ⟨hs1, hs2⟩ := hs r List.mem_cons_self
    obtain ⟨m, ins, c1, L1, e1, i1, a1, -, g⟩ := get_spec (sys := sys) inv hs1
    obtain ⟨x, hx, h⟩ := C.bind_ok h
    rw [e1] at hx
    cases hx
    have acc1 : Acc c1 L1 := by
      rcases g with ⟨-, g⟩ | ⟨-, g⟩
      · obtain ⟨e, A, B, rfl, -, -, rfl⟩ := g.split
        have hr : ∀ x ∈ ({ e with stamp := c.clock } :: (A ++ B) : List Entry),
            x.mat.data ≠ 0 ∧ x.mat.sums ≠ 0 := by
          intro x hx
          rcases List.mem_cons.mp hx with rfl | hx
          · exact acc.real e (by simp)
          · exact acc.real x (by rcases List.mem_append.mp hx with h | h <;> simp [h])
        have hreps : reps ({ e with stamp := c.clock } :: (A ++ B)) = reps (A ++ e :: B) := by
          unfold reps
          simp only [List.map_cons, List.map_append, List.sum_cons, List.sum_append]
          unfold rep
          dsimp only
          omega
        refine ⟨by rw [g.bytes, acc.bytes, hreps], heldBytes_eq i1 hr, hr, ?_⟩
        rcases acc.room with h | h
        · left; rw [g.bytes, a1]; exact h
        · right
          simp only [List.length_append, List.length_cons] at h ⊢
          omega
      · obtain ⟨kept, dropped, rfl, rfl, b1, b2, -⟩ := g.split
        obtain ⟨f1, f2, f3, f4, f5⟩ := g.fields
        have hm := g.served hsys
        have hr : ∀ x ∈ (⟨r.key, m, c.clock⟩ :: kept : List Entry),
            x.mat.data ≠ 0 ∧ x.mat.sums ≠ 0 := by
          intro x hx
          rcases List.mem_cons.mp hx with rfl | hx
          · exact ⟨hm.1, hm.2 hs2⟩
          · exact acc.real x (by simp [hx])
        refine ⟨?_, heldBytes_eq i1 hr, hr, ?_⟩
        · have hb := acc.bytes
          rw [reps_append] at hb
          rw [b1]
          have hn : newBytes r = rep ⟨r.key, m, c.clock⟩ := by
            unfold newBytes rep
            rw [hs2]
            dsimp only
            rw [f1, f3, f4]
            simp
          have : reps (⟨r.key, m, c.clock⟩ :: kept) = newBytes r + reps kept := by
            rw [hn]; simp [reps]
          omega
        · rcases b2 with h | h
          · right; rw [h]; rfl
          · left; rw [a1]; exact h
    obtain ⟨L', i2, acc2, a2⟩ := acc_run hsys rs c1 c' L1 i1 acc1
      (fun x hx => hs x (List.mem_cons_of_mem _ hx)) h
    exact ⟨L', i2, acc2, by omega⟩

/-- C19 as far as it holds: for integer matrices and as long as the system allocator does not fail,
BuffersBytes is the number of bytes held, and it is at most the cap unless only one matrix is held.
Missing: floating-point matrices, see `c19_float_drift` and `c19_float_over_cap`. -/
theorem c19_accounting_partial (sys : Nat → Bool) (cap : Int) (rs : List Req) (c : Cache)
    (hsys : ∀ k, sys k = true) (hcap : 0 ≤ cap)
    (hs : ∀ r ∈ rs, Sizes r.mat ∧ r.sumsFloat = false) (h : run sys rs (init cap) = .ok c) :
    c.bytes = (heldBytes c : Nat) ∧ (c.bytes ≤ cap ∨ c.entries.length = 1) := by
  obtain ⟨L, inv, acc, hc⟩ := acc_run hsys rs (init cap) c [] (init_inv cap)
    ⟨rfl, rfl, by simp, .inl hcap⟩ hs h
  refine ⟨by rw [acc.held]; exact acc.bytes, ?_⟩
  rw [← inv.perm.length_eq]
  rcases acc.room with h | h
  · left; rw [hc] at h; exact h
  · exact .inr h

/-- C19, any types: the reported size is at most the cap right after an insertion, unless only the
inserted matrix is held. -/
theorem c19_reported_cap (sys : Nat → Bool) (cap : Int) (rs : List Req) (r : Req) (c c' : Cache) (m : PE)
    (hs : ∀ r ∈ rs, Sizes r.mat) (hr : Sizes r.mat) (h : run sys rs (init cap) = .ok c)
    (hg : get sys c r = .ok (m, true, c')) : c'.bytes ≤ cap ∨ c'.entries.length = 1 := by
  obtain ⟨c1, L, h1, inv, hc⟩ := run_spec (sys := sys) rs (init cap) [] (init_inv cap) hs
  rw [h] at h1
  cases h1
  obtain ⟨m1, ins1, c2, L', g1, inv', -, -, g2⟩ := get_spec (sys := sys) inv hr
  rw [hg] at g1
  cases g1
  rcases g2 with ⟨h, -⟩ | ⟨-, g⟩
  · cases h
  · obtain ⟨kept, dropped, rfl, rfl, b1, b2, -⟩ := g.split
    rw [← inv'.perm.length_eq]
    rcases b2 with h | h
    · right; rw [h]; rfl
    · left; rw [hc] at h; exact h

/-- A packed column-major matrix of 1x1 kernel blocks. -/
def lay (rows cols : Nat) : PMatLayout := ⟨rows, cols, rows, .colMajor, ⟨.colMajor, 1, 1⟩⟩

/-- A request for a floating-point matrix (data and sums of 4 bytes). -/
def floatReq (src rows cols : Nat) : Req := ⟨src, lay rows cols, 0, 4, 4, true⟩
/-- A request for an int8 matrix with int32 sums. -/
def intReq (src rows cols : Nat) : Req := ⟨src, lay rows cols, 0, 1, 4, false⟩

/-- C19 is false for floating-point matrices: after one ejection, BuffersBytes is wrong, here 96
with 100 bytes held. EjectOne subtracts the size of the sums, which AllocateBuffers had
not added (prepacked_cache.cc:33, 124). -/
theorem c19_float_drift : ∃ c, run (fun _ => true) [floatReq 1 25 1, floatReq 2 25 1] (init 150) = .ok c ∧
    c.bytes = 96 ∧ heldBytes c = 100 := by
  refine ⟨⟨[⟨⟨2, lay 25 1, 0⟩, ⟨lay 25 1, 0, 4, 4, true, 2, 0⟩, 1⟩], 150, 96, 2, 2, [(2, 100)]⟩, ?_, rfl, rfl⟩
  decide +kernel

/-- C19 is false for floating-point matrices: the errors accumulate, and then the cap is exceeded
although several matrices are held. Here the cap is 110 bytes and two matrices of 60 bytes
are held. -/
theorem c19_float_over_cap : ∃ c, run (fun _ => true)
    [floatReq 1 1 15, floatReq 2 1 15, floatReq 3 1 15] (init 110) = .ok c ∧
    c.bytes ≤ 110 ∧ c.entries.length = 2 ∧ heldBytes c = 120 := by
  refine ⟨⟨[⟨⟨3, lay 1 15, 0⟩, ⟨lay 1 15, 0, 4, 4, true, 3, 0⟩, 2⟩,
    ⟨⟨2, lay 1 15, 0⟩, ⟨lay 1 15, 0, 4, 4, true, 2, 0⟩, 1⟩], 110, 60, 3, 3, [(3, 60), (2, 60)]⟩,
    ?_, ?_, rfl, rfl⟩
  · decide +kernel
  · decide

/-! ### C20 -/

/-- The requested keys, most recently requested first, without repetitions. -/
def recency (ks : List Key) : List Key := ks.foldl (fun l k => k :: l.erase k) []

theorem recency_append (ks : List Key) (k : Key) : recency (ks ++ [k]) = k :: (recency ks).erase k := by
  simp [recency]

/-- The keys present are a prefix of the recency list. -/
theorem get_recency {sys : Nat → Bool} {c c' : Cache} {L L' : List Entry} {r : Req} {m : PE} {ins : Bool}
    {R : List Key} (hp : L.map Entry.key <+: R)
    (g : (ins = false ∧ Hit c L r m c' L') ∨ (ins = true ∧ Miss sys c L r m c' L'))
    (hn : (L.map Entry.key).Nodup) : L'.map Entry.key <+: r.key :: R.erase r.key := by
  obtain ⟨T, hT⟩ := hp
  rcases g with ⟨-, g⟩ | ⟨-, g⟩
  · obtain ⟨e, A, B, rfl, hk, -, rfl⟩ := g.split
    rw [List.map_append, List.map_cons, List.nodup_append] at hn
    have hA : r.key ∉ A.map Entry.key := by
      intro h
      exact hn.2.2 _ h e.key List.mem_cons_self hk.symm
    refine ⟨T, ?_⟩
    rw [← hT, List.map_append, List.append_assoc, List.erase_append_right _ hA]
    simp only [List.map_cons, List.map_append, List.cons_append, hk, List.erase_cons_head,
      List.append_assoc]
  · obtain ⟨kept, dropped, rfl, rfl, -⟩ := g.split
    have habs := g.absent
    rw [List.map_append, List.mem_append, not_or] at habs
    refine ⟨(dropped.map Entry.key ++ T).erase r.key, ?_⟩
    rw [← hT, List.map_append, List.append_assoc, List.erase_append_right _ habs.1, List.map_cons]
    rfl

theorem run_recency {sys : Nat → Bool} : ∀ (rs : List Req) (c c' : Cache) (L : List Entry) (R : List Key),
    Inv c L [] → L.map Entry.key <+: R → (∀ r ∈ rs, Sizes r.mat) → run sys rs c = .ok c' →
    ∃ L', Inv c' L' [] ∧ L'.map Entry.key <+: (rs.map Req.key).foldl (fun l k => k :: l.erase k) R ∧
      c'.cap = c.cap
  | [], c, c', L, R, inv, hp, _, h => by cases h; exact ⟨L, inv, hp, rfl⟩
  | r :: rs, c, c', L, R, inv, hp, hs, h => by
    obtain ⟨m, ins, c1, L1, e1, i1, a1, -, g⟩ := get_spec (sys := sys) inv (hs r List.mem_cons_self)
    obtain ⟨x, hx, h⟩ := C.bind_ok h
    rw [e1] at hx
    cases hx
    obtain ⟨L', i2, p2, a2⟩ := run_recency rs c1 c' L1 _ i1 (get_recency hp g inv.keys)
      (fun x hx => hs x (List.mem_cons_of_mem _ hx)) h
    exact ⟨L', i2, p2, by omega⟩

/-- C20: the matrices present are the most recently requested ones: some first part of the list
of all requested keys, ordered by their last request. -/
theorem c20_most_recent_are_kept (sys : Nat → Bool) (cap : Int) (rs : List Req) (c : Cache)
    (hs : ∀ r ∈ rs, Sizes r.mat) (h : run sys rs (init cap) = .ok c) :
    ∃ n, (c.entries.map Entry.key).Perm ((recency (rs.map Req.key)).take n) := by
  obtain ⟨L, inv, ⟨T, hT⟩, -⟩ := run_recency rs (init cap) c [] [] (init_inv cap) (by simp) hs h
  refine ⟨L.length, ?_⟩
  have : (recency (rs.map Req.key)).take L.length = L.map Entry.key := by
    unfold recency
    rw [← hT, List.take_append_of_le_length (by simp), List.take_of_length_le (by simp)]
  rw [this]
  exact (inv.perm.map _).symm

/-- C20: what one request does. A request for a matrix that is present ejects nothing. A request for
another one ejects the last ones of the recency list, as few as needed for the reported size to
stay within the cap, or all. Right after the request the matrix is present, and it is the most
recent one. -/
theorem c20_least_recent_ejected (sys : Nat → Bool) (cap : Int) (rs : List Req) (r : Req)
    (c c' : Cache) (m : PE) (ins : Bool) (hs : ∀ r ∈ rs, Sizes r.mat) (hr : Sizes r.mat)
    (h : run sys rs (init cap) = .ok c) (hg : get sys c r = .ok (m, ins, c')) :
    ∃ kept dropped : List Entry, c.entries.Perm (kept ++ dropped) ∧
      (kept ++ dropped).map Entry.key <+: recency (rs.map Req.key) ∧
      (if r.key ∈ c.entries.map Entry.key then ins = false ∧ dropped = [] ∧
          (c'.entries.map Entry.key).Perm (kept.map Entry.key)
        else ins = true ∧ (c'.entries.map Entry.key).Perm (r.key :: kept.map Entry.key) ∧
          (kept = [] ∨ c.bytes - (reps dropped : Nat) + (newBytes r : Nat) ≤ cap) ∧
          ∀ S, S <:+ dropped → S ≠ dropped → c.bytes - (reps S : Nat) + (newBytes r : Nat) > cap) ∧
      ∃ e ∈ c'.entries, e.key = r.key ∧ e.mat = m ∧ ∀ x ∈ c'.entries, x ≠ e → x.stamp < e.stamp := by
  obtain ⟨L, inv, hpre, hc⟩ := run_recency rs (init cap) c [] [] (init_inv cap) (by simp) hs h
  obtain ⟨m1, ins1, c2, L', g1, inv', hcap, -, g2⟩ := get_spec (sys := sys) inv hr
  rw [hg] at g1
  cases g1
  have hc : c.cap = cap := hc
  have hin : r.key ∈ c.entries.map Entry.key ↔ r.key ∈ L.map Entry.key :=
    (inv.perm.map Entry.key).mem_iff.symm
  have newest : ∀ (e : Entry) (K : List Entry), L' = e :: K → e.key = r.key → e.mat = m →
      ∃ e ∈ c'.entries, e.key = r.key ∧ e.mat = m ∧ ∀ x ∈ c'.entries, x ≠ e → x.stamp < e.stamp := by
    intro e K hL hk hm
    subst hL
    refine ⟨e, inv'.perm.subset List.mem_cons_self, hk, hm, fun x hx hne => ?_⟩
    rcases List.mem_cons.mp (inv'.perm.symm.subset hx) with h | h
    · exact absurd h hne
    · exact (List.pairwise_cons.mp inv'.sorted).1 x h
  rcases g2 with ⟨hi, g⟩ | ⟨hi, g⟩
  · obtain ⟨e, A, B, rfl, hk, hm, hL'⟩ := g.split
    refine ⟨A ++ e :: B, [], by rw [List.append_nil]; exact inv.perm.symm,
      by rw [List.append_nil]; exact hpre, ?_, newest _ _ hL' hk hm.symm⟩
    rw [if_pos (hin.mpr (by rw [← hk]; simp))]
    refine ⟨hi, rfl, ?_⟩
    refine (inv'.perm.map _).symm.trans ?_
    rw [hL']
    exact (List.perm_middle (a := e) (l₁ := A) (l₂ := B)).symm.map Entry.key
  · obtain ⟨kept, dropped, rfl, hL', b1, b2, b3⟩ := g.split
    refine ⟨kept, dropped, inv.perm.symm, hpre, ?_, newest _ _ hL' rfl rfl⟩
    rw [if_neg (fun h => g.absent (hin.mp h))]
    refine ⟨hi, ?_, ?_, ?_⟩
    · refine (inv'.perm.map _).symm.trans ?_
      rw [hL']
      exact List.Perm.refl _
    · rcases b2 with h | h
      · exact .inl h
      · right; rw [← b1, ← hc]; exact h
    · rw [← hc]; exact b3

/-- C20, for integer matrices: as few as needed, in terms of the bytes held. If a matrix was ejected,
then all that were kept plus the most recent of the ejected ones would not have fitted. -/
theorem c20_no_needless_ejection (sys : Nat → Bool) (cap : Int) (rs : List Req) (r : Req)
    (c c' : Cache) (m : PE) (hsys : ∀ k, sys k = true) (hcap : 0 ≤ cap)
    (hs : ∀ r ∈ rs, Sizes r.mat ∧ r.sumsFloat = false) (hr : Sizes r.mat)
    (h : run sys rs (init cap) = .ok c) (hg : get sys c r = .ok (m, true, c')) :
    ∃ kept dropped : List Entry, c.entries.Perm (kept ++ dropped) ∧
      (kept ++ dropped).map Entry.key <+: recency (rs.map Req.key) ∧
      (c'.entries.map Entry.key).Perm (r.key :: kept.map Entry.key) ∧
      ∀ d ds, dropped = d :: ds → (reps (kept ++ [d]) : Int) + (newBytes r : Nat) > cap := by
  obtain ⟨kept, dropped, h1, h2, h3, -⟩ := c20_least_recent_ejected sys cap rs r c c' m true
    (fun r hr => (hs r hr).1) hr h hg
  refine ⟨kept, dropped, h1, h2, ?_⟩
  have hacc := (acc_run hsys rs (init cap) c [] (init_inv cap) ⟨rfl, rfl, by simp, .inl hcap⟩ hs h)
  obtain ⟨L, inv, acc, -⟩ := hacc
  have hb : c.bytes = (reps (kept ++ dropped) : Nat) := by
    rw [acc.bytes]
    have := ((inv.perm.trans h1).map rep).sum_nat
    unfold reps
    rw [this]
  split at h3
  · exact absurd h3.1 (by decide)
  · obtain ⟨-, h4, -, h5⟩ := h3
    refine ⟨h4, ?_⟩
    intro d ds hd
    subst hd
    have := h5 ds ⟨[d], rfl⟩ (by
      intro h
      have := congrArg List.length h
      simp at this)
    rw [hb, reps_append] at this
    have e : reps (d :: ds) = rep d + reps ds := by simp [reps]
    rw [e] at this
    rw [reps_append]
    have e2 : reps [d] = rep d := by simp [reps]
    omega

/-- C20: the iteration order of the hash map does not matter. -/
theorem c20_order_irrelevant (sys : Nat → Bool) (cap : Int) (rs : List Req) (r : Req)
    (c : Cache) (es : List Entry) (hs : ∀ r ∈ rs, Sizes r.mat) (hr : Sizes r.mat)
    (h : run sys rs (init cap) = .ok c) (hp : es.Perm c.entries) :
    ∃ m ins c1 c2, get sys c r = .ok (m, ins, c1) ∧ get sys { c with entries := es } r = .ok (m, ins, c2) ∧
      c2.entries.Perm c1.entries ∧ c2.held.Perm c1.held ∧ c2.bytes = c1.bytes := by
  obtain ⟨c0, L, h1, inv, -⟩ := run_spec (sys := sys) rs (init cap) [] (init_inv cap) hs
  rw [h] at h1
  cases h1
  have inv2 : Inv { c with entries := es } L [] := { inv with perm := inv.perm.trans hp.symm }
  obtain ⟨m1, ins1, c1, L1, g1, i1, -, -, k1⟩ := get_spec (sys := sys) inv hr
  obtain ⟨m2, ins2, c2, L2, g2, i2, -, -, k2⟩ := get_spec (sys := sys) inv2 hr
  suffices hh : m1 = m2 ∧ ins1 = ins2 ∧ L1 = L2 ∧ c2.bytes = c1.bytes by
    obtain ⟨rfl, rfl, rfl, hb⟩ := hh
    exact ⟨m1, ins1, c1, c2, g1, g2, i2.perm.symm.trans i1.perm, i2.held.trans i1.held.symm, hb⟩
  rcases k1 with ⟨e1, k1⟩ | ⟨e1, k1⟩ <;> rcases k2 with ⟨e2, k2⟩ | ⟨e2, k2⟩
  · obtain ⟨e, A, B, hL, hk, hm, hL1⟩ := k1.split
    obtain ⟨e', A', B', hL', hk', hm', hL2⟩ := k2.split
    have hn := inv.keys
    have key : ∀ (A A' B B' : List Entry) (e e' : Entry), A ++ e :: B = A' ++ e' :: B' → e.key = e'.key →
        ((A ++ e :: B).map Entry.key).Nodup → A = A' ∧ e = e' ∧ B = B' := by
      intro A
      induction A with
      | nil =>
        intro A' B B' e e' h hk hn
        cases A' with
        | nil => cases h; exact ⟨rfl, rfl, rfl⟩
        | cons x A' =>
          exfalso
          obtain ⟨rfl, rfl⟩ := List.cons.inj h
          have h2 := (List.nodup_cons.mp hn).1
          exact h2 (List.mem_map.mpr ⟨e', by simp, hk.symm⟩)
      | cons a A ih =>
        intro A' B B' e e' h hk hn
        cases A' with
        | nil =>
          exfalso
          obtain ⟨rfl, rfl⟩ := List.cons.inj h
          simp only [List.cons_append, List.map_cons, List.map_append, List.nodup_cons, List.mem_append,
            List.mem_cons] at hn
          exact hn.1 (.inr (.inl hk.symm))
        | cons x A' =>
          obtain ⟨rfl, h'⟩ := List.cons.inj h
          rw [List.cons_append, List.map_cons, List.nodup_cons] at hn
          obtain ⟨rfl, rfl, rfl⟩ := ih A' B B' e e' h' hk hn.2
          exact ⟨rfl, rfl, rfl⟩
    rw [hL] at hn
    obtain ⟨rfl, rfl, rfl⟩ := key A A' B B' e e' (hL.symm.trans hL') (hk.trans hk'.symm) hn
    refine ⟨hm.trans hm'.symm, by rw [e1, e2], by rw [hL1, hL2], ?_⟩
    rw [k1.bytes, k2.bytes]
  · exfalso
    obtain ⟨e, A, B, hL, hk, hm, hL1⟩ := k1.split
    exact k2.absent (by rw [hL, ← hk]; simp)
  · exfalso
    obtain ⟨e, A, B, hL, hk, hm, hL1⟩ := k2.split
    exact k1.absent (by rw [hL, ← hk]; simp)
  · obtain ⟨kept, dropped, hL, hL1, b1, b2, b3⟩ := k1.split
    obtain ⟨kept', dropped', hL', hL2, b1', b2', b3'⟩ := k2.split
    dsimp only at b1' b2' b3'
    have hdd : dropped = dropped' := by
      have hs1 : dropped <:+ L := ⟨kept, hL.symm⟩
      have hs2 : dropped' <:+ L := ⟨kept', hL'.symm⟩
      have cmp : ∀ {k d k' d' : List Entry} {b : Int}, L = k ++ d → L = k' ++ d' → d <:+ d' → d ≠ d' →
          (k = [] ∨ b - (reps d : Nat) + (newBytes r : Nat) ≤ c.cap) →
          (∀ S, S <:+ d' → S ≠ d' → b - (reps S : Nat) + (newBytes r : Nat) > c.cap) → False := by
        intro k d k' d' b h1 h2 h3 h4 h5 h6
        have h7 := h6 d h3 h4
        rcases h5 with h5 | h5
        · rw [h5, List.nil_append] at h1
          obtain ⟨T, hT⟩ := h3
          have l1 := congrArg List.length h1
          have l2 := congrArg List.length h2
          have l3 := congrArg List.length hT
          rw [List.length_append] at l2 l3
          have : T = [] := List.length_eq_zero_iff.mp (by omega)
          rw [this, List.nil_append] at hT
          exact h4 hT
        · omega
      by_contra hne
      rw [b1] at b2
      rw [b1'] at b2'
      rcases List.suffix_or_suffix_of_suffix hs1 hs2 with hss | hss
      · exact cmp hL hL' hss hne b2 b3'
      · exact cmp hL' hL hss (Ne.symm hne) b2' b3
    have hkk : kept = kept' := by
      rw [hdd] at hL
      exact List.append_cancel_right (hL.symm.trans hL')
    have hmm : m1 = m2 := by
      have alloc : ∀ (x : Nat × PE × Cache) (y : Nat × PE × Cache),
          allocateBuffers sys c r.mat = .ok x →
          allocateBuffers sys { c with entries := es } r.mat = .ok y → x.2.1 = y.2.1 := by
        have sa : ∀ (a b : Cache) (n : Nat), a.calls = b.calls →
            (sysAlloc sys a n).1 = (sysAlloc sys b n).1 ∧
            (sysAlloc sys a n).2.calls = (sysAlloc sys b n).2.calls := by
          intro a b n h
          unfold sysAlloc
          rw [h]
          split <;> exact ⟨rfl, rfl⟩
        intro x y hx hy
        unfold allocateBuffers at hx hy
        obtain ⟨d, d1, hx⟩ := C.bind_ok hx
        obtain ⟨d', d2, hy⟩ := C.bind_ok hy
        rw [d1] at d2
        cases d2
        dsimp only at hx hy
        obtain ⟨s1, s2⟩ := sa c { c with entries := es } d rfl
        split at hx
        · rename_i hf
          rw [if_pos hf] at hy
          cases hx; cases hy
          dsimp only
          rw [s1]
        · rename_i hf
          rw [if_neg hf] at hy
          obtain ⟨t, t1, hx⟩ := C.bind_ok hx
          obtain ⟨t', t2, hy⟩ := C.bind_ok hy
          rw [t1] at t2
          cases t2
          cases hx; cases hy
          dsimp only
          rw [s1, (sa _ _ t s2).1]
      have fromGet : ∀ (a a' : Cache) (m : PE), get sys a r = .ok (m, true, a') →
          ∃ x, allocateBuffers sys a r.mat = .ok x ∧ m = x.2.1 := by
        intro a a' m hg
        unfold get at hg
        split at hg
        · cases hg
        · obtain ⟨x, hx, hg⟩ := C.bind_ok hg
          obtain ⟨y, hy, hg⟩ := C.bind_ok hg
          cases hg
          exact ⟨x, hx, rfl⟩
      rw [e1] at g1
      rw [e2] at g2
      obtain ⟨x, hx, rfl⟩ := fromGet _ _ _ g1
      obtain ⟨y, hy, rfl⟩ := fromGet _ _ _ g2
      exact alloc x y hx hy
    refine ⟨hmm, by rw [e1, e2], by rw [hL1, hL2, hkk, hmm], ?_⟩
    rw [b1, b1', hdd]

-- The hypotheses hold for these requests, and ejections happen: the third request ejects the
-- matrix requested longest ago (2), not the first inserted one (1).
example : ∃ c, run (fun _ => true) [intReq 1 10 4, intReq 2 10 4, intReq 1 10 4, intReq 3 10 4]
    (init 120) = .ok c ∧ c.entries.map (fun e => e.key.src) = [3, 1] ∧ c.bytes = 112 ∧
    (∀ r ∈ [intReq 1 10 4, intReq 2 10 4, intReq 3 10 4], Sizes r.mat ∧ r.sumsFloat = false) := by
  refine ⟨⟨[⟨⟨3, lay 10 4, 0⟩, ⟨lay 10 4, 0, 1, 4, false, 5, 6⟩, 3⟩,
    ⟨⟨1, lay 10 4, 0⟩, ⟨lay 10 4, 0, 1, 4, false, 1, 2⟩, 2⟩], 120, 112, 4, 6,
    [(6, 16), (5, 40), (2, 16), (1, 40)]⟩, ?_, rfl, rfl, ?_⟩
  · decide +kernel
  · intro r hr
    simp only [List.mem_cons, List.not_mem_nil, or_false] at hr
    unfold Sizes
    rcases hr with rfl | rfl | rfl <;> decide

end Ruy.Cache

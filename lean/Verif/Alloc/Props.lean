import Verif.Alloc.Lemmas
/-
C14-C17: the allocator, for all histories of requests, all system allocators that return
aligned fresh blocks, and all patterns of failures of the system allocator.
-/
namespace Ruy.Alloc

/-! ### C14 -/

/-- C14: the blocks handed out since the last FreeAll are 64-byte aligned, lie in memory obtained
from the system and not yet returned, and do not overlap; unless a reallocation in FreeAll failed
(see `c17_bogus_pointer`). -/
theorem c14_aligned_disjoint (space : Nat) (sys : System) (ops : List Op) (s : State)
    (hs : Honest space sys) (h : run sys ops init = .ok s) (hl : s.lost = false) :
    (∀ b ∈ s.live, 0 < b.addr ∧ b.addr % 64 = 0 ∧ ∃ f ∈ s.heap, Block.Inside b f) ∧
    s.live.Pairwise Block.Disjoint ∧ s.heap.Pairwise Block.Disjoint := by
  obtain ⟨inv, -⟩ := run_inv hs ops init s (init_inv space) h
  refine ⟨?_, inv.sep hl, inv.disj⟩
  intro b hb
  obtain ⟨h1, h2, h3⟩ := inv.live hl b hb
  refine ⟨h1, h2, ?_⟩
  rcases h3 with ⟨h3, h4⟩ | ⟨f, hf, -, h4⟩
  · refine ⟨⟨s.ptr, s.size⟩, ?_, ?_⟩
    · obtain ⟨fb, hp, -, -⟩ := inv.perm
      refine hp.mem_iff.mpr ?_
      unfold held; rw [if_neg h3]; simp
    · have := inv.cur.1
      unfold Block.Inside at *
      dsimp only at *
      omega
  · exact ⟨f, hf, h4⟩

/-- C14: what the list `live` records: each request that returns a non-null pointer adds the block
of the requested size at that pointer; FreeAll empties the list. -/
theorem c14_live_is_what_was_returned (sys : System) (s s' : State) (op : Op) (p : Nat)
    (h : step sys s op = .ok (p, s')) :
    match op with
    | .alloc n => if p = 0 then s'.live = s.live else s'.live = ⟨p, n⟩ :: s.live
    | .avoid n _ => if p = 0 then s'.live = s.live else s'.live = ⟨p, n⟩ :: s.live
    | .freeAll => s'.live = [] := by
  have hraw : ∀ {n q : Nat} {s1 : State}, allocateRaw sys s n = .ok (q, s1) → s1.live = s.live := by
    intro n q s1 h
    unfold allocateRaw at h
    split at h
    · cases h; rfl
    · obtain ⟨r, -, h⟩ := C.bind_ok h
      obtain ⟨f, hf, h⟩ := C.bind_ok h
      have h1 : f.2.live = s.live := by
        unfold allocateFast at hf
        obtain ⟨c, -, hf⟩ := C.bind_ok hf
        split at hf <;> cases hf <;> rfl
      split at h
      · injection h with h; rw [h] at h1; exact h1
      · unfold allocateSlow sysAlloc at h
        dsimp only at h
        cases hsys : sys f.2.calls f.2.heap r with
        | none =>
          rw [hsys] at h
          dsimp only at h
          rw [if_pos rfl] at h
          cases h; exact h1
        | some a =>
          rw [hsys] at h
          dsimp only at h
          split at h
          · cases h; exact h1
          · obtain ⟨t, -, h⟩ := C.bind_ok h
            cases h; exact h1
  cases op with
  | alloc n =>
    obtain ⟨⟨q, s1⟩, h1, h⟩ := C.bind_ok h
    have hlive := hraw h1
    unfold record at h
    dsimp only at h ⊢
    split at h
    · cases h
      rename_i h0
      rw [if_pos h0]; exact hlive
    · cases h
      rename_i h0
      rw [if_neg h0, hlive]
  | avoid n a =>
    unfold step allocateAvoiding at h
    dsimp only at h ⊢
    split at h
    · cases h; rw [if_pos rfl]
    · obtain ⟨m, -, h⟩ := C.bind_ok h
      obtain ⟨⟨q, s1⟩, h1, h⟩ := C.bind_ok h
      have hlive := hraw h1
      dsimp only at h
      split at h
      · cases h
        rename_i h0
        rw [if_pos h0]; exact hlive
      · rename_i h0
        unfold record at h
        rw [if_neg (by dsimp only; omega)] at h
        cases h
        rw [if_neg (by omega), hlive]
  | freeAll =>
    obtain ⟨s1, h1, h⟩ := C.bind_ok h
    cases h
    unfold freeAll at h1
    dsimp only
    split at h1
    · cases h1; rfl
    · obtain ⟨_, -, h1⟩ := C.bind_ok h1
      obtain ⟨_, -, h1⟩ := C.bind_ok h1
      obtain ⟨_, -, h1⟩ := C.bind_ok h1
      cases h1; rfl

/-- The size of a request. -/
def Op.size : Op → Nat
  | .alloc n => n
  | .avoid n _ => n
  | .freeAll => 0

/-- What a request takes from the buffer. -/
def Op.need : Op → Nat
  | .alloc n => if n = 0 then 0 else (n + 63) / 64 * 64
  | .avoid n _ => if n = 0 then 0 else (n + 1024 + 63) / 64 * 64
  | .freeAll => 0

theorem Inv.size_bound {space : Nat} {s : State} (inv : Inv space s) (hl : s.lost = false) :
    s.size + s.total ≤ space := by
  obtain ⟨fb, hp, -, hfs⟩ := inv.perm
  have h1 := sum_le space s.heap inv.disj fun b hb => (inv.good b hb).2.2.2
  have h2 : (s.heap.map Block.size).sum = ((held s ++ fb).map Block.size).sum :=
    (hp.map Block.size).sum_eq
  rw [h2, List.map_append, List.sum_append, hfs] at h1
  unfold held at h1
  by_cases h0 : s.ptr = 0
  · have := inv.nul hl h0
    omega
  · rw [if_neg h0] at h1
    simp at h1
    omega

/-- A request in a valid state does not overflow. -/
theorem raw_total {space : Nat} {sys : System} {s : State} {n : Nat}
    (inv : Inv space s) (hl : s.lost = false) (hsp : space ≤ 2 ^ 62) (hn : n ≤ 2 ^ 61 + 1024) :
    ∃ x, allocateRaw sys s n = .ok x := by
  unfold allocateRaw
  by_cases h0 : n = 0
  · rw [if_pos h0]; exact ⟨_, rfl⟩
  rw [if_neg h0]
  have hb := inv.size_bound hl
  have hc := inv.cur.1
  unfold roundUp64 pd
  rw [if_pos (by omega), C.ok_bind, C.ok_bind]
  generalize hrr : (n + 64 - 1) - (n + 64 - 1) % 64 = r
  have hr : r ≤ 2 ^ 61 + 1024 + 64 := by omega
  unfold allocateFast pd
  rw [if_pos (by omega), C.ok_bind]
  have slow : ∀ s1 : State, s1.heap = s.heap → s1.total = s.total → ∃ x, allocateSlow sys s1 r = .ok x := by
    intro s1 e1 e2
    unfold allocateSlow sysAlloc
    dsimp only
    cases hsys : sys s1.calls s1.heap r with
    | none => exact ⟨_, rfl⟩
    | some a =>
      dsimp only
      split
      · exact ⟨_, rfl⟩
      · unfold pd
        rw [e2, if_pos (by omega)]
        exact ⟨_, rfl⟩
  split
  · rw [C.ok_bind]
    dsimp only
    rw [if_neg (by simp)]
    exact slow s rfl rfl
  · rw [C.ok_bind]
    dsimp only
    split
    · exact ⟨_, rfl⟩
    · exact slow _ rfl rfl

/-- C14: no double free, no invalid free and no overflow, in an address space of up to 2^62 bytes
and for requests of up to 2^61 bytes, as long as no reallocation in FreeAll has failed. -/
theorem c14_no_fault (space : Nat) (sys : System) (ops : List Op) (hs : Honest space sys)
    (hsp : space ≤ 2 ^ 62) (hn : ∀ op ∈ ops, op.size ≤ 2 ^ 61) :
    (∃ s, run sys ops init = .ok s) ∨
    ∃ pre suf s, ops = pre ++ suf ∧ run sys pre init = .ok s ∧ s.lost = true := by
  have key : ∀ (ops : List Op) (s : State), Inv space s → (∀ op ∈ ops, op.size ≤ 2 ^ 61) →
      (∃ s', run sys ops s = .ok s') ∨
      ∃ pre suf s', ops = pre ++ suf ∧ run sys pre s = .ok s' ∧ s'.lost = true := by
    intro ops
    induction ops with
    | nil => intro s _ _; exact .inl ⟨s, rfl⟩
    | cons op ops ih =>
      intro s inv hn
      cases hl : s.lost with
      | true => exact .inr ⟨[], op :: ops, s, rfl, rfl, hl⟩
      | false =>
        have hstep : ∃ x, step sys s op = .ok x := by
          have hop := hn op List.mem_cons_self
          cases op with
          | alloc n =>
            obtain ⟨x, hx⟩ := raw_total inv hl hsp (n := n) (by simp only [Op.size] at hop; omega)
            unfold step allocateBytes
            dsimp only
            rw [hx]
            exact ⟨_, rfl⟩
          | avoid n a =>
            simp only [Op.size] at hop
            unfold step allocateAvoiding
            dsimp only
            by_cases h0 : n = 0
            · rw [if_pos h0]; exact ⟨_, rfl⟩
            · rw [if_neg h0]
              unfold pd
              rw [if_pos (by omega), C.ok_bind]
              obtain ⟨x, hx⟩ := raw_total inv hl hsp (n := n + 1024) (by omega)
              rw [hx, C.ok_bind]
              split <;> exact ⟨_, rfl⟩
          | freeAll =>
            have hb := inv.size_bound hl
            obtain ⟨s', h, -⟩ := freeAll_inv hs inv (fun _ => by omega)
            unfold step
            dsimp only
            rw [h]
            exact ⟨_, rfl⟩
        obtain ⟨x, hx⟩ := hstep
        rcases ih x.2 (step_inv hs inv hx).1 (fun o ho => hn o (List.mem_cons_of_mem _ ho)) with
          ⟨s', h⟩ | ⟨pre, suf, s', h1, h2, h3⟩
        · left
          refine ⟨s', ?_⟩
          show (step sys s op >>= fun r => run sys ops r.2) = _
          rw [hx]; exact h
        · right
          refine ⟨op :: pre, suf, s', by rw [h1]; rfl, ?_, h3⟩
          show (step sys s op >>= fun r => run sys pre r.2) = _
          rw [hx]; exact h2
  exact key ops init (init_inv space) hn

/-! ### C15 -/

/-- C15: FreeAll leaves at most one system block. -/
theorem c15_one_block_held (space : Nat) (sys : System) (ops : List Op) (s s' : State) (p : Nat)
    (hs : Honest space sys) (h : run sys ops init = .ok s) (hf : step sys s .freeAll = .ok (p, s')) :
    s'.heap.length ≤ 1 := by
  obtain ⟨inv, -⟩ := run_inv hs ops init s (init_inv space) h
  obtain ⟨s1, h1, hf⟩ := C.bind_ok hf
  cases hf
  obtain ⟨s'', h2, -, -, -, i, -⟩ := freeAll_inv hs inv (by
    intro hne
    unfold freeAll at h1
    rw [if_neg hne] at h1
    obtain ⟨_, -, h1⟩ := C.bind_ok h1
    obtain ⟨_, -, h1⟩ := C.bind_ok h1
    obtain ⟨_, hn, -⟩ := C.bind_ok h1
    exact (pd_ok hn).2)
  rw [h1] at h2
  cases h2
  exact i

/-- C15: the destructor returns everything to the system, whatever failed before. -/
theorem c15_all_released (space : Nat) (sys : System) (ops : List Op) (s s' : State)
    (hs : Honest space sys) (h : run sys ops init = .ok s) (hd : destroy sys s = .ok s') :
    s'.heap = [] := by
  obtain ⟨inv, -⟩ := run_inv hs ops init s (init_inv space) h
  obtain ⟨s1, h1, hd⟩ := C.bind_ok hd
  obtain ⟨s'', h2, i1, -, -, -, i2, -⟩ := freeAll_inv hs inv (by
    intro hne
    unfold freeAll at h1
    rw [if_neg hne] at h1
    obtain ⟨_, -, h1⟩ := C.bind_ok h1
    obtain ⟨_, -, h1⟩ := C.bind_ok h1
    obtain ⟨_, hn, -⟩ := C.bind_ok h1
    exact (pd_ok hn).2)
  rw [h1] at h2
  cases h2
  obtain ⟨hh, h3, hd⟩ := C.bind_ok hd
  cases hd
  obtain ⟨fb, hp, hfa, -⟩ := i1.perm
  rw [i2] at hfa
  have hfb : fb = [] := List.map_eq_nil_iff.mp hfa
  subst hfb
  show hh = []
  unfold held at hp
  by_cases h0 : s1.ptr = 0
  · rw [if_pos h0] at hp
    unfold sysFree at h3
    rw [if_pos h0] at h3
    cases h3
    exact List.Perm.eq_nil hp
  · rw [if_neg h0] at hp
    obtain ⟨h', e, p', -, -⟩ := sysFree_cons (bs := []) hp i1.disj i1.good
    dsimp only at e
    rw [h3] at e
    cases e
    exact List.Perm.eq_nil p'

/-- The allocation requests of a list, FreeAll excluded. -/
def Requests (ops : List Op) : Prop := ∀ op ∈ ops, op ≠ .freeAll

def totalNeed (ops : List Op) : Nat := (ops.map Op.need).sum

/-- The fast path serves a request that fits. -/
theorem raw_fast {space : Nat} {sys : System} {s : State} {n : Nat} (inv : Inv space s)
    (hl : s.lost = false) (h0 : 0 < n) (hb : s.size < 2 ^ 63) (hn : n + 64 < 2 ^ 63)
    (hfit : s.current + (n + 63) / 64 * 64 ≤ s.size) :
    allocateRaw sys s n =
      .ok (s.ptr + s.current, { s with current := s.current + (n + 63) / 64 * 64 }) ∧ s.ptr ≠ 0 := by
  have hptr : s.ptr ≠ 0 := by
    intro h
    have := inv.nul hl h
    omega
  refine ⟨?_, hptr⟩
  unfold allocateRaw
  rw [if_neg (by omega)]
  unfold roundUp64 pd
  rw [if_pos hn, C.ok_bind, C.ok_bind]
  have hr : (n + 64 - 1) - (n + 64 - 1) % 64 = (n + 63) / 64 * 64 := by omega
  rw [hr]
  unfold allocateFast pd
  rw [if_pos (by omega), C.ok_bind, if_neg (by omega), C.ok_bind]
  dsimp only
  rw [if_pos (by omega)]

/-- What a request adds to the buffer or the fallback blocks. -/
theorem raw_account {space : Nat} {sys : System} {s s' : State} {n p : Nat} (inv : Inv space s)
    (hl : s.lost = false) (h : allocateRaw sys s n = .ok (p, s')) (h0 : 0 < n) :
    (p = 0 ∧ s'.current + s'.total = s.current + s.total) ∨
      (p ≠ 0 ∧ s'.current + s'.total = s.current + s.total + (n + 63) / 64 * 64) := by
  unfold allocateRaw at h
  rw [if_neg (by omega)] at h
  obtain ⟨r, hr, h⟩ := C.bind_ok h
  obtain ⟨x, hx, hr⟩ := C.bind_ok hr
  obtain ⟨rfl, -⟩ := pd_ok hx
  cases hr
  have hr : (n + 64 - 1) - (n + 64 - 1) % 64 = (n + 63) / 64 * 64 := by omega
  rw [hr] at h
  generalize hrr : (n + 63) / 64 * 64 = r at h
  have hr0 : 0 < r := by omega
  obtain ⟨f, hf, h⟩ := C.bind_ok h
  unfold allocateFast at hf
  obtain ⟨c, hc, hf⟩ := C.bind_ok hf
  obtain ⟨rfl, -⟩ := pd_ok hc
  split at hf
  · cases hf
    rw [if_neg (by simp)] at h
    unfold allocateSlow sysAlloc at h
    dsimp only at h
    cases hsys : sys s.calls s.heap r with
    | none =>
      rw [hsys] at h
      dsimp only at h
      rw [if_pos rfl] at h
      cases h; exact .inl ⟨rfl, rfl⟩
    | some a =>
      rw [hsys] at h
      dsimp only at h
      split at h
      · rename_i ha
        cases h; exact .inl ⟨rfl, rfl⟩
      · rename_i ha
        obtain ⟨t, ht, h⟩ := C.bind_ok h
        obtain ⟨rfl, -⟩ := pd_ok ht
        cases h
        exact .inr ⟨ha, by dsimp only; omega⟩
  · rename_i hle
    cases hf
    have hptr : s.ptr ≠ 0 := by
      intro h
      have := inv.nul hl h
      omega
    rw [if_pos (by dsimp only; omega)] at h
    cases h
    exact .inr ⟨by omega, by dsimp only; omega⟩

/-- One request: either it was not served, or it took what it needs. -/
theorem step_account {space : Nat} {sys : System} {s : State} {op : Op} {x : Nat × State}
    (inv : Inv space s) (hl : s.lost = false) (h : step sys s op = .ok x) (hop : op ≠ .freeAll) :
    x.2.live.length = s.live.length ∨ (x.2.live.length = s.live.length + 1 ∧
      x.2.current + x.2.total = s.current + s.total + op.need) := by
  have hlive := c14_live_is_what_was_returned sys s x.2 op x.1 h
  cases op with
  | freeAll => exact absurd rfl hop
  | alloc n =>
    dsimp only at hlive
    split at hlive
    · left; rw [hlive]
    · rename_i hx0
      right
      refine ⟨by rw [hlive]; rfl, ?_⟩
      obtain ⟨⟨p, s'⟩, h1, h⟩ := C.bind_ok h
      have hn : 0 < n := by
        by_contra hn
        have : n = 0 := by omega
        subst this
        cases h1
        cases h
        exact hx0 rfl
      unfold record at h
      dsimp only at h
      split at h
      · rename_i hp
        cases h; exact absurd hp hx0
      · rename_i hp
        cases h
        rcases raw_account inv hl h1 hn with ⟨h, -⟩ | ⟨-, h⟩
        · exact absurd h hp
        · simp only [Op.need]
          rw [if_neg (by omega)]; exact h
  | avoid n a =>
    dsimp only at hlive
    split at hlive
    · left; rw [hlive]
    · rename_i hx0
      right
      refine ⟨by rw [hlive]; rfl, ?_⟩
      unfold step allocateAvoiding at h
      dsimp only at h
      split at h
      · cases h; exact absurd rfl hx0
      · rename_i hn0
        obtain ⟨m, hm, h⟩ := C.bind_ok h
        obtain ⟨rfl, -⟩ := pd_ok hm
        obtain ⟨⟨p, s'⟩, h1, h⟩ := C.bind_ok h
        dsimp only at h
        split at h
        · rename_i hp
          cases h; exact absurd hp hx0
        · rename_i hp
          unfold record at h
          rw [if_neg (by dsimp only; omega)] at h
          cases h
          rcases raw_account inv hl h1 (by omega) with ⟨h, -⟩ | ⟨-, h⟩
          · exact absurd h hp
          · simp only [Op.need]
            rw [if_neg hn0]; exact h

theorem run_account {space : Nat} {sys : System} (hs : Honest space sys) : ∀ (ops : List Op)
    (s s' : State), Inv space s → s'.lost = false → Requests ops → run sys ops s = .ok s' →
    s'.live.length ≤ s.live.length + ops.length ∧
    (s'.live.length = s.live.length + ops.length →
      s'.current + s'.total = s.current + s.total + totalNeed ops)
  | [], s, s', inv, hl, hr, h => by cases h; exact ⟨Nat.le_refl _, fun _ => rfl⟩
  | op :: ops, s, s', inv, hl, hr, h => by
    obtain ⟨x, h1, h⟩ := C.bind_ok h
    obtain ⟨i1, l1⟩ := step_inv hs inv h1
    obtain ⟨i2, l2⟩ := run_inv hs ops x.2 s' i1 h
    obtain ⟨a1, a2⟩ := run_account hs ops x.2 s' i1 hl (fun o ho => hr o (List.mem_cons_of_mem _ ho)) h
    have hst := step_account inv (l1 (l2 hl)) h1 (hr op List.mem_cons_self)
    have hlen : (op :: ops).length = ops.length + 1 := rfl
    have htn : totalNeed (op :: ops) = op.need + totalNeed ops := by simp [totalNeed]
    rw [hlen, htn]
    rcases hst with h | ⟨h, h'⟩
    · exact ⟨by omega, fun h => by omega⟩
    · refine ⟨by omega, fun h => ?_⟩
      have := a2 (by omega)
      omega

/-- Requests that fit into the buffer are served from it. -/
theorem run_fast {space : Nat} {sys : System} (hs : Honest space sys) : ∀ (ops : List Op) (s : State),
    Inv space s → s.lost = false → s.size < 2 ^ 63 - 2048 → Requests ops →
    s.current + totalNeed ops ≤ s.size →
    ∃ s', run sys ops s = .ok s' ∧ s'.calls = s.calls ∧
      s'.live.length = s.live.length + (ops.filter fun op => op.size ≠ 0).length
  | [], s, _, _, _, _, _ => ⟨s, rfl, rfl, rfl⟩
  | op :: ops, s, inv, hl, hb, hr, hfit => by
    have htn : totalNeed (op :: ops) = op.need + totalNeed ops := by simp [totalNeed]
    rw [htn] at hfit
    have hr' : Requests ops := fun o ho => hr o (List.mem_cons_of_mem _ ho)
    have next : ∃ x, step sys s op = .ok x ∧ x.2.calls = s.calls ∧ x.2.size = s.size ∧
        x.2.current = s.current + op.need ∧ x.2.lost = false ∧
        x.2.live.length = s.live.length + (if op.size ≠ 0 then 1 else 0) := by
      cases op with
      | freeAll => exact absurd rfl (hr _ List.mem_cons_self)
      | alloc n =>
        by_cases h0 : n = 0
        · subst h0
          exact ⟨(0, s), rfl, rfl, rfl, rfl, hl, rfl⟩
        · simp only [Op.need] at hfit
          rw [if_neg h0] at hfit
          obtain ⟨h1, hptr⟩ := raw_fast (sys := sys) (n := n) inv hl (by omega) (by omega)
            (by omega) (by omega)
          refine ⟨record n (s.ptr + s.current, { s with current := s.current + (n + 63) / 64 * 64 }), ?_, ?_⟩
          · unfold step allocateBytes
            dsimp only
            rw [h1]
            rfl
          · unfold record
            rw [if_neg (by dsimp only; omega)]
            simp [Op.need, Op.size, h0, hl]
      | avoid n a =>
        by_cases h0 : n = 0
        · subst h0
          exact ⟨(0, s), rfl, rfl, rfl, rfl, hl, rfl⟩
        · simp only [Op.need] at hfit
          rw [if_neg h0] at hfit
          obtain ⟨h1, hptr⟩ := raw_fast (sys := sys) (n := n + 1024) inv hl (by omega) (by omega)
            (by omega) (by omega)
          refine ⟨record n (s.ptr + s.current + aliasOffset (s.ptr + s.current) a,
            { s with current := s.current + (n + 1024 + 63) / 64 * 64 }), ?_, ?_⟩
          · unfold step allocateAvoiding pd
            dsimp only
            rw [if_neg h0, if_pos (by omega), C.ok_bind, h1, C.ok_bind]
            dsimp only
            rw [if_neg (by omega)]
          · unfold record
            rw [if_neg (by dsimp only; omega)]
            simp [Op.need, Op.size, h0, hl]
    obtain ⟨x, h1, e1, e2, e3, e4, e5⟩ := next
    obtain ⟨s', h2, f1, f2⟩ := run_fast hs ops x.2 (step_inv hs inv h1).1 e4 (by omega) hr' (by omega)
    refine ⟨s', ?_, by omega, ?_⟩
    · show (step sys s op >>= fun r => run sys ops r.2) = _
      rw [h1]; exact h2
    · rw [f2, e5, List.filter_cons]
      by_cases h0 : op.size = 0
      · simp [h0]
      · simp [h0]; omega

/-- C15: let `first` be requests made after a FreeAll (or at the beginning), all of them served;
then FreeAll. Any requests whose total rounded size is not larger are then all served, without any
call to the system allocator. -/
theorem c15_repetition_needs_no_system_call (space : Nat) (sys : System) (hist first second : List Op)
    (s0 s1 s2 : State) (p : Nat) (hs : Honest space sys) (hsp : space ≤ 2 ^ 62)
    (h0 : run sys hist init = .ok s0) (hstart : hist = [] ∨ hist.getLast? = some .freeAll)
    (hr1 : Requests first) (h1 : run sys first s0 = .ok s1)
    (hserved : s1.live.length = first.length)
    (h2 : step sys s1 .freeAll = .ok (p, s2)) (hl : s2.lost = false)
    (hr2 : Requests second) (hle : totalNeed second ≤ totalNeed first) :
    ∃ s3, run sys second s2 = .ok s3 ∧ s3.calls = s2.calls ∧
      s3.live.length = (second.filter fun op => op.size ≠ 0).length := by
  obtain ⟨inv0, -⟩ := run_inv hs hist init s0 (init_inv space) h0
  obtain ⟨inv1, l1⟩ := run_inv hs first s0 s1 inv0 h1
  have hlive0 : s0.live = [] ∧ s0.current + s0.total = 0 := by
    rcases hstart with rfl | hlast
    · cases h0; exact ⟨rfl, rfl⟩
    · obtain ⟨pre, rfl⟩ := List.getLast?_eq_some_iff.mp hlast
      have hsplit : ∀ (a b : List Op) (s s' : State), run sys (a ++ b) s = .ok s' →
          ∃ t, run sys a s = .ok t ∧ run sys b t = .ok s' := by
        intro a
        induction a with
        | nil => intro b s s' h; exact ⟨s, rfl, h⟩
        | cons o a ih =>
          intro b s s' h
          obtain ⟨x, hx, h⟩ := C.bind_ok h
          obtain ⟨t, ht1, ht2⟩ := ih b x.2 s' h
          refine ⟨t, ?_, ht2⟩
          show (step sys s o >>= fun r => run sys a r.2) = _
          rw [hx]; exact ht1
      obtain ⟨t, ht1, ht2⟩ := hsplit pre [.freeAll] init s0 h0
      obtain ⟨invt, -⟩ := run_inv hs pre init t (init_inv space) ht1
      obtain ⟨x, hx, ht2⟩ := C.bind_ok ht2
      cases ht2
      obtain ⟨s', hf, hx⟩ := C.bind_ok hx
      cases hx
      obtain ⟨s'', h2, i1, i2, i3, -, i4, -⟩ := freeAll_inv hs invt (by
        intro hne
        unfold freeAll at hf
        rw [if_neg hne] at hf
        obtain ⟨_, -, hf⟩ := C.bind_ok hf
        obtain ⟨_, -, hf⟩ := C.bind_ok hf
        obtain ⟨_, hn, -⟩ := C.bind_ok hf
        exact (pd_ok hn).2)
      rw [hf] at h2
      cases h2
      refine ⟨i2, ?_⟩
      obtain ⟨fb, -, hfa, hfs⟩ := i1.perm
      rw [i4] at hfa
      have hfb : fb = [] := List.map_eq_nil_iff.mp hfa
      subst hfb
      simp at hfs
      rw [i3, ← hfs]
      rfl
  obtain ⟨s', hf, h2⟩ := C.bind_ok h2
  cases h2
  obtain ⟨s'', h3, i1, i2, i3, -, i4, i5, i6⟩ := freeAll_inv hs inv1 (by
    intro hne
    unfold freeAll at hf
    rw [if_neg hne] at hf
    obtain ⟨_, -, hf⟩ := C.bind_ok hf
    obtain ⟨_, -, hf⟩ := C.bind_ok hf
    obtain ⟨_, hn, -⟩ := C.bind_ok hf
    exact (pd_ok hn).2)
  rw [hf] at h3
  cases h3
  have hl1 := i6 hl
  obtain ⟨-, a2⟩ := run_account hs first s0 s1 inv0 hl1 hr1 h1
  have hacc := a2 (by rw [hlive0.1]; simpa using hserved)
  have hsz := inv1.size_bound hl1
  have hc := inv1.cur.1
  obtain ⟨s3, r1, r2, r3⟩ := run_fast hs second s2 i1 hl (by omega) hr2 (by omega)
  refine ⟨s3, r1, r2, ?_⟩
  rw [r3, i2]; simp

/-! ### C16 -/

/-- C16: the address returned differs from the address to avoid by at least 256 modulo 1024, in
both directions. -/
theorem c16_not_aliasing (sys : System) (s s' : State) (n avoid q : Nat)
    (h : step sys s (.avoid n avoid) = .ok (q, s')) (hq : q ≠ 0) :
    256 ≤ ((q : Int) - avoid) % 1024 ∧ ((q : Int) - avoid) % 1024 ≤ 768 := by
  unfold step allocateAvoiding at h
  dsimp only at h
  split at h
  · cases h; exact absurd rfl hq
  · obtain ⟨m, -, h⟩ := C.bind_ok h
    obtain ⟨⟨p, s1⟩, -, h⟩ := C.bind_ok h
    dsimp only at h
    split at h
    · rename_i hp
      cases h; exact absurd hp hq
    · rename_i hp
      unfold record at h
      rw [if_neg (by dsimp only; omega)] at h
      have hqe := congrArg Prod.fst (Except.ok.inj h)
      dsimp only at hqe
      subst hqe
      unfold aliasOffset
      dsimp only
      split <;> omega

/-- C16: the block has the requested size, and lies with it in memory the allocator owns. -/
theorem c16_inside_owned_memory (space : Nat) (sys : System) (ops : List Op) (s s' : State)
    (n avoid q : Nat) (hs : Honest space sys) (h0 : run sys ops init = .ok s) (hl : s.lost = false)
    (h : step sys s (.avoid n avoid) = .ok (q, s')) (hq : q ≠ 0) :
    q % 64 = 0 ∧ (∃ f ∈ s'.heap, Block.Inside ⟨q, n⟩ f) ∧
      ∀ b ∈ s.live, Block.Disjoint ⟨q, n⟩ b := by
  have hlive := c14_live_is_what_was_returned sys s s' _ q h
  dsimp only at hlive
  rw [if_neg hq] at hlive
  have hrun : run sys (ops ++ [.avoid n avoid]) init = .ok s' := by
    have : ∀ (a : List Op) (s0 : State), run sys a s0 = .ok s → run sys (a ++ [.avoid n avoid]) s0 = .ok s' := by
      intro a
      induction a with
      | nil =>
        intro s0 h1; cases h1
        show (step sys s (.avoid n avoid) >>= fun r => run sys [] r.2) = _
        rw [h]; rfl
      | cons o a ih =>
        intro s0 h1
        obtain ⟨x, hx, h1⟩ := C.bind_ok h1
        show (step sys s0 o >>= fun r => run sys (a ++ [.avoid n avoid]) r.2) = _
        rw [hx]; exact ih x.2 h1
    exact this ops init h0
  have hl' : s'.lost = false := by
    unfold step allocateAvoiding at h
    dsimp only at h
    split at h
    · cases h; exact hl
    · obtain ⟨m, -, h⟩ := C.bind_ok h
      obtain ⟨⟨p, s1⟩, h1, h⟩ := C.bind_ok h
      obtain ⟨-, -, i3, -⟩ := raw_inv hs (run_inv hs ops init s (init_inv space) h0).1 h1
      dsimp only at h
      split at h
      · cases h; rw [i3]; exact hl
      · unfold record at h
        dsimp only at h
        split at h <;> cases h <;> exact i3.trans hl
  obtain ⟨a1, a2, -⟩ := c14_aligned_disjoint space sys _ s' hs hrun hl'
  rw [hlive] at a1 a2
  obtain ⟨-, b2, b3⟩ := a1 _ List.mem_cons_self
  exact ⟨b2, b3, (List.pairwise_cons.mp a2).1⟩

/-! ### C17 -/

/-- C17, as far as it holds: while no reallocation in FreeAll has failed, a request returns null
or memory inside a block obtained from the system; whatever other system calls failed.
Missing: histories in which FreeAll failed to reallocate, see `c17_bogus_pointer`. -/
theorem c17_null_or_valid_partial (space : Nat) (sys : System) (ops : List Op) (op : Op) (s s' : State)
    (p : Nat) (hs : Honest space sys) (h : run sys ops init = .ok s)
    (hstep : step sys s op = .ok (p, s')) (hl : s'.lost = false) :
    p = 0 ∨ ∃ f ∈ s'.heap, Block.Inside ⟨p, op.size⟩ f := by
  by_cases hp : p = 0
  · exact .inl hp
  right
  have inv := (run_inv hs ops init s (init_inv space) h).1
  have inv' := (step_inv hs inv hstep).1
  have hlive := c14_live_is_what_was_returned sys s s' op p hstep
  have hmem : (⟨p, op.size⟩ : Block) ∈ s'.live := by
    cases op with
    | alloc n =>
      dsimp only at hlive
      rw [if_neg hp] at hlive
      rw [hlive]; exact List.mem_cons_self
    | avoid n a =>
      dsimp only at hlive
      rw [if_neg hp] at hlive
      rw [hlive]; exact List.mem_cons_self
    | freeAll =>
      obtain ⟨s1, -, hstep⟩ := C.bind_ok hstep
      cases hstep
      exact absurd rfl hp
  obtain ⟨-, -, h3⟩ := inv'.live hl _ hmem
  rcases h3 with ⟨h3, h4⟩ | ⟨f, hf, -, h4⟩
  · refine ⟨⟨s'.ptr, s'.size⟩, ?_, ?_⟩
    · obtain ⟨fb, hp, -, -⟩ := inv'.perm
      refine hp.mem_iff.mpr ?_
      unfold held; rw [if_neg h3]; simp
    · have := inv'.cur.1
      unfold Block.Inside at *
      dsimp only at *
      omega
  · exact ⟨f, hf, h4⟩

/-- C17: null is returned only for a request of size 0 or if the system allocator failed: it was
asked, at this request, for what the request needs, and returned null. -/
theorem c17_null_only_on_failure (space : Nat) (sys : System) (ops : List Op) (op : Op) (s s' : State)
    (hs : Honest space sys) (h : run sys ops init = .ok s) (hl : s.lost = false)
    (hop : op ≠ .freeAll) (hstep : step sys s op = .ok (0, s')) (hn : op.size ≠ 0) :
    sys s.calls s.heap op.need = none := by
  have inv := (run_inv hs ops init s (init_inv space) h).1
  have raw : ∀ (n : Nat) (t : State), 0 < n → allocateRaw sys s n = .ok (0, t) →
      sys s.calls s.heap ((n + 63) / 64 * 64) = none := by
    intro n t h0 h
    unfold allocateRaw at h
    rw [if_neg (by omega)] at h
    obtain ⟨r, hr, h⟩ := C.bind_ok h
    obtain ⟨x, hx, hr⟩ := C.bind_ok hr
    obtain ⟨rfl, -⟩ := pd_ok hx
    cases hr
    have hr : (n + 64 - 1) - (n + 64 - 1) % 64 = (n + 63) / 64 * 64 := by omega
    rw [hr] at h
    obtain ⟨f, hf, h⟩ := C.bind_ok h
    unfold allocateFast at hf
    obtain ⟨c, hc, hf⟩ := C.bind_ok hf
    obtain ⟨rfl, -⟩ := pd_ok hc
    split at hf
    · cases hf
      rw [if_neg (by simp)] at h
      unfold allocateSlow sysAlloc at h
      dsimp only at h
      cases hsys : sys s.calls s.heap ((n + 63) / 64 * 64) with
      | none => rfl
      | some a =>
        exfalso
        rw [hsys] at h
        dsimp only at h
        have ha := (hs _ _ _ _ hsys).1
        rw [if_neg (by omega)] at h
        obtain ⟨t, ht, h⟩ := C.bind_ok h
        have := congrArg Prod.fst (Except.ok.inj h)
        dsimp only at this
        omega
    · rename_i hle
      exfalso
      cases hf
      have hptr : s.ptr ≠ 0 := by
        intro h
        have := inv.nul hl h
        omega
      rw [if_pos (by dsimp only; omega)] at h
      have := congrArg Prod.fst (Except.ok.inj h)
      dsimp only at this
      omega
  cases op with
  | freeAll => exact absurd rfl hop
  | alloc n =>
    simp only [Op.size] at hn
    obtain ⟨⟨p, t⟩, h1, hstep⟩ := C.bind_ok hstep
    unfold record at hstep
    dsimp only at hstep
    simp only [Op.need]
    rw [if_neg hn]
    split at hstep
    · rename_i hp
      subst hp
      exact raw n t (by omega) h1
    · rename_i hp
      have := congrArg Prod.fst (Except.ok.inj hstep)
      exact absurd this hp
  | avoid n a =>
    simp only [Op.size] at hn
    unfold step allocateAvoiding at hstep
    dsimp only at hstep
    rw [if_neg hn] at hstep
    obtain ⟨m, hm, hstep⟩ := C.bind_ok hstep
    obtain ⟨rfl, -⟩ := pd_ok hm
    obtain ⟨⟨p, t⟩, h1, hstep⟩ := C.bind_ok hstep
    dsimp only at hstep
    simp only [Op.need]
    rw [if_neg hn]
    split at hstep
    · rename_i hp
      subst hp
      exact raw (n + 1024) t (by omega) h1
    · rename_i hp
      unfold record at hstep
      rw [if_neg (by dsimp only; omega)] at hstep
      have := congrArg Prod.fst (Except.ok.inj hstep)
      dsimp only at this
      omega

/-! ### A concrete system allocator -/

/-- The end of the highest block. -/
def top (heap : List Block) : Nat := heap.foldr (fun b m => max (b.addr + b.size) m) 4096

/-- Allocates above everything else; fails at the given calls and when the space is used up. -/
def demoSys (space : Nat) (fails : List Nat) : System := fun k heap n =>
  let a := (top heap + 63) / 64 * 64
  if k ∈ fails ∨ space < a + n then none else some a

theorem top_ge (heap : List Block) : 4096 ≤ top heap ∧ ∀ b ∈ heap, b.addr + b.size ≤ top heap := by
  induction heap with
  | nil => exact ⟨Nat.le_refl _, by intro b hb; cases hb⟩
  | cons c heap ih =>
    have : top (c :: heap) = max (c.addr + c.size) (top heap) := rfl
    refine ⟨by omega, ?_⟩
    intro b hb
    rcases List.mem_cons.mp hb with rfl | hb
    · omega
    · have := ih.2 b hb
      omega

theorem demo_honest (space : Nat) (fails : List Nat) : Honest space (demoSys space fails) := by
  intro k heap n a h
  unfold demoSys at h
  dsimp only at h
  split at h
  · cases h
  · rename_i hc
    cases h
    simp only [not_or] at hc
    have ht := top_ge heap
    refine ⟨by omega, by omega, by omega, ?_⟩
    intro b hb
    right
    have := ht.2 b hb
    dsimp only
    omega

/-- C17 is false: there is an honest system allocator (failing once, in the reallocation of FreeAll)
and a history after which AllocateBytes returns a non-null pointer that lies in no block obtained
from the system: after a failed reallocation, `size_` is updated although `ptr_` is null
(allocator.cc:127-128), and AllocateFast hands out offsets from null (allocator.cc:33). -/
theorem c17_bogus_pointer : ∃ (sys : System) (ops : List Op) (s s' : State) (p : Nat),
    Honest (2 ^ 40) sys ∧ run sys ops init = .ok s ∧ step sys s (.alloc 64) = .ok (p, s') ∧
    p ≠ 0 ∧ ∀ f ∈ s'.heap, ¬ Block.Inside ⟨p, 64⟩ f := by
  refine ⟨demoSys (2 ^ 40) [1], [.alloc 128, .freeAll, .alloc 64],
    ⟨0, 64, 128, [4096], 64, [⟨4096, 64⟩], 3, [⟨4096, 64⟩], true⟩,
    ⟨0, 128, 128, [4096], 64, [⟨4096, 64⟩], 3, [⟨64, 64⟩, ⟨4096, 64⟩], true⟩, 64, demo_honest _ _, ?_, ?_,
    by decide, ?_⟩
  · decide +kernel
  · decide +kernel
  · intro f hf
    rcases List.mem_singleton.mp hf with rfl
    unfold Block.Inside
    decide

-- The hypotheses of the theorems are met by a history with fallbacks, a reallocation and a failure.
example : run (demoSys (2 ^ 40) [2]) [.alloc 100, .avoid 50 4096, .alloc 10, .freeAll, .alloc 70,
    .avoid 10 64, .alloc 1] init = .ok
    ⟨4096, 1216, 1216, [5312], 64, [⟨5312, 64⟩, ⟨4096, 1216⟩], 5,
      [⟨5312, 1⟩, ⟨4736, 10⟩, ⟨4096, 70⟩], false⟩ := by decide +kernel

-- `c15_repetition_needs_no_system_call`, its hypotheses and its conclusion on an example.
example : run (demoSys (2 ^ 40) []) [.alloc 100, .alloc 30] init = .ok
    ⟨0, 0, 0, [4096, 4224], 192, [⟨4224, 64⟩, ⟨4096, 128⟩], 2, [⟨4224, 30⟩, ⟨4096, 100⟩], false⟩ ∧
    run (demoSys (2 ^ 40) []) [.alloc 100, .alloc 30, .freeAll] init = .ok
      ⟨4096, 0, 192, [], 0, [⟨4096, 192⟩], 3, [], false⟩ ∧
    totalNeed [.alloc 60, .alloc 0, .alloc 128] ≤ totalNeed [.alloc 100, .alloc 30] ∧
    run (demoSys (2 ^ 40) []) [.alloc 100, .alloc 30, .freeAll, .alloc 60, .alloc 0, .alloc 128] init =
      .ok ⟨4096, 192, 192, [], 0, [⟨4096, 192⟩], 3, [⟨4160, 128⟩, ⟨4096, 60⟩], false⟩ := by
  decide +kernel

end Ruy.Alloc

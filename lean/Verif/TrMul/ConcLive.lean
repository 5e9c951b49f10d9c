import Verif.TrMul.ConcStep
import Mathlib.Algebra.BigOperators.Group.Finset.Basic
import Mathlib.Order.Interval.Finset.Nat
import Mathlib.Algebra.Order.BigOperators.Group.Finset
/-
Absence of faults and termination of multi-threaded TrMul.
-/
namespace Ruy.TrMul
open Ruy.Mat Ruy.Mul Ruy.BlockMap

variable {A : Type}

/-! ### No fault -/

theorem enterKernel_total {cfg : Cfg A} {n : SidePair Nat} {m0 : Mem A} {s : State A} {t : Nat}
    {e : Locals} {dims kd : SidePair Nat} (g : Grid cfg.bm dims kd n)
    (hdim : ∀ s, dims.get s = (m0.packed.get s).layout.cols)
    (hkd : ∀ s, kd.get s = (m0.packed.get s).layout.kernel.cols)
    (safe : Safe cfg.tp m0) (hsame : MSame m0 s.mem) (hl : LocOk cfg n e) :
    ∃ s', enterKernel s t e = .ok s' := by
  have hs := safe.of_same hsame
  unfold enterKernel
  have tl := tiles_le (g.tiles .lhs) (hl.blockLt g .lhs) (hl.coords .lhs)
  have tr := tiles_le (g.tiles .rhs) (hl.blockLt g .rhs) (hl.coords .rhs)
  rw [hdim, hkd, ← (hsame.packed .lhs).layout] at tl
  rw [hdim, hkd, ← (hsame.packed .rhs).layout] at tr
  have c1 : rangeChecks e.start.lhs e.stop.lhs s.mem.dst.layout.rows
      s.mem.packed.lhs.layout.kernel.cols = .ok () :=
    rangeChecks_of (.inl tl.1) tl.2.1 hs.rows tl.2.2
  have c2 : rangeChecks e.start.rhs e.stop.rhs s.mem.dst.layout.cols
      s.mem.packed.rhs.layout.kernel.cols = .ok () :=
    rangeChecks_of (.inl tr.1) tr.2.1 hs.cols tr.2.2
  rw [c1, c2]
  exact ⟨_, rfl⟩

theorem afterTry_total {cfg : Cfg A} {n : SidePair Nat} {m0 : Mem A} {s : State A} {t : Nat}
    {e : Locals} {c : Call} {sd : Side} {ok : Bool} {dims kd : SidePair Nat}
    (g : Grid cfg.bm dims kd n) (hdim : ∀ s, dims.get s = (m0.packed.get s).layout.cols)
    (hkd : ∀ s, kd.get s = (m0.packed.get s).layout.kernel.cols)
    (safe : Safe cfg.tp m0) (hsame : MSame m0 s.mem) (hl : LocOk cfg n e) :
    ∃ s', afterTry s t e c sd ok = .ok s' := by
  unfold afterTry
  split
  · exact ⟨_, rfl⟩
  · exact ⟨_, rfl⟩
  · split
    · exact enterKernel_total g hdim hkd safe hsame hl
    · exact ⟨_, rfl⟩

theorem tryPack_total {cfg : Cfg A} {n : SidePair Nat} {m0 : Mem A} {s : State A} {t : Nat}
    {e : Locals} {c : Call} {sd : Side} {b lo hi : Nat} {dims kd : SidePair Nat}
    (g : Grid cfg.bm dims kd n) (hdim : ∀ s, dims.get s = (m0.packed.get s).layout.cols)
    (hkd : ∀ s, kd.get s = (m0.packed.get s).layout.kernel.cols)
    (safe : Safe cfg.tp m0) (hsame : MSame m0 s.mem) (hl : LocOk cfg n e)
    (hb : b < n.get sd) (hc : getBlockMatrixCoords sd cfg.bm b = .ok (lo, hi)) :
    ∃ s', tryPack cfg s t e c sd b lo hi = .ok s' := by
  unfold tryPack
  split
  · exact afterTry_total g hdim hkd safe hsame hl
  · rw [g.side, C.ok_bind, C.require_of hb, C.ok_bind]
    split
    · exact afterTry_total g hdim hkd safe hsame hl
    · unfold tryCas
      split
      · have := (tiles_le (g.tiles sd) hb hc).2.2
        rw [hkd, ← (hsame.packed sd).layout] at this
        rw [C.check_of (Nat.mod_eq_zero_of_dvd this)]
        exact ⟨_, rfl⟩
      · exact afterTry_total g hdim hkd safe hsame hl
      · exact ⟨_, rfl⟩

/-- In a state satisfying the invariant no thread's next step faults. -/
theorem step_total {cfg : Cfg A} {n : SidePair Nat} {m0 : Mem A} {s : State A} {kd : SidePair Nat}
    (hr : Ready cfg.tp m0)
    (g : Grid cfg.bm ⟨m0.packed.lhs.layout.cols, m0.packed.rhs.layout.cols⟩ kd n)
    (hkd : ∀ s, kd.get s = (m0.packed.get s).layout.kernel.cols)
    (safe : Safe cfg.tp m0) (inv : Inv cfg n m0 s) (t : Nat) : ∃ s', step cfg s t = .ok s' := by
  have su : Setup cfg m0 n := ⟨hr, kd, g⟩
  have hdim : ∀ sd, (SidePair.mk m0.packed.lhs.layout.cols m0.packed.rhs.layout.cols).get sd =
      (m0.packed.get sd).layout.cols := fun sd => by cases sd <;> rfl
  have hok := inv.pc t
  unfold step
  split
  · rename_i b hpc
    unfold stepHead
    rw [g.total, C.ok_bind]
    split
    · rename_i hb
      obtain ⟨blk, h1, h2, h3⟩ := g.decode b hb
      obtain ⟨ls, le, hl, _⟩ := (g.tiles .lhs).block blk.lhs h2
      obtain ⟨rs, re, hrr, _⟩ := (g.tiles .rhs).block blk.rhs h3
      rw [h1, C.ok_bind, hl, C.ok_bind, hrr]
      exact ⟨_, rfl⟩
    · exact ⟨_, rfl⟩
  · rename_i e sd both hpc
    rw [hpc] at hok
    exact tryPack_total g hdim hkd safe inv.same hok.1 (hok.1.blockLt g sd) (hok.1.coords sd)
  · rename_i e hpc
    rw [hpc] at hok
    unfold stepAhead
    dsimp only
    rw [g.side, C.ok_bind]
    split
    · exact ⟨_, rfl⟩
    · rename_i hb
      obtain ⟨s1, e1, hc, _⟩ := (g.tiles e.aheadSide).block _ (Nat.lt_of_not_le hb)
      rw [hc, C.ok_bind]
      refine tryPack_total g hdim hkd safe inv.same ?_ (Nat.lt_of_not_le hb) hc
      exact ⟨hok.1.bid, hok.1.block, hok.1.coords⟩
  · rename_i e c sd b col stop hpc
    rw [hpc] at hok
    obtain ⟨h1, h2, h3, h4, h5, h6, h7, lo, h8, h9, h10, h11⟩ := hok
    unfold stepPacking
    split
    · have hle := (tiles_le (g.tiles sd) h6 h8).2.1
      rw [hdim] at hle
      have hlay := (inv.same.packed sd).layout
      have hs := safe.of_same inv.same
      obtain ⟨x, hx⟩ := hs.sums sd h7 col (by rw [hlay]; omega)
      obtain ⟨p, hp⟩ := packCol_total (ar := cfg.tp.ar) (pack := cfg.tp.pack.get sd)
        (src := cfg.tp.src.get sd) (col := col) ((inv.ready su).layout sd) (hs.fits sd)
        (by rw [hlay]; omega) hx
      rw [hp]; exact ⟨_, rfl⟩
    · exact ⟨_, rfl⟩
  · rename_i e c sd b hpc
    rw [hpc] at hok
    unfold stepConfirm
    rw [C.check_of hok.2.2.2.2.1, C.ok_bind]
    exact afterTry_total (s := { s with localPacked := _ }) g hdim hkd safe inv.same hok.1
  · rename_i e i j hpc
    rw [hpc] at hok
    unfold stepKernel
    split
    · rename_i hi
      have hi' := lt_min_iff.1 hi
      split
      · rename_i hj
        have hj' := lt_min_iff.1 hj
        obtain ⟨d, hd⟩ := kernelStep_total (inv.ready su) (safe.of_same inv.same) hi'.2 hj'.2
          (kernel_packed su inv hpc .lhs _ (hok.1.coords .lhs) i hok.2.2.2.1 hi'.1)
          (kernel_packed su inv hpc .rhs _ (hok.1.coords .rhs) j hok.2.2.2.2.1 hj'.1)
        rw [hd]; exact ⟨_, rfl⟩
      · exact ⟨_, rfl⟩
    · exact ⟨_, rfl⟩
  · exact ⟨_, rfl⟩

/-! ### Effect of a step on control -/

/-- Program points of EnsurePacked outside RunPack: a thread may pass through them again and
again while it waits for another thread. -/
def PC.spin : PC → Bool
  | .tryReq _ _ _ => true
  | .runAhead _ => true
  | .confirm _ _ _ _ => true
  | _ => false

/-- How far a thread that never finds a block in progress is from entering RunKernel. -/
def PC.rank : PC → Nat
  | .confirm _ (.req true) .rhs _ => 1
  | .tryReq _ .rhs true => 2
  | .confirm _ (.req true) .lhs _ => 3
  | .tryReq _ .lhs true => 4
  | .confirm _ .ahead _ _ => 5
  | .runAhead _ => 6
  | .confirm _ (.req false) .rhs _ => 7
  | .tryReq _ .rhs false => 8
  | .confirm _ (.req false) .lhs _ => 9
  | .tryReq _ .lhs false => 10
  | _ => 0

/-- No source block is being packed. -/
def NoneInProgress (s : State A) : Prop := ∀ sd b, s.status sd b ≠ .inProgress

/-- The possible effects of a step on counter, statuses and program counter. -/
inductive Eff (cfg : Cfg A) (n : SidePair Nat) (s s' : State A) : PC → PC → Prop
  | go (b : Nat) (e : Locals) : b < n.lhs * n.rhs → e.bid = b → e.next = s.counter →
      s'.counter = s.counter + 1 → s'.status = s.status → Eff cfg n s s' (.head b) (.tryReq e .lhs true)
  | stop (b : Nat) : n.lhs * n.rhs ≤ b → s'.counter = s.counter → s'.status = s.status →
      Eff cfg n s s' (.head b) .done
  | cas (p : PC) (e : Locals) (c : Call) (sd : Side) (b lo hi : Nat) : p.spin = true →
      p.ids = [e.bid, e.next] → s'.counter = s.counter → s.status sd b = .notStarted →
      b < n.get sd → getBlockMatrixCoords sd cfg.bm b = .ok (lo, hi) →
      s'.status = setStatus s.status sd b .inProgress → Eff cfg n s s' p (.packing e c sd b lo hi)
  | pack (e : Locals) (c : Call) (sd : Side) (b col stop : Nat) : col < stop →
      s'.counter = s.counter → s'.status = s.status →
      Eff cfg n s s' (.packing e c sd b col stop) (.packing e c sd b (col + 1) stop)
  | publish (e : Locals) (c : Call) (sd : Side) (b col stop : Nat) : ¬ col < stop →
      s'.counter = s.counter → s'.status = setStatus s.status sd b .finished →
      Eff cfg n s s' (.packing e c sd b col stop) (.confirm e c sd b)
  | enter (p : PC) (e : Locals) : p.spin = true → p.ids = [e.bid, e.next] →
      s'.counter = s.counter → s'.status = s.status →
      Eff cfg n s s' p (.kernel e e.start.lhs e.start.rhs)
  | spin (p p' : PC) : p.spin = true → p'.spin = true → p'.ids = p.ids →
      s'.counter = s.counter → s'.status = s.status →
      (NoneInProgress s → p'.rank < p.rank) → Eff cfg n s s' p p'
  | entry (e : Locals) (i j : Nat) : i < rowEnd s e → j < colEnd s e →
      s'.counter = s.counter → s'.status = s.status →
      Eff cfg n s s' (.kernel e i j) (.kernel e i (j + 1))
  | row (e : Locals) (i j : Nat) : i < rowEnd s e →
      s'.counter = s.counter → s'.status = s.status →
      Eff cfg n s s' (.kernel e i j) (.kernel e (i + 1) e.start.rhs)
  | leave (e : Locals) (i j : Nat) : s'.counter = s.counter → s'.status = s.status →
      Eff cfg n s s' (.kernel e i j) (.head e.next)

/-- Rank of the point reached when a call of TryPack succeeds without entering the kernel. -/
def Call.after : Call → Side → Nat
  | .ahead, _ => 4
  | .req both, .lhs => if both then 2 else 8
  | .req both, .rhs => if both then 0 else 6

theorem afterTry_eff {cfg : Cfg A} {n : SidePair Nat} {s s' : State A} {t : Nat}
    {e : Locals} {c : Call} {sd : Side} {ok : Bool} {l : Nat → Side → Nat → Bool} {p : PC}
    (hp : p.spin = true) (hids : p.ids = [e.bid, e.next])
    (hrank : NoneInProgress s → ok = true ∧ c.after sd < p.rank)
    (h : afterTry { s with localPacked := l } t e c sd ok = .ok s') :
    ∃ p', s'.pc = Function.update s.pc t p' ∧ Eff cfg n s s' p p' := by
  unfold afterTry at h
  cases c with
  | ahead =>
    cases h
    exact ⟨_, rfl, .spin _ _ hp rfl hids.symm rfl rfl (fun hn => (hrank hn).2)⟩
  | req both =>
    cases sd with
    | lhs =>
      cases h
      refine ⟨_, rfl, .spin _ _ hp rfl hids.symm rfl rfl (fun hn => ?_)⟩
      obtain ⟨rfl, h2⟩ := hrank hn
      cases both <;> exact h2
    | rhs =>
      dsimp only at h
      split at h
      · unfold enterKernel at h
        obtain ⟨_, _, h⟩ := C.bind_ok h
        obtain ⟨_, _, h⟩ := C.bind_ok h
        cases h
        exact ⟨_, rfl, .enter _ _ hp hids rfl rfl⟩
      · rename_i hb
        cases h
        refine ⟨_, rfl, .spin _ _ hp rfl hids.symm rfl rfl (fun hn => ?_)⟩
        obtain ⟨rfl, h2⟩ := hrank hn
        cases both
        · exact h2
        · exact absurd rfl hb

theorem tryPack_eff {cfg : Cfg A} {n : SidePair Nat} {s s' : State A} {t : Nat}
    {e : Locals} {c : Call} {sd : Side} {b lo hi : Nat} {p : PC}
    (hp : p.spin = true) (hids : p.ids = [e.bid, e.next]) (hrank : c.after sd < p.rank)
    (hconf : (PC.confirm e c sd b).rank < p.rank)
    (hb : b < n.get sd) (hc : getBlockMatrixCoords sd cfg.bm b = .ok (lo, hi))
    (h : tryPack cfg s t e c sd b lo hi = .ok s') :
    ∃ p', s'.pc = Function.update s.pc t p' ∧ Eff cfg n s s' p p' := by
  unfold tryPack at h
  split at h
  · exact afterTry_eff (l := s.localPacked) hp hids (fun _ => ⟨rfl, hrank⟩) h
  · obtain ⟨k, _, h⟩ := C.bind_ok h
    obtain ⟨_, _, h⟩ := C.bind_ok h
    split at h
    · exact afterTry_eff (l := s.localPacked) hp hids (fun _ => ⟨rfl, hrank⟩) h
    · unfold tryCas at h
      split at h
      · rename_i hst
        obtain ⟨_, _, h⟩ := C.bind_ok h
        cases h
        exact ⟨_, rfl, .cas _ _ _ _ _ _ _ hp hids rfl hst hb hc rfl⟩
      · rename_i hst
        exact afterTry_eff (l := s.localPacked) hp hids (fun hn => absurd hst (hn _ _)) h
      · cases h
        exact ⟨_, rfl, .spin _ _ hp rfl hids.symm rfl rfl (fun _ => hconf)⟩

theorem step_eff {cfg : Cfg A} {n : SidePair Nat} {m0 : Mem A} {s s' : State A} {t : Nat}
    (su : Setup cfg m0 n) (inv : Inv cfg n m0 s) (hd : s.pc t ≠ .done)
    (h : step cfg s t = .ok s') :
    ∃ p', s'.pc = Function.update s.pc t p' ∧ Eff cfg n s s' (s.pc t) p' := by
  obtain ⟨kd, g⟩ := su.grid
  have hok := inv.pc t
  unfold step at h
  split at h
  · rename_i b hpc
    rw [hpc]
    unfold stepHead at h
    rw [g.total, C.ok_bind] at h
    split at h
    · rename_i hlt
      obtain ⟨blk, _, h⟩ := C.bind_ok h
      obtain ⟨l, _, h⟩ := C.bind_ok h
      obtain ⟨r, _, h⟩ := C.bind_ok h
      cases h
      exact ⟨_, rfl, .go _ _ hlt rfl rfl rfl rfl⟩
    · cases h
      exact ⟨_, rfl, .stop _ (by omega) rfl rfl⟩
  · rename_i e sd both hpc
    rw [hpc] at hok ⊢
    refine tryPack_eff rfl rfl ?_ ?_ (hok.1.blockLt g sd) (hok.1.coords sd) h
    · cases sd <;> cases both <;> simp [PC.rank, Call.after]
    · cases sd <;> cases both <;> simp [PC.rank]
  · rename_i e hpc
    rw [hpc]
    unfold stepAhead at h
    dsimp only at h
    rw [g.side, C.ok_bind] at h
    split at h
    · cases h
      exact ⟨_, rfl, .spin _ _ rfl rfl rfl rfl rfl (fun _ => by simp [PC.rank])⟩
    · rename_i hb
      obtain ⟨c, hc, h⟩ := C.bind_ok h
      exact tryPack_eff (e := { e with aheadSide := e.aheadSide.other, ahead := setSide e.ahead e.aheadSide (e.ahead.get e.aheadSide + 1) })
        (c := .ahead) rfl rfl (by simp [Call.after, PC.rank]) (by simp [PC.rank])
        (Nat.lt_of_not_le hb) hc h
  · rename_i e c sd b col stop hpc
    rw [hpc]
    unfold stepPacking at h
    split at h
    · obtain ⟨p, _, h⟩ := C.bind_ok h
      cases h
      exact ⟨_, rfl, .pack _ _ _ _ _ _ (by assumption) rfl rfl⟩
    · cases h
      exact ⟨_, rfl, .publish _ _ _ _ _ _ (by assumption) rfl rfl⟩
  · rename_i e c sd b hpc
    rw [hpc]
    unfold stepConfirm at h
    obtain ⟨_, _, h⟩ := C.bind_ok h
    refine afterTry_eff rfl rfl (fun _ => ⟨rfl, ?_⟩) h
    cases c with
    | ahead => simp [Call.after, PC.rank]
    | req both => cases both <;> cases sd <;> simp [Call.after, PC.rank]
  · rename_i e i j hpc
    rw [hpc]
    unfold stepKernel at h
    split at h
    · split at h
      · obtain ⟨d, _, h⟩ := C.bind_ok h
        cases h
        exact ⟨_, rfl, .entry _ _ _ (by assumption) (by assumption) rfl rfl⟩
      · cases h
        exact ⟨_, rfl, .row _ _ _ (by assumption) rfl rfl⟩
    · cases h
      exact ⟨_, rfl, .leave _ _ _ rfl rfl⟩
  · exact absurd (by assumption) hd

/-! ### The block counter stays small -/

/-- Every reserved id past the last block belongs to a different thread. -/
def Own (cfg : Cfg A) (n : SidePair Nat) (s : State A) : Prop :=
  ∃ owner : Nat → Nat, ∀ id, n.lhs * n.rhs ≤ id → id < s.counter →
    owner id < cfg.threads ∧ (id ∈ (s.pc (owner id)).ids ∨ s.pc (owner id) = .done) ∧
      ∀ id', n.lhs * n.rhs ≤ id' → id' < s.counter → owner id = owner id' → id = id'

theorem Own.bound {cfg : Cfg A} {n : SidePair Nat} {s : State A} (h : Own cfg n s) :
    s.counter ≤ n.lhs * n.rhs + cfg.threads := by
  obtain ⟨owner, h⟩ := h
  have := Finset.card_le_card_of_injOn (s := Finset.Ico (n.lhs * n.rhs) s.counter)
    (t := Finset.range cfg.threads) owner
    (fun id hid => by
      have hid := Finset.mem_Ico.1 hid
      exact Finset.mem_coe.2 (Finset.mem_range.2 (h id hid.1 hid.2).1))
    (fun a ha b hb hab => by
      have ha := Finset.mem_Ico.1 (Finset.mem_coe.1 ha)
      have hb := Finset.mem_Ico.1 (Finset.mem_coe.1 hb)
      exact (h a ha.1 ha.2).2.2 b hb.1 hb.2 hab)
  rw [Nat.card_Ico, Finset.card_range] at this
  omega

theorem Own.init {cfg : Cfg A} {n : SidePair Nat} {m0 : Mem A} : Own cfg n (initState cfg m0) := by
  refine ⟨fun id => id, fun id h1 h2 => ?_⟩
  have h2 : id < cfg.threads := h2
  exact ⟨h2, .inl (by simp [initState, h2, PC.ids]), fun _ _ _ h => h⟩

/-- Steps that do not touch the counter and keep the ids past the last block. -/
theorem Own.keep {cfg : Cfg A} {n : SidePair Nat} {s s' : State A} {t : Nat} {p' : PC}
    (h : Own cfg n s) (hpc : s'.pc = Function.update s.pc t p') (hd : s.pc t ≠ .done)
    (hc : s'.counter = s.counter)
    (hids : ∀ id, n.lhs * n.rhs ≤ id → id ∈ (s.pc t).ids → id ∈ p'.ids ∨ p' = .done) :
    Own cfg n s' := by
  obtain ⟨owner, h⟩ := h
  refine ⟨owner, fun id h1 h2 => ?_⟩
  rw [hc] at h2 ⊢
  obtain ⟨a1, a2, a3⟩ := h id h1 h2
  refine ⟨a1, ?_, a3⟩
  rw [hpc]
  by_cases ht : owner id = t
  · rw [ht] at a2 ⊢
    rw [Function.update_self]
    exact hids id h1 (a2.resolve_right hd)
  · rw [Function.update_of_ne ht]; exact a2

theorem Own.step {cfg : Cfg A} {n : SidePair Nat} {m0 : Mem A} {s s' : State A} {t : Nat}
    (su : Setup cfg m0 n) (inv : Inv cfg n m0 s) (own : Own cfg n s)
    (h : step cfg s t = .ok s') : Own cfg n s' := by
  by_cases hd : s.pc t = .done
  · unfold TrMul.step at h
    rw [hd] at h; cases h; exact own
  have ht := ne_done_lt inv hd
  have hok := inv.pc t
  obtain ⟨p', hpc, heff⟩ := step_eff su inv hd h
  generalize hp : s.pc t = p at heff hok
  have hd' : s.pc t ≠ .done := hd
  cases heff with
  | go b e h1 h2 h3 h4 h5 =>
    obtain ⟨owner, ho⟩ := own
    have hnot : ∀ id, n.lhs * n.rhs ≤ id → id < s.counter → owner id ≠ t := by
      intro id a1 a2 a3
      have := (ho id a1 a2).2.1
      rw [a3, hp] at this
      simp only [PC.ids, List.mem_cons, List.not_mem_nil, or_false, reduceCtorEq] at this
      omega
    refine ⟨Function.update owner s.counter t, fun id a1 a2 => ?_⟩
    rw [h4] at a2 ⊢
    by_cases hid : id = s.counter
    · subst hid
      rw [Function.update_self]
      refine ⟨ht, .inl ?_, fun id' b1 b2 b3 => ?_⟩
      · rw [hpc, Function.update_self]; simp [PC.ids, h3]
      · by_contra hne
        rw [Function.update_of_ne (Ne.symm hne)] at b3
        exact hnot id' b1 (by omega) b3.symm
    · rw [Function.update_of_ne hid]
      obtain ⟨c1, c2, c3⟩ := ho id a1 (by omega)
      refine ⟨c1, ?_, fun id' b1 b2 b3 => ?_⟩
      · rw [hpc, Function.update_of_ne (hnot id a1 (by omega))]; exact c2
      · by_cases hid' : id' = s.counter
        · subst hid'
          rw [Function.update_self] at b3
          exact absurd b3 (hnot id a1 (by omega))
        · rw [Function.update_of_ne hid'] at b3
          exact c3 id' b1 (by omega) b3
  | stop b h1 h2 h3 => exact own.keep hpc hd h2 (fun _ _ _ => .inr rfl)
  | cas _ e c sd b lo hi h1 h2 h3 => 
    exact own.keep hpc hd h3 (fun id _ hid => .inl (by rw [hp, h2] at hid; exact hid))
  | pack e c sd b col stop h1 h2 =>
    exact own.keep hpc hd h2 (fun id _ hid => .inl (by rw [hp] at hid; exact hid))
  | publish e c sd b col stop h1 h2 =>
    exact own.keep hpc hd h2 (fun id _ hid => .inl (by rw [hp] at hid; exact hid))
  | enter _ e h1 h2 h3 =>
    exact own.keep hpc hd h3 (fun id _ hid => .inl (by rw [hp, h2] at hid; exact hid))
  | spin _ _ h1 h2 h3 h4 =>
    exact own.keep hpc hd h4 (fun id _ hid => .inl (by rw [hp, ← h3] at hid; exact hid))
  | entry e i j h1 h2 h3 =>
    exact own.keep hpc hd h3 (fun id _ hid => .inl (by rw [hp] at hid; exact hid))
  | row e i j h1 h2 =>
    exact own.keep hpc hd h2 (fun id _ hid => .inl (by rw [hp] at hid; exact hid))
  | leave e i j h1 =>
    refine own.keep hpc hd h1 (fun id hN hid => .inl ?_)
    rw [hp] at hid
    simp only [PC.ids, List.mem_cons, List.not_mem_nil, or_false] at hid ⊢
    have := hok.1.bid
    omega

/-! ### Progress measure -/

/-- Bound for the work of one RunKernel. -/
def kmax (m0 : Mem A) : Nat := m0.dst.layout.rows * (m0.dst.layout.cols + 2) + m0.dst.layout.cols + 2

/-- Bound for the work of one RunPack. -/
def pmax (m0 : Mem A) : Nat := m0.packed.lhs.layout.cols + m0.packed.rhs.layout.cols

/-- Work a thread has left for its present block. -/
def pot (m0 : Mem A) : PC → Nat
  | .head _ => kmax m0 + 2
  | .tryReq _ _ _ => 2 * kmax m0 + 3
  | .runAhead _ => 2 * kmax m0 + 3
  | .packing _ _ _ _ col stop => 2 * kmax m0 + 3 + (stop - col)
  | .confirm _ _ _ _ => 2 * kmax m0 + 3
  | .kernel _ i j => kmax m0 + 3 +
      (m0.dst.layout.rows - i) * (m0.dst.layout.cols + 2) + (m0.dst.layout.cols + 1 - j)
  | .done => 0

def weight : Status → Nat
  | .notStarted => 2
  | .inProgress => 1
  | .finished => 0

/-- Packing work left. -/
def packLeft (n : SidePair Nat) (f : Side → Nat → Status) : Nat :=
  ∑ b ∈ Finset.range n.lhs, weight (f .lhs b) + ∑ b ∈ Finset.range n.rhs, weight (f .rhs b)

/-- The progress measure of an execution: it bounds the number of progress steps left. -/
def workLeft (cfg : Cfg A) (n : SidePair Nat) (m0 : Mem A) (s : State A) : Nat :=
  (kmax m0 + 2) * (n.lhs * n.rhs + cfg.threads - s.counter) + (pmax m0 + 1) * packLeft n s.status +
    ∑ t ∈ Finset.range cfg.threads, pot m0 (s.pc t)

theorem sum_update {f : PC → Nat} {pc : Nat → PC} {t T : Nat} (ht : t < T) (p : PC) :
    (∑ u ∈ Finset.range T, f (Function.update pc t p u)) + f (pc t) =
      (∑ u ∈ Finset.range T, f (pc u)) + f p := by
  rw [← Finset.add_sum_erase _ _ (Finset.mem_range.2 ht),
    ← Finset.add_sum_erase _ (fun u => f (pc u)) (Finset.mem_range.2 ht)]
  have : ∑ u ∈ (Finset.range T).erase t, f (Function.update pc t p u) =
      ∑ u ∈ (Finset.range T).erase t, f (pc u) :=
    Finset.sum_congr rfl (fun u hu => by rw [Function.update_of_ne (Finset.ne_of_mem_erase hu)])
  rw [this, Function.update_self]
  omega

theorem sum_weight {f : Nat → Status} {b n : Nat} (hb : b < n) (x : Status) :
    (∑ u ∈ Finset.range n, weight (Function.update f b x u)) + weight (f b) =
      (∑ u ∈ Finset.range n, weight (f u)) + weight x := by
  rw [← Finset.add_sum_erase _ _ (Finset.mem_range.2 hb),
    ← Finset.add_sum_erase _ (fun u => weight (f u)) (Finset.mem_range.2 hb)]
  have : ∑ u ∈ (Finset.range n).erase b, weight (Function.update f b x u) =
      ∑ u ∈ (Finset.range n).erase b, weight (f u) :=
    Finset.sum_congr rfl (fun u hu => by rw [Function.update_of_ne (Finset.ne_of_mem_erase hu)])
  rw [this, Function.update_self]
  omega

theorem packLeft_set {n : SidePair Nat} {f : Side → Nat → Status} {sd : Side} {b : Nat}
    (hb : b < n.get sd) (x : Status) :
    packLeft n (setStatus f sd b x) + weight (f sd b) = packLeft n f + weight x := by
  unfold packLeft setStatus
  cases sd with
  | lhs =>
    have := sum_weight (f := f .lhs) (n := n.lhs) hb x
    simp only [Function.update_self, Function.update_of_ne (show Side.rhs ≠ Side.lhs by decide)]
    omega
  | rhs =>
    have := sum_weight (f := f .rhs) (n := n.rhs) hb x
    simp only [Function.update_self, Function.update_of_ne (show Side.lhs ≠ Side.rhs by decide)]
    omega

theorem pot_head (m0 : Mem A) (b : Nat) : pot m0 (.head b) = kmax m0 + 2 := rfl
theorem pot_done (m0 : Mem A) : pot m0 .done = 0 := rfl
theorem pot_tryReq (m0 : Mem A) (e : Locals) (sd : Side) (b : Bool) :
    pot m0 (.tryReq e sd b) = 2 * kmax m0 + 3 := rfl
theorem pot_confirm (m0 : Mem A) (e : Locals) (c : Call) (sd : Side) (b : Nat) :
    pot m0 (.confirm e c sd b) = 2 * kmax m0 + 3 := rfl
theorem pot_packing (m0 : Mem A) (e : Locals) (c : Call) (sd : Side) (b col stop : Nat) :
    pot m0 (.packing e c sd b col stop) = 2 * kmax m0 + 3 + (stop - col) := rfl
theorem pot_kernel (m0 : Mem A) (e : Locals) (i j : Nat) :
    pot m0 (.kernel e i j) = kmax m0 + 3 +
      (m0.dst.layout.rows - i) * (m0.dst.layout.cols + 2) + (m0.dst.layout.cols + 1 - j) := rfl

theorem pot_spin (m0 : Mem A) {p : PC} (h : p.spin = true) : pot m0 p = 2 * kmax m0 + 3 := by
  cases p <;> simp_all [PC.spin, pot]

/-- A step by a thread that has not returned either makes progress or is a wait step. -/
theorem step_progress {cfg : Cfg A} {n : SidePair Nat} {m0 : Mem A} {s s' : State A} {t : Nat}
    (su : Setup cfg m0 n) (inv : Inv cfg n m0 s) (own : Own cfg n s) (hd : s.pc t ≠ .done)
    (h : step cfg s t = .ok s') :
    workLeft cfg n m0 s' < workLeft cfg n m0 s ∨
      (workLeft cfg n m0 s' = workLeft cfg n m0 s ∧ s'.status = s.status ∧
        (s.pc t).spin = true ∧
        ∃ p', s'.pc = Function.update s.pc t p' ∧ p'.spin = true ∧
          (NoneInProgress s → p'.rank < (s.pc t).rank)) := by
  have ht := ne_done_lt inv hd
  have hok := inv.pc t
  have hown' := (own.step su inv h).bound
  obtain ⟨p', hpc, heff⟩ := step_eff su inv hd h
  have hsum := sum_update (f := pot m0) (pc := s.pc) ht p'
  rw [← hpc] at hsum
  obtain ⟨kd, g⟩ := su.grid
  generalize hp : s.pc t = p at heff hsum hok
  cases heff with
  | go b e h1 h2 h3 h4 h5 =>
    left
    unfold workLeft
    rw [h4] at hown' ⊢
    rw [h5]
    simp only [pot_head, pot_done, pot_packing, pot_confirm, pot_kernel, pot_tryReq] at hsum
    have e1 : n.lhs * n.rhs + cfg.threads - s.counter =
        n.lhs * n.rhs + cfg.threads - (s.counter + 1) + 1 := by omega
    rw [e1, Nat.mul_succ]
    omega
  | stop b h1 h2 h3 =>
    left
    unfold workLeft
    rw [h2, h3]
    simp only [pot_head, pot_done, pot_packing, pot_confirm, pot_kernel, pot_tryReq] at hsum
    omega
  | cas _ e c sd b lo hi h1 h2 h3 h4 h5 h6 h7 =>
    left
    unfold workLeft
    rw [h3, h7]
    have hw := packLeft_set (f := s.status) h5 .inProgress
    rw [h4] at hw
    have : packLeft n s.status = packLeft n (setStatus s.status sd b .inProgress) + 1 := by
      simp only [weight] at hw; omega
    rw [this, Nat.mul_succ]
    rw [pot_spin m0 h1] at hsum
    simp only [pot_head, pot_done, pot_packing, pot_confirm, pot_kernel, pot_tryReq] at hsum
    have hle := (tiles_le (g.tiles sd) h5 h6).2.1
    have : hi - lo ≤ pmax m0 := by
      unfold pmax
      cases sd
      · have : hi ≤ m0.packed.lhs.layout.cols := hle
        omega
      · have : hi ≤ m0.packed.rhs.layout.cols := hle
        omega
    omega
  | pack e c sd b col stop h1 h2 h3 =>
    left
    unfold workLeft
    rw [h2, h3]
    simp only [pot_head, pot_done, pot_packing, pot_confirm, pot_kernel, pot_tryReq] at hsum
    omega
  | publish e c sd b col stop h1 h2 h3 =>
    left
    unfold workLeft
    rw [h2, h3]
    obtain ⟨_, _, _, _, k5, k6, _⟩ := hok
    have hw := packLeft_set (f := s.status) k6 .finished
    rw [k5] at hw
    have : packLeft n s.status = packLeft n (setStatus s.status sd b .finished) + 1 := by
      simp only [weight] at hw; omega
    rw [this, Nat.mul_succ]
    simp only [pot_head, pot_done, pot_packing, pot_confirm, pot_kernel, pot_tryReq] at hsum
    omega
  | enter _ e h1 h2 h3 h4 =>
    left
    unfold workLeft
    rw [h3, h4]
    rw [pot_spin m0 h1] at hsum
    simp only [pot_head, pot_done, pot_packing, pot_confirm, pot_kernel, pot_tryReq] at hsum
    have e1 : (m0.dst.layout.rows - e.start.lhs) * (m0.dst.layout.cols + 2) ≤
        m0.dst.layout.rows * (m0.dst.layout.cols + 2) := Nat.mul_le_mul_right _ (Nat.sub_le _ _)
    unfold kmax at *
    omega
  | spin _ _ h1 h2 h3 h4 h5 h6 =>
    right
    refine ⟨?_, h5, h1, p', hpc, h2, h6⟩
    unfold workLeft
    rw [h4, h5]
    rw [pot_spin m0 h1, pot_spin m0 h2] at hsum
    omega
  | entry e i j h1 h2 h3 h4 =>
    left
    unfold workLeft
    rw [h3, h4]
    have hj := (lt_min_iff.1 h2).2
    rw [inv.same.dst.layout] at hj
    simp only [pot_head, pot_done, pot_packing, pot_confirm, pot_kernel, pot_tryReq] at hsum
    omega
  | row e i j h1 h2 h3 =>
    left
    unfold workLeft
    rw [h2, h3]
    have hi := (lt_min_iff.1 h1).2
    rw [inv.same.dst.layout] at hi
    simp only [pot_head, pot_done, pot_packing, pot_confirm, pot_kernel, pot_tryReq] at hsum
    have e1 : m0.dst.layout.rows - i = (m0.dst.layout.rows - (i + 1)) + 1 := by omega
    rw [e1, Nat.succ_mul] at hsum
    omega
  | leave e i j h1 h2 =>
    left
    unfold workLeft
    rw [h1, h2]
    simp only [pot_head, pot_done, pot_packing, pot_confirm, pot_kernel, pot_tryReq] at hsum
    omega

end Ruy.TrMul

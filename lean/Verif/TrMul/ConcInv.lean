import Verif.TrMul.SeqLemmas
/-
The invariant of multi-threaded TrMul.
-/
namespace Ruy.TrMul
open Ruy.Mat Ruy.Mul Ruy.BlockMap

variable {A : Type}

/-- Block ids a thread has reserved and not finished. -/
def PC.ids : PC → List Nat
  | .head b => [b]
  | .tryReq e _ _ => [e.bid, e.next]
  | .runAhead e => [e.bid, e.next]
  | .packing e _ _ _ _ _ => [e.bid, e.next]
  | .confirm e _ _ _ => [e.bid, e.next]
  | .kernel e _ _ => [e.bid, e.next]
  | .done => []

/-- Source block a thread is packing. -/
def PC.packs : PC → Option (Side × Nat)
  | .packing _ _ s b _ _ => some (s, b)
  | _ => none

/-- Destination block a thread is computing. -/
def PC.running : PC → Option Nat
  | .kernel e _ _ => some e.bid
  | _ => none

/-- Everything fixed during an execution. -/
structure Setup (cfg : Cfg A) (m0 : Mem A) (n : SidePair Nat) : Prop where
  ready : Ready cfg.tp m0
  grid : ∃ kd, Grid cfg.bm ⟨m0.packed.lhs.layout.cols, m0.packed.rhs.layout.cols⟩ kd n

section
variable (cfg : Cfg A) (n : SidePair Nat) (m0 : Mem A)

/-- The local variables describe block `bid`. -/
structure LocOk (e : Locals) : Prop where
  bid : e.bid < n.lhs * n.rhs
  block : getBlockByIndex cfg.bm e.bid = .ok e.block
  coords : ∀ s, getBlockMatrixCoords s cfg.bm (e.block.get s) = .ok (e.start.get s, e.stop.get s)

/-- Thread `t` knows that block `b` of side `s` is packed. -/
def Avail (s : State A) (t : Nat) (sd : Side) (b : Nat) : Prop :=
  cfg.tp.isPrepacked.get sd = true ∨ s.localPacked t sd b = true

/-- Reserved block ids. -/
structure Resv (s : State A) (e : Locals) (r : Nat) : Prop where
  ltB : e.bid < s.counter
  ltN : e.next < s.counter
  ne : e.bid ≠ e.next
  runsB : s.runs e.bid = r
  runsN : s.runs e.next = 0

/-- If both_sides_packed is still true after the LHS was handled, the LHS block is available. -/
def CallOk (s : State A) (t : Nat) (e : Locals) (c : Call) (sd : Side) : Prop :=
  c = .req true → sd = .rhs → Avail cfg s t .lhs e.block.lhs

/-- What holds of a thread at a program point. -/
def PCok (s : State A) (t : Nat) : PC → Prop
  | .head b => b < s.counter ∧ s.runs b = 0
  | .tryReq e sd both => LocOk cfg n e ∧ Resv s e 0 ∧ CallOk cfg s t e (.req both) sd
  | .runAhead e => LocOk cfg n e ∧ Resv s e 0
  | .packing e c sd b col stop => LocOk cfg n e ∧ Resv s e 0 ∧ CallOk cfg s t e c sd ∧
      (∀ both, c = .req both → b = e.block.get sd) ∧
      s.status sd b = .inProgress ∧ b < n.get sd ∧ cfg.tp.isPrepacked.get sd = false ∧
      ∃ lo, getBlockMatrixCoords sd cfg.bm b = .ok (lo, stop) ∧ lo ≤ col ∧ col ≤ stop ∧
        ∀ x, lo ≤ x → x < col → Packed cfg.tp s.mem sd x
  | .confirm e c sd b => LocOk cfg n e ∧ Resv s e 0 ∧ CallOk cfg s t e c sd ∧
      (∀ both, c = .req both → b = e.block.get sd) ∧
      s.status sd b = .finished ∧ b < n.get sd ∧ cfg.tp.isPrepacked.get sd = false
  | .kernel e i j => LocOk cfg n e ∧ Resv s e 1 ∧ (∀ sd, Avail cfg s t sd (e.block.get sd)) ∧
      e.start.lhs ≤ i ∧ e.start.rhs ≤ j ∧
      ∀ i' j', InBlock cfg.bm e.bid i' j' → i' < m0.dst.layout.rows → j' < m0.dst.layout.cols →
        i' < i ∨ (i' = i ∧ j' < j) → EntryDone (target cfg.tp m0) s.mem.dst i' j'
  | .done => True

/-- Block `id` has been computed. -/
def Computed (s : State A) (id : Nat) : Prop :=
  s.runs id = 1 ∧ ∀ i j, InBlock cfg.bm id i j → i < m0.dst.layout.rows →
    j < m0.dst.layout.cols → EntryDone (target cfg.tp m0) s.mem.dst i j

/-- The invariant. -/
structure Inv (s : State A) : Prop where
  same : MSame m0 s.mem
  pre : ∀ sd, cfg.tp.isPrepacked.get sd = true →
    ∀ c, c < (m0.packed.get sd).layout.cols → Packed cfg.tp s.mem sd c
  frame : DOutside (fun i j => i < m0.dst.layout.rows ∧ j < m0.dst.layout.cols) m0.dst s.mem.dst
  pc : ∀ t, PCok cfg n m0 s t (s.pc t)
  outside : ∀ t, cfg.threads ≤ t → s.pc t = .done
  ids : ∀ t u id, id ∈ (s.pc t).ids → id ∈ (s.pc u).ids → t = u
  all : ∀ id, id < s.counter → id < n.lhs * n.rhs →
    (∃ t, id ∈ (s.pc t).ids) ∨ Computed cfg m0 s id
  fresh : ∀ id, s.counter ≤ id ∨ n.lhs * n.rhs ≤ id → s.runs id = 0
  packs : ∀ t u x, (s.pc t).packs = some x → (s.pc u).packs = some x → t = u
  inProgress : ∀ sd b, s.status sd b = .inProgress → ∃ t, (s.pc t).packs = some (sd, b)
  finished : ∀ sd b, b < n.get sd → s.status sd b = .finished → BlockPacked cfg.tp cfg.bm s.mem sd b
  locals : ∀ t sd b, s.localPacked t sd b = true → s.status sd b = .finished ∧ b < n.get sd
  packCount : ∀ sd b, s.packs sd b = if s.status sd b = .notStarted then 0 else 1
  counterLe : cfg.threads ≤ s.counter
  exit : ∀ t, t < cfg.threads → s.pc t = .done → n.lhs * n.rhs ≤ s.counter

end

/-! ### Small facts -/

theorem PCok.ids_lt {cfg : Cfg A} {n : SidePair Nat} {m0 : Mem A} {s : State A} {t : Nat} {p : PC}
    (h : PCok cfg n m0 s t p) {id : Nat} (hid : id ∈ p.ids) : id < s.counter := by
  cases p <;> simp only [PC.ids, List.mem_cons, List.not_mem_nil, or_false] at hid
  · subst hid; exact h.1
  · rcases hid with rfl | rfl
    · exact h.2.1.ltB
    · exact h.2.1.ltN
  · rcases hid with rfl | rfl
    · exact h.2.ltB
    · exact h.2.ltN
  · rcases hid with rfl | rfl
    · exact h.2.1.ltB
    · exact h.2.1.ltN
  · rcases hid with rfl | rfl
    · exact h.2.1.ltB
    · exact h.2.1.ltN
  · rcases hid with rfl | rfl
    · exact h.2.1.ltB
    · exact h.2.1.ltN

theorem PCok.packs_status {cfg : Cfg A} {n : SidePair Nat} {m0 : Mem A} {s : State A} {t : Nat}
    {p : PC} (h : PCok cfg n m0 s t p) {sd : Side} {b : Nat} (hp : p.packs = some (sd, b)) :
    s.status sd b = .inProgress ∧ b < n.get sd ∧ cfg.tp.isPrepacked.get sd = false := by
  cases p <;> simp only [PC.packs, reduceCtorEq, Option.some.injEq, Prod.mk.injEq] at hp
  obtain ⟨rfl, rfl⟩ := hp
  exact ⟨h.2.2.2.2.1, h.2.2.2.2.2.1, h.2.2.2.2.2.2.1⟩

/-- What a step of another thread may change, as seen by a thread at `p`. -/
structure Rely (cfg : Cfg A) (n : SidePair Nat) (m0 : Mem A) (s s' : State A) (u : Nat) (p : PC) :
    Prop where
  counter : s.counter ≤ s'.counter
  runs : ∀ id, id ∈ p.ids → s'.runs id = s.runs id
  locals : ∀ sd b, s.localPacked u sd b = true → s'.localPacked u sd b = true
  status : ∀ sd b, p.packs = some (sd, b) → s'.status sd b = s.status sd b
  fin : ∀ sd b, s.status sd b = .finished → s'.status sd b = .finished
  packed : ∀ sd b lo hi c, p.packs = some (sd, b) → getBlockMatrixCoords sd cfg.bm b = .ok (lo, hi) →
    lo ≤ c → c < hi → Packed cfg.tp s.mem sd c → Packed cfg.tp s'.mem sd c
  entries : ∀ id i j, p.running = some id → InBlock cfg.bm id i j → i < m0.dst.layout.rows →
    j < m0.dst.layout.cols → EntryDone (target cfg.tp m0) s.mem.dst i j →
    EntryDone (target cfg.tp m0) s'.mem.dst i j

theorem Avail.rely {cfg : Cfg A} {n : SidePair Nat} {m0 : Mem A} {s s' : State A} {u : Nat} {p : PC}
    (r : Rely cfg n m0 s s' u p) {sd : Side} {b : Nat} (h : Avail cfg s u sd b) :
    Avail cfg s' u sd b := h.imp id (r.locals sd b)

theorem Resv.rely {cfg : Cfg A} {n : SidePair Nat} {m0 : Mem A} {s s' : State A} {u : Nat} {p : PC}
    (r : Rely cfg n m0 s s' u p) {e : Locals} {k : Nat} (hB : e.bid ∈ p.ids) (hN : e.next ∈ p.ids)
    (h : Resv s e k) : Resv s' e k :=
  ⟨Nat.lt_of_lt_of_le h.ltB r.counter, Nat.lt_of_lt_of_le h.ltN r.counter, h.ne,
    by rw [r.runs _ hB]; exact h.runsB, by rw [r.runs _ hN]; exact h.runsN⟩

/-- Local assertions are stable under the steps of other threads. -/
theorem PCok.rely {cfg : Cfg A} {n : SidePair Nat} {m0 : Mem A} {s s' : State A} {u : Nat} {p : PC}
    (r : Rely cfg n m0 s s' u p) (h : PCok cfg n m0 s u p) : PCok cfg n m0 s' u p := by
  cases p with
  | head b =>
    exact ⟨Nat.lt_of_lt_of_le h.1 r.counter, by rw [r.runs b (by simp [PC.ids])]; exact h.2⟩
  | tryReq e sd both =>
    exact ⟨h.1, h.2.1.rely r (by simp [PC.ids]) (by simp [PC.ids]), fun a b => (h.2.2 a b).rely r⟩
  | runAhead e => exact ⟨h.1, h.2.rely r (by simp [PC.ids]) (by simp [PC.ids])⟩
  | packing e c sd b col stop =>
    obtain ⟨h1, h2, h3, h4, h5, h6, h7, lo, h8, h9, h10, h11⟩ := h
    refine ⟨h1, h2.rely r (by simp [PC.ids]) (by simp [PC.ids]), fun a b => (h3 a b).rely r, h4,
      by rw [r.status sd b rfl]; exact h5, h6, h7, lo, h8, h9, h10, fun x hx1 hx2 => ?_⟩
    exact r.packed sd b lo stop x rfl h8 hx1 (by omega) (h11 x hx1 hx2)
  | confirm e c sd b =>
    obtain ⟨h1, h2, h3, h4, h5, h6, h7⟩ := h
    exact ⟨h1, h2.rely r (by simp [PC.ids]) (by simp [PC.ids]), fun a b => (h3 a b).rely r, h4,
      r.fin sd b h5, h6, h7⟩
  | kernel e i j =>
    obtain ⟨h1, h2, h3, h4, h5, h6⟩ := h
    exact ⟨h1, h2.rely r (by simp [PC.ids]) (by simp [PC.ids]), fun sd => (h3 sd).rely r, h4, h5,
      fun i' j' ha hb hc hd => r.entries e.bid i' j' rfl ha hb hc (h6 i' j' ha hb hc hd)⟩
  | done => trivial

theorem InBlock.coords {bm : BlockMap} {id i j : Nat} {b : SidePair Nat} {l r : Nat × Nat}
    (h : InBlock bm id i j) (hb : getBlockByIndex bm id = .ok b)
    (hl : getBlockMatrixCoords .lhs bm b.lhs = .ok l)
    (hr : getBlockMatrixCoords .rhs bm b.rhs = .ok r) :
    l.1 ≤ i ∧ i < l.2 ∧ r.1 ≤ j ∧ j < r.2 := by
  obtain ⟨b', l', r', h1, h2, h3, h4⟩ := h
  rw [hb] at h1; cases h1
  rw [hl] at h2; cases h2
  rw [hr] at h3; cases h3
  exact h4

theorem LocOk.inBlock {cfg : Cfg A} {n : SidePair Nat} {e : Locals} (h : LocOk cfg n e) {i j : Nat} :
    InBlock cfg.bm e.bid i j ↔
      (e.start.lhs ≤ i ∧ i < e.stop.lhs) ∧ (e.start.rhs ≤ j ∧ j < e.stop.rhs) := by
  constructor
  · intro hin
    have := hin.coords h.block (h.coords .lhs) (h.coords .rhs)
    exact ⟨⟨this.1, this.2.1⟩, ⟨this.2.2.1, this.2.2.2⟩⟩
  · rintro ⟨⟨h1, h2⟩, h3, h4⟩
    exact ⟨e.block, _, _, h.block, h.coords .lhs, h.coords .rhs, h1, h2, h3, h4⟩

theorem LocOk.blockLt {cfg : Cfg A} {n : SidePair Nat} {dims kd : SidePair Nat}
    (g : Grid cfg.bm dims kd n) {e : Locals} (h : LocOk cfg n e) (sd : Side) :
    e.block.get sd < n.get sd := by
  obtain ⟨b, hb, h1, h2⟩ := g.decode e.bid h.bid
  rw [h.block] at hb; cases hb
  cases sd <;> assumption

end Ruy.TrMul

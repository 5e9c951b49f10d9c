import Mathlib.Logic.Relation
/-
The C++ memory model for programs with atomic loads, stores and read-modify-write operations of order relaxed, acquire,
release and acq_rel, non-atomic accesses, and thread creation and joining ([intro.races], [atomics.order] of C++20).

ruy has no such definitions: this is the language's side of the contract, written down to prove that ruy's parallel
code has no data race.  An execution is a graph: the actions of every thread in program order, which store each load
reads (`rf`), and the modification order of each atomic (`mo`).  Nothing is assumed about timing, caches or
scheduling; a load may return any old value that the axioms do not exclude.

Operations without an order argument (seq_cst) are represented as acquire or release.  Mutexes and anything else that orders
actions without being listed here is in `ext`: an execution may have any such edges.
-/
namespace Ruy.Race

/-- `std::memory_order`. -/
inductive Ord | relaxed | acquire | release | acqRel
  deriving DecidableEq, Repr

def Ord.acquires : Ord → Bool | .acquire | .acqRel => true | _ => false
def Ord.releases : Ord → Bool | .release | .acqRel => true | _ => false

/-- What a thread does: an atomic load that returned `v`, a store, a read-modify-write that read `v` and wrote `w`; a
piece of code `c` with non-atomic accesses only; start of thread `t`, and return of `join` on it; anything else.
`L`: atomic locations, `V`: their values. -/
inductive Act (T L V C : Type)
  | load (o : Ord) (l : L) (v : V)
  | store (o : Ord) (l : L) (v : V)
  | rmw (o : Ord) (l : L) (v w : V)
  | call (c : C)
  | spawn (t : T)
  | join (t : T)
  | skip
  deriving DecidableEq

/-- Action number `i` of a thread. -/
abbrev Ev (T : Type) := T × Nat

variable {T L V C : Type}

/-- An execution. -/
structure Exec (T L V C : Type) where
  tr : T → List (Act T L V C)
  /-- `rf w r`: `r` reads what `w` wrote. -/
  rf : Ev T → Ev T → Prop
  /-- Modification order. -/
  mo : Ev T → Ev T → Prop
  /-- Synchronization by other means. -/
  ext : Ev T → Ev T → Prop := fun _ _ => False

namespace Exec

def act (x : Exec T L V C) (e : Ev T) : Option (Act T L V C) := (x.tr e.1)[e.2]?

/-- `e` writes `v` to the atomic `l`. -/
def Writes (x : Exec T L V C) (e : Ev T) (l : L) (v : V) : Prop :=
  (∃ o, x.act e = some (.store o l v)) ∨ ∃ o u, x.act e = some (.rmw o l u v)

/-- `e` reads `v` from the atomic `l`. -/
def Reads (x : Exec T L V C) (e : Ev T) (l : L) (v : V) : Prop :=
  (∃ o, x.act e = some (.load o l v)) ∨ ∃ o w, x.act e = some (.rmw o l v w)

def IsRmw (x : Exec T L V C) (e : Ev T) : Prop := ∃ o l v w, x.act e = some (.rmw o l v w)

def Releases (x : Exec T L V C) (e : Ev T) : Prop :=
  ∃ o l, Ord.releases o = true ∧ ((∃ v, x.act e = some (.store o l v)) ∨ ∃ v w, x.act e = some (.rmw o l v w))

def Acquires (x : Exec T L V C) (e : Ev T) : Prop :=
  ∃ o l, Ord.acquires o = true ∧ ((∃ v, x.act e = some (.load o l v)) ∨ ∃ v w, x.act e = some (.rmw o l v w))

/-- Release sequence headed by `w`: read-modify-writes that read from it, directly or through others
([intro.races], the C++20 version without later stores of the same thread). -/
inductive RelSeq (x : Exec T L V C) (w : Ev T) : Ev T → Prop
  | head : RelSeq x w w
  | next {a u} : RelSeq x w a → x.rf a u → x.IsRmw u → RelSeq x w u

/-- Synchronizes-with. -/
def Sync (x : Exec T L V C) (w r : Ev T) : Prop :=
  x.Releases w ∧ x.Acquires r ∧ ∃ a, x.RelSeq w a ∧ x.rf a r

/-- One edge of happens-before: program order, synchronizes-with, thread creation, join, other synchronization. -/
inductive Edge (x : Exec T L V C) : Ev T → Ev T → Prop
  | po {t i j} : i < j → j < (x.tr t).length → Edge x (t, i) (t, j)
  | sync {w r} : x.Sync w r → Edge x w r
  | spawn {e t i} : x.act e = some (.spawn t) → i < (x.tr t).length → Edge x e (t, i)
  | join {e t i} : x.act e = some (.join t) → i < (x.tr t).length → Edge x (t, i) e
  | ext {a b} : x.ext a b → Edge x a b

/-- Happens-before. -/
def Hb (x : Exec T L V C) : Ev T → Ev T → Prop := Relation.TransGen x.Edge

/-- The axioms: every load reads from a store, happens-before has no cycle, the modification order of each atomic is
total, the four coherence rules ([intro.races]), and a read-modify-write reads the write just before it. -/
structure Consistent (x : Exec T L V C) : Prop where
  rf_ok : ∀ {w r}, x.rf w r → ∃ l v, x.Writes w l v ∧ x.Reads r l v
  rf_some : ∀ {r l v}, x.Reads r l v → ∃ w, x.rf w r
  rf_one : ∀ {w w' r}, x.rf w r → x.rf w' r → w = w'
  hb_irrefl : ∀ e, ¬x.Hb e e
  mo_ok : ∀ {a b}, x.mo a b → ∃ l v w, x.Writes a l v ∧ x.Writes b l w
  mo_irrefl : ∀ e, ¬x.mo e e
  mo_trans : ∀ {a b c}, x.mo a b → x.mo b c → x.mo a c
  mo_total : ∀ {a b l v w}, x.Writes a l v → x.Writes b l w → a = b ∨ x.mo a b ∨ x.mo b a
  write_write : ∀ {a b l v w}, x.Hb a b → x.Writes a l v → x.Writes b l w → x.mo a b
  write_read : ∀ {a b w l v u}, x.Hb a b → x.Writes a l v → x.Reads b l u → x.rf w b → w = a ∨ x.mo a w
  read_write : ∀ {a b w l v u}, x.Hb a b → x.Reads a l v → x.Writes b l u → x.rf w a → x.mo w b
  read_read : ∀ {a b w w' l v u}, x.Hb a b → x.Reads a l v → x.Reads b l u → x.rf w a → x.rf w' b → w = w' ∨ x.mo w w'
  rmw : ∀ {w u}, x.IsRmw u → x.rf w u → x.mo w u ∧ ∀ {a}, x.mo w a → a = u ∨ x.mo u a

/-- `d` is a memory location of the non-atomic kind; `reads c d`, `writes c d`: the code `c` accesses it. -/
structure Foot (C D : Type) where
  reads : C → D → Prop
  writes : C → D → Prop

variable {D : Type}

/-- Two pieces of code access the same location, and at least one of them writes. -/
def Conflict (f : Foot C D) (c c' : C) : Prop :=
  ∃ d, (f.writes c d ∧ (f.reads c' d ∨ f.writes c' d)) ∨ (f.reads c d ∧ f.writes c' d)

/-- A data race ([intro.races]): two conflicting accesses, neither of which happens before the other. -/
def DataRace (x : Exec T L V C) (f : Foot C D) (a b : Ev T) : Prop :=
  a ≠ b ∧ ∃ c c', x.act a = some (.call c) ∧ x.act b = some (.call c') ∧ Conflict f c c' ∧ ¬x.Hb a b ∧ ¬x.Hb b a

/-! ### Lemmas -/

variable {x : Exec T L V C}

theorem act_lt {e : Ev T} {a : Act T L V C} (h : x.act e = some a) : e.2 < (x.tr e.1).length := by
  unfold act at h
  exact (List.getElem?_eq_some_iff.1 h).1

theorem Writes.lt {e : Ev T} {l : L} {v : V} (h : x.Writes e l v) : e.2 < (x.tr e.1).length := by
  rcases h with ⟨_, h⟩ | ⟨_, _, h⟩ <;> exact act_lt h

theorem Hb.trans {a b c : Ev T} (h : x.Hb a b) (h' : x.Hb b c) : x.Hb a c := Relation.TransGen.trans h h'

theorem hb_po {t : T} {i j : Nat} (h : i < j) (hj : j < (x.tr t).length) : x.Hb (t, i) (t, j) := .single (.po h hj)

theorem hb_sync {w r : Ev T} (h : x.Sync w r) : x.Hb w r := .single (.sync h)

theorem Writes.one {e : Ev T} {l l' : L} {v v' : V} (h : x.Writes e l v) (h' : x.Writes e l' v') : l = l' ∧ v = v' := by
  rcases h with ⟨_, h⟩ | ⟨_, _, h⟩ <;> rcases h' with ⟨_, h'⟩ | ⟨_, _, h'⟩ <;>
    (rw [h] at h'; cases h'; try exact ⟨rfl, rfl⟩)

theorem Reads.one {e : Ev T} {l l' : L} {v v' : V} (h : x.Reads e l v) (h' : x.Reads e l' v') : l = l' ∧ v = v' := by
  rcases h with ⟨_, h⟩ | ⟨_, _, h⟩ <;> rcases h' with ⟨_, h'⟩ | ⟨_, _, h'⟩ <;>
    (rw [h] at h'; cases h'; try exact ⟨rfl, rfl⟩)

/-- What a load reads was written to the same atomic. -/
theorem Consistent.source (h : x.Consistent) {r : Ev T} {l : L} {v : V} (hr : x.Reads r l v) :
    ∃ w, x.rf w r ∧ x.Writes w l v := by
  obtain ⟨w, hw⟩ := h.rf_some hr
  obtain ⟨l', v', h1, h2⟩ := h.rf_ok hw
  obtain ⟨rfl, rfl⟩ := Reads.one hr h2
  exact ⟨w, hw, h1⟩

end Exec
end Ruy.Race

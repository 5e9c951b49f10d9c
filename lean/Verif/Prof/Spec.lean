import Verif.Prof.Model

/-! # Profiler: what samples and trees should be -/

namespace Ruy.Prof

/-! ## What is sampled -/

/-- What the profiler should see: the scopes each thread is in, with the number of the thread's
stack, the number of stacks there have been, and the samples taken. -/
structure Abs where
  scopes : Nat → Option (Nat × List Raw)
  count : Nat
  taken : List (Nat × List Raw)

/-- Nothing has happened. -/
def Abs.init : Abs := ⟨fun _ => none, 0, []⟩

/-- The effect of an event on what the profiler should see. -/
def Abs.step (a : Abs) : Ev → Abs
  | .push t l =>
    match a.scopes t with
    | none => ⟨Function.update a.scopes t (some (a.count, [l])), a.count + 1, a.taken⟩
    | some (i, ls) => { a with scopes := Function.update a.scopes t (some (i, ls ++ [l])) }
  | .pop t =>
    { a with scopes := Function.update a.scopes t ((a.scopes t).map fun (i, ls) => (i, ls.dropLast)) }
  | .exit t => { a with scopes := Function.update a.scopes t none }
  | .sample t =>
    match a.scopes t with
    | some (i, l :: ls) => { a with taken := a.taken ++ [(i, l :: ls)] }
    | _ => a

/-- What the profiler should see after some events. -/
def Abs.after (es : List Ev) : Abs := es.foldl Abs.step .init

/-- A sample as it is stored. -/
def stored (s : Nat × List Raw) : BitVec 32 × List Raw := (.ofNat 32 s.1, s.2)

/-- The bytes that some samples take. -/
def sampleBytes (ss : List (Nat × List Raw)) : Nat := (ss.map fun s => 8 + 32 * s.2.length).sum

/-- An event that does no harm: at most 64 nested scopes, no end of a scope without a beginning, and
less than 2 GiB of samples. -/
def Harmless (a : Abs) : Ev → Prop
  | .push t _ => ∀ i ls, a.scopes t = some (i, ls) → ls.length < 64
  | .pop t => ∃ i ls, a.scopes t = some (i, ls) ∧ ls ≠ []
  | .exit _ => True
  | .sample t => sampleBytes (a.step (.sample t)).taken < 2 ^ 31

/-! ## What a tree says -/

/-- The node of a tree that a list of labels leads to (there may be several). -/
inductive At : Node → List Label → Node → Prop
  | here (n) : At n [] n
  | down {n c p m} : c ∈ n.children → At c p m → At n (c.label :: p) m

/-- The samples with a given id. -/
def samplesOf (id : Nat) (ss : List (Nat × List Label)) : List (List Label) :=
  (ss.filter fun s => s.1 = id).map (·.2)

/-- The number of samples that begin with some labels. -/
def through (p : List Label) (ss : List (List Label)) : Nat := ss.countP fun s => p <+: s

/-- The number of samples that are exactly some labels. -/
def exactly (p : List Label) (ss : List (List Label)) : Nat := ss.countP fun s => s = p

end Ruy.Prof

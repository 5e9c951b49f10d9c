import Mathlib.Data.List.Basic
import Mathlib.Data.List.Perm.Basic
import Mathlib.Logic.Function.Basic

/-!
# The profiler: label stacks, samples, tree views

`ruy/profiler/instrumentation.h`, `instrumentation.cc`, `profiler.cc` and `treeview.cc`, as compiled
with `RUY_PROFILER`.  A scope of the program is annotated by a `ScopeLabel`; every thread has a stack
of the labels of the scopes it is in; the profiler's thread copies all the stacks into a buffer of
bytes once in a while; at the end the buffer is turned into one tree of labels per thread.

Simplifications: `Push`, `Pop`, the constructor and destructor of `ThreadStack` and one turn of the
loop of `ThreadFunc` are atomic, since each holds the mutex of the stack or that of the globals for
all of its accesses (instrumentation.h:144, 163, instrumentation.cc:91, 98, profiler.cc:66, 75; a turn
of the loop takes the mutexes of the stacks one after another, so it is split into one event for each
stack).  `Label` has a user-provided assignment, so that copying its bytes with `memcpy` is, strictly
speaking, not covered by the C++ standard; as on all compilers, the copy is taken to have the value of
the original.  Printing is left out. -/

namespace Ruy.Prof

/-! ## Labels -/

/-- `Stack::kMaxSize`, ruy/profiler/instrumentation.h:98 -/
def maxSize : Nat := 64

/-- `Label::kMaxArgs`, ruy/profiler/instrumentation.h:70 -/
def maxArgs : Nat := 4

/-- The object representation of a `Label` (ruy/profiler/instrumentation.h:71-73): the pointer to the
format string, the number of arguments, the four arguments and four bytes of padding.  Arguments
beyond the number and padding may have any value. -/
structure Raw where
  fmt : BitVec 64
  cnt : BitVec 32
  arg0 : BitVec 32
  arg1 : BitVec 32
  arg2 : BitVec 32
  arg3 : BitVec 32
  pad : BitVec 32
  deriving DecidableEq, Repr, Inhabited

/-- A label as the user sees it: a literal string and integer arguments. -/
structure Label where
  format : String
  args : List Int
  deriving DecidableEq, Repr, Inhabited

/-- What a `Label` object means, given the strings that the pointers point to. -/
def Raw.label (str : BitVec 64 → String) (r : Raw) : Label :=
  ⟨str r.fmt, ([r.arg0, r.arg1, r.arg2, r.arg3].take r.cnt.toNat).map BitVec.toInt⟩

/-- The loop of `Label::operator==`, ruy/profiler/instrumentation.cc:40-45: the counts are known to be
the same. -/
def sameArgs : List Int → List Int → Bool
  | a :: as, b :: bs => if a ≠ b then false else sameArgs as bs
  | _, _ => true

/-- `Label::operator==`, ruy/profiler/instrumentation.cc:33-46 -/
def Label.same (a b : Label) : Bool :=
  if a.format ≠ b.format then false
  else if a.args.length ≠ b.args.length then false
  else sameArgs a.args b.args

/-! ## Samples as bytes -/

/-- The `k` bytes of a number, lowest first. -/
def le : Nat → Nat → List UInt8
  | 0, _ => []
  | k + 1, n => UInt8.ofNat n :: le k (n / 256)

/-- The number with these bytes. -/
def unle : List UInt8 → Nat
  | [] => 0
  | b :: bs => b.toNat + 256 * unle bs

/-- The 32 bytes of a `Label`. -/
def Raw.bytes (r : Raw) : List UInt8 :=
  le 8 r.fmt.toNat ++ le 4 r.cnt.toNat ++ le 4 r.arg0.toNat ++ le 4 r.arg1.toNat ++
    le 4 r.arg2.toNat ++ le 4 r.arg3.toNat ++ le 4 r.pad.toNat

/-- The `Label` in these 32 bytes. -/
def Raw.ofBytes (b : List UInt8) : Raw where
  fmt := .ofNat 64 (unle (b.take 8))
  cnt := .ofNat 32 (unle ((b.drop 8).take 4))
  arg0 := .ofNat 32 (unle ((b.drop 12).take 4))
  arg1 := .ofNat 32 (unle ((b.drop 16).take 4))
  arg2 := .ofNat 32 (unle ((b.drop 20).take 4))
  arg3 := .ofNat 32 (unle ((b.drop 24).take 4))
  pad := .ofNat 32 (unle ((b.drop 28).take 4))

/-- `detail::Stack`, ruy/profiler/instrumentation.h:96-101.  `labels` has 64 entries; the model never
looks at others. -/
structure Stack where
  id : BitVec 32
  size : Nat
  labels : Nat → Raw

/-- `GetBufferSize`, ruy/profiler/instrumentation.cc:107-110 -/
def Stack.bufferSize (s : Stack) : Nat := 4 + 4 + s.size * 32

/-- `CopyToBuffer`, ruy/profiler/instrumentation.cc:112-118: the bytes written. -/
def Stack.toBuffer (s : Stack) : List UInt8 :=
  le 4 s.id.toNat ++ le 4 s.size ++ (List.range s.size).flatMap fun i => (s.labels i).bytes

/-- `n` labels of 32 bytes each. -/
def readLabels : Nat → List UInt8 → List Raw
  | 0, _ => []
  | n + 1, b => Raw.ofBytes (b.take 32) :: readLabels n (b.drop 32)

/-- `ReadFromBuffer`, ruy/profiler/instrumentation.cc:120-126: the id and the labels of the stack
found, and the rest of the buffer after `GetBufferSize` bytes.  `none` is undefined behaviour: bytes
beyond the buffer, or more labels than a `Stack` has. -/
def readStack (b : List UInt8) : Option ((BitVec 32 × List Raw) × List UInt8) :=
  if b.length < 8 then none else
  let size := unle ((b.drop 4).take 4)
  if maxSize < size then none else
  if b.length < 8 + size * 32 then none else
  some ((.ofNat 32 (unle (b.take 4)), readLabels size (b.drop 8)), b.drop (8 + size * 32))

/-- The reading part of the loop of `TreeView::Populate`, ruy/profiler/treeview.cc:91-96: the stacks
in the buffer.  The `assert` of line 95 is part of it (`none`). -/
def readAll (b : List UInt8) : Option (List (BitVec 32 × List Raw)) :=
  if b.isEmpty then some [] else
  match _h : readStack b with
  | none => none
  | some (s, rest) =>
    if s.2.isEmpty then none else do
      let ss ← readAll rest
      some (s :: ss)
termination_by b.length
decreasing_by
  simp only [readStack] at _h
  split at _h
  · exact absurd _h (by simp)
  · split at _h
    · exact absurd _h (by simp)
    · split at _h
      · exact absurd _h (by simp)
      · simp only [Option.some.injEq, Prod.mk.injEq] at _h
        rw [← _h.2, List.length_drop]
        omega

/-! ## The stacks of the threads -/

/-- What may happen: `ScopeLabel`'s constructor and destructor on a thread
(ruy/profiler/instrumentation.h:179-183), the end of a thread, and `ScopeProfile::Sample` for the
stack of a thread (ruy/profiler/profiler.cc:74-86). -/
inductive Ev where
  | push (t : Nat) (l : Raw)
  | pop (t : Nat)
  | exit (t : Nat)
  | sample (t : Nat)
  deriving DecidableEq, Repr

/-- How a run may end prematurely. -/
inductive Fail where
  | abort
  | ub
  deriving DecidableEq, Repr

/-- The stacks that exist, by thread; the id of the next stack; the buffer of samples. -/
structure St where
  stacks : Nat → Option Stack
  next : Nat
  buf : List UInt8

/-- Before anything happens. -/
def St.init : St := ⟨fun _ => none, 0, []⟩

/-- `ThreadStack::ThreadStack`, ruy/profiler/instrumentation.cc:90-95: `global_next_thread_stack_id`
has 32 bits. -/
def St.fresh (s : St) : Stack := ⟨.ofNat 32 s.next, 0, fun _ => default⟩

/-- `ThreadLocalThreadStack`, ruy/profiler/instrumentation.cc:85-88: the stack of the thread,
constructed at the first use. -/
def St.local (s : St) (t : Nat) : Stack × Nat :=
  match s.stacks t with
  | some k => (k, s.next)
  | none => (s.fresh, s.next + 1)

/-- `ThreadStack::Push`, ruy/profiler/instrumentation.h:132-153 -/
def Stack.push (k : Stack) (l : Raw) : Except Fail Stack :=
  if maxSize ≤ k.size then .error .abort
  else .ok { k with size := k.size + 1, labels := Function.update k.labels k.size l }

/-- One event. -/
def step (s : St) : Ev → Except Fail St
  | .push t l => do
    let (k, n) := s.local t
    let k ← k.push l
    pure ⟨Function.update s.stacks t (some k), n, s.buf⟩
  /- `ThreadStack::Pop`, ruy/profiler/instrumentation.h:156-165; without a scope to end it would make
  the size negative, which the model treats as undefined. -/
  | .pop t =>
    match s.stacks t with
    | none => .error .ub
    | some k =>
      if k.size = 0 then .error .ub
      else .ok { s with stacks := Function.update s.stacks t (some { k with size := k.size - 1 }) }
  /- `ThreadStack::~ThreadStack`, ruy/profiler/instrumentation.cc:97-106 -/
  | .exit t => .ok { s with stacks := Function.update s.stacks t none }
  /- `ScopeProfile::Sample`, ruy/profiler/profiler.cc:74-86: sizes are `int`. -/
  | .sample t =>
    match s.stacks t with
    | none => .ok s
    | some k =>
      if k.size = 0 then .ok s
      else if 2 ^ 31 ≤ s.buf.length + k.bufferSize then .error .ub
      else .ok { s with buf := s.buf ++ k.toBuffer }

/-- A run. -/
def run (s : St) : List Ev → Except Fail St
  | [] => .ok s
  | e :: es => do
    let s ← step s e
    run s es

/-! ## Tree views -/

/-- `TreeView::Node`, ruy/profiler/treeview.h:34-38.  The label of a root is set last and not looked
at before. -/
inductive Node where
  | mk (label : Label) (weight : Int) (children : List Node)

namespace Node

def label : Node → Label | mk l _ _ => l
def weight : Node → Int | mk _ w _ => w
def children : Node → List Node | mk _ _ cs => cs

end Node

/-- The search and the creation in `AddStack`, ruy/profiler/treeview.cc:51-62, with `f` the recursive
call of line 63. -/
def addTo (f : Node → Node) (x : Label) : List Node → List Node
  | [] => [f (.mk x 0 [])]
  | c :: cs => if c.label.same x then f c :: cs else c :: addTo f x cs

/-- `AddStack`, ruy/profiler/treeview.cc:46-64; the first argument is the labels from `level` on. -/
def addStack : List Label → Node → Node
  | [], .mk l w cs => .mk l (w + 1) cs
  | x :: xs, .mk l w cs => .mk l (w + 1) (addTo (addStack xs) x cs)

/-- The label of the entries added by `AddOther`, ruy/profiler/treeview.cc:78 -/
def other : Label := ⟨"[other]", []⟩

/-- `top_level_children_weight`, ruy/profiler/treeview.cc:70-74 -/
def total : List Node → Int
  | [] => 0
  | c :: cs => c.weight + total cs

/-- ruy/profiler/treeview.cc:75-81 -/
def others (w t : Int) : List Node :=
  if t ≠ 0 ∧ t ≠ w then [.mk other (w - t) []] else []

mutual
/-- `AddOther`, ruy/profiler/treeview.cc:69-82 -/
def addOther : Node → Node
  | .mk l w cs => .mk l w (addOthers cs ++ others w (total (addOthers cs)))
/-- The loop of `AddOther`, ruy/profiler/treeview.cc:71-72 -/
def addOthers : List Node → List Node
  | [] => []
  | c :: cs => addOther c :: addOthers cs
end

mutual
/-- `SortNode`, ruy/profiler/treeview.cc:32-41: `std::sort` leaves the order of children with the same
weight open, so that this is a relation. -/
inductive Sorts : Node → Node → Prop
  | mk {l w cs ds es} : cs.Perm ds → ds.Pairwise (fun a b => b.weight ≤ a.weight) →
      SortsAll ds es → Sorts (.mk l w cs) (.mk l w es)
/-- ruy/profiler/treeview.cc:38-40 -/
inductive SortsAll : List Node → List Node → Prop
  | nil : SortsAll [] []
  | cons {c d cs ds} : Sorts c d → SortsAll cs ds → SortsAll (c :: cs) (d :: ds)
end

/-- `thread_roots_`, a `std::map`: the pairs of ids and roots in the order of the ids.  Adds a stack
to the root of its thread, which is created if need be: ruy/profiler/treeview.cc:97-101. -/
def addRoot (id : Nat) (ls : List Label) : List (Nat × Node) → List (Nat × Node)
  | [] => [(id, addStack ls (.mk default 0 []))]
  | (i, n) :: rest =>
    if id < i then (id, addStack ls (.mk default 0 [])) :: (i, n) :: rest
    else if id = i then (i, addStack ls n) :: rest
    else (i, n) :: addRoot id ls rest

/-- `label.Set("Thread %x (%d samples)", id, root->weight)`, ruy/profiler/treeview.cc:110; the id is
passed as an `int`. -/
def setLabel (id : Nat) : Node → Node
  | .mk _ w cs => .mk ⟨"Thread %x (%d samples)", [(BitVec.ofNat 32 id).toInt, w]⟩ w cs

/-- The roots before line 103 of ruy/profiler/treeview.cc. -/
def rawRoots (ss : List (Nat × List Label)) : List (Nat × Node) :=
  ss.foldl (fun m s => addRoot s.1 s.2 m) []

/-- `TreeView::Populate`, ruy/profiler/treeview.cc:86-112: from the stacks read to the roots. -/
inductive Populate (ss : List (Nat × List Label)) : List (Nat × Node) → Prop
  | mk {ts} : List.Forall₂ (fun a b => a.1 = b.1 ∧ ∃ m, Sorts (addOther a.2) m ∧ b.2 = setLabel a.1 m)
      (rawRoots ss) ts → Populate ss ts

mutual
/-- `DepthOfTreeBelow`, ruy/profiler/treeview.cc:144-154 -/
def depth : Node → Nat
  | .mk _ _ cs => if cs.isEmpty then 0 else 1 + depths cs
/-- The loop of `DepthOfTreeBelow`, ruy/profiler/treeview.cc:148-151 -/
def depths : List Node → Nat
  | [] => 0
  | c :: cs => max (depth c) (depths cs)
end

mutual
/-- `WeightBelowNodeMatchingFunction`, ruy/profiler/treeview.cc:156-167 -/
def weightBelow (f : Label → Bool) : Node → Int
  | .mk l w cs => (if f l then w else 0) + weightsBelow f cs
/-- ruy/profiler/treeview.cc:163-165 -/
def weightsBelow (f : Label → Bool) : List Node → Int
  | [] => 0
  | c :: cs => weightBelow f c + weightsBelow f cs
end

/-- `CollapseNode`, ruy/profiler/treeview.cc:183-195; a negative depth is like zero. -/
def collapse : Nat → Node → Node
  | 0, .mk l w _ => .mk l w []
  | d + 1, .mk l w cs => .mk l w (cs.map (collapse d))

mutual
/-- `CollapseSubnodesMatchingFunction`, ruy/profiler/treeview.cc:197-213 -/
def collapseSub (d : Nat) (f : Label → Bool) : Node → Node
  | .mk l w cs => if f l then collapse d (.mk l w cs) else .mk l w (collapseSubs d f cs)
/-- ruy/profiler/treeview.cc:207-211 -/
def collapseSubs (d : Nat) (f : Label → Bool) : List Node → List Node
  | [] => []
  | c :: cs => collapseSub d f c :: collapseSubs d f cs
end

end Ruy.Prof

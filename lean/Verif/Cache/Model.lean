import Verif.Base.Fault
import Verif.Mat.Model
/-
The cache of packed matrices: ruy/prepacked_cache.{h,cc}.

Buffers are known by handles; 0 is null. The k-th call of SystemAlignedAlloc returns the
handle k + 1, or null if `sys k` is false.  What is allocated and not freed is recorded in
`held`; freeing anything else is undefined.

What is simplified: the std::unordered_map is a list of entries. Its iteration order is
unspecified in C++; `c20_order_irrelevant` shows that it does not matter. Timestamps are
natural numbers (uint64_t in the code).
-/
namespace Ruy.Cache
open Ruy.Mat

/-- mat.h:245-258 (`PEMat`): the sizes of the element types are what matters of the types. -/
structure PE where
  layout : PMatLayout
  zp : Int
  dataSize : Nat
  sumsSize : Nat
  sumsFloat : Bool
  data : Nat
  sums : Nat
  deriving DecidableEq, Repr

/-- prepacked_cache.h:68-80 -/
structure Key where
  src : Nat
  layout : PMatLayout
  zp : Int
  deriving DecidableEq, Repr

/-- prepacked_cache.h:93-96, with the key it is stored under. -/
structure Entry where
  key : Key
  mat : PE
  stamp : Nat
  deriving DecidableEq, Repr

/-- prepacked_cache.h:133-136, and the ghosts `calls` and `held` (handle and size). -/
structure Cache where
  entries : List Entry
  cap : Int
  bytes : Int
  clock : Nat
  calls : Nat
  held : List (Nat × Nat)
  deriving DecidableEq, Repr

/-- prepacked_cache.h:98-99 -/
def init (cap : Int) : Cache := ⟨[], cap, 0, 0, 0, []⟩

/-- mat.h:432-434, in ptrdiff_t. -/
def dataBytes (p : PE) : C Nat :=
  if pflatSize p.layout * p.dataSize < 2 ^ 63 then .ok (pflatSize p.layout * p.dataSize)
  else .error .ub

/-- mat.h:436-440; the product is computed in `int`. -/
def sumsBytes (p : PE) : C Nat := C.int (p.layout.cols * p.sumsSize)

/-- detail::SystemAlignedAlloc -/
def sysAlloc (sys : Nat → Bool) (c : Cache) (n : Nat) : Nat × Cache :=
  if sys c.calls then
    (c.calls + 1, { c with calls := c.calls + 1, held := (c.calls + 1, n) :: c.held })
  else (0, { c with calls := c.calls + 1 })

/-- detail::SystemAlignedFree -/
def sysFree (h : Nat) (c : Cache) : C Cache :=
  if h = 0 then .ok c
  else do
    C.require (∃ b ∈ c.held, b.1 = h)
    .ok { c with held := c.held.eraseP fun b => b.1 == h }

/-- prepacked_cache.cc:29-39 -/
def allocateBuffers (sys : Nat → Bool) (c : Cache) (p : PE) : C (Nat × PE × Cache) := do
  let d ← dataBytes p
  let r := sysAlloc sys c d
  if p.sumsFloat then .ok (d, { p with data := r.1 }, r.2)
  else do
    let s ← sumsBytes p
    let q := sysAlloc sys r.2 s
    .ok (d + s, { p with data := r.1, sums := q.1 }, q.2)

/-- prepacked_cache.cc:42-45 -/
def freeBuffers (p : PE) (c : Cache) : C Cache := do
  let c ← sysFree p.data c
  sysFree p.sums c

/-- prepacked_cache.cc:116-121: the loop looking for the smallest timestamp. -/
def oldest : List Entry → Entry → Entry
  | [], o => o
  | e :: es, o => oldest es (if e.stamp < o.stamp then e else o)

/-- prepacked_cache.cc:112-127 -/
def ejectOne (c : Cache) : C Cache :=
  match c.entries with
  | [] => .error .ub
  | e :: es => do
    let o := oldest (e :: es) e
    let d ← dataBytes o.mat
    let s ← sumsBytes o.mat
    let c ← freeBuffers o.mat { c with bytes := c.bytes - (d + s : Nat) }
    .ok { c with entries := c.entries.eraseP fun x => x.key == o.key }

/-- prepacked_cache.cc:107-109; every iteration removes an entry, so the number of entries
bounds the number of iterations. -/
def ejectLoop (new : Nat) : Nat → Cache → C Cache
  | 0, c => .ok c
  | n + 1, c =>
    if c.entries ≠ [] ∧ c.bytes + new > c.cap then do
      let c ← ejectOne c
      ejectLoop new n c
    else .ok c

/-- prepacked_cache.cc:104-110 -/
def ejectUntilRoomFor (new : Nat) (c : Cache) : C Cache := ejectLoop new c.entries.length c

/-- A request: the source pointer, and the packed matrix with all fields but the buffers. -/
structure Req where
  src : Nat
  layout : PMatLayout
  zp : Int
  dataSize : Nat
  sumsSize : Nat
  sumsFloat : Bool
  deriving DecidableEq, Repr

def Req.key (r : Req) : Key := ⟨r.src, r.layout, r.zp⟩
def Req.mat (r : Req) : PE := ⟨r.layout, r.zp, r.dataSize, r.sumsSize, r.sumsFloat, 0, 0⟩

/-- prepacked_cache.cc:79-102. Returns the packed matrix, and whether a new entry was
inserted. -/
def get (sys : Nat → Bool) (c : Cache) (r : Req) : C (PE × Bool × Cache) :=
  match c.entries.find? fun e => e.key == r.key with
  | some e =>
    .ok (e.mat, false,
      { c with
        entries := c.entries.map fun x => if x.key = r.key then { x with stamp := c.clock } else x
        clock := c.clock + 1 })
  | none => do
    let a ← allocateBuffers sys c r.mat
    let c ← ejectUntilRoomFor a.1 a.2.2
    .ok (a.2.1, true,
      { c with
        entries := ⟨r.key, a.2.1, c.clock⟩ :: c.entries
        clock := c.clock + 1
        bytes := c.bytes + (a.1 : Nat) })

/-- prepacked_cache.cc:74-76 -/
def freeEntries : List Entry → Cache → C Cache
  | [], c => .ok c
  | e :: es, c => do
    let c ← freeBuffers e.mat c
    freeEntries es c

/-- prepacked_cache.cc:73-77 (destructor) -/
def destroy (c : Cache) : C Cache := freeEntries c.entries c

/-- A history of requests. -/
def run (sys : Nat → Bool) : List Req → Cache → C Cache
  | [], c => .ok c
  | r :: rs, c => do
    let x ← get sys c r
    run sys rs x.2.2

end Ruy.Cache

import Verif.Base.Fault
/-
The bump allocator: ruy/allocator.{h,cc}, on top of a system allocator.

The system allocator is a parameter: any function of the call number, the blocks currently
obtained from it, and the size; it returns an address or null.  Addresses are numbers, null
is 0.

What is simplified: sizes are natural numbers (the callers pass non-negative sizes); pointer
arithmetic is arithmetic on addresses, also on null (allocator.cc:33).
-/
namespace Ruy.Alloc

/-- A block of memory. -/
structure Block where
  addr : Nat
  size : Nat
  deriving DecidableEq, Repr

/-- No byte in common. -/
def Block.Disjoint (a b : Block) : Prop := a.addr + a.size ≤ b.addr ∨ b.addr + b.size ≤ a.addr

/-- `b` lies inside `a`. -/
def Block.Inside (b a : Block) : Prop := a.addr ≤ b.addr ∧ b.addr + b.size ≤ a.addr + a.size

/-- A system allocator: answer to call number `k`, for `n` bytes, when `heap` is what was
obtained from it and not yet returned. `none` is null. -/
abbrev System := (k : Nat) → (heap : List Block) → (n : Nat) → Option Nat

/-- system_aligned_alloc.h:28-42, system_aligned_alloc.cc:29-39 (posix_memalign): a non-null
result is 64-byte aligned, and a new block that overlaps no other one. `space` is the size of
the address space. -/
def Honest (space : Nat) (sys : System) : Prop :=
  ∀ k heap n a, sys k heap n = some a →
    0 < a ∧ a % 64 = 0 ∧ a + n ≤ space ∧ ∀ b ∈ heap, Block.Disjoint ⟨a, n⟩ b

/-- allocator.h:83-87, and ghosts: `heap` is what the allocator got from the system and has
not returned, `calls` counts the calls of SystemAlignedAlloc, `live` are the blocks handed
out since the last FreeAll with the sizes that were asked for, and `lost` says whether a
reallocation in FreeAll ever failed. -/
structure State where
  ptr : Nat
  current : Nat
  size : Nat
  fallback : List Nat
  total : Nat
  heap : List Block
  calls : Nat
  live : List Block
  lost : Bool
  deriving DecidableEq, Repr

def init : State := ⟨0, 0, 0, [], 0, [], 0, [], false⟩

/-- A `std::ptrdiff_t` result that must not overflow. -/
def pd (x : Nat) : C Nat := if x < 2 ^ 63 then .ok x else .error .ub

/-- detail::SystemAlignedAlloc: system_aligned_alloc.cc:29-39. -/
def sysAlloc (sys : System) (s : State) (n : Nat) : Nat × State :=
  match sys s.calls s.heap n with
  | none => (0, { s with calls := s.calls + 1 })
  | some a => (a, { s with calls := s.calls + 1, heap := ⟨a, n⟩ :: s.heap })

/-- detail::SystemAlignedFree: system_aligned_alloc.cc:41-47. Freeing anything but null or the
address of a block that was obtained and not yet returned is undefined. -/
def sysFree (p : Nat) (heap : List Block) : C (List Block) :=
  if p = 0 then .ok heap
  else do
    C.require (∃ b ∈ heap, b.addr = p)
    .ok (heap.eraseP fun b => b.addr == p)

/-- allocator.cc:29-36 -/
def allocateFast (s : State) (n : Nat) : C (Nat × State) := do
  let c ← pd (s.current + n)
  if c > s.size then .ok (0, s)
  else .ok (s.ptr + s.current, { s with current := c })

/-- allocator.cc:38-46 -/
def allocateSlow (sys : System) (s : State) (n : Nat) : C (Nat × State) :=
  let r := sysAlloc sys s n
  if r.1 = 0 then .ok (0, r.2)
  else do
    let t ← pd (r.2.total + n)
    .ok (r.1, { r.2 with total := t, fallback := r.2.fallback ++ [r.1] })

/-- size_util.h:93-96 (`round_up_pot(value, 64)`) -/
def roundUp64 (n : Nat) : C Nat := do
  let x ← pd (n + 64)
  .ok ((x - 1) - (x - 1) % 64)

/-- allocator.cc:48-58, without recording the block in `live`. -/
def allocateRaw (sys : System) (s : State) (n : Nat) : C (Nat × State) :=
  if n = 0 then .ok (0, s)
  else do
    let r ← roundUp64 n
    let f ← allocateFast s r
    if f.1 ≠ 0 then .ok f
    else allocateSlow sys f.2 r

/-- Recording what the caller got: `n` bytes at `p`. -/
def record (n : Nat) (r : Nat × State) : Nat × State :=
  if r.1 = 0 then r else (r.1, { r.2 with live := ⟨r.1, n⟩ :: r.2.live })

/-- allocator.cc:48-58 (`AllocateBytes`) -/
def allocateBytes (sys : System) (s : State) (n : Nat) : C (Nat × State) := do
  let r ← allocateRaw sys s n
  .ok (record n r)

/-- allocator.cc:81-96: the offset, with the 32-bit modular arithmetic of the code. -/
def aliasOffset (p avoid : Nat) : Nat :=
  let diff := (((p % 2 ^ 32 + 2 ^ 32 - avoid % 2 ^ 32) % 2 ^ 32) % 1024)
  if diff < 1024 / 4 ∨ diff > 3 * 1024 / 4 then 1024 / 2 else 0

/-- allocator.cc:60-100 (`AllocateBytesAvoidingAliasingWith` with RUY_OPT(AVOID_ALIASING)) -/
def allocateAvoiding (sys : System) (s : State) (n avoid : Nat) : C (Nat × State) :=
  if n = 0 then .ok (0, s)
  else do
    let m ← pd (n + 1024)
    let r ← allocateRaw sys s m
    if r.1 = 0 then .ok r
    else .ok (record n (r.1 + aliasOffset r.1 avoid, r.2))

/-- allocator.cc:114-119: the blocks are freed one by one. -/
def freeList : List Nat → List Block → C (List Block)
  | [], heap => .ok heap
  | p :: ps, heap => do
    let h ← sysFree p heap
    freeList ps h

/-- allocator.cc:106-132 (`FreeAll`) -/
def freeAll (sys : System) (s : State) : C State :=
  if s.fallback = [] then .ok { s with current := 0, live := [] }
  else do
    let h1 ← sysFree s.ptr s.heap
    let h2 ← freeList s.fallback h1
    let n ← pd (s.size + s.total)
    let r := sysAlloc sys { s with heap := h2 } n
    .ok { r.2 with ptr := r.1, current := 0, size := n, fallback := [], total := 0, live := [],
                   lost := s.lost || r.1 == 0 }

/-- allocator.cc:24-27 (destructor) -/
def destroy (sys : System) (s : State) : C State := do
  let s ← freeAll sys s
  let h ← sysFree s.ptr s.heap
  .ok { s with heap := h }

/-- The operations of a client. -/
inductive Op where
  | alloc (n : Nat)
  | avoid (n : Nat) (addr : Nat)
  | freeAll
  deriving Repr

def step (sys : System) (s : State) : Op → C (Nat × State)
  | .alloc n => allocateBytes sys s n
  | .avoid n a => allocateAvoiding sys s n a
  | .freeAll => do
    let s ← freeAll sys s
    .ok (0, s)

def run (sys : System) : List Op → State → C State
  | [], s => .ok s
  | op :: ops, s => do
    let r ← step sys s op
    run sys ops r.2

end Ruy.Alloc

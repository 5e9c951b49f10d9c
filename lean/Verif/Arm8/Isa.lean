import Verif.Neon.Isa
/-
A machine for the ARM32 NEON assembly of the 8-bit kernels (kernel_arm32.cc:631-1633, 1634-2491) and of the 8-bit
packing functions (pack_arm.cc:250-608).

States, memory and arithmetic on vectors of bytes are those of `Neon/Isa.lean`.  What is different:

* There are 16 vector registers `q0`, …, `q15` of 16 bytes; `d(2 * k)` and `d(2 * k + 1)` are the lower and the
  upper half of `qk`.  Writing one half keeps the other.
* Numbers have 32 bits.  An `add` is written `addI` where it adds to a number and `addP`, `addPI` where it adds
  to an address; using the wrong one sets `bad`.  The scaled number added to an address is taken modulo `2 ^ 32`.
* The kernel keeps six variables on the stack.  The four bytes at `[sp, #k]` are register `64 + k` of the model,
  and register 13 counts the bytes by which `sp` has been lowered since the start.  Accesses above that many bytes
  set `bad`.  `sp` moves only at the start and at the end of the kernel, so an offset always means the same place.
* The fields of `KernelParams8bit` are read by name.  The compiler checks most of the byte offsets
  (kernel_arm32.cc:595-626), but not those of `rhs_base_ptr`, `dst_base_ptr`, `start_col`, `dst_rows`, `dst_cols` and
  `dst_type_id`; kernel_common.h:94-130 puts them where the kernel reads them.
* `vld1` of four `d` registers is written as two accesses of 16 bytes.  Prefetches are left out.
-/
namespace Ruy.Arm8
open Ruy.Neon (St Val Region Vec VOp vop EOp eop Cond Term put sgn addVal out bytes store numByte loadSH
  le2 le4 getB getH getS ofB ofH ofS)
open Simd (sqxtn16 sqxtn8 sqxtun8)

/-- Fields of `KernelParams8bit` (kernel_common.h:94-130), and those fields of `PackParams8bit` (pack_arm.h:101-115) that
the packing functions read in their `asm` statements. -/
inductive Field
  | bias | lhsSums | rhsSums | lhsBasePtr | mulFix | mulExp | rhsBasePtr | dstBasePtr
  | lhsZeroPoint | rhsZeroPoint | dstZeroPoint | prodZpDepth
  | startRow | startCol | lastRow | lastCol | dstRows | dstCols | lhsStride | rhsStride | dstStride | depth
  | clampMin | clampMax | flags | dstTypeId
  | packRows | packZeroPoint | packXor | packSums
  deriving DecidableEq, Repr

/-- The fields of the parameters (an int32 field is given by its unsigned representation) and the sizes of the
regions. -/
structure Env where
  field : Field → Val
  size : Region → Nat

/-- The sizes, for the functions of `Neon/Isa.lean` that check accesses. -/
def Env.base (e : Env) : Neon.Env := ⟨fun _ => .int 0, e.size⟩

/-! ### Halves of registers -/

/-- The lower (`h = 0`) or upper half, starting at byte 0; bytes from 8 on do not matter. -/
def half (h : Nat) (v : Vec) : Vec := bif Nat.beq h 0 then v else fun b => v (8 + b)
def setLo (v a : Vec) : Vec := fun b => bif Nat.blt b 8 then a b else v b
def setHi (v a : Vec) : Vec := fun b => bif Nat.blt b 8 then v b else a (b - 8)

/-- Register `d`, and writing it. -/
def dget (v : Nat → Vec) (d : Nat) : Vec := half (d % 2) (v (d / 2))
def dput (v : Nat → Vec) (d : Nat) (a : Vec) : Nat → Vec :=
  put v (d / 2) (bif Nat.beq (d % 2) 0 then setLo (v (d / 2)) a else setHi (v (d / 2)) a)

/-- VPADD.I32 on `d` registers. -/
def paddV (n m : Vec) : Vec := ofS fun i => if i = 0 then getS n 0 + getS n 1 else getS m 0 + getS m 1
/-- VMULL.S8, VMLAL.S8. -/
def mullV (n m : Vec) : Vec := ofH fun i => getB n i * getB m i
def mlalV (d n m : Vec) : Vec := ofH fun i => getH d i + getB n i * getB m i

inductive NOp | qmovnS | qmovnH | qmovun
  deriving DecidableEq, Repr

/-- VQMOVN.S32, VQMOVN.S16, VQMOVUN.S16. -/
def nop : NOp → Vec → Vec
  | .qmovnS, n => ofH fun i => sqxtn16 (getS n i)
  | .qmovnH, n => ofB fun i => sqxtn8 (getH n i)
  | .qmovun, n => ofB fun i => sqxtun8 (getH n i)

inductive Instr
  /-- `ldr rd, [params, #f]`; `ldrb`; `ldrh`; `ldrsh`. -/
  | ldp (d : Nat) (f : Field) | ldpB (d : Nat) (f : Field) | ldpH (d : Nat) (f : Field) | ldpSH (d : Nat) (f : Field)
  /-- `sub sp, sp, #k`; `add sp, sp, #k`. -/
  | subSp (k : Nat) | addSp (k : Nat)
  /-- `ldr rd, [sp, #k]`; `str rn, [sp, #k]`; `ldr rd, [sp, rn]`. -/
  | lds (d k : Nat) | sts (n k : Nat) | ldsR (d n : Nat)
  /-- `mov rd, #k`; `mov rd, rn`; `movgt rd, rn`. -/
  | movI (d k : Nat) | mov (d n : Nat) | movGt (d n : Nat)
  /-- `add rd, rn, #k` on numbers and on addresses; `add rd, rn, rm, lsl #sh` on addresses; `sub rd, rn, rm`. -/
  | addI (d n k : Nat) | addPI (d n k : Nat) | addP (d n m sh : Nat) | sub (d n m : Nat)
  /-- `lsl rd, rn, #1`; `lsr rd, rn, #1`. -/
  | lsl1 (d n : Nat) | lsr1 (d n : Nat)
  /-- `cmp rn, rm`; `cmp rn, #k`; `cmpeq rn, rm`; `tst rn, #k`. -/
  | cmp (n m : Nat) | cmpI (n k : Nat) | cmpEq (n m : Nat) | tst (n k : Nat)
  /-- `vmov.i32 qd, #0`; `vmvn.i32 qd, #0`. -/
  | zero (d : Nat) | ones (d : Nat)
  /-- `vmull.s8 qd, dn, dm`; `vmlal.s8 qd, dn, dm`; `vpadal.s16 qd, qn`; `vpadd.i32 dd, dn, dm`. -/
  | mull (d n m : Nat) | mlal (d n m : Nat) | padal (d n : Nat) | padd (d n m : Nat)
  /-- Lane-wise operations on `q` registers, and on `d` registers. -/
  | v3 (op : VOp) (d n m : Nat) | vd (op : VOp) (d n m : Nat)
  /-- By element: `op qd, qn, dm[k]`. -/
  | ve (op : EOp) (d n m k : Nat)
  /-- Narrowing: `op dd, qn`. -/
  | vn (op : NOp) (d n : Nat)
  /-- `vdup.32 qd, rn`; `vdup.16 qd, rn`; `vdup.8 dd, rn`; `vdup.16 dd, rn`; `vdup.32 dd, rn`; `vdup.32 qd, dn[k]`. -/
  | dupS (d n : Nat) | dupH (d n : Nat) | dupBd (d n : Nat) | dupHd (d n : Nat) | dupSd (d n : Nat) | dupL (d n k : Nat)
  /-- `vld1 {qd}, [rp]` with increment `post`; `vld1 {dd}, [rp]` with increment `post`. -/
  | ldq (d p post : Nat) | ldd (d p post : Nat)
  /-- `vst1 {qn}, [rp]`; `vst1 {dn}, [rp]`; `vst1.32 {dn[k]}, [rp]`; `vst1.16 {dn[k]}, [rp], ri`; `vst1.8 …`. -/
  | stq (n p : Nat) | std (n p : Nat) | stS (n k p : Nat) | stH (n k p i : Nat) | stB (n k p i : Nat)
  /-- `ldrb rd, [rp, ri]`; `ldrh rd, [rp, ri]`; `ldr rd, [rp, ri, lsl #2]`, and the stores. -/
  | ldrB (d p i : Nat) | ldrH (d p i : Nat) | ldrS (d p i : Nat)
  | strB (n p i : Nat) | strH (n p i : Nat) | strS (n p i : Nat)
  /-- Packing only.  `and rd, rn, #k`; `ands rd, rn, #k`; `cmp rn, #0` for an address; `vdup.8 qd, rn`. -/
  | andI (d n k : Nat) | andsI (d n k : Nat) | cmpP (n : Nat) | dupB (d n : Nat)
  /-- `vld1.8 {dd[k]}, [rp]!`; `vst1.32 {qn}, [rp]!`; `vst1.32 {dn}, [rp]!`. -/
  | ldB (d k p : Nat) | stqP (n p : Nat) | stdP (n p : Nat)
  deriving DecidableEq, Repr

def holds (s : St) : Cond → Bool
  | .eq => s.z | .ne => !s.z | .lt => s.lt | .ge => !s.lt | .le => s.z || s.lt

/-- Is `[sp + k, sp + k + 4)` outside the frame? -/
def outSp (s : St) (k : Nat) : Bool := Nat.blt (s.x 13).num (k + 4)

/-- One instruction. -/
def step (e : Env) : Instr → St → St
  | .ldp d f, s => { s with x := put s.x d (e.field f) }
  | .ldpB d f, s => { s with x := put s.x d (.int ((e.field f).num % 2 ^ 8)), bad := s.bad || (e.field f).isPtr }
  | .ldpH d f, s => { s with x := put s.x d (.int ((e.field f).num % 2 ^ 16)), bad := s.bad || (e.field f).isPtr }
  | .ldpSH d f, s => { s with x := put s.x d (loadSH (e.field f)), bad := s.bad || (e.field f).isPtr }
  | .subSp k, s => { s with x := put s.x 13 (.int ((s.x 13).num + k)) }
  | .addSp k, s => { s with x := put s.x 13 (.int ((s.x 13).num - k)), bad := s.bad || Nat.blt (s.x 13).num k }
  | .lds d k, s => { s with x := put s.x d (s.x (64 + k)), bad := s.bad || outSp s k }
  | .sts n k, s => { s with x := put s.x (64 + k) (s.x n), bad := s.bad || outSp s k }
  | .ldsR d n, s =>
      { s with x := put s.x d (s.x (64 + (s.x n).num)), bad := s.bad || (s.x n).isPtr || outSp s (s.x n).num }
  | .movI d k, s => { s with x := put s.x d (.int k) }
  | .mov d n, s => { s with x := put s.x d (s.x n) }
  | .movGt d n, s => { s with x := put s.x d (bif holds s .le then s.x d else s.x n) }
  | .addI d n k, s =>
      { s with x := put s.x d (.int (((s.x n).num + k) % 2 ^ 32)), bad := s.bad || (s.x n).isPtr }
  | .addPI d n k, s => { s with x := put s.x d (addVal (s.x n) k), bad := s.bad || !(s.x n).isPtr }
  | .addP d n m sh, s =>
      { s with
        x := put s.x d (addVal (s.x n) ((s.x m).num * 2 ^ sh % 2 ^ 32))
        bad := s.bad || !(s.x n).isPtr || (s.x m).isPtr }
  | .sub d n m, s =>
      { s with
        x := put s.x d (.int (((s.x n).num + 2 ^ 32 - (s.x m).num % 2 ^ 32) % 2 ^ 32))
        bad := s.bad || (s.x n).isPtr || (s.x m).isPtr }
  | .lsl1 d n, s => { s with x := put s.x d (.int ((s.x n).num * 2 % 2 ^ 32)), bad := s.bad || (s.x n).isPtr }
  | .lsr1 d n, s => { s with x := put s.x d (.int ((s.x n).num % 2 ^ 32 / 2)), bad := s.bad || (s.x n).isPtr }
  | .cmp n m, s =>
      { s with
        z := decide (sgn (s.x n).num = sgn (s.x m).num)
        lt := decide (sgn (s.x n).num < sgn (s.x m).num)
        bad := s.bad || (s.x n).isPtr || (s.x m).isPtr }
  | .cmpI n k, s =>
      { s with
        z := decide (sgn (s.x n).num = sgn k)
        lt := decide (sgn (s.x n).num < sgn k)
        bad := s.bad || (s.x n).isPtr }
  | .cmpEq n m, s =>
      { s with
        z := s.z && decide (sgn (s.x n).num = sgn (s.x m).num)
        lt := bif s.z then decide (sgn (s.x n).num < sgn (s.x m).num) else s.lt
        bad := s.bad || (s.x n).isPtr || (s.x m).isPtr }
  | .tst n k, s =>
      { s with z := Nat.beq ((s.x n).num % 2 ^ 32 &&& k) 0, lt := false, bad := s.bad || (s.x n).isPtr }
  | .zero d, s => { s with v := put s.v d (fun _ => 0) }
  | .ones d, s => { s with v := put s.v d (fun _ => 255) }
  | .mull d n m, s => { s with v := put s.v d (mullV (dget s.v n) (dget s.v m)) }
  | .mlal d n m, s => { s with v := put s.v d (mlalV (s.v d) (dget s.v n) (dget s.v m)) }
  | .padal d n, s => { s with v := put s.v d (vop .sadalp (s.v d) (s.v n) (s.v n)) }
  | .padd d n m, s => { s with v := dput s.v d (paddV (dget s.v n) (dget s.v m)) }
  | .v3 op d n m, s => { s with v := put s.v d (vop op (s.v d) (s.v n) (s.v m)) }
  | .vd op d n m, s => { s with v := dput s.v d (vop op (dget s.v d) (dget s.v n) (dget s.v m)) }
  | .ve op d n m k, s => { s with v := put s.v d (eop op k (s.v d) (s.v n) (dget s.v m)) }
  | .vn op d n, s => { s with v := dput s.v d (nop op (s.v n)) }
  | .dupS d n, s => { s with v := put s.v d (ofS fun _ => (s.x n).num), bad := s.bad || (s.x n).isPtr }
  | .dupH d n, s => { s with v := put s.v d (ofH fun _ => (s.x n).num), bad := s.bad || (s.x n).isPtr }
  | .dupBd d n, s => { s with v := dput s.v d (ofB fun _ => (s.x n).num), bad := s.bad || (s.x n).isPtr }
  | .dupHd d n, s => { s with v := dput s.v d (ofH fun _ => (s.x n).num), bad := s.bad || (s.x n).isPtr }
  | .dupSd d n, s => { s with v := dput s.v d (ofS fun _ => (s.x n).num), bad := s.bad || (s.x n).isPtr }
  | .dupL d n k, s => { s with v := put s.v d (ofS fun _ => getS (dget s.v n) k) }
  | .ldq d p post, s =>
      { s with
        v := put s.v d (bytes s (s.x p) 0)
        x := put s.x p (addVal (s.x p) post)
        bad := s.bad || out e.base (s.x p) 0 16 }
  | .ldd d p post, s =>
      { s with
        v := dput s.v d (bytes s (s.x p) 0)
        x := put s.x p (addVal (s.x p) post)
        bad := s.bad || out e.base (s.x p) 0 8 }
  | .stq n p, s => { s with m := store s (s.x p) 0 16 (s.v n), bad := s.bad || out e.base (s.x p) 0 16 }
  | .std n p, s => { s with m := store s (s.x p) 0 8 (dget s.v n), bad := s.bad || out e.base (s.x p) 0 8 }
  | .stS n k p, s =>
      { s with m := store s (s.x p) 0 4 (fun b => dget s.v n (4 * k + b)), bad := s.bad || out e.base (s.x p) 0 4 }
  | .stH n k p i, s =>
      { s with
        m := store s (s.x p) 0 2 (fun b => dget s.v n (2 * k + b))
        x := put s.x p (addVal (s.x p) (s.x i).num)
        bad := s.bad || (s.x i).isPtr || out e.base (s.x p) 0 2 }
  | .stB n k p i, s =>
      { s with
        m := store s (s.x p) 0 1 (fun b => dget s.v n (k + b))
        x := put s.x p (addVal (s.x p) (s.x i).num)
        bad := s.bad || (s.x i).isPtr || out e.base (s.x p) 0 1 }
  | .ldrB d p i, s =>
      { s with
        x := put s.x d (.int (s.m (s.x p).region ((s.x p).off + (s.x i).num)).toNat)
        bad := s.bad || (s.x i).isPtr || out e.base (s.x p) (s.x i).num 1 }
  | .ldrH d p i, s =>
      { s with
        x := put s.x d (.int (le2 (bytes s (s.x p) (s.x i).num) 0))
        bad := s.bad || (s.x i).isPtr || out e.base (s.x p) (s.x i).num 2 }
  | .ldrS d p i, s =>
      { s with
        x := put s.x d (.int (le4 (bytes s (s.x p) (4 * (s.x i).num)) 0))
        bad := s.bad || (s.x i).isPtr || out e.base (s.x p) (4 * (s.x i).num) 4 }
  | .strB n p i, s =>
      { s with
        m := store s (s.x p) (s.x i).num 1 (numByte (s.x n).num)
        bad := s.bad || (s.x n).isPtr || (s.x i).isPtr || out e.base (s.x p) (s.x i).num 1 }
  | .strH n p i, s =>
      { s with
        m := store s (s.x p) (s.x i).num 2 (numByte (s.x n).num)
        bad := s.bad || (s.x n).isPtr || (s.x i).isPtr || out e.base (s.x p) (s.x i).num 2 }
  | .strS n p i, s =>
      { s with
        m := store s (s.x p) (4 * (s.x i).num) 4 (numByte (s.x n).num)
        bad := s.bad || (s.x n).isPtr || (s.x i).isPtr || out e.base (s.x p) (4 * (s.x i).num) 4 }
  | .andI d n k, s =>
      { s with x := put s.x d (.int ((s.x n).num % 2 ^ 32 &&& k)), bad := s.bad || (s.x n).isPtr }
  | .andsI d n k, s =>
      { s with
        x := put s.x d (.int ((s.x n).num % 2 ^ 32 &&& k))
        z := Nat.beq ((s.x n).num % 2 ^ 32 &&& k) 0
        lt := decide (sgn ((s.x n).num % 2 ^ 32 &&& k) < 0)
        bad := s.bad || (s.x n).isPtr }
  | .cmpP n, s => { s with z := !(s.x n).isPtr && Nat.beq (s.x n).num 0, lt := false }
  | .dupB d n, s => { s with v := put s.v d (ofB fun _ => (s.x n).num), bad := s.bad || (s.x n).isPtr }
  | .ldB d k p, s =>
      { s with
        v := put s.v (d / 2) (fun b => bif Nat.beq b (8 * (d % 2) + k) then s.m (s.x p).region (s.x p).off
          else s.v (d / 2) b)
        x := put s.x p (addVal (s.x p) 1)
        bad := s.bad || out e.base (s.x p) 0 1 }
  | .stqP n p, s =>
      { s with
        m := store s (s.x p) 0 16 (s.v n)
        x := put s.x p (addVal (s.x p) 16)
        bad := s.bad || out e.base (s.x p) 0 16 }
  | .stdP n p, s =>
      { s with
        m := store s (s.x p) 0 8 (dget s.v n)
        x := put s.x p (addVal (s.x p) 8)
        bad := s.bad || out e.base (s.x p) 0 8 }

/-! ### Programs: basic blocks, as in `Neon/Isa.lean` -/

structure Block where
  body : List Instr
  term : Term
  deriving DecidableEq, Repr

def exec (e : Env) : List Instr → St → St
  | [], s => s
  | i :: is, s => exec e is (step e i s)

def next (s : St) : Term → Nat
  | .jmp l => l
  | .br c t f => bif holds s c then t else f

/-- One basic block; nothing happens after the end of the program. -/
def bstep (e : Env) (P : List Block) (c : Nat × St) : Nat × St :=
  match P[c.1]? with
  | some b => (next (exec e b.body c.2) b.term, exec e b.body c.2)
  | none => c

def run (e : Env) (P : List Block) : Nat → Nat × St → Nat × St
  | 0, c => c
  | n + 1, c => run e P n (bstep e P c)

/-- The program stops in state `s'`. -/
def Stops (e : Env) (P : List Block) (s s' : St) : Prop := ∃ N, ∀ n, N ≤ n → run e P n (0, s) = (P.length, s')

end Ruy.Arm8

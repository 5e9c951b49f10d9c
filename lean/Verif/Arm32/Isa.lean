import Verif.NeonF.Isa
/-
A machine for the ARM32 NEON assembly of the float kernel (kernel_arm32.cc:81-533) and of the float pack
function (pack_arm.cc:1885-2063).

States, memory and float arithmetic are those of `NeonF/Isa.lean`: words of an arbitrary type `A`, separate
regions of words, and a sticky flag `bad` for undefined behaviour.  What is different:

* There are 16 vector registers `q0`, …, `q15`; `d` registers are named by their halves, so `d5[1]` is lane 3 of
  `q2`.
* Numbers have 32 bits.  An `add` is written `addI` where it adds to a number and `addP`, `addPI` where it adds
  to an address; using the wrong one sets `bad`.  The scaled number added to an address is taken modulo `2 ^ 32`.
* The kernel keeps six variables on the stack.  The four bytes at `[sp, #k]` are register `64 + k` of the model,
  and register 13 counts the bytes by which `sp` has been lowered since the start.  Accesses above that many bytes
  (they would hit what the caller keeps on the stack) set `bad`.  `sp` moves only at the start and at the end of
  the kernel, so an offset always means the same place.
* `vmla.f32` is `Ops.fma`; it rounds twice, and about `Ops.fma` nothing is assumed.
* The fields of `KernelParamsFloat` are read by name.  That the byte offsets are right is checked by the compiler
  (kernel_arm32.cc:56-75; `dst_cols` is not checked there).
* `vld1.32`/`vst1.32` of four `d` registers are written as two accesses of four words.
-/
namespace Ruy.Arm32
open Ruy.Neon (put sgn Cond Term)
open Ruy.NeonF (St Val Region Ops Vec VOp vop addVal out words store)

variable {A : Type}

/-- Fields of `KernelParamsFloat` (kernel_common.h:215-236). -/
inductive Field
  | lhsBasePtr | rhsBasePtr | dstBasePtr | bias | startRow | startCol | lastRow | lastCol | dstRows | dstCols
  | lhsStride | rhsStride | dstStride | depth | clampMin | clampMax | flags
  deriving DecidableEq, Repr

structure Env (A : Type) where
  field : Field → Val A
  size : Region → Nat
  ops : Ops A

/-- Sizes and arithmetic, for the functions of `NeonF/Isa.lean` that check accesses. -/
def Env.base (e : Env A) : NeonF.Env A := ⟨fun _ => .int 0, e.size, e.ops⟩

inductive Instr
  /-- `ldr rd, [params, #f]`; `ldrb rd, [params, #f]`. -/
  | ldp (d : Nat) (f : Field) | ldpB (d : Nat) (f : Field)
  /-- `sub sp, sp, #k`; `add sp, sp, #k`. -/
  | subSp (k : Nat) | addSp (k : Nat)
  /-- `ldr rd, [sp, #k]`; `str rn, [sp, #k]`; `ldr rd, [sp, rn]`. -/
  | lds (d k : Nat) | sts (n k : Nat) | ldsR (d n : Nat)
  /-- `mov rd, #k`; `mov rd, rn`; `movgt rd, rn`. -/
  | movI (d k : Nat) | mov (d n : Nat) | movGt (d n : Nat)
  /-- `add rd, rn, #k` on numbers and on addresses; `add rd, rn, rm, lsl #sh` on addresses; `sub rd, rn, rm`. -/
  | addI (d n k : Nat) | addPI (d n k : Nat) | addP (d n m sh : Nat) | sub (d n m : Nat)
  /-- `cmp rn, rm`; `cmp rn, #k`; `cmpeq rn, rm`; `tst rn, #k`. -/
  | cmp (n m : Nat) | cmpI (n k : Nat) | cmpEq (n m : Nat) | tst (n k : Nat)
  /-- `vmov.f32 qd, #0.0`; `vadd.f32`, `vmax.f32`, `vmin.f32`; `vmla.f32 qd, qn, qm[k]`; `vdup.32 qd, rn`;
  `vdup.32 qd, qn[k]`. -/
  | zero (d : Nat) | v3 (op : VOp) (d n m : Nat) | mla (d n m k : Nat) | dupR (d n : Nat) | dupL (d n k : Nat)
  /-- Four words: `vld1.32 {qd}, [rp]!` (`post = 16`), `vld1.32 {qd}, [rp]` (`post = 0`); `vst1.32 {qn}` at
  `[rp] + o`. -/
  | ldq (d p post : Nat) | stq (n p o : Nat)
  /-- One word: `ldr rd, [rp, ri, lsl #2]`; `str rn, [rp, ri, lsl #2]`. -/
  | ldrS (d p i : Nat) | strS (n p i : Nat)
  /-- `and rd, rn, #k`; `ands rd, rn, #k` (`k` as 32 unsigned bits). -/
  | andI (d n k : Nat) | andsI (d n k : Nat)
  /-- `vzip.32 qd, qn`; `vtrn.32 qd, qn`: both registers change.  `vmov qd, qn`. -/
  | zip (d n : Nat) | trn (d n : Nat) | movV (d n : Nat)
  /-- `vdup.32 qd, rn` where `rn` is the number 0. -/
  | dupZ (d n : Nat)
  /-- One word: `vld1.32 {qd[k]}, [rp]!`. -/
  | ldS (d k p : Nat)
  deriving DecidableEq, Repr

def holds (s : St A) : Cond → Bool
  | .eq => s.z | .ne => !s.z | .lt => s.lt | .ge => !s.lt | .le => s.z || s.lt

/-- Is `[sp + k, sp + k + 4)` outside the frame? -/
def outSp (s : St A) (k : Nat) : Bool := Nat.blt (s.x 13).num (k + 4)

/-- VZIP.32 of `a` and `b`: the lower and the upper halves interleaved. -/
def zipLo (a b : Vec A) : Vec A := fun i => bif Nat.beq (i % 2) 0 then a (i / 2) else b (i / 2)
def zipHi (a b : Vec A) : Vec A := fun i => bif Nat.beq (i % 2) 0 then a (2 + i / 2) else b (2 + i / 2)
/-- VTRN.32 of `a` and `b`: a1 and b0 change places, and a3 and b2. -/
def trnLo (a b : Vec A) : Vec A := fun i => bif Nat.beq (i % 2) 0 then a i else b (i - 1)
def trnHi (a b : Vec A) : Vec A := fun i => bif Nat.beq (i % 2) 0 then a (i + 1) else b i

/-- One instruction. -/
def step (e : Env A) : Instr → St A → St A
  | .ldp d f, s => { s with x := put s.x d (e.field f) }
  | .ldpB d f, s => { s with x := put s.x d (.int ((e.field f).num % 2 ^ 8)), bad := s.bad || !(e.field f).isInt }
  | .subSp k, s => { s with x := put s.x 13 (.int ((s.x 13).num + k)) }
  | .addSp k, s => { s with x := put s.x 13 (.int ((s.x 13).num - k)), bad := s.bad || Nat.blt (s.x 13).num k }
  | .lds d k, s => { s with x := put s.x d (s.x (64 + k)), bad := s.bad || outSp s k }
  | .sts n k, s => { s with x := put s.x (64 + k) (s.x n), bad := s.bad || outSp s k }
  | .ldsR d n, s =>
      { s with x := put s.x d (s.x (64 + (s.x n).num)), bad := s.bad || !(s.x n).isInt || outSp s (s.x n).num }
  | .movI d k, s => { s with x := put s.x d (.int k) }
  | .mov d n, s => { s with x := put s.x d (s.x n) }
  | .movGt d n, s => { s with x := put s.x d (bif holds s .le then s.x d else s.x n) }
  | .addI d n k, s =>
      { s with x := put s.x d (.int (((s.x n).num + k) % 2 ^ 32)), bad := s.bad || !(s.x n).isInt }
  | .addPI d n k, s => { s with x := put s.x d (addVal (s.x n) k), bad := s.bad || !(s.x n).isPtr }
  | .addP d n m sh, s =>
      { s with
        x := put s.x d (addVal (s.x n) ((s.x m).num * 2 ^ sh % 2 ^ 32))
        bad := s.bad || !(s.x n).isPtr || !(s.x m).isInt }
  | .sub d n m, s =>
      { s with
        x := put s.x d (.int (((s.x n).num + 2 ^ 32 - (s.x m).num % 2 ^ 32) % 2 ^ 32))
        bad := s.bad || !(s.x n).isInt || !(s.x m).isInt }
  | .cmp n m, s =>
      { s with
        z := decide (sgn (s.x n).num = sgn (s.x m).num)
        lt := decide (sgn (s.x n).num < sgn (s.x m).num)
        bad := s.bad || !(s.x n).isInt || !(s.x m).isInt }
  | .cmpI n k, s =>
      { s with
        z := decide (sgn (s.x n).num = sgn k)
        lt := decide (sgn (s.x n).num < sgn k)
        bad := s.bad || !(s.x n).isInt }
  | .cmpEq n m, s =>
      { s with
        z := s.z && decide (sgn (s.x n).num = sgn (s.x m).num)
        lt := bif s.z then decide (sgn (s.x n).num < sgn (s.x m).num) else s.lt
        bad := s.bad || !(s.x n).isInt || !(s.x m).isInt }
  | .tst n k, s =>
      { s with z := Nat.beq ((s.x n).num % 2 ^ 32 &&& k) 0, lt := false, bad := s.bad || !(s.x n).isInt }
  | .zero d, s => { s with v := put s.v d (fun _ => e.ops.zero) }
  | .v3 op d n m, s => { s with v := put s.v d (vop e.ops op (s.v n) (s.v m)) }
  | .mla d n m k, s => { s with v := put s.v d (fun i => e.ops.fma (s.v d i) (s.v n i) (s.v m k)) }
  | .dupR d n, s => { s with v := put s.v d (fun _ => (s.x n).float e.ops.zero), bad := s.bad || !(s.x n).isWord }
  | .dupL d n k, s => { s with v := put s.v d (fun _ => s.v n k) }
  | .ldq d p post, s =>
      { s with
        v := put s.v d (words s (s.x p) 0)
        x := put s.x p (addVal (s.x p) post)
        bad := s.bad || out e.base (s.x p) 0 4 }
  | .stq n p o, s => { s with m := store s (s.x p) o 4 (s.v n), bad := s.bad || out e.base (s.x p) o 4 }
  | .ldrS d p i, s =>
      { s with
        x := put s.x d (.word (words s (s.x p) (4 * (s.x i).num) 0))
        bad := s.bad || !(s.x i).isInt || out e.base (s.x p) (4 * (s.x i).num) 1 }
  | .strS n p i, s =>
      { s with
        m := store s (s.x p) (4 * (s.x i).num) 1 (fun _ => (s.x n).float e.ops.zero)
        bad := s.bad || !(s.x n).isWord || !(s.x i).isInt || out e.base (s.x p) (4 * (s.x i).num) 1 }

  | .andI d n k, s => { s with x := put s.x d (.int ((s.x n).num % 2 ^ 32 &&& k)), bad := s.bad || !(s.x n).isInt }
  | .andsI d n k, s =>
      { s with
        x := put s.x d (.int ((s.x n).num % 2 ^ 32 &&& k))
        z := Nat.beq ((s.x n).num % 2 ^ 32 &&& k) 0
        lt := false
        bad := s.bad || !(s.x n).isInt }
  | .zip d n, s => { s with v := put (put s.v n (zipHi (s.v d) (s.v n))) d (zipLo (s.v d) (s.v n)) }
  | .trn d n, s => { s with v := put (put s.v n (trnHi (s.v d) (s.v n))) d (trnLo (s.v d) (s.v n)) }
  | .movV d n, s => { s with v := put s.v d (s.v n) }
  | .dupZ d n, s =>
      { s with v := put s.v d (fun _ => e.ops.zero), bad := s.bad || !(s.x n).isInt || !Nat.beq (s.x n).num 0 }
  | .ldS d k p, s =>
      { s with
        v := put s.v d (put (s.v d) k (words s (s.x p) 0 0))
        x := put s.x p (addVal (s.x p) 4)
        bad := s.bad || out e.base (s.x p) 0 1 }

/-! ### Programs: basic blocks, as in `Neon/Isa.lean` -/

structure Block where
  body : List Instr
  term : Term
  deriving DecidableEq, Repr

def exec (e : Env A) : List Instr → St A → St A
  | [], s => s
  | i :: is, s => exec e is (step e i s)

def next (s : St A) : Term → Nat
  | .jmp l => l
  | .br c t f => bif holds s c then t else f

/-- One basic block; nothing happens after the end of the program. -/
def bstep (e : Env A) (P : List Block) (c : Nat × St A) : Nat × St A :=
  match P[c.1]? with
  | some b => (next (exec e b.body c.2) b.term, exec e b.body c.2)
  | none => c

def run (e : Env A) (P : List Block) : Nat → Nat × St A → Nat × St A
  | 0, c => c
  | n + 1, c => run e P n (bstep e P c)

/-- The program stops in state `s'`. -/
def Stops (e : Env A) (P : List Block) (s s' : St A) : Prop := ∃ N, ∀ n, N ≤ n → run e P n (0, s) = (P.length, s')

end Ruy.Arm32

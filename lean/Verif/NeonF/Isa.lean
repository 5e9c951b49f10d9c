import Verif.Neon.Isa
/-
A machine for the AArch64 assembly of the float kernels (kernel_arm64.cc) and of the float pack
functions (pack_arm.cc).

It is the machine of `Neon/Isa.lean` with 32-bit words of an arbitrary type `A` in place of bytes:
the float code only ever loads, stores and moves whole floats, and the arithmetic on floats is given
by the functions `Ops`, about which nothing is assumed.

* A vector register is four words.
* Memory consists of separate regions of words; an address is a region and an offset in bytes.
  Accesses outside a region, accesses at an offset that is no multiple of 4, and arithmetic that
  confuses numbers, addresses and floats set the sticky flag `bad`, which stands for undefined
  behaviour.
* The fields of `KernelParamsFloat` are read by name.  That the byte offsets `RUY_OFFSET_*` are
  right is checked by the compiler (kernel_arm64.cc:7656-7692).
* Prefetches (`prfm`) have no effect and are left out.
-/
namespace Ruy.NeonF
open Ruy.Neon (put sgn Cond)

/-- Arithmetic on floats: `0.0`, FMLA (`fma d n m` for `d + n * m`), FADD, FMAX, FMIN. -/
structure Ops (A : Type) where
  zero : A
  fma : A → A → A → A
  add : A → A → A
  max : A → A → A
  min : A → A → A

/-- The buffers of a kernel: packed operands, destination, bias and `dst_tmp_buf`
(kernel_common.h:215-239); those of a pack function: source, `zerobuf` and packed matrix
(pack_arm.h:362-399). -/
inductive Region
  | lhs | rhs | dst | bias | tmp
  | src | zeros | packed
  deriving DecidableEq, Repr

/-- Contents of a general-purpose register: an unsigned 64-bit number, an address (offset in
bytes), a float, two floats. -/
inductive Val (A : Type) | int (n : Nat) | ptr (r : Region) (o : Nat) | word (a : A) | pair (a b : A)

variable {A : Type}

def Val.num : Val A → Nat | .int n => n | _ => 0
def Val.isInt : Val A → Bool | .int _ => true | _ => false
def Val.isPtr : Val A → Bool | .ptr _ _ => true | _ => false
def Val.isWord : Val A → Bool | .word _ => true | _ => false
def Val.isPair : Val A → Bool | .pair _ _ => true | _ => false
def Val.region : Val A → Region | .ptr r _ => r | _ => .lhs
def Val.off : Val A → Nat | .ptr _ o => o | _ => 0
def Val.float (z : A) : Val A → A | .word a => a | _ => z
/-- Word `k` of a pair. -/
def Val.half (z : A) (k : Nat) : Val A → A | .pair a b => bif Nat.beq k 0 then a else b | _ => z
/-- The low 32 bits. -/
def Val.low : Val A → Val A | .int n => .int (n % 2 ^ 32) | v => v

/-- Fields of `KernelParamsFloat` (kernel_common.h:215-239). -/
inductive Field
  | bias | lhsBasePtr | startRow | lastRow | lastCol | lhsStride | rhsStride | dstStride | depth
  | clampMin | clampMax | flags
  deriving DecidableEq, Repr

/-- What does not change while a program runs; the sizes of the regions are in words. -/
structure Env (A : Type) where
  field : Field → Val A
  size : Region → Nat
  ops : Ops A

abbrev Vec (A : Type) := Nat → A

structure St (A : Type) where
  x : Nat → Val A
  v : Nat → Vec A
  m : Region → Nat → A
  z : Bool
  lt : Bool
  bad : Bool

/-- Operations `op d.4s, n.4s, m.4s`; `.2d` for `trn1D`, `trn2D`. -/
inductive VOp | fadd | fmax | fmin | trn1S | trn2S | trn1D | trn2D
  deriving DecidableEq, Repr

def vop (o : Ops A) : VOp → Vec A → Vec A → Vec A
  | .fadd, n, m => fun i => o.add (n i) (m i)
  | .fmax, n, m => fun i => o.max (n i) (m i)
  | .fmin, n, m => fun i => o.min (n i) (m i)
  | .trn1S, n, m => fun i => bif Nat.beq (i % 2) 0 then n i else m (i - 1)
  | .trn2S, n, m => fun i => bif Nat.beq (i % 2) 0 then n (i + 1) else m i
  | .trn1D, n, m => fun i => bif Nat.beq (i / 2 % 2) 0 then n i else m (i - 2)
  | .trn2D, n, m => fun i => bif Nat.beq (i / 2 % 2) 0 then n (i + 2) else m i

inductive Instr
  /-- `ldr xd, [params, #f]`, `ldr wd, …`, `ldrb wd, …`. -/
  | ldpX (d : Nat) (f : Field) | ldpW (d : Nat) (f : Field) | ldpB (d : Nat) (f : Field)
  /-- `mov wd, #k`; `mov wd, wn`; `mov xd, xn`. -/
  | movI (d k : Nat) | movW (d n : Nat) | movX (d n : Nat)
  /-- `add xd, xn, #k`; `add xd, xn, xm, lsl #sh`; `add wd, wn, #k`; `sub wd, wn, wm`;
  `sub wd, wn, #k`; `subs wd, wn, #k`. -/
  | addXI (d n k : Nat) | addX (d n m sh : Nat) | addWI (d n k : Nat) | subW (d n m : Nat)
  | subWI (d n k : Nat) | subsI (d n k : Nat)
  /-- `cmp wn, wm`; `cmp wn, #k`; `tst wn, #k`; `ccmp wn, wm, 0, eq`. -/
  | cmpW (n m : Nat) | cmpI (n k : Nat) | tst (n k : Nat) | ccmpEq (n m : Nat)
  /-- `and wd, wn, #k`; `ands wd, wn, #k` (`k` as 32 unsigned bits). -/
  | andI (d n k : Nat) | andsI (d n k : Nat)
  /-- `csel wd, wn, wm, c`; `csel xd, xn, xm, c`. -/
  | cselW (d n m : Nat) (c : Cond) | cselX (d n m : Nat) (c : Cond)
  /-- `movi vd.4s, #0`, `movi vd.16b, #0`; `mov vd.16b, vn.16b`. -/
  | movi (d : Nat) | movV (d n : Nat)
  | v3 (op : VOp) (d n m : Nat)
  /-- `fmla vd.4s, vn.4s, vm.s[k]`. -/
  | fmla (d n m k : Nat)
  /-- `dup vd.4s, wn`; `dup vd.4s, vn.s[k]`; `ins vd.d[k], xn`. -/
  | dupS (d n : Nat) | dupES (d n k : Nat) | insD (d k n : Nat)
  /-- Four words: `ldr qd, [xp, #o]`, `ld1 {vd.4s}, [xp], #post`; `ldr qd, [xp, #-o]`;
  `ld1 {vd.4s}, [xp], xi`. -/
  | ldq (d p o post : Nat) | ldqN (d p o : Nat) | ldqR (d p i : Nat)
  /-- Two words, the other two become zero: `ldr dd, [xp, #o]`, `ldr dd, [xp], #post`;
  `ldr dd, [xp, #-o]`; `ld1 {vd.2s}, [xp], xi`. -/
  | ldd (d p o post : Nat) | lddN (d p o : Nat) | lddR (d p i : Nat)
  /-- One word: `ld1 {vd.s}[k], [xp], #4`. -/
  | ldS (d k p : Nat)
  /-- Two words to a general-purpose register: `ldr xd, [xp, #o]`. -/
  | ldx (d p o : Nat)
  /-- Four words: `str qn, [xp, #o]`; `st1 {vn.4s}, [xp], xi`. -/
  | stq (n p o : Nat) | stqR (n p i : Nat)
  /-- One word: `ldr wd, [xp, xi, lsl #2]`; `str wn, [xp, xi, lsl #2]`. -/
  | ldrS (d p i : Nat) | strS (n p i : Nat)
  deriving DecidableEq, Repr

def holds (s : St A) : Cond → Bool
  | .eq => s.z | .ne => !s.z | .lt => s.lt | .ge => !s.lt | .le => s.z || s.lt

/-- Sum of a register (address or number) and a number. -/
def addVal : Val A → Nat → Val A
  | .int a, k => .int ((a + k) % 2 ^ 64)
  | .ptr r o, k => .ptr r (o + k)
  | v, _ => v

/-- Neither a number nor an address. -/
def Val.isData (v : Val A) : Bool := v.isWord || v.isPair

/-- Is an access of `n` words at byte offset `o` outside the region or not aligned? -/
def out (e : Env A) (p : Val A) (o n : Nat) : Bool :=
  !p.isPtr || !Nat.beq ((p.off + o) % 4) 0 || Nat.blt (e.size p.region) ((p.off + o) / 4 + n)
/-- Words at address `p`, byte offset `o`. -/
def words (s : St A) (p : Val A) (o : Nat) : Nat → A := fun i => s.m p.region ((p.off + o) / 4 + i)

/-- The same for the offset `-o`. -/
def outN (e : Env A) (p : Val A) (o n : Nat) : Bool :=
  !p.isPtr || Nat.blt p.off o || !Nat.beq ((p.off - o) % 4) 0 || Nat.blt (e.size p.region) ((p.off - o) / 4 + n)
def wordsN (s : St A) (p : Val A) (o : Nat) : Nat → A := fun i => s.m p.region ((p.off - o) / 4 + i)

/-- Memory after writing the `n` words `f` at word `o` of region `r`. -/
def wr (m : Region → Nat → A) (r : Region) (o n : Nat) (f : Nat → A) : Region → Nat → A :=
  fun r' b => if r' = r ∧ o ≤ b ∧ b < o + n then f (b - o) else m r' b

/-- Memory after writing a whole access. -/
def store (s : St A) (p : Val A) (o n : Nat) (f : Nat → A) : Region → Nat → A :=
  wr s.m p.region ((p.off + o) / 4) n f

/-- Result in the lower half; the upper half becomes zero. -/
def lower (z : A) (v : Vec A) : Vec A := fun i => bif Nat.blt i 2 then v i else z

/-- One instruction. -/
def step (e : Env A) : Instr → St A → St A
  | .ldpX d f, s => { s with x := put s.x d (e.field f) }
  | .ldpW d f, s =>
      { s with x := put s.x d (e.field f).low, bad := s.bad || (e.field f).isPtr || (e.field f).isPair }
  | .ldpB d f, s => { s with x := put s.x d (.int ((e.field f).num % 2 ^ 8)), bad := s.bad || !(e.field f).isInt }
  | .movI d k, s => { s with x := put s.x d (.int k) }
  | .movW d n, s => { s with x := put s.x d (.int ((s.x n).num % 2 ^ 32)), bad := s.bad || !(s.x n).isInt }
  | .movX d n, s => { s with x := put s.x d (s.x n) }
  | .addXI d n k, s => { s with x := put s.x d (addVal (s.x n) k), bad := s.bad || (s.x n).isData }
  | .addX d n m sh, s =>
      { s with
        x := put s.x d (addVal (s.x n) ((s.x m).num * 2 ^ sh))
        bad := s.bad || (s.x n).isData || !(s.x m).isInt }
  | .addWI d n k, s =>
      { s with x := put s.x d (.int (((s.x n).num + k) % 2 ^ 32)), bad := s.bad || !(s.x n).isInt }
  | .subW d n m, s =>
      { s with
        x := put s.x d (.int (((s.x n).num + 2 ^ 32 - (s.x m).num % 2 ^ 32) % 2 ^ 32))
        bad := s.bad || !(s.x n).isInt || !(s.x m).isInt }
  | .subWI d n k, s =>
      { s with x := put s.x d (.int (((s.x n).num + 2 ^ 32 - k) % 2 ^ 32)), bad := s.bad || !(s.x n).isInt }
  | .subsI d n k, s =>
      { s with
        x := put s.x d (.int (((s.x n).num + 2 ^ 32 - k) % 2 ^ 32))
        z := decide (sgn (s.x n).num = sgn k)
        lt := decide (sgn (s.x n).num < sgn k)
        bad := s.bad || !(s.x n).isInt }
  | .cmpW n m, s =>
      { s with
        z := decide (sgn (s.x n).num = sgn (s.x m).num)
        lt := decide (sgn (s.x n).num < sgn (s.x m).num)
        bad := s.bad || !(s.x n).isInt || !(s.x m).isInt }
  | .cmpI n k, s =>
      { s with
        z := decide (sgn (s.x n).num = sgn k)
        lt := decide (sgn (s.x n).num < sgn k)
        bad := s.bad || !(s.x n).isInt }
  | .tst n k, s =>
      { s with z := Nat.beq ((s.x n).num % 2 ^ 32 &&& k) 0, lt := false, bad := s.bad || !(s.x n).isInt }
  | .ccmpEq n m, s =>
      { s with
        z := s.z && decide (sgn (s.x n).num = sgn (s.x m).num)
        lt := s.z && decide (sgn (s.x n).num < sgn (s.x m).num)
        bad := s.bad || !(s.x n).isInt || !(s.x m).isInt }
  | .andI d n k, s =>
      { s with x := put s.x d (.int ((s.x n).num % 2 ^ 32 &&& k)), bad := s.bad || !(s.x n).isInt }
  | .andsI d n k, s =>
      { s with
        x := put s.x d (.int ((s.x n).num % 2 ^ 32 &&& k))
        z := Nat.beq ((s.x n).num % 2 ^ 32 &&& k) 0
        lt := decide (sgn ((s.x n).num % 2 ^ 32 &&& k) < 0)
        bad := s.bad || !(s.x n).isInt }
  | .cselW d n m c, s =>
      { s with
        x := put s.x d (.int ((bif holds s c then (s.x n).num else (s.x m).num) % 2 ^ 32))
        bad := s.bad || !(s.x n).isInt || !(s.x m).isInt }
  | .cselX d n m c, s => { s with x := put s.x d (bif holds s c then s.x n else s.x m) }
  | .movi d, s => { s with v := put s.v d (fun _ => e.ops.zero) }
  | .movV d n, s => { s with v := put s.v d (s.v n) }
  | .v3 op d n m, s => { s with v := put s.v d (vop e.ops op (s.v n) (s.v m)) }
  | .fmla d n m k, s => { s with v := put s.v d (fun i => e.ops.fma (s.v d i) (s.v n i) (s.v m k)) }
  | .dupS d n, s => { s with v := put s.v d (fun _ => (s.x n).float e.ops.zero), bad := s.bad || !(s.x n).isWord }
  | .dupES d n k, s => { s with v := put s.v d (fun _ => s.v n k) }
  | .insD d k n, s =>
      { s with
        v := put s.v d (fun i => bif Nat.beq (i / 2) k then (s.x n).half e.ops.zero (i % 2) else s.v d i)
        bad := s.bad || !(s.x n).isPair }
  | .ldq d p o post, s =>
      { s with
        v := put s.v d (words s (s.x p) o)
        x := put s.x p (addVal (s.x p) post)
        bad := s.bad || out e (s.x p) o 4 }
  | .ldqN d p o, s =>
      { s with v := put s.v d (wordsN s (s.x p) o), bad := s.bad || outN e (s.x p) o 4 }
  | .ldqR d p i, s =>
      { s with
        v := put s.v d (words s (s.x p) 0)
        x := put s.x p (addVal (s.x p) (s.x i).num)
        bad := s.bad || !(s.x i).isInt || out e (s.x p) 0 4 }
  | .ldd d p o post, s =>
      { s with
        v := put s.v d (lower e.ops.zero (words s (s.x p) o))
        x := put s.x p (addVal (s.x p) post)
        bad := s.bad || out e (s.x p) o 2 }
  | .lddN d p o, s =>
      { s with v := put s.v d (lower e.ops.zero (wordsN s (s.x p) o)), bad := s.bad || outN e (s.x p) o 2 }
  | .lddR d p i, s =>
      { s with
        v := put s.v d (lower e.ops.zero (words s (s.x p) 0))
        x := put s.x p (addVal (s.x p) (s.x i).num)
        bad := s.bad || !(s.x i).isInt || out e (s.x p) 0 2 }
  | .ldS d k p, s =>
      { s with
        v := put s.v d (fun i => bif Nat.beq i k then words s (s.x p) 0 0 else s.v d i)
        x := put s.x p (addVal (s.x p) 4)
        bad := s.bad || out e (s.x p) 0 1 }
  | .ldx d p o, s =>
      { s with
        x := put s.x d (.pair (words s (s.x p) o 0) (words s (s.x p) o 1))
        bad := s.bad || out e (s.x p) o 2 }
  | .stq n p o, s => { s with m := store s (s.x p) o 4 (s.v n), bad := s.bad || out e (s.x p) o 4 }
  | .stqR n p i, s =>
      { s with
        m := store s (s.x p) 0 4 (s.v n)
        x := put s.x p (addVal (s.x p) (s.x i).num)
        bad := s.bad || !(s.x i).isInt || out e (s.x p) 0 4 }
  | .ldrS d p i, s =>
      { s with
        x := put s.x d (.word (words s (s.x p) (4 * (s.x i).num) 0))
        bad := s.bad || !(s.x i).isInt || out e (s.x p) (4 * (s.x i).num) 1 }
  | .strS n p i, s =>
      { s with
        m := store s (s.x p) (4 * (s.x i).num) 1 (fun _ => (s.x n).float e.ops.zero)
        bad := s.bad || !(s.x n).isWord || !(s.x i).isInt || out e (s.x p) (4 * (s.x i).num) 1 }

/-! ### Programs: basic blocks, as in `Neon/Isa.lean` -/

structure Block where
  body : List Instr
  term : Neon.Term
  deriving DecidableEq, Repr

def exec (e : Env A) : List Instr → St A → St A
  | [], s => s
  | i :: is, s => exec e is (step e i s)

def next (s : St A) : Neon.Term → Nat
  | .jmp l => l
  | .br c t f => bif holds s c then t else f

/-- One basic block; nothing happens after the end of the program. -/
def bstep (e : Env A) (P : List Block) (c : Nat × St A) : Nat × St A :=
  match P[c.1]? with
  | some b => (next (exec e b.body c.2) b.term, exec e b.body c.2)
  | none => c

def run (e : Env A) (P : List Block) : Nat → Nat × St A → Nat × St A
  | 0, c => c
  | n + 1, c => run e P n (bstep e P c)

/-- The program stops in state `s'`. -/
def Stops (e : Env A) (P : List Block) (s s' : St A) : Prop := ∃ N, ∀ n, N ≤ n → run e P n (0, s) = (P.length, s')

end Ruy.NeonF

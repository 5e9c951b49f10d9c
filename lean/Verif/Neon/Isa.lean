import Verif.Simd.Lane
/-
A machine for the AArch64 assembly kernels of kernel_arm64.cc.

The kernels are `asm volatile` blocks, so the model is a small instruction set
with a register file, flags and memory; the programs (`Verif/Neon/Code*.lean`) are
data, one instruction per line of assembly.  The meaning of an instruction is
transcribed from the Arm architecture manual and is part of the trusted base.

* A vector register is 16 bytes; `.16b`, `.8h`, `.4s` are views of these bytes.
* Memory consists of separate regions of bytes (little endian); an address is a
  region and an offset.  Accesses outside a region and arithmetic that confuses
  pointers and integers set the sticky flag `bad`, which stands for undefined
  behaviour: the theorems show that it is never set.  Nothing is assumed about
  the contents of registers and `dst_tmp_buf` at the start.
* The fields of the `KernelParams8bit` structure are read by name.  That the byte
  offsets `RUY_OFFSET_*` are right is checked by the compiler
  (kernel_arm64.cc:60-90).
* Prefetches (`prfm`) have no effect and are left out.
* `st1 {vn.4s, vm.4s}, [xp], #32` stands in the programs as two stores of 16 bytes.
-/
namespace Ruy.Neon
open Simd (wrap8 wrap16 wrap32 satS32 sshl32 srshl32 sqdmulh32 sqxtn16 sqadd16 sqxtun8 sqxtn8 saddw)

abbrev Byte := BitVec 8

/-- The buffers that a kernel accesses: packed operands, destination, bias, sums,
multipliers (kernel_common.h:96-134) and `dst_tmp_buf`; the buffers that a pack function
accesses: source, `zerobuf`, packed matrix and sums (pack_arm.h:134-200). -/
inductive Region
  | lhs | rhs | dst | bias | lhsSums | rhsSums | mulFix | mulExp | tmp
  | src | zeros | packed | sums
  deriving DecidableEq, Repr

/-- Contents of a general-purpose register: an unsigned 64-bit number or an
address. -/
inductive Val | int (n : Nat) | ptr (r : Region) (o : Nat)
  deriving DecidableEq, Repr

def Val.num : Val → Nat | .int n => n | .ptr _ _ => 0
def Val.isPtr : Val → Bool | .int _ => false | .ptr _ _ => true
def Val.region : Val → Region | .int _ => .lhs | .ptr r _ => r
def Val.off : Val → Nat | .int _ => 0 | .ptr _ o => o

/-- Fields of `KernelParams8bit` (kernel_common.h:96-134). -/
inductive Field
  | bias | lhsSums | rhsSums | lhsBasePtr | mulFix | mulExp
  | lhsZeroPoint | rhsZeroPoint | dstZeroPoint | prodZpDepth
  | startRow | lastRow | lastCol | lhsStride | rhsStride | dstStride | depth
  | clampMin | clampMax | flags
  deriving DecidableEq, Repr

/-- What does not change while a kernel runs: the fields of the parameters (an
int32 field is given by its unsigned representation) and the sizes of the regions. -/
structure Env where
  field : Field → Val
  size : Region → Nat

abbrev Vec := Nat → Byte

structure St where
  x : Nat → Val
  v : Nat → Vec
  m : Region → Nat → Byte
  z : Bool
  lt : Bool
  bad : Bool

/-! ### Views of bytes -/

def le2 (f : Nat → Byte) (o : Nat) : Nat := (f o).toNat + 256 * (f (o + 1)).toNat
def le4 (f : Nat → Byte) (o : Nat) : Nat := le2 f o + 65536 * le2 f (o + 2)
def le8 (f : Nat → Byte) (o : Nat) : Nat := le4 f o + 4294967296 * le4 f (o + 4)
/-- Byte `k` of the two's complement representation of `x`. -/
def byteOf (x : Int) (k : Nat) : Byte := BitVec.ofInt 8 (x / 256 ^ k)

def getB (v : Vec) (i : Nat) : Int := wrap8 (v i).toNat
def getU (v : Vec) (i : Nat) : Int := (v i).toNat
def getH (v : Vec) (i : Nat) : Int := wrap16 (le2 v (2 * i))
def getS (v : Vec) (i : Nat) : Int := wrap32 (le4 v (4 * i))
def ofB (f : Nat → Int) : Vec := fun b => byteOf (f b) 0
def ofH (f : Nat → Int) : Vec := fun b => byteOf (f (b / 2)) (b % 2)
def ofS (f : Nat → Int) : Vec := fun b => byteOf (f (b / 4)) (b % 4)
def ofD (f : Nat → Int) : Vec := fun b => byteOf (f (b / 8)) (b % 8)
/-- Result in the lower half; the upper half becomes zero (`lower`), or in the
upper half; the lower half is kept (`upper`). -/
def lower (v : Vec) : Vec := fun b => if b < 8 then v b else 0
def upper (d v : Vec) : Vec := fun b => if b < 8 then d b else v (b - 8)

/-! ### Vector instructions without memory -/

/-- Operations `op d, n, m`; those with two operands ignore `m`. -/
inductive VOp
  | smull | smlal2 | sadalp | addp | add | sub | smin | sshl | srshl | sqdmulh
  | sqxtnS | sqxtnS2 | sqxtnH | sqxtnH2 | sqxtun | sqxtun2 | sqaddH | saddw
  | umaxB | uminB | smaxB | sminB | smaxH | sminH
  | eor | saddlp
  | sdot | trn1S | trn2S | trn1D | trn2D | zip1B | zip1H | zip2H
  deriving DecidableEq, Repr

/-- `d` is the old content of the destination. -/
def vop : VOp → Vec → Vec → Vec → Vec
  | .smull, _, n, m => ofH fun i => getB n i * getB m i
  | .smlal2, d, n, m => ofH fun i => getH d i + getB n (8 + i) * getB m (8 + i)
  | .sadalp, d, n, _ => ofS fun i => getS d i + (getH n (2 * i) + getH n (2 * i + 1))
  | .addp, _, n, m => ofS fun i =>
      if i < 2 then getS n (2 * i) + getS n (2 * i + 1)
      else getS m (2 * (i - 2)) + getS m (2 * (i - 2) + 1)
  | .add, _, n, m => ofS fun i => getS n i + getS m i
  | .sub, _, n, m => ofS fun i => getS n i - getS m i
  | .smin, _, n, m => ofS fun i => min (getS n i) (getS m i)
  | .sshl, _, n, m => ofS fun i => sshl32 (getS n i) (getS m i)
  | .srshl, _, n, m => ofS fun i => srshl32 (getS n i) (getS m i)
  | .sqdmulh, _, n, m => ofS fun i => sqdmulh32 (getS n i) (getS m i)
  | .sqxtnS, _, n, _ => lower (ofH fun i => sqxtn16 (getS n i))
  | .sqxtnS2, d, n, _ => upper d (ofH fun i => sqxtn16 (getS n i))
  | .sqxtnH, _, n, _ => lower (ofB fun i => sqxtn8 (getH n i))
  | .sqxtnH2, d, n, _ => upper d (ofB fun i => sqxtn8 (getH n i))
  | .sqxtun, _, n, _ => lower (ofB fun i => sqxtun8 (getH n i))
  | .sqxtun2, d, n, _ => upper d (ofB fun i => sqxtun8 (getH n i))
  | .sqaddH, _, n, m => ofH fun i => sqadd16 (getH n i) (getH m i)
  | .saddw, _, n, m => ofS fun i => saddw (getS n i) (getH m i)
  | .umaxB, _, n, m => ofB fun i => max (getU n i) (getU m i)
  | .uminB, _, n, m => ofB fun i => min (getU n i) (getU m i)
  | .smaxB, _, n, m => ofB fun i => max (getB n i) (getB m i)
  | .sminB, _, n, m => ofB fun i => min (getB n i) (getB m i)
  | .smaxH, _, n, m => ofH fun i => max (getH n i) (getH m i)
  | .sminH, _, n, m => ofH fun i => min (getH n i) (getH m i)
  | .eor, _, n, m => fun b => n b ^^^ m b
  | .saddlp, _, n, _ => ofH fun i => getB n (2 * i) + getB n (2 * i + 1)
  | .sdot, d, n, m => ofS fun i => getS d i +
      (getB n (4 * i) * getB m (4 * i) + getB n (4 * i + 1) * getB m (4 * i + 1) +
        getB n (4 * i + 2) * getB m (4 * i + 2) + getB n (4 * i + 3) * getB m (4 * i + 3))
  | .trn1S, _, n, m => fun b => if b / 4 % 2 = 0 then n b else m (b - 4)
  | .trn2S, _, n, m => fun b => if b / 4 % 2 = 0 then n (b + 4) else m b
  | .trn1D, _, n, m => fun b => if b / 8 % 2 = 0 then n b else m (b - 8)
  | .trn2D, _, n, m => fun b => if b / 8 % 2 = 0 then n (b + 8) else m b
  | .zip1B, _, n, m => fun b => if b % 2 = 0 then n (b / 2) else m (b / 2)
  | .zip1H, _, n, m => fun b => if b / 2 % 2 = 0 then n (2 * (b / 4) + b % 2) else m (2 * (b / 4) + b % 2)
  | .zip2H, _, n, m => fun b => if b / 2 % 2 = 0 then n (8 + 2 * (b / 4) + b % 2) else m (8 + 2 * (b / 4) + b % 2)

/-- Operations by element, `op d.4s, n.4s, m.s[k]`; `sdot d.4s, n.16b, m.4b[k]`. -/
inductive EOp | mls | mul | sqdmulh | sdot
  deriving DecidableEq, Repr

def eop : EOp → Nat → Vec → Vec → Vec → Vec
  | .mls, k, d, n, m => ofS fun i => getS d i - getS n i * getS m k
  | .mul, k, _, n, m => ofS fun i => getS n i * getS m k
  | .sqdmulh, k, _, n, m => ofS fun i => sqdmulh32 (getS n i) (getS m k)
  | .sdot, k, d, n, m => ofS fun i => getS d i +
      (getB n (4 * i) * getB m (4 * k) + getB n (4 * i + 1) * getB m (4 * k + 1) +
        getB n (4 * i + 2) * getB m (4 * k + 2) + getB n (4 * i + 3) * getB m (4 * k + 3))

/-- Conditions; `ge` etc. are the signed comparisons. -/
inductive Cond | eq | ne | lt | ge | le
  deriving DecidableEq, Repr

inductive Instr
  /-- `ldr xd, [params, #f]`, `ldr wd, …`, `ldrb wd, …`, `ldrh wd, …`. -/
  | ldpX (d : Nat) (f : Field) | ldpW (d : Nat) (f : Field)
  | ldpB (d : Nat) (f : Field) | ldpH (d : Nat) (f : Field)
  /-- `mov wd, #k`; `mov wd, wn`; `mov xd, xn`. -/
  | movI (d k : Nat) | movW (d n : Nat) | movX (d n : Nat)
  /-- `add xd, xn, #k`; `add xd, xn, xm, lsl #sh`; `add wd, wn, #k`; `sub wd, wn, wm`. -/
  | addXI (d n k : Nat) | addX (d n m sh : Nat) | addWI (d n k : Nat) | subW (d n m : Nat)
  /-- `cmp wn, wm`; `cmp wn, #k`; `tst wn, #k`; `ccmp wn, wm, 0, eq`. -/
  | cmpW (n m : Nat) | cmpI (n k : Nat) | tst (n k : Nat) | ccmpEq (n m : Nat)
  /-- `ands wd, wn, #k` (`k` as 32 unsigned bits); `cmp xn, #0` for an address (followed by `beq`). -/
  | andsI (d n k : Nat) | cmpP (n : Nat)
  /-- `csel wd, wn, wm, c`; `csel xd, xn, xm, c`. -/
  | cselW (d n m : Nat) (c : Cond) | cselX (d n m : Nat) (c : Cond)
  /-- `movi vd.4s, #0`; `mvni vd.4s, #0`. -/
  | movi (d : Nat) | mvni (d : Nat)
  | v3 (op : VOp) (d n m : Nat)
  | ve (op : EOp) (d n m k : Nat)
  /-- `dup vd.4s, wn`; `dup vd.8h, wn`; `dup vd.16b, wn`; `dup vd.4s, vn.s[k]`;
  `dup vd.8h, vn.h[k]`; `dup vd.4h, vn.h[k]`. -/
  | dupS (d n : Nat) | dupH (d n : Nat) | dupB (d n : Nat) | dupES (d n k : Nat)
  | dupEH (d n k : Nat) | dupEH4 (d n k : Nat)
  /-- `ins vd.h[k], wn`; `ins vd.s[k], wn`; `ins vd.d[k], xn`. -/
  | insH (d k n : Nat) | insS (d k n : Nat) | insD (d k n : Nat)
  /-- 16 bytes: `ldr qd, [xp, #o]`, `ld1 {vd.16b}, [xp], #post`, `ld1 {vd.4s}, …`. -/
  | ldq (d p o post : Nat)
  /-- 8 bytes, upper half zero: `ldr dd, [xp, #o]`, `ld1 {vd.8b}, [xp], #post`. -/
  | ldd (d p o post : Nat)
  /-- 16 or 8 bytes with the increment in a register: `ld1 {vd.16b}, [xp], xi`, `ld1 {vd.8b}, …`. -/
  | ldqR (d p i : Nat) | lddR (d p i : Nat)
  /-- One byte: `ld1 {vd.b}[k], [xp], #1`. -/
  | ldB (d k p : Nat)
  /-- 8 bytes to a general-purpose register: `ldr xd, [xp, #o]`. -/
  | ldx (d p o : Nat)
  /-- 8 bytes before the address: `ldr dd, [xp, #-o]`; `ldr xd, [xp, #-o]`. -/
  | lddN (d p o : Nat) | ldxN (d p o : Nat)
  /-- 16 bytes: `str qn, [xp, #o]`, `st1 {vn.16b}, [xp]`. -/
  | stq (n p o : Nat)
  /-- `st1 {vn.b}[k], [xp], #1`; `.h`, #2; `.s`, #4. -/
  | stB (n k p : Nat) | stH (n k p : Nat) | stS (n k p : Nat)
  /-- `ldrb wd, [xp, wi, uxtw]`; `ldrh wd, [xp, xi, lsl #1]`; `ldr wd, [xp, xi, lsl #2]`. -/
  | ldrB (d p i : Nat) | ldrH (d p i : Nat) | ldrS (d p i : Nat)
  /-- The stores with the same addressing. -/
  | strB (n p i : Nat) | strH (n p i : Nat) | strS (n p i : Nat)
  /-- `ldrsh wd, [params, #f]`; `ldrsh wd, [xp, xi, lsl #1]`. -/
  | ldpSH (d : Nat) (f : Field) | ldrSH (d p i : Nat)
  /-- `and wd, wn, #k` (`k` as 32 unsigned bits). -/
  | andI (d n k : Nat)
  /-- For addresses: `sub xd, xn, #k`; `cmp xn, xm`. -/
  | subP (d n k : Nat) | cmpPP (n m : Nat)
  /-- `ldr qd, [xp, #-o]`; `ldr xd, [xp], #8`. -/
  | ldqN (d p o : Nat) | ldxP (d p : Nat)
  /-- `dup dd, vn.d[k]`. -/
  | dupD (d n k : Nat)
  /-- `st1 {vn.8b}, [xp]`; `st1 {vn.8b}, [xp], xi`. -/
  | std (n p : Nat) | stdR (n p i : Nat)
  /-- `st1 {vn.16b}, [xp], #16`; `st1 {vn.16b}, [xp], xi`; also with `.8h` and `.4s`. -/
  | stqP (n p : Nat) | stqR (n p i : Nat)
  /-- `st1 {vn.4s, vm.4s}, [xp], xi`. -/
  | st2R (n m p i : Nat)
  /-- `subs wd, wn, #k`; `adds wd, wn, #k`; `add xd, xn, wm, sxtw` with a number that is not negative. -/
  | subsI (d n k : Nat) | addsI (d n k : Nat) | addXS (d n m : Nat)
  /-- `movi vd.16b, #k`; `dup vd.8b, wn`. -/
  | moviB (d k : Nat) | dupB8 (d n : Nat)
  deriving DecidableEq, Repr

/-- Update of one register. -/
def put {α : Type} (f : Nat → α) (d : Nat) (a : α) : Nat → α :=
  fun i => bif Nat.beq i d then a else f i

/-- A 16-bit word of memory, sign-extended into a `w` register. -/
def loadSH (a : Val) : Val := .int ((wrap16 a.num % 2 ^ 32).toNat)

/-- The low 32 bits, read as signed numbers. -/
def sgn (a : Nat) : Int :=
  bif Nat.blt (a % 2 ^ 32) (2 ^ 31) then (a % 2 ^ 32 : Nat) else (a % 2 ^ 32 : Nat) - 2 ^ 32

def holds (s : St) : Cond → Bool
  | .eq => s.z | .ne => !s.z | .lt => s.lt | .ge => !s.lt | .le => s.z || s.lt

/-- Sum of a register (address or number) and a number; sum of two addresses is
`bad`. Offsets are natural numbers: no kernel moves a pointer backwards. -/
def addVal : Val → Nat → Val
  | .int a, k => .int ((a + k) % 2 ^ 64)
  | .ptr r o, k => .ptr r (o + k)

/-- Is an access of `n` bytes at offset `o` outside the region? -/
def out (e : Env) (p : Val) (o n : Nat) : Bool :=
  !p.isPtr || Nat.blt (e.size p.region) (p.off + o + n)

/-- Bytes `o, …` at address `p`. -/
def bytes (s : St) (p : Val) (o : Nat) : Nat → Byte := fun b => s.m p.region (p.off + o + b)

/-- The same for the offset `-o`. -/
def outN (e : Env) (p : Val) (o n : Nat) : Bool :=
  !p.isPtr || Nat.blt p.off o || Nat.blt (e.size p.region) (p.off - o + n)
def bytesN (s : St) (p : Val) (o : Nat) : Nat → Byte := fun b => s.m p.region (p.off - o + b)

/-- Memory after writing the `n` bytes `f` at offset `o` of region `r`. -/
def wr (m : Region → Nat → Byte) (r : Region) (o n : Nat) (f : Nat → Byte) :
    Region → Nat → Byte :=
  fun r' b => if r' = r ∧ o ≤ b ∧ b < o + n then f (b - o) else m r' b

/-- Memory after writing a whole access. -/
def store (s : St) (p : Val) (o n : Nat) (f : Nat → Byte) : Region → Nat → Byte :=
  wr s.m p.region (p.off + o) n f

def numByte (n : Nat) : Nat → Byte := fun b => BitVec.ofNat 8 (n / 256 ^ b)

/-- One instruction. -/
def step (e : Env) : Instr → St → St
  | .ldpX d f, s => { s with x := put s.x d (e.field f) }
  | .ldpW d f, s => { s with x := put s.x d (.int ((e.field f).num % 2 ^ 32)), bad := s.bad || (e.field f).isPtr }
  | .ldpB d f, s => { s with x := put s.x d (.int ((e.field f).num % 2 ^ 8)), bad := s.bad || (e.field f).isPtr }
  | .ldpH d f, s => { s with x := put s.x d (.int ((e.field f).num % 2 ^ 16)), bad := s.bad || (e.field f).isPtr }
  | .movI d k, s => { s with x := put s.x d (.int k) }
  | .movW d n, s => { s with x := put s.x d (.int ((s.x n).num % 2 ^ 32)), bad := s.bad || (s.x n).isPtr }
  | .movX d n, s => { s with x := put s.x d (s.x n) }
  | .addXI d n k, s => { s with x := put s.x d (addVal (s.x n) k) }
  | .addX d n m sh, s =>
      { s with x := put s.x d (addVal (s.x n) ((s.x m).num * 2 ^ sh)), bad := s.bad || (s.x m).isPtr }
  | .addWI d n k, s =>
      { s with x := put s.x d (.int (((s.x n).num + k) % 2 ^ 32)), bad := s.bad || (s.x n).isPtr }
  | .subW d n m, s =>
      { s with
        x := put s.x d (.int (((s.x n).num + 2 ^ 32 - (s.x m).num % 2 ^ 32) % 2 ^ 32))
        bad := s.bad || (s.x n).isPtr || (s.x m).isPtr }
  | .cmpW n m, s =>
      { s with
        z := decide (sgn (s.x n).num = sgn (s.x m).num)
        lt := decide (sgn (s.x n).num < sgn (s.x m).num)
        bad := s.bad || (s.x n).isPtr || (s.x m).isPtr }
  | .cmpI n k, s =>
      { s with
        z := decide (sgn (s.x n).num = sgn k)
        lt := decide (sgn (s.x n).num < sgn k)
        bad := s.bad || (s.x n).isPtr }
  | .tst n k, s =>
      { s with z := Nat.beq ((s.x n).num % 2 ^ 32 &&& k) 0, lt := false, bad := s.bad || (s.x n).isPtr }
  | .andsI d n k, s =>
      { s with
        x := put s.x d (.int ((s.x n).num % 2 ^ 32 &&& k))
        z := Nat.beq ((s.x n).num % 2 ^ 32 &&& k) 0
        lt := decide (sgn ((s.x n).num % 2 ^ 32 &&& k) < 0)
        bad := s.bad || (s.x n).isPtr }
  | .cmpP n, s => { s with z := !(s.x n).isPtr && Nat.beq (s.x n).num 0, lt := false }
  | .ccmpEq n m, s =>
      { s with
        z := s.z && decide (sgn (s.x n).num = sgn (s.x m).num)
        lt := s.z && decide (sgn (s.x n).num < sgn (s.x m).num)
        bad := s.bad || (s.x n).isPtr || (s.x m).isPtr }
  | .cselW d n m c, s =>
      { s with
        x := put s.x d (.int ((bif holds s c then (s.x n).num else (s.x m).num) % 2 ^ 32))
        bad := s.bad || (s.x n).isPtr || (s.x m).isPtr }
  | .cselX d n m c, s => { s with x := put s.x d (bif holds s c then s.x n else s.x m) }
  | .movi d, s => { s with v := put s.v d (fun _ => 0) }
  | .mvni d, s => { s with v := put s.v d (fun _ => 255) }
  | .v3 op d n m, s => { s with v := put s.v d (vop op (s.v d) (s.v n) (s.v m)) }
  | .ve op d n m k, s => { s with v := put s.v d (eop op k (s.v d) (s.v n) (s.v m)) }
  | .dupS d n, s => { s with v := put s.v d (ofS fun _ => (s.x n).num), bad := s.bad || (s.x n).isPtr }
  | .dupH d n, s => { s with v := put s.v d (ofH fun _ => (s.x n).num), bad := s.bad || (s.x n).isPtr }
  | .dupB d n, s => { s with v := put s.v d (ofB fun _ => (s.x n).num), bad := s.bad || (s.x n).isPtr }
  | .dupES d n k, s => { s with v := put s.v d (ofS fun _ => getS (s.v n) k) }
  | .dupEH d n k, s => { s with v := put s.v d (ofH fun _ => getH (s.v n) k) }
  | .dupEH4 d n k, s => { s with v := put s.v d (lower (ofH fun _ => getH (s.v n) k)) }
  | .insH d k n, s =>
      { s with
        v := put s.v d (ofH fun i => if i = k then (s.x n).num else getH (s.v d) i)
        bad := s.bad || (s.x n).isPtr }
  | .insS d k n, s =>
      { s with
        v := put s.v d (ofS fun i => if i = k then (s.x n).num else getS (s.v d) i)
        bad := s.bad || (s.x n).isPtr }
  | .insD d k n, s =>
      { s with
        v := put s.v d (fun b => if b / 8 = k then numByte (s.x n).num (b % 8) else s.v d b)
        bad := s.bad || (s.x n).isPtr }
  | .ldq d p o post, s =>
      { s with
        v := put s.v d (bytes s (s.x p) o)
        x := put s.x p (addVal (s.x p) post)
        bad := s.bad || out e (s.x p) o 16 }
  | .ldd d p o post, s =>
      { s with
        v := put s.v d (lower (bytes s (s.x p) o))
        x := put s.x p (addVal (s.x p) post)
        bad := s.bad || out e (s.x p) o 8 }
  | .ldqR d p i, s =>
      { s with
        v := put s.v d (bytes s (s.x p) 0)
        x := put s.x p (addVal (s.x p) (s.x i).num)
        bad := s.bad || (s.x i).isPtr || out e (s.x p) 0 16 }
  | .lddR d p i, s =>
      { s with
        v := put s.v d (lower (bytes s (s.x p) 0))
        x := put s.x p (addVal (s.x p) (s.x i).num)
        bad := s.bad || (s.x i).isPtr || out e (s.x p) 0 8 }
  | .ldB d k p, s =>
      { s with
        v := put s.v d (fun b => bif Nat.beq b k then s.m (s.x p).region (s.x p).off else s.v d b)
        x := put s.x p (addVal (s.x p) 1)
        bad := s.bad || out e (s.x p) 0 1 }
  | .ldx d p o, s =>
      { s with
        x := put s.x d (.int (le8 (bytes s (s.x p) o) 0))
        bad := s.bad || out e (s.x p) o 8 }
  | .lddN d p o, s =>
      { s with
        v := put s.v d (lower (bytesN s (s.x p) o))
        bad := s.bad || outN e (s.x p) o 8 }
  | .ldxN d p o, s =>
      { s with
        x := put s.x d (.int (le8 (bytesN s (s.x p) o) 0))
        bad := s.bad || outN e (s.x p) o 8 }
  | .stq n p o, s =>
      { s with m := store s (s.x p) o 16 (s.v n), bad := s.bad || out e (s.x p) o 16 }
  | .stB n k p, s =>
      { s with
        m := store s (s.x p) 0 1 (fun b => s.v n (k + b))
        x := put s.x p (addVal (s.x p) 1)
        bad := s.bad || out e (s.x p) 0 1 }
  | .stH n k p, s =>
      { s with
        m := store s (s.x p) 0 2 (fun b => s.v n (2 * k + b))
        x := put s.x p (addVal (s.x p) 2)
        bad := s.bad || out e (s.x p) 0 2 }
  | .stS n k p, s =>
      { s with
        m := store s (s.x p) 0 4 (fun b => s.v n (4 * k + b))
        x := put s.x p (addVal (s.x p) 4)
        bad := s.bad || out e (s.x p) 0 4 }
  | .ldrB d p i, s =>
      { s with
        x := put s.x d (.int (s.m (s.x p).region ((s.x p).off + (s.x i).num % 2 ^ 32)).toNat)
        bad := s.bad || (s.x i).isPtr || out e (s.x p) ((s.x i).num % 2 ^ 32) 1 }
  | .ldrH d p i, s =>
      { s with
        x := put s.x d (.int (le2 (bytes s (s.x p) (2 * (s.x i).num)) 0))
        bad := s.bad || (s.x i).isPtr || out e (s.x p) (2 * (s.x i).num) 2 }
  | .ldrS d p i, s =>
      { s with
        x := put s.x d (.int (le4 (bytes s (s.x p) (4 * (s.x i).num)) 0))
        bad := s.bad || (s.x i).isPtr || out e (s.x p) (4 * (s.x i).num) 4 }
  | .strB n p i, s =>
      { s with
        m := store s (s.x p) ((s.x i).num % 2 ^ 32) 1 (numByte (s.x n).num)
        bad := s.bad || (s.x n).isPtr || (s.x i).isPtr || out e (s.x p) ((s.x i).num % 2 ^ 32) 1 }
  | .strH n p i, s =>
      { s with
        m := store s (s.x p) (2 * (s.x i).num) 2 (numByte (s.x n).num)
        bad := s.bad || (s.x n).isPtr || (s.x i).isPtr || out e (s.x p) (2 * (s.x i).num) 2 }
  | .strS n p i, s =>
      { s with
        m := store s (s.x p) (4 * (s.x i).num) 4 (numByte (s.x n).num)
        bad := s.bad || (s.x n).isPtr || (s.x i).isPtr || out e (s.x p) (4 * (s.x i).num) 4 }

  | .ldpSH d f, s =>
      { s with
        x := put s.x d (loadSH (e.field f))
        bad := s.bad || (e.field f).isPtr }
  | .ldrSH d p i, s =>
      { s with
        x := put s.x d (.int ((getH (bytes s (s.x p) (2 * (s.x i).num)) 0 % 2 ^ 32).toNat))
        bad := s.bad || (s.x i).isPtr || out e (s.x p) (2 * (s.x i).num) 2 }
  | .andI d n k, s => { s with x := put s.x d (.int ((s.x n).num % 2 ^ 32 &&& k)), bad := s.bad || (s.x n).isPtr }
  | .subP d n k, s =>
      { s with
        x := put s.x d (.ptr (s.x n).region ((s.x n).off - k))
        bad := s.bad || !(s.x n).isPtr || Nat.blt (s.x n).off k }
  | .cmpPP n m, s =>
      { s with
        z := Nat.beq (s.x n).off (s.x m).off
        lt := Nat.blt (s.x n).off (s.x m).off
        bad := s.bad || !(s.x n).isPtr || !(s.x m).isPtr || !decide ((s.x n).region = (s.x m).region) }
  | .ldqN d p o, s =>
      { s with
        v := put s.v d (bytesN s (s.x p) o)
        bad := s.bad || outN e (s.x p) o 16 }
  | .ldxP d p, s =>
      { s with
        x := put (put s.x p (addVal (s.x p) 8)) d (.int (le8 (bytes s (s.x p) 0) 0))
        bad := s.bad || out e (s.x p) 0 8 }
  | .dupD d n k, s => { s with v := put s.v d (lower fun b => s.v n (8 * k + b)) }
  | .std n p, s => { s with m := store s (s.x p) 0 8 (s.v n), bad := s.bad || out e (s.x p) 0 8 }
  | .stdR n p i, s =>
      { s with
        m := store s (s.x p) 0 8 (s.v n)
        x := put s.x p (addVal (s.x p) (s.x i).num)
        bad := s.bad || (s.x i).isPtr || out e (s.x p) 0 8 }
  | .stqP n p, s =>
      { s with
        m := store s (s.x p) 0 16 (s.v n)
        x := put s.x p (addVal (s.x p) 16)
        bad := s.bad || out e (s.x p) 0 16 }
  | .stqR n p i, s =>
      { s with
        m := store s (s.x p) 0 16 (s.v n)
        x := put s.x p (addVal (s.x p) (s.x i).num)
        bad := s.bad || (s.x i).isPtr || out e (s.x p) 0 16 }
  | .st2R n k p i, s =>
      { s with
        m := wr (store s (s.x p) 0 16 (s.v n)) (s.x p).region ((s.x p).off + 16) 16 (s.v k)
        x := put s.x p (addVal (s.x p) (s.x i).num)
        bad := s.bad || (s.x i).isPtr || out e (s.x p) 0 32 }
  | .subsI d n k, s =>
      { s with
        x := put s.x d (.int (((s.x n).num + 2 ^ 32 - k) % 2 ^ 32))
        z := decide (sgn (s.x n).num = sgn k)
        lt := decide (sgn (s.x n).num < sgn k)
        bad := s.bad || (s.x n).isPtr }
  | .addsI d n k, s =>
      { s with
        x := put s.x d (.int (((s.x n).num + k) % 2 ^ 32))
        z := Nat.beq (((s.x n).num + k) % 2 ^ 32) 0
        lt := decide (sgn (s.x n).num + sgn k < 0)
        bad := s.bad || (s.x n).isPtr }
  | .addXS d n i, s =>
      { s with
        x := put s.x d (addVal (s.x n) ((s.x i).num % 2 ^ 32))
        bad := s.bad || (s.x i).isPtr || !Nat.blt ((s.x i).num % 2 ^ 32) (2 ^ 31) }
  | .moviB d k, s => { s with v := put s.v d (ofB fun _ => k) }
  | .dupB8 d n, s => { s with v := put s.v d (lower (ofB fun _ => (s.x n).num)), bad := s.bad || (s.x n).isPtr }

/-! ### Programs

A program is a list of basic blocks: instructions without branches and labels,
followed by at most one branch.  Block numbers replace the labels; the block after
the last one is the end of the `asm` statement. -/

inductive Term
  /-- Fall through to, or branch to, the block. -/
  | jmp (l : Nat)
  /-- Conditional branch: to `t` if `c` holds, else fall through to `f`. -/
  | br (c : Cond) (t f : Nat)
  deriving DecidableEq, Repr

structure Block where
  body : List Instr
  term : Term
  deriving DecidableEq, Repr

def exec (e : Env) : List Instr → St → St
  | [], s => s
  | i :: is, s => exec e is (step e i s)

def next (s : St) : Term → Nat
  | .jmp l => l
  | .br c t f => bif holds s c then t else f

/-- One basic block; nothing happens after the end of the program. -/
def bstep (e : Env) (P : List Block) (c : Nat × St) : Nat × St :=
  match P[c.1]? with
  | some b => (next (exec e b.body c.2) b.term, exec e b.body c.2)
  | none => c

def run (e : Env) (P : List Block) : Nat → Nat × St → Nat × St
  | 0, c => c
  | n + 1, c => run e P n (bstep e P c)

end Ruy.Neon

import Verif.Neon.DRowJob
import Verif.Neon.DPackAsm
/-
Running `Pack8bitRowMajorForNeonDotprod`: blocks of 8 columns.
-/
namespace Ruy.Neon.RJob
open Simd (wrap8 wrap16 wrap32)
open DPack (dotV)

/-! ### Data flow -/

def zip1B (a b : Vec) : Vec := fun k => if k % 2 = 0 then a (k / 2) else b (k / 2)
def zip1H (a b : Vec) : Vec := fun k => if k / 2 % 2 = 0 then a (2 * (k / 4) + k % 2) else b (2 * (k / 4) + k % 2)
def zip2H (a b : Vec) : Vec := fun k => if k / 2 % 2 = 0 then a (8 + 2 * (k / 4) + k % 2) else b (8 + 2 * (k / 4) + k % 2)
def eorv (a b : Vec) : Vec := fun k => a k ^^^ b k

/-- The two vectors that are stored for the rows `x 0`, …, `x 3`. -/
def zq (x : Nat → Vec) (f : Vec) : Nat → Vec
  | 0 => eorv (zip1H (zip1B (x 0) (x 1)) (zip1B (x 2) (x 3))) f
  | _ => eorv (zip2H (zip1B (x 0) (x 1)) (zip1B (x 2) (x 3))) f

/-- Vector `h` has columns 4h, …, 4h + 3 of all rows. -/
theorem zq_eq (x : Nat → Vec) (f : Vec) {h : Nat} (hh : h < 2) {b : Nat} (hb : b < 16) :
    zq x f h b = x (b % 4) (4 * h + b / 4) ^^^ f b := by
  have key : ∀ b < 16, ∀ h < 2, ∀ x : Nat → Vec, ∀ f, zq x f h b = x (b % 4) (4 * h + b / 4) ^^^ f b := by
    intro b hb h hh x f
    rcases (show h = 0 ∨ h = 1 by omega) with rfl | rfl <;> interval_cases b <;> rfl
  exact key b hb h hh x f

/-- Memory after a block: two stores of entries and two of sums. -/
def st4 (m : Region → Nat → Byte) (p t0 t1 : Val) (q0 q1 d0 d1 : Vec) : Region → Nat → Byte :=
  wr (wr (wr (wr m p.region (p.off + 0) 16 q0) p.region (p.off + 16) 16 q1) t0.region (t0.off + 0) 16 d0)
    t1.region (t1.off + 0) 16 d1

def keepR : List Nat := [54, 55, 56, 57, 58, 59, 60, 61]

theorem p0 (e : Env) (s : St) : Same (48 :: 49 :: 50 :: 51 :: 52 :: 53 :: keepR) s (exec e drow0.body s) ∧
    (exec e drow0.body s).m = s.m ∧
    (exec e drow0.body s).x 0 = .int (((s.x 58).num + 4294967296 - 8) % 4294967296) ∧
    (exec e drow0.body s).lt = decide (sgn (s.x 58).num < sgn 8) ∧
    (exec e drow0.body s).v 26 = ofB (fun _ => (s.x 60).num) ∧ (exec e drow0.body s).v 27 = ofB (fun _ => (1 : Nat)) ∧
    (exec e drow0.body s).bad = (s.bad || (s.x 58).isPtr || (s.x 60).isPtr) := by
  cases s
  exact ⟨by keep, rfl, rfl, rfl, rfl, rfl, rfl⟩

/-- A block has been loaded to `x` and is stored; `t` is the pointer to the sums. -/
structure Blk (x : Nat → Vec) (t : Val) (s s' : St) : Prop where
  m : s'.m = st4 s.m (s.x 52) (addVal (addVal t 0) 0) (addVal (addVal (addVal t 0) 0) 16) (zq x (s.v 26) 0) (zq x (s.v 26) 1)
    (dotV (bytes s t 0) (zq x (s.v 26) 0) (s.v 27)) (dotV (bytes s (addVal t 0) 16) (zq x (s.v 26) 1) (s.v 27))

theorem p1 (e : Env) (s : St) : Same keepR s (exec e drow1.body s) ∧
    Blk (fun r => lower (bytes s (s.x (48 + r)) 0)) (s.x 53) s (exec e drow1.body s) ∧
    (∀ r, r < 4 → (exec e drow1.body s).x (48 + r) = addVal (addVal (s.x (48 + r)) 0) ((s.x (54 + r)).num % 4294967296)) ∧
    (exec e drow1.body s).x 52 = addVal (s.x 52) ((s.x 61).num * 2 ^ 3) ∧
    (exec e drow1.body s).x 53 = addVal (addVal (addVal (addVal (s.x 53) 0) 0) 16) 16 ∧
    (exec e drow1.body s).x 0 = .int (((s.x 0).num + 4294967296 - 8) % 4294967296) ∧
    (exec e drow1.body s).lt = decide (sgn (s.x 0).num < sgn 8) ∧
    (exec e drow1.body s).v 26 = s.v 26 ∧ (exec e drow1.body s).v 27 = s.v 27 ∧
    (exec e drow1.body s).bad = (s.bad || out e (s.x 48) 0 8 || out e (s.x 49) 0 8 || out e (s.x 50) 0 8 ||
      out e (s.x 51) 0 8 || out e (s.x 53) 0 16 || out e (addVal (s.x 53) 0) 16 16 || out e (s.x 52) 0 16 ||
      (s.x 54).isPtr || !Nat.blt ((s.x 54).num % 4294967296) 2147483648 || out e (s.x 52) 16 16 ||
      (s.x 55).isPtr || !Nat.blt ((s.x 55).num % 4294967296) 2147483648 ||
      out e (addVal (addVal (s.x 53) 0) 0) 0 16 || (s.x 61).isPtr ||
      out e (addVal (addVal (addVal (s.x 53) 0) 0) 16) 0 16 || (s.x 0).isPtr ||
      (s.x 56).isPtr || !Nat.blt ((s.x 56).num % 4294967296) 2147483648 ||
      (s.x 57).isPtr || !Nat.blt ((s.x 57).num % 4294967296) 2147483648) := by
  cases s
  exact ⟨by keep, ⟨rfl⟩, by intro c hc; interval_cases c <;> rfl, rfl, rfl, rfl, rfl, rfl, rfl, rfl⟩

theorem p2 (e : Env) (s : St) : Same (48 :: 49 :: 50 :: 51 :: 52 :: 53 :: keepR) s (exec e drow2.body s) ∧
    (exec e drow2.body s).m = s.m ∧ (exec e drow2.body s).v = s.v ∧
    (exec e drow2.body s).x 0 = .int (((s.x 0).num + 8) % 4294967296) ∧
    (exec e drow2.body s).z = Nat.beq (((s.x 0).num + 8) % 4294967296) 0 ∧
    (exec e drow2.body s).bad = (s.bad || (s.x 0).isPtr) := by
  cases s
  exact ⟨by keep, rfl, rfl, rfl, rfl, rfl⟩

theorem p3 (e : Env) (s : St) : Same (0 :: 48 :: 49 :: 50 :: 51 :: 52 :: 53 :: keepR) s (exec e drow3.body s) ∧
    (exec e drow3.body s).m = s.m ∧ (∀ r, r < 4 → (exec e drow3.body s).v r = lower (ofB fun _ => (s.x 59).num)) ∧
    (exec e drow3.body s).v 26 = s.v 26 ∧ (exec e drow3.body s).v 27 = s.v 27 ∧
    (exec e drow3.body s).z = decide (sgn (s.x 0).num = sgn 0) ∧
    (exec e drow3.body s).bad = (s.bad || (s.x 59).isPtr || (s.x 59).isPtr || (s.x 59).isPtr || (s.x 59).isPtr || (s.x 0).isPtr) := by
  cases s
  exact ⟨by keep, rfl, by intro c hc; interval_cases c <;> rfl, rfl, rfl, rfl, rfl⟩

/-- Lane `i` of the four rows. -/
def laneL (i : Nat) : List Instr := [.ldB 0 i srcPtr0, .ldB 1 i srcPtr1, .ldB 2 i srcPtr2, .ldB 3 i srcPtr3]

/-- One more column is loaded. -/
structure Lane (e : Env) (i : Nat) (s s' : St) : Prop where
  same : Same (0 :: 52 :: 53 :: keepR) s s'
  m : s'.m = s.m
  v : ∀ r, r < 4 → s'.v r = fun b => bif Nat.beq b i then s.m (s.x (48 + r)).region (s.x (48 + r)).off else s.v r b
  v26 : s'.v 26 = s.v 26
  v27 : s'.v 27 = s.v 27
  src : ∀ r, r < 4 → s'.x (48 + r) = addVal (s.x (48 + r)) 1

theorem pLane (e : Env) (i : Nat) (s : St) : Lane e i s (exec e (laneL i ++ [.cmpI 0 (i + 1)]) s) ∧
    (exec e (laneL i ++ [.cmpI 0 (i + 1)]) s).z = decide (sgn (s.x 0).num = sgn (i + 1)) ∧
    (exec e (laneL i ++ [.cmpI 0 (i + 1)]) s).bad = (s.bad || out e (s.x 48) 0 1 || out e (s.x 49) 0 1 || out e (s.x 50) 0 1 ||
      out e (s.x 51) 0 1 || (s.x 0).isPtr) := by
  cases s
  exact ⟨⟨by keep, rfl, by intro c hc; interval_cases c <;> rfl, rfl, rfl, by intro c hc; interval_cases c <;> rfl⟩, rfl, rfl⟩

theorem pLast (e : Env) (s : St) : Lane e 6 s (exec e (laneL 6) s) ∧
    (exec e (laneL 6) s).bad = (s.bad || out e (s.x 48) 0 1 || out e (s.x 49) 0 1 || out e (s.x 50) 0 1 || out e (s.x 51) 0 1) := by
  cases s
  exact ⟨⟨by keep, rfl, by intro c hc; interval_cases c <;> rfl, rfl, rfl, by intro c hc; interval_cases c <;> rfl⟩, rfl⟩

theorem p11 (e : Env) (s : St) : Blk s.v (s.x 53) s (exec e drow11.body s) ∧
    (exec e drow11.body s).bad = (s.bad || out e (s.x 53) 0 16 || out e (addVal (s.x 53) 0) 16 16 || out e (s.x 52) 0 16 ||
      out e (s.x 52) 16 16 || out e (addVal (addVal (s.x 53) 0) 0) 0 16 ||
      out e (addVal (addVal (addVal (s.x 53) 0) 0) 16) 0 16) := by
  cases s
  exact ⟨⟨rfl⟩, rfl⟩

end Ruy.Neon.RJob

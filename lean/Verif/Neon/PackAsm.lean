import Verif.Neon.PackJob
import Verif.Neon.Block
/-
Running the pack functions.
-/
namespace Ruy.Neon
open Simd (wrap8 wrap16 wrap32)

/-! ### Data flow -/

def eorV (a b : Vec) : Vec := fun k => a k ^^^ b k

/-- SADDLP and SADALP. -/
def sumV (d x : Vec) : Vec :=
  ofS fun i => getS d i + (getH (ofH fun k => getB x (2 * k) + getB x (2 * k + 1)) (2 * i) +
    getH (ofH fun k => getB x (2 * k) + getB x (2 * k + 1)) (2 * i + 1))

/-- Four stores of 16 bytes. -/
def store4 (m : Region → Nat → Byte) (p : Val) (a b c d : Vec) : Region → Nat → Byte :=
  wr (wr (wr (wr m p.region (p.off + 0) 16 a) p.region (p.off + 16) 16 b)
    p.region (p.off + 32) 16 c) p.region (p.off + 48) 16 d

theorem getB_int8 (x : Vec) (i : Nat) : -128 ≤ getB x i ∧ getB x i ≤ 127 := by
  unfold getB wrap8; omega

theorem getS_sumV (d x : Vec) (i : Nat) :
    getS (sumV d x) i = wrap32 (getS d i + (getB x (4 * i) + getB x (4 * i + 1) + getB x (4 * i + 2) +
      getB x (4 * i + 3))) := by
  unfold sumV
  rw [getS_ofS, getH_ofH, getH_ofH]
  have h0 := getB_int8 x (4 * i)
  have h1 := getB_int8 x (4 * i + 1)
  have h2 := getB_int8 x (4 * i + 2)
  have h3 := getB_int8 x (4 * i + 3)
  rw [show 2 * (2 * i) = 4 * i by omega, show 2 * (2 * i + 1) = 4 * i + 2 by omega]
  rw [show 4 * i + 2 + 1 = 4 * i + 3 from rfl]
  have e : ∀ y : Int, -256 ≤ y → y ≤ 254 → wrap16 y = y := by
    intro y _ _; unfold wrap16; omega
  rw [e _ (by omega) (by omega), e _ (by omega) (by omega), ← add_assoc (getB x (4 * i) + getB x (4 * i + 1))]

namespace PJob

/-- The four entries that are added to lane `i` of the sums of column `c` in block `t`. -/
def quad (j : PJob) (c t i : Nat) : Int :=
  wrap8 (j.entry c (16 * t + 4 * i)).toNat + wrap8 (j.entry c (16 * t + 4 * i + 1)).toNat +
    wrap8 (j.entry c (16 * t + 4 * i + 2)).toNat + wrap8 (j.entry c (16 * t + 4 * i + 3)).toNat

/-- Memory after `t` blocks of 16 rows. -/
def stored (j : PJob) (t : Nat) : Region → Nat → Byte := fun r o =>
  if r = .packed ∧ j.packedBase ≤ o ∧ o < j.packedBase + 64 * t then
    j.entry ((o - j.packedBase) % 64 / 16) (16 * ((o - j.packedBase) / 64) + (o - j.packedBase) % 16)
  else j.m r o

/-- Between blocks of 16 rows: `t` of them are stored, column `c` is read from offset `p c` next. -/
structure At (j : PJob) (t : Nat) (p : Nat → Nat) (s : St) : Prop where
  src : ∀ c, c < 4 → s.x (48 + c) = .ptr (j.reg c) (p c)
  packed : s.x packedPtr = .ptr .packed (j.packedBase + 64 * t)
  sums : s.x sumsPtr = (match j.sumsAt with | some o => .ptr .sums o | none => .int 0)
  inc : ∀ c, c < 4 → s.x (54 + c) = .int (j.inc c)
  rows : s.x rRows = .int j.rows
  zp : s.x rZeroPoint = .int (Job.u32 j.zp)
  mem : s.m = j.stored t
  acc : ∀ c, c < 4 → ∀ i, i < 4 → getS (s.v (28 + c)) i = wrap32 (∑ u ∈ Finset.range t, j.quad c u i)
  x26 : ∀ b, b < 16 → s.v 26 b = BitVec.ofNat 8 j.xor
  ok : s.bad = false

theorem stored_zero (j : PJob) : j.stored 0 = j.m := by
  funext r o
  unfold stored
  rw [if_neg (by omega)]

theorem stored_src {j : PJob} (hf : j.Fits) {c : Nat} (hc : c < 4) (t : Nat) : j.stored t (j.reg c) = j.m (j.reg c) := by
  funext o
  unfold stored
  rw [if_neg (fun h => (hf.reg c hc).1 h.1)]

theorem stored_succ {j : PJob} {t : Nat} {x : Nat → Vec}
    (hx : ∀ c, c < 4 → ∀ b, b < 16 → x c b = j.entry c (16 * t + b)) :
    store4 (j.stored t) (.ptr .packed (j.packedBase + 64 * t)) (x 0) (x 1) (x 2) (x 3) = j.stored (t + 1) := by
  funext r o
  unfold store4 wr
  simp only [Val.region, Val.off]
  by_cases hr : r = .packed
  · subst hr
    simp only [true_and]
    by_cases h3 : j.packedBase + 64 * t + 48 ≤ o ∧ o < j.packedBase + 64 * t + 48 + 16
    · rw [if_pos h3, hx 3 (by omega) _ (by omega)]
      unfold stored
      rw [if_pos ⟨rfl, by omega, by omega⟩]
      congr 1 <;> omega
    rw [if_neg h3]
    by_cases h2 : j.packedBase + 64 * t + 32 ≤ o ∧ o < j.packedBase + 64 * t + 32 + 16
    · rw [if_pos h2, hx 2 (by omega) _ (by omega)]
      unfold stored
      rw [if_pos ⟨rfl, by omega, by omega⟩]
      congr 1 <;> omega
    rw [if_neg h2]
    by_cases h1 : j.packedBase + 64 * t + 16 ≤ o ∧ o < j.packedBase + 64 * t + 16 + 16
    · rw [if_pos h1, hx 1 (by omega) _ (by omega)]
      unfold stored
      rw [if_pos ⟨rfl, by omega, by omega⟩]
      congr 1 <;> omega
    rw [if_neg h1]
    by_cases h0 : j.packedBase + 64 * t + 0 ≤ o ∧ o < j.packedBase + 64 * t + 0 + 16
    · rw [if_pos h0, hx 0 (by omega) _ (by omega)]
      unfold stored
      rw [if_pos ⟨rfl, by omega, by omega⟩]
      congr 1 <;> omega
    rw [if_neg h0]
    unfold stored
    by_cases h : j.packedBase ≤ o ∧ o < j.packedBase + 64 * t
    · rw [if_pos ⟨rfl, h⟩, if_pos ⟨rfl, by omega, by omega⟩]
    · rw [if_neg (fun hh => h hh.2), if_neg (fun hh => by omega)]
  · simp only [hr, false_and, if_false]
    unfold stored
    simp only [hr, false_and, if_false]

theorem acc_succ {j : PJob} {t c i : Nat} {d x : Vec} (hi : i < 4)
    (hx : ∀ b, b < 16 → x b = j.entry c (16 * t + b))
    (hd : getS d i = wrap32 (∑ u ∈ Finset.range t, j.quad c u i)) :
    getS (sumV d x) i = wrap32 (∑ u ∈ Finset.range (t + 1), j.quad c u i) := by
  rw [getS_sumV, hd, Finset.sum_range_succ]
  have e : getB x (4 * i) + getB x (4 * i + 1) + getB x (4 * i + 2) + getB x (4 * i + 3) = j.quad c t i := by
    unfold getB quad
    rw [hx _ (by omega), hx _ (by omega), hx _ (by omega), hx _ (by omega)]
    rfl
  rw [e]
  obtain ⟨k, hk⟩ := wrap32_ex (∑ u ∈ Finset.range t, j.quad c u i)
  rw [hk]
  refine Eq.trans (congrArg wrap32 ?_) (wrap32_mul_add _ k)
  ring


/-! ### Blocks shared by the two functions -/

def keepP : List Nat := [48, 49, 50, 51, 52, 53, 54, 55, 56, 57, 58, 59, 60]
def keepQ : List Nat := [1, 2, 48, 49, 50, 51, 53, 54, 55, 56, 57, 58, 59, 60]

theorem p0 (e : Env) (s : St) : Same keepP s (exec e pack0.body s) ∧ (exec e pack0.body s).m = s.m ∧
    (exec e pack0.body s).x 1 = .int 0 ∧
    (exec e pack0.body s).x 2 = .int ((s.x 58).num % 2 ^ 32 &&& 4294967280) ∧
    (exec e pack0.body s).z = Nat.beq ((s.x 58).num % 2 ^ 32 &&& 4294967280) 0 ∧
    (exec e pack0.body s).v 26 = ofB (fun _ => (s.x 60).num) ∧
    (∀ c, c < 4 → (exec e pack0.body s).v (28 + c) = fun _ => 0) ∧
    (exec e pack0.body s).bad = (s.bad || (s.x 60).isPtr || (s.x 58).isPtr) := by
  cases s
  exact ⟨by keep, rfl, rfl, rfl, rfl, rfl, by intro c hc; interval_cases c <;> rfl, rfl⟩

/-- A block of 16 rows that is loaded in v0, …, v3 is processed (`pack3`, `pack21`). -/
def stores4 : List Instr := [
    .v3 .eor 4 0 26, .v3 .eor 5 1 26, .v3 .eor 6 2 26, .v3 .eor 7 3 26, .v3 .saddlp 16 4 4,
    .stq 4 packedPtr 0, .v3 .saddlp 17 5 5, .stq 5 packedPtr 16, .v3 .saddlp 18 6 6,
    .stq 6 packedPtr 32, .v3 .saddlp 19 7 7, .stq 7 packedPtr 48, .v3 .sadalp 28 16 16,
    .v3 .sadalp 29 17 17, .v3 .sadalp 30 18 18, .v3 .sadalp 31 19 19,
    .addXI packedPtr packedPtr 64]

theorem pStores (e : Env) (s : St) : Same keepQ s (exec e stores4 s) ∧
    (exec e stores4 s).m = store4 s.m (s.x 52) (eorV (s.v 0) (s.v 26)) (eorV (s.v 1) (s.v 26))
      (eorV (s.v 2) (s.v 26)) (eorV (s.v 3) (s.v 26)) ∧
    (exec e stores4 s).x 52 = addVal (s.x 52) 64 ∧
    (∀ c, c < 4 → (exec e stores4 s).v (28 + c) = sumV (s.v (28 + c)) (eorV (s.v c) (s.v 26))) ∧
    (exec e stores4 s).v 26 = s.v 26 ∧
    (exec e stores4 s).bad = (s.bad || out e (s.x 52) 0 16 || out e (s.x 52) 16 16 || out e (s.x 52) 32 16 ||
      out e (s.x 52) 48 16) := by
  cases s
  exact ⟨by keep, rfl, rfl, by intro c hc; interval_cases c <;> rfl, rfl, rfl⟩

theorem p21 (e : Env) (s : St) : Same keepQ s (exec e pack21.body s) ∧
    (exec e pack21.body s).m = store4 s.m (s.x 52) (eorV (s.v 0) (s.v 26)) (eorV (s.v 1) (s.v 26))
      (eorV (s.v 2) (s.v 26)) (eorV (s.v 3) (s.v 26)) ∧
    (exec e pack21.body s).x 52 = addVal (s.x 52) 64 ∧
    (∀ c, c < 4 → (exec e pack21.body s).v (28 + c) = sumV (s.v (28 + c)) (eorV (s.v c) (s.v 26))) ∧
    (exec e pack21.body s).v 26 = s.v 26 ∧
    (exec e pack21.body s).bad = (s.bad || out e (s.x 52) 0 16 || out e (s.x 52) 16 16 || out e (s.x 52) 32 16 ||
      out e (s.x 52) 48 16) := by
  cases s
  exact ⟨by keep, rfl, rfl, by intro c hc; interval_cases c <;> rfl, rfl, rfl⟩

theorem p4 (e : Env) (s : St) : Same keepP s (exec e pack4.body s) ∧ (exec e pack4.body s).m = s.m ∧
    (exec e pack4.body s).x 2 = .int ((s.x 58).num % 2 ^ 32 &&& 15) ∧
    (exec e pack4.body s).z = Nat.beq ((s.x 58).num % 2 ^ 32 &&& 15) 0 ∧
    (exec e pack4.body s).v = s.v ∧
    (exec e pack4.body s).bad = (s.bad || (s.x 58).isPtr) := by
  cases s
  exact ⟨by keep, rfl, rfl, rfl, rfl, rfl⟩

theorem p5 (e : Env) (s : St) : Same (2 :: keepP) s (exec e pack5.body s) ∧ (exec e pack5.body s).m = s.m ∧
    (exec e pack5.body s).z = decide (sgn (s.x 2).num = sgn 0) ∧
    (∀ c, c < 4 → (exec e pack5.body s).v c = ofB (fun _ => (s.x 59).num)) ∧
    (∀ c, c < 4 → (exec e pack5.body s).v (28 + c) = s.v (28 + c)) ∧
    (exec e pack5.body s).v 26 = s.v 26 ∧
    (exec e pack5.body s).bad = (s.bad || (s.x 59).isPtr || (s.x 59).isPtr || (s.x 59).isPtr || (s.x 59).isPtr ||
      (s.x 2).isPtr) := by
  cases s
  exact ⟨by keep, rfl, rfl, by intro c hc; interval_cases c <;> rfl, by intro c hc; interval_cases c <;> rfl, rfl, rfl⟩

/-- RUY_LOAD_ONE_ROW(k), without the comparison that precedes it. -/
def rowLoads (k : Nat) : List Instr := [.ldB 0 k srcPtr0, .ldB 1 k srcPtr1, .ldB 2 k srcPtr2, .ldB 3 k srcPtr3]

def keepR : List Nat := [2, 52, 53, 54, 55, 56, 57, 58, 59, 60]

theorem pRow (e : Env) (k : Nat) (s : St) : Same keepR s (exec e (rowLoads k) s) ∧
    (exec e (rowLoads k) s).m = s.m ∧
    (∀ c, c < 4 → (exec e (rowLoads k) s).x (48 + c) = addVal (s.x (48 + c)) 1) ∧
    (∀ c, c < 4 → (exec e (rowLoads k) s).v c = fun b =>
      bif Nat.beq b k then s.m (s.x (48 + c)).region (s.x (48 + c)).off else s.v c b) ∧
    (∀ c, c < 4 → (exec e (rowLoads k) s).v (28 + c) = s.v (28 + c)) ∧
    (exec e (rowLoads k) s).v 26 = s.v 26 ∧
    (exec e (rowLoads k) s).bad = (s.bad || out e (s.x 48) 0 1 || out e (s.x 49) 0 1 || out e (s.x 50) 0 1 ||
      out e (s.x 51) 0 1) := by
  cases s
  exact ⟨by keep, rfl, by intro c hc; interval_cases c <;> rfl, by intro c hc; interval_cases c <;> rfl,
    by intro c hc; interval_cases c <;> rfl, rfl, rfl⟩

theorem exec_append (e : Env) (a b : List Instr) (s : St) : exec e (a ++ b) s = exec e b (exec e a s) := by
  induction a generalizing s with
  | nil => rfl
  | cons i a ih => exact ih _

theorem pCmp (e : Env) (k : Nat) (s : St) :
    exec e [.cmpI 2 k] s = { s with
      z := decide (sgn (s.x 2).num = sgn k)
      lt := decide (sgn (s.x 2).num < sgn k)
      bad := s.bad || (s.x 2).isPtr } := rfl

theorem p22 (e : Env) (s : St) : (exec e pack22.body s).x = s.x ∧ (exec e pack22.body s).m = s.m ∧
    (exec e pack22.body s).z = (!(s.x 53).isPtr && Nat.beq (s.x 53).num 0) ∧
    (exec e pack22.body s).v 28 = vop .addp (s.v 28) (vop .addp (s.v 28) (s.v 28) (s.v 29))
      (vop .addp (s.v 30) (s.v 30) (s.v 31)) ∧
    (exec e pack22.body s).bad = s.bad := by
  cases s
  exact ⟨rfl, rfl, rfl, rfl, rfl⟩

theorem p23 (e : Env) (s : St) :
    (exec e pack23.body s).m = wr s.m (s.x 53).region ((s.x 53).off + 0) 16 (s.v 28) ∧
    (exec e pack23.body s).bad = (s.bad || out e (s.x 53) 0 16) := by
  cases s
  exact ⟨rfl, rfl⟩

end PJob
end Ruy.Neon

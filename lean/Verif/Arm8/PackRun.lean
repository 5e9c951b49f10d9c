import Verif.Arm8.PackJob
import Verif.Arm8.Depth
import Verif.Neon.PackRun
/-
Running the ARM32 8-bit pack functions.
-/
namespace Ruy.Arm8.Pack
open Ruy.Neon (PJob St Val Region Vec Byte byteOf vop put addVal out out_ptr bytes wr Same eorV sumV sgn sgn_of sgn_eq
  getB getS ofB byteOf_getS getS_zero)
open Ruy.Neon.PJob (and_high and_low beq_zero beq_ne u32_byte nat_byte acc_succ sum_quads)
open Simd (wrap8 wrap32)

section
variable {wide : Bool} {j : PJob}

theorem width_cases (wide : Bool) : width wide = 4 ∧ wide = true ∨ width wide = 2 ∧ wide = false := by
  cases wide
  · exact Or.inr ⟨rfl, rfl⟩
  · exact Or.inl ⟨rfl, rfl⟩

/-- Where column `c` is read after `k` full blocks. -/
def pos (j : PJob) (k c : Nat) : Nat := j.off c + j.inc c * k

/-- Memory after `N` groups of 16 bytes, with `n` of them for each 16 rows. -/
def cells (j : PJob) (n N : Nat) : Region → Nat → Byte := fun r o =>
  if r = .packed ∧ j.packedBase ≤ o ∧ o < j.packedBase + 16 * N then
    j.entry ((o - j.packedBase) / 16 % n) (16 * ((o - j.packedBase) / 16 / n) + (o - j.packedBase) % 16)
  else j.m r o

theorem cells_zero (j : PJob) (n : Nat) : cells j n 0 = j.m := by
  funext r o
  unfold cells
  rw [if_neg (by omega)]

theorem cells_other {r : Region} (n N : Nat) (hr : r ≠ .packed) : cells j n N r = j.m r := by
  funext o
  unfold cells
  rw [if_neg (fun h => hr h.1)]

theorem cells_succ {n N : Nat} {a : Vec} (ha : ∀ b, b < 16 → a b = j.entry (N % n) (16 * (N / n) + b)) :
    wr (cells j n N) .packed (j.packedBase + 16 * N + 0) 16 a = cells j n (N + 1) := by
  funext r o
  unfold wr
  by_cases hr : r = .packed
  · subst hr
    by_cases h : j.packedBase + 16 * N + 0 ≤ o ∧ o < j.packedBase + 16 * N + 0 + 16
    · rw [if_pos ⟨rfl, h⟩, ha _ (by omega)]
      unfold cells
      rw [if_pos ⟨rfl, by omega, by omega⟩, show (o - j.packedBase) / 16 = N by omega,
        show (o - j.packedBase) % 16 = o - (j.packedBase + 16 * N + 0) by omega]
    · rw [if_neg (fun hh => h hh.2)]
      unfold cells
      by_cases h' : j.packedBase ≤ o ∧ o < j.packedBase + 16 * N
      · rw [if_pos ⟨rfl, h'⟩, if_pos ⟨rfl, by omega, by omega⟩]
      · rw [if_neg (fun hh => h' hh.2), if_neg (fun hh => by omega)]
  · rw [if_neg (fun hh => hr hh.1), cells_other _ _ hr, cells_other _ _ hr]

/-- `N` groups of 16 bytes are stored; `T c` blocks of column `c` have been added; column `c` is read from `P c`
next. -/
structure At (wide : Bool) (j : PJob) (N : Nat) (T P : Nat → Nat) (s : St) : Prop where
  src : ∀ c, c < width wide → s.x (48 + c) = .ptr (j.reg c) (P c)
  packed : s.x 52 = .ptr .packed (j.packedBase + 16 * N)
  inc : ∀ c, c < width wide → s.x (54 + c) = .int (j.inc c)
  mem : s.m = cells j (width wide) N
  acc : ∀ c, c < width wide → ∀ i, i < 4 → getS (s.v (12 + c)) i = wrap32 (∑ u ∈ Finset.range (T c), j.quad c u i)
  x11 : ∀ b, b < 16 → s.v 11 b = BitVec.ofNat 8 j.xor
  ok : s.bad = false

theorem At.congr {N N' : Nat} {T T' P P' : Nat → Nat} {s : St} (h : At wide j N T P s) (hN : N = N')
    (hT : ∀ c, c < width wide → T c = T' c) (hP : ∀ c, c < width wide → P c = P' c) : At wide j N' T' P' s := by
  subst hN
  exact ⟨fun c hc => by rw [← hP c hc]; exact h.src c hc, h.packed, h.inc, h.mem,
    fun c hc i hi => by rw [← hT c hc]; exact h.acc c hc i hi, h.x11, h.ok⟩

/-- Other registers and flags do not matter. -/
theorem At.keep {N : Nat} {T P : Nat → Nat} {s s' : St} (h : At wide j N T P s)
    (hx : Same [48, 49, 50, 51, 52, 54, 55, 56, 57] s s') (hm : s'.m = s.m)
    (hv : ∀ c, c < 4 → s'.v (12 + c) = s.v (12 + c)) (h11 : s'.v 11 = s.v 11) (hb : s'.bad = false) :
    At wide j N T P s' := by
  have hw : width wide ≤ 4 := by cases wide <;> decide
  refine ⟨fun c hc => ?_, ?_, fun c hc => ?_, by rw [hm]; exact h.mem, fun c hc i hi => ?_, ?_, hb⟩
  · have : c < 4 := by omega
    rw [hx.get (by interval_cases c <;> decide)]; exact h.src c hc
  · rw [hx.get (by decide)]; exact h.packed
  · have : c < 4 := by omega
    rw [hx.get (by interval_cases c <;> decide)]; exact h.inc c hc
  · rw [hv c (by omega)]; exact h.acc c hc i hi
  · rw [h11]; exact h.x11

/-! ### Pairs of columns -/

def keepL : List Nat := [1, 2, 3, 52, 54, 55, 56, 57]
def keepS : List Nat := [1, 2, 3, 48, 49, 50, 51, 54, 55, 56, 57]

theorem loadsx (e : Env) {p : Nat} (hp : p < 2) (s : St) : Same keepL s (exec e (loads p) s) ∧
    (exec e (loads p) s).m = s.m ∧
    (∀ i, i < 2 → (exec e (loads p) s).v i = bytes s (s.x (48 + 2 * p + i)) 0) ∧
    (∀ c, c < 4 → (exec e (loads p) s).v (12 + c) = s.v (12 + c)) ∧ (exec e (loads p) s).v 11 = s.v 11 ∧
    (∀ c, c < 4 → (exec e (loads p) s).x (48 + c) =
      if c / 2 = p then addVal (addVal (s.x (48 + c)) 0) ((s.x (54 + c)).num * 2 ^ 0 % 2 ^ 32) else s.x (48 + c)) ∧
    (exec e (loads p) s).bad = (s.bad || out e.base (s.x (48 + 2 * p)) 0 16 || !(addVal (s.x (48 + 2 * p)) 0).isPtr ||
      (s.x (54 + 2 * p)).isPtr || out e.base (s.x (49 + 2 * p)) 0 16 || !(addVal (s.x (49 + 2 * p)) 0).isPtr ||
      (s.x (55 + 2 * p)).isPtr) := by
  cases s
  interval_cases p <;> exact ⟨by keep, rfl, by intro i hi; interval_cases i <;> rfl, by intro c hc; interval_cases c <;> rfl,
    rfl, by intro c hc; interval_cases c <;> rfl, rfl⟩

/-- What both orders of the instructions do with a pair. -/
structure Processed (e : Env) (p : Nat) (s s' : St) : Prop where
  keep : Same keepS s s'
  m : s'.m = wr (wr s.m (s.x 52).region ((s.x 52).off + 0) 16 (eorV (s.v 0) (s.v 11)))
    (addVal (s.x 52) 16).region ((addVal (s.x 52) 16).off + 0) 16 (eorV (s.v 1) (s.v 11))
  packed : s'.x 52 = addVal (addVal (s.x 52) 16) 16
  v : ∀ c, c < 4 → s'.v (12 + c) = if c / 2 = p then sumV (s.v (12 + c)) (eorV (s.v (c % 2)) (s.v 11)) else s.v (12 + c)
  v11 : s'.v 11 = s.v 11
  bad : s'.bad = (s.bad || out e.base (s.x 52) 0 16 || out e.base (addVal (s.x 52) 16) 0 16)

theorem processx (e : Env) {p : Nat} (hp : p < 2) (s : St) : Processed e p s (exec e (process p) s) := by
  cases s
  interval_cases p <;> exact ⟨by keep, rfl, rfl, by intro c hc; interval_cases c <;> rfl, rfl, rfl⟩

theorem tailx (e : Env) {p : Nat} (hp : p < 2) (s : St) : Processed e p s (exec e (processTail p) s) := by
  cases s
  interval_cases p <;> exact ⟨by keep, rfl, rfl, by intro c hc; interval_cases c <;> rfl, rfl, rfl⟩

/-- Pair `p` of block `t` is loaded in q0 and q1. -/
def Loaded (j : PJob) (p t : Nat) (s : St) : Prop :=
  ∀ i, i < 2 → ∀ b, b < 16 → s.v i b ^^^ BitVec.ofNat 8 j.xor = j.entry (2 * p + i) (16 * t + b)

theorem At.processed (hf : Fits wide j) {p t : Nat} {T P : Nat → Nat} {s s' : St}
    (h : At wide j (width wide * t + 2 * p) T P s) (hp : 2 * p + 2 ≤ width wide) (ht : t < j.chunks)
    (hT : ∀ i, i < 2 → T (2 * p + i) = t) (hl : Loaded j p t s) (hs : Processed (env j) p s s') :
    At wide j (width wide * t + 2 * p + 2) (fun c => if c / 2 = p then t + 1 else T c) P s' := by
  have hw := width_cases wide
  have hpk := hf.packed
  have e : ∀ i, i < 2 → ∀ b, b < 16 → eorV (s.v i) (s.v 11) b = j.entry (2 * p + i) (16 * t + b) := by
    intro i hi b hb
    unfold eorV
    rw [h.x11 b hb]
    exact hl i hi b hb
  have e1 : ∀ i, i < 2 → (width wide * t + 2 * p + i) % width wide = 2 * p + i ∧
      (width wide * t + 2 * p + i) / width wide = t := by
    intro i hi
    rcases hw with ⟨hw, -⟩ | ⟨hw, -⟩ <;> rw [hw] at hp ⊢ <;> omega
  have hbnd : j.packedBase + 16 * (width wide * t + 2 * p + 2) ≤ j.size .packed := by
    rcases hw with ⟨hw, -⟩ | ⟨hw, -⟩ <;> rw [hw] at hp hpk ⊢ <;> omega
  refine ⟨fun c hc => ?_, ?_, fun c hc => ?_, ?_, fun c hc i hi => ?_, ?_, ?_⟩
  · have : c < 4 := by omega
    rw [hs.keep.get (by interval_cases c <;> decide)]; exact h.src c hc
  · rw [hs.packed, h.packed]
    show Val.ptr _ _ = _
    rw [show j.packedBase + 16 * (width wide * t + 2 * p) + 16 + 16 = j.packedBase + 16 * (width wide * t + 2 * p + 2) by ring]
  · have : c < 4 := by omega
    rw [hs.keep.get (by interval_cases c <;> decide)]; exact h.inc c hc
  · rw [hs.m, h.packed, h.mem]
    show wr (wr _ .packed (j.packedBase + 16 * (width wide * t + 2 * p) + 0) 16 _) .packed
      (j.packedBase + 16 * (width wide * t + 2 * p) + 16 + 0) 16 _ = _
    rw [cells_succ (n := width wide) (N := width wide * t + 2 * p) (fun b hb => ?_),
      show j.packedBase + 16 * (width wide * t + 2 * p) + 16 + 0 = j.packedBase + 16 * (width wide * t + 2 * p + 1) + 0 by ring,
      cells_succ (n := width wide) (N := width wide * t + 2 * p + 1) (fun b hb => ?_)]
    · rw [(e1 1 (by omega)).1, (e1 1 (by omega)).2]; exact e 1 (by omega) b hb
    · have h0 := e1 0 (by omega)
      rw [Nat.add_zero] at h0
      rw [h0.1, h0.2]; exact e 0 (by omega) b hb
  · rw [hs.v c (by omega)]
    by_cases hcp : c / 2 = p
    · have ec : c = 2 * p + c % 2 := by omega
      rw [if_pos hcp, if_pos hcp]
      refine acc_succ hi (fun b hb => ?_) ?_
      · rw [e (c % 2) (by omega) b hb, ← ec]
      · rw [h.acc c hc i hi]
        congr 3
        rw [ec]; exact hT (c % 2) (by omega)
    · rw [if_neg hcp, if_neg hcp]; exact h.acc c hc i hi
  · rw [hs.v11]; exact h.x11
  · rw [hs.bad, h.ok, h.packed, out_ptr (by show _ ≤ j.size .packed; omega)]
    show (false || false || out _ (Val.ptr .packed (j.packedBase + 16 * (width wide * t + 2 * p) + 16)) 0 16) = false
    rw [out_ptr (by show _ ≤ j.size .packed; omega)]
    rfl

/-! ### Full blocks of 16 rows -/

/-- Full blocks. -/
def fulls (j : PJob) : Nat := j.rows / 16

/-- Loading and processing a pair. -/
theorem At.pair (hf : Fits wide j) {p t : Nat} {T P : Nat → Nat} {s : St}
    (h : At wide j (width wide * t + 2 * p) T P s) (hp : 2 * p + 2 ≤ width wide) (ht : t < fulls j)
    (hT : ∀ i, i < 2 → T (2 * p + i) = t) (hP : ∀ i, i < 2 → P (2 * p + i) = pos j t (2 * p + i)) :
    At wide j (width wide * t + 2 * p + 2) (fun c => if c / 2 = p then t + 1 else T c)
      (fun c => if c / 2 = p then pos j (t + 1) c else P c) (exec (env j) (loads p ++ process p) s) ∧
    Same [1, 2, 3] s (exec (env j) (loads p ++ process p) s) := by
  have hw := width_cases wide
  have hp2 : p < 2 := by omega
  have hfull : fulls j = j.rows / 16 := rfl
  have hch : j.chunks = (j.rows + 15) / 16 := rfl
  rw [exec_append]
  obtain ⟨h1, h2, h3, h4, h5, h6, h7⟩ := loadsx (env j) hp2 s
  generalize exec (env j) (loads p) s = s1 at *
  have hin : ∀ i, i < 2 → ∀ b, b < 16 → pos j t (2 * p + i) + b < j.size (j.reg (2 * p + i)) := by
    intro i hi b hb
    have := hf.src (2 * p + i) (by omega) (16 * t + b) (by omega)
    rw [show (16 * t + b) / 16 = t by omega, show (16 * t + b) % 16 = b by omega] at this
    exact this
  have i0 := hin 0 (by omega) 15 (by omega)
  have i1 := hin 1 (by omega) 15 (by omega)
  have p0 := h.src (2 * p) (by omega)
  have p1 := h.src (2 * p + 1) (by omega)
  have q0 := hP 0 (by omega)
  have q1 := hP 1 (by omega)
  simp only [Nat.add_zero] at q0 i0
  rw [q0] at p0
  rw [q1] at p1
  have a : At wide j (width wide * t + 2 * p) T (fun c => if c / 2 = p then pos j (t + 1) c else P c) s1 := by
    refine ⟨fun c hc => ?_, ?_, fun c hc => ?_, by rw [h2]; exact h.mem, fun c hc i hi => ?_, by rw [h5]; exact h.x11, ?_⟩
    · rw [h6 c (by omega)]
      by_cases hcp : c / 2 = p
      · rw [if_pos hcp, if_pos hcp, h.src c hc, h.inc c hc]
        have ec : P c = pos j t c := by
          have := hP (c % 2) (by omega)
          rwa [show 2 * p + c % 2 = c by omega] at this
        rw [ec]
        show Val.ptr _ (pos j t c + 0 + j.inc c * 2 ^ 0 % 2 ^ 32) = _
        have hi := hf.inc c hc
        rw [show j.inc c * 2 ^ 0 % 2 ^ 32 = j.inc c by rw [pow_zero, mul_one]; exact Nat.mod_eq_of_lt hi]
        unfold pos
        rw [show j.off c + j.inc c * t + 0 + j.inc c = j.off c + j.inc c * (t + 1) by ring]
      · rw [if_neg hcp, if_neg hcp]; exact h.src c hc
    · rw [h1.get (by decide)]; exact h.packed
    · have : c < 4 := by omega
      rw [h1.get (by interval_cases c <;> decide)]; exact h.inc c hc
    · rw [h4 c (by omega)]; exact h.acc c hc i hi
    · have r0 := h.inc (2 * p) (by omega)
      have r1 := h.inc (2 * p + 1) (by omega)
      rw [h7, h.ok, show 49 + 2 * p = 48 + (2 * p + 1) by omega, show 55 + 2 * p = 54 + (2 * p + 1) by omega, p0, p1, r0, r1,
        out_ptr (by show _ ≤ j.size _; omega), out_ptr (by show _ ≤ j.size _; omega)]
      rfl
  have l : Loaded j p t s1 := by
    intro i hi b hb
    rw [h3 i hi, show 48 + 2 * p + i = 48 + (2 * p + i) by omega, h.src (2 * p + i) (by omega), hP i hi]
    unfold bytes PJob.entry
    dsimp only [Val.region, Val.off]
    rw [if_pos (by omega), h.mem, cells_other _ _ (hf.reg (2 * p + i) (by omega)).1]
    unfold PJob.raw pos
    rw [show (16 * t + b) / 16 = t by omega, show (16 * t + b) % 16 = b by omega, Nat.add_zero]
  have pr := processx (env j) hp2 s1
  refine ⟨a.processed hf hp (by omega) hT l pr, ?_⟩
  have k := pr.keep
  generalize exec (env j) (process p) s1 = s2 at *
  exact ⟨(k.get (by decide)).trans (h1.get (by decide)), (k.get (by decide)).trans (h1.get (by decide)),
    (k.get (by decide)).trans (h1.get (by decide)), trivial⟩

/-- All pairs of a full block. -/
theorem At.chunk (hf : Fits wide j) {t : Nat} {s : St} (h : At wide j (width wide * t) (fun _ => t) (pos j t) s)
    (ht : t < fulls j) {s' : St}
    (he : s' = exec (env j) ((loads 0 ++ process 0) ++ (if wide then loads 1 ++ process 1 else [])) s) :
    At wide j (width wide * (t + 1)) (fun _ => t + 1) (pos j (t + 1)) s' ∧ Same [1, 2, 3] s s' := by
  subst he
  rw [exec_append]
  obtain ⟨a, b⟩ := At.pair (p := 0) hf h (by cases wide <;> decide) ht (fun _ _ => rfl) (fun _ _ => rfl)
  generalize exec (env j) (loads 0 ++ process 0) s = s1 at *
  cases wide
  · refine ⟨a.congr (by show 2 * t + 2 * 0 + 2 = 2 * (t + 1); ring) (fun c hc => ?_) (fun c hc => ?_), b⟩
    · have hc : c < 2 := hc
      exact if_pos (by omega)
    · have hc : c < 2 := hc
      exact if_pos (by omega)
  · obtain ⟨a', b'⟩ := At.pair (p := 1) hf (a.congr (N' := 4 * t + 2 * 1) (by show 4 * t + 2 * 0 + 2 = _; ring) (fun _ _ => rfl) (fun _ _ => rfl))
      (by decide) ht (fun i hi => if_neg (by omega)) (fun i hi => if_neg (by omega))
    refine ⟨a'.congr (by show 4 * t + 2 * 1 + 2 = 4 * (t + 1); ring) (fun c hc => ?_) (fun c hc => ?_),
      (b'.get (by decide)).trans (b.get (by decide)), (b'.get (by decide)).trans (b.get (by decide)),
      (b'.get (by decide)).trans (b.get (by decide)), trivial⟩
    · have hc : c < 4 := hc
      by_cases h1 : c / 2 = 1
      · exact if_pos h1
      · rw [if_neg h1]; exact if_pos (by omega)
    · have hc : c < 4 := hc
      by_cases h1 : c / 2 = 1
      · exact if_pos h1
      · rw [if_neg h1]; exact if_pos (by omega)

theorem start_at (wide : Bool) : (code wide)[0]? = some (start wide) := by cases wide <;> rfl
theorem full_at (wide : Bool) : (code wide)[1]? = some (full wide) := by cases wide <;> rfl
theorem rest_at (wide : Bool) : (code wide)[2]? = some (rest wide) := by cases wide <;> rfl
theorem fill_at (wide : Bool) : (code wide)[3]? = some fill := by cases wide <;> rfl

theorem startx (e : Env) (wide : Bool) (s : St) :
    Same [48, 49, 50, 51, 52, 54, 55, 56, 57] s (exec e (start wide).body s) ∧ (exec e (start wide).body s).m = s.m ∧
    (exec e (start wide).body s).x 1 = .int 0 ∧
    (exec e (start wide).body s).x 2 = .int ((e.field .packRows).num % 2 ^ 32 &&& 4294967280) ∧
    (exec e (start wide).body s).z = decide (sgn 0 = sgn ((e.field .packRows).num % 2 ^ 32 &&& 4294967280)) ∧
    (exec e (start wide).body s).v 11 = ofB (fun _ => (e.field .packXor).num) ∧
    (∀ c, c < width wide → (exec e (start wide).body s).v (12 + c) = fun _ => 0) ∧
    (exec e (start wide).body s).bad = (s.bad || (e.field .packXor).isPtr || (e.field .packRows).isPtr || false || false) := by
  cases s
  cases wide
  · exact ⟨by keep, rfl, rfl, rfl, rfl, rfl, by intro c (hc : c < 2); interval_cases c <;> rfl, rfl⟩
  · exact ⟨by keep, rfl, rfl, rfl, rfl, rfl, by intro c (hc : c < 4); interval_cases c <;> rfl, rfl⟩

theorem addx (e : Env) (s : St) : exec e [.addI 1 1 16] s =
    { s with x := put s.x 1 (.int (((s.x 1).num + 16) % 2 ^ 32)), bad := s.bad || (s.x 1).isPtr } := rfl

theorem cmpx (e : Env) (s : St) : exec e [.cmp 1 2] s =
    { s with
      z := decide (sgn (s.x 1).num = sgn (s.x 2).num)
      lt := decide (sgn (s.x 1).num < sgn (s.x 2).num)
      bad := s.bad || (s.x 1).isPtr || (s.x 2).isPtr } := rfl

/-- One turn of the loop at label 1. -/
theorem At.turn (hf : Fits wide j) {t : Nat} {s : St} (h : At wide j (width wide * t) (fun _ => t) (pos j t) s)
    (ht : t < fulls j) (hx1 : s.x 1 = .int (16 * t)) (hx2 : s.x 2 = .int (16 * fulls j)) :
    ∃ s', s' = exec (env j) (full wide).body s ∧
      At wide j (width wide * (t + 1)) (fun _ => t + 1) (pos j (t + 1)) s' ∧ s'.x 1 = .int (16 * (t + 1)) ∧
      s'.x 2 = .int (16 * fulls j) ∧ s'.z = decide (t + 1 = fulls j) := by
  have hr := hf.rows
  have hfull : fulls j = j.rows / 16 := rfl
  refine ⟨_, rfl, ?_⟩
  show At _ _ _ _ _ (exec (env j) ([.addI 1 1 16] ++ ((loads 0 ++ process 0) ++ ((if wide then loads 1 ++ process 1 else []) ++
    [.cmp 1 2]))) s) ∧ _
  have body : (full wide).body = [.addI 1 1 16] ++ (((loads 0 ++ process 0) ++ (if wide then loads 1 ++ process 1 else [])) ++
    [.cmp 1 2]) := by cases wide <;> rfl
  have body' : [.addI 1 1 16] ++ ((loads 0 ++ process 0) ++ ((if wide then loads 1 ++ process 1 else []) ++ [.cmp 1 2])) =
    (full wide).body := rfl
  rw [body', body, exec_append, exec_append, addx]
  have a0 : At wide j (width wide * t) (fun _ => t) (pos j t)
      { s with x := put s.x 1 (.int (((s.x 1).num + 16) % 2 ^ 32)), bad := s.bad || (s.x 1).isPtr } := by
    refine h.keep (by keep) rfl (fun _ _ => rfl) rfl ?_
    show (s.bad || (s.x 1).isPtr) = false
    rw [h.ok, hx1]; rfl
  have e1 : ({ s with x := put s.x 1 (.int (((s.x 1).num + 16) % 2 ^ 32)), bad := s.bad || (s.x 1).isPtr } : St).x 1 =
      .int (16 * (t + 1)) := by
    show Val.int (((s.x 1).num + 16) % 2 ^ 32) = _
    rw [hx1]
    show Val.int ((16 * t + 16) % 2 ^ 32) = _
    rw [Nat.mod_eq_of_lt (by omega)]
    rfl
  have e2 : ({ s with x := put s.x 1 (.int (((s.x 1).num + 16) % 2 ^ 32)), bad := s.bad || (s.x 1).isPtr } : St).x 2 =
      .int (16 * fulls j) := hx2
  generalize ({ s with x := put s.x 1 (.int (((s.x 1).num + 16) % 2 ^ 32)), bad := s.bad || (s.x 1).isPtr } : St) = s1 at *
  obtain ⟨a, b⟩ := a0.chunk hf ht rfl
  generalize exec (env j) ((loads 0 ++ process 0) ++ (if wide then loads 1 ++ process 1 else [])) s1 = s2 at *
  have f1 : s2.x 1 = .int (16 * (t + 1)) := (b.get (by decide)).trans e1
  have f2 : s2.x 2 = .int (16 * fulls j) := (b.get (by decide)).trans e2
  rw [cmpx]
  refine ⟨a.keep (by keep) rfl (fun _ _ => rfl) rfl ?_, f1, f2, ?_⟩
  · show (s2.bad || (s2.x 1).isPtr || (s2.x 2).isPtr) = false
    rw [a.ok, f1, f2]; rfl
  · show decide (sgn (s2.x 1).num = sgn (s2.x 2).num) = _
    rw [f1, f2]
    refine (sgn_eq (a := 16 * (t + 1)) (b := 16 * fulls j) (by omega) (by omega)).trans ?_
    exact decide_eq_decide.2 (by omega)

theorem turns (hf : Fits wide j) : ∀ n t s, t + n + 1 = fulls j →
    At wide j (width wide * t) (fun _ => t) (pos j t) s → s.x 1 = .int (16 * t) → s.x 2 = .int (16 * fulls j) →
    ∃ s', Reach (env j) (code wide) (1, s) (2, s') ∧
      At wide j (width wide * fulls j) (fun _ => fulls j) (pos j (fulls j)) s' := by
  intro n
  induction n with
  | zero =>
    intro t s hn h h1 h2
    obtain ⟨s', e, a, -, -, z⟩ := h.turn hf (by omega) h1 h2
    refine ⟨s', ?_, by rw [show fulls j = t + 1 by omega]; exact a⟩
    have r := Reach.block (e := env j) (s := s) (full_at wide) (l := 2)
    rw [← e] at r
    refine r ?_
    show (bif !s'.z then 1 else 2) = 2
    rw [z, decide_eq_true (by omega)]; rfl
  | succ n ih =>
    intro t s hn h h1 h2
    obtain ⟨s', e, a, b1, b2, z⟩ := h.turn hf (by omega) h1 h2
    obtain ⟨s2, r2, a2⟩ := ih (t + 1) s' (by omega) a b1 b2
    refine ⟨s2, Reach.trans ?_ r2, a2⟩
    have r := Reach.block (e := env j) (s := s) (full_at wide) (l := 1)
    rw [← e] at r
    refine r ?_
    show (bif !s'.z then 1 else 2) = 1
    rw [z, decide_eq_false (by omega)]; rfl

/-- From the start to label 3. -/
theorem blocks (hf : Fits wide j) {s : St} (h : Start wide j s) :
    ∃ s', Reach (env j) (code wide) (0, s) (2, s') ∧
      At wide j (width wide * fulls j) (fun _ => fulls j) (pos j (fulls j)) s' := by
  have hr := hf.rows
  have hfull : fulls j = j.rows / 16 := rfl
  have hw : width wide ≤ 4 := by cases wide <;> decide
  obtain ⟨h1, h2, h3, h4, h5, h6, h7, h8⟩ := startx (env j) wide s
  have nx : ∀ l, (bif (exec (env j) (start wide).body s).z then 2 else 1) = l →
      Reach (env j) (code wide) (0, s) (l, exec (env j) (start wide).body s) :=
    fun l hl => Reach.block (start_at wide) hl
  generalize exec (env j) (start wide).body s = s1 at *
  change s1.x 2 = .int (j.rows % 2 ^ 32 &&& 4294967280) at h4
  change s1.z = decide (sgn 0 = sgn (j.rows % 2 ^ 32 &&& 4294967280)) at h5
  rw [and_high hr] at h4 h5
  rw [show decide (sgn 0 = sgn (16 * (j.rows / 16))) = decide (0 = 16 * (j.rows / 16)) from
    sgn_eq (by omega) (by omega)] at h5
  have inv : At wide j (width wide * 0) (fun _ => 0) (pos j 0) s1 := by
    refine ⟨fun c hc => ?_, ?_, fun c hc => ?_, ?_, fun c hc i hi => ?_, fun b hb => ?_, ?_⟩
    · have : c < 4 := by omega
      rw [h1.get (by interval_cases c <;> decide)]; exact h.src c hc
    · rw [h1.get (by decide)]; exact h.packed
    · have : c < 4 := by omega
      rw [h1.get (by interval_cases c <;> decide)]; exact h.inc c hc
    · rw [h2, h.mem, Nat.mul_zero, cells_zero]
    · rw [h7 c hc, getS_zero]; rfl
    · rw [h6]; exact nat_byte _
    · rw [h8, h.ok]; rfl
  by_cases h0 : fulls j = 0
  · refine ⟨s1, nx 2 ?_, ?_⟩
    · rw [h5, decide_eq_true (by omega)]; rfl
    · rw [h0]; exact inv
  · have r := nx 1 (by rw [h5, decide_eq_false (by omega)]; rfl)
    obtain ⟨s', r', h'⟩ := turns hf (fulls j - 1) 0 s1 (by omega) inv h3 h4
    exact ⟨s', r.trans r', h'⟩

end
end Ruy.Arm8.Pack

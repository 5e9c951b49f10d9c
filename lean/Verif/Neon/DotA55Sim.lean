import Verif.Neon.A55Blocks
import Verif.Neon.DotX1Code
import Verif.Neon.DotA55Code
/-
`Kernel8bitNeonDotprodA55ish` computes the same as `Kernel8bitNeonDotprodX1`, block by block.  It counts the loop over
depth with an address, loads operands in halves and the operands of the next block later.
-/
namespace Ruy.Neon.Dot

/-- The fields on which the relation depends; `n + 1` steps of depth. -/
structure Nums (e : Env) (n : Nat) : Prop where
  depth : e.field .depth = .int (4 * (n + 1))
  fits : 4 * (n + 1) < 2 ^ 31
  flags : (e.field .flags).isPtr = false

/-- Registers that may differ on entry to a block. -/
def dx (k : Nat) : List Nat :=
  if k = 0 then [] else if k = 1 then [1, 2, 3, 4] else if k ≤ 3 then [1, 2, 3, 4, 5] else if k ≤ 7 then [1, 2, 3, 4]
  else if k ≤ 14 ∨ k = 48 then [1, 2, 3, 4, 5, 7, 34, 35] else if k ≤ 18 then [2, 7, 34, 35]
  else if k ∈ [19, 20, 21, 30, 39] then [1, 2, 5, 6, 7]
  else if k ∈ [26, 35, 44, 53] then [5, 7] else if k ∈ [27, 28, 36, 37, 45, 46, 54, 55] then [7]
  else if k ≤ 47 then [5, 6, 7] else if k ≤ 50 then [4, 5, 6, 7] else if k ≤ 56 then [3, 4, 5, 6, 7]
  else if k ≤ 60 ∧ k ≠ 57 then [1, 2, 3, 4, 5] else [1, 2, 3, 4, 5, 6, 7]

/-- The operands of the next block have not been loaded. -/
def late (k : Nat) : Bool := decide (8 ≤ k ∧ k ≤ 18 ∨ k = 48)

def dv (k : Nat) : List Nat := if late k then [0, 1, 2, 3] else []

/-- Blocks at which `Kernel8bitNeonDotprodX1` has the flags in `x6`, the other kernel the channel in `x3`. -/
def flagged (k : Nat) : Bool := decide (8 ≤ k ∧ k ≤ 14)

/-- Blocks at which `Kernel8bitNeonDotprodX1` has the left-hand side in `x5`. -/
def based (k : Nat) : Bool := decide (k ∈ [1, 2, 3, 58, 59, 60])

/-- The loads that `t` has still to do: the four vector registers of `s`. -/
def Pend (e : Env) (s t : St) : Prop := ∃ r a q b, t.x 34 = .ptr r a ∧ t.x 35 = .ptr q b ∧ s.x 34 = .ptr r (a + 32) ∧
  s.x 35 = .ptr q (b + 32) ∧ a + 32 ≤ e.size r ∧ b + 32 ≤ e.size q ∧
  Veq (s.v 0) (fun k => s.m r (a + k)) ∧ Veq (s.v 1) (fun k => s.m r (a + 16 + k)) ∧
  Veq (s.v 2) (fun k => s.m q (b + k)) ∧ Veq (s.v 3) (fun k => s.m q (b + 16 + k))

/-- The loop over depth after `i` of `n` further steps: counter and address. -/
def Count (n : Nat) (s t : St) : Prop := ∃ r a i, i < n ∧ s.x 1 = .int (4 * (i + 1)) ∧ s.x 34 = .ptr r (a + 32 * i) ∧
  t.x 5 = .ptr r (a + 32 * n)

def flagsVal (e : Env) : Val := .int ((e.field .flags).num % 2 ^ 8)
def chanOff (e : Env) (s : St) : Val :=
  .int ((bif Nat.beq ((flagsVal e).num % 2 ^ 32 &&& 32) 0 then (s.x 38).num else (s.x 39).num) % 2 ^ 32)

/-- What holds on entry to a block apart from agreement. -/
structure Facts (e : Env) (n k : Nat) (s t : St) : Prop where
  depth : 1 ≤ k → s.x 12 = .int (4 * (n + 1))
  ptr : 1 ≤ k → ∃ r a, s.x 34 = .ptr r a
  base : based k = true → s.x 5 = e.field .lhsBasePtr
  four : k = 1 → s.x 1 = .int 4
  count : k = 2 → Count n s t
  flags : flagged k = true → s.x 6 = flagsVal e
  chanOff : flagged k = true → t.x 3 = chanOff e s
  pend : late k = true → Pend e s t

/-- `Kernel8bitNeonDotprodA55ish` inserts the zero point of the destination earlier. -/
def zpIns : List Instr := [.ldpW 4 .dstZeroPoint, .insH 13 4 4]

/-- `s` is a state of `Kernel8bitNeonDotprodX1`, `t` of `Kernel8bitNeonDotprodA55ish`, on entry to block `k`. -/
def Rel (e : Env) (n k : Nat) (s t : St) : Prop :=
  Agree (dx k) (dv k) (if k = 19 then exec e zpIns s else s) t ∧ Facts e n k s t

/-- What a block establishes. -/
structure Simulated (e : Env) (n : Nat) (g a : Block) (k : Nat) : Prop where
  term : g.term = a.term
  rel : ∀ s t, Rel e n k s t → (exec e g.body s).bad = false →
    Rel e n (next (exec e g.body s) g.term) (exec e g.body s) (exec e a.body t) ∧
      (exec e a.body t).z = (exec e g.body s).z ∧ (exec e a.body t).lt = (exec e g.body s).lt

/-! ### Blocks that differ by the order of instructions -/

def targets : Term → List Nat
  | .jmp l => [l]
  | .br _ l f => [l, f]

theorem next_mem (s : St) (t : Term) : next s t ∈ targets t := by
  cases t with
  | jmp l => exact List.mem_singleton.2 rfl
  | br c l f =>
    show (bif holds s c then l else f) ∈ [l, f]
    cases holds s c <;> simp

/-- The facts for block `l` follow from those for block `k`, which runs `g` and `a`. -/
def keeps (g a : List Instr) (k l : Nat) : Bool :=
  decide (1 ≤ k) && !(wxs g).contains 12 && !(wxs g).contains 34 && (!based l || based k && !(wxs g).contains 5) &&
  decide (l ≠ 1 ∧ l ≠ 2) && (!flagged l || flagged k && !(wxs g).contains 6 && !(wxs a).contains 3 &&
    !(wxs g).contains 38 && !(wxs g).contains 39) &&
  (!late l || late k && !(wxs g).contains 35 && !(wxs a).contains 34 && !(wxs a).contains 35 &&
    [0, 1, 2, 3].all (fun r => !(wvs g).contains r) && !g.any Instr.wm)

theorem Pend.of {e : Env} {g a : List Instr} {s t : St} (h : Pend e s t) (h34 : 34 ∉ wxs g) (h35 : 35 ∉ wxs g)
    (k34 : 34 ∉ wxs a) (k35 : 35 ∉ wxs a) (hv : ∀ r ∈ [0, 1, 2, 3], r ∉ wvs g) (hm : g.any Instr.wm = false) :
    Pend e (exec e g s) (exec e a t) := by
  obtain ⟨r, p, q, b, h1, h2, h3, h4, h5, h6, h7, h8, h9, h10⟩ := h
  have em : (exec e g s).m = s.m := exec_m hm
  refine ⟨r, p, q, b, (exec_x k34).trans h1, (exec_x k35).trans h2, (exec_x h34).trans h3, (exec_x h35).trans h4, h5, h6,
    ?_, ?_, ?_, ?_⟩ <;> rw [em, exec_v (hv _ (by decide))] <;> assumption

theorem chan_of {e : Env} {g : List Instr} {s : St} (h38 : 38 ∉ wxs g) (h39 : 39 ∉ wxs g) :
    chanOff e (exec e g s) = chanOff e s := by
  unfold chanOff; rw [exec_x h38, exec_x h39]

theorem Facts.keep {e : Env} {n k l : Nat} {g a : List Instr} {s t : St} (hk : keeps g a k l = true)
    (h : Facts e n k s t) : Facts e n l (exec e g s) (exec e a t) := by
  unfold keeps at hk
  simp only [Bool.and_eq_true, Bool.or_eq_true, Bool.not_eq_true', decide_eq_true_eq, List.contains_eq_mem,
    decide_eq_false_iff_not, List.all_eq_true] at hk
  obtain ⟨⟨⟨⟨⟨⟨h1, h12⟩, h34⟩, hb⟩, hl⟩, hf⟩, hp⟩ := hk
  refine ⟨fun _ => (exec_x h12).trans (h.depth h1), fun _ => ?_, fun hl => ?_, fun h => absurd h hl.1, fun h => absurd h hl.2,
    fun hl => ?_, fun hl => ?_, fun hl => ?_⟩
  · rw [exec_x h34]; exact h.ptr h1
  · rcases hb with hb | hb
    · rw [hb] at hl; cases hl
    · exact (exec_x hb.2).trans (h.base hb.1)
  · rcases hf with hf | hf
    · rw [hf] at hl; cases hl
    · exact (exec_x hf.1.1.1.2).trans (h.flags hf.1.1.1.1)
  · rcases hf with hf | hf
    · rw [hf] at hl; cases hl
    · rw [exec_x hf.1.1.2, chan_of hf.1.2 hf.2]; exact h.chanOff hf.1.1.1.1
  · rcases hp with hp | hp
    · rw [hp] at hl; cases hl
    · exact (h.pend hp.1.1.1.1.1).of h34 hp.1.1.1.1.2 hp.1.1.1.2 hp.1.1.2 hp.1.2 hp.2

def subset (a b : List Nat) : Bool := a.all b.contains

/-- Agreement for all blocks that may follow. -/
def covers (d : List Nat × List Nat) (t : Term) : Bool :=
  (targets t).all fun l => subset d.1 (dx l) && subset d.2 (dv l) && decide (l ≠ 19)

theorem subset_mem {a b : List Nat} (h : subset a b = true) : ∀ r ∈ a, r ∈ b := by
  intro r hr
  have := List.all_eq_true.1 h r hr
  simpa using this

theorem agree_next {e : Env} {l : Nat} {d : List Nat × List Nat} {u s t : St} {tm : Term} (hc : covers d tm = true)
    (hl : l = next u tm) (h : Agree d.1 d.2 s t) : Agree (dx l) (dv l) (if l = 19 then exec e zpIns s else s) t := by
  subst hl
  have := List.all_eq_true.1 hc _ (next_mem u tm)
  simp only [Bool.and_eq_true, decide_eq_true_eq] at this
  rw [if_neg this.2]
  exact h.weaken (subset_mem this.1.1) (subset_mem this.1.2)

theorem facts_next {e : Env} {n k : Nat} {g a : List Instr} {u s t : St} {tm : Term}
    (hc : (targets tm).all (keeps g a k) = true) (h : Facts e n k s t) :
    Facts e n (next u tm) (exec e g s) (exec e a t) := h.keep (List.all_eq_true.1 hc _ (next_mem u tm))

/-- Blocks for which nothing else is to be shown. -/
def plain (k : Nat) : Bool :=
  match dotxCode[k]?, dotaCode[k]? with
  | some g, some a => decide (k ≠ 19) && decide (g.term = a.term) && reorder g.body a.body &&
      (match flow g.body (dx k, dv k) with | some d => covers d g.term | none => false) &&
      (targets g.term).all (keeps g.body a.body k)
  | _, _ => false

theorem sim_plain {e : Env} {n k : Nat} (h : plain k = true) :
    ∃ g a, dotxCode[k]? = some g ∧ dotaCode[k]? = some a ∧ Simulated e n g a k := by
  unfold plain at h
  split at h
  · rename_i g a hg ha
    simp only [Bool.and_eq_true, decide_eq_true_eq] at h
    obtain ⟨⟨⟨⟨h19, ht⟩, hr⟩, hc⟩, hk⟩ := h
    refine ⟨g, a, hg, ha, ht, fun s t h hb => ?_⟩
    obtain ⟨h1, h2⟩ := h
    rw [if_neg h19] at h1
    split at hc
    · rename_i d hf
      have h3 : Agree d.1 d.2 (exec e g.body s) (exec e a.body t) := by
        rw [reorder_exec hr]; exact Agree.exec hf h1
      exact ⟨⟨agree_next hc rfl h3, facts_next hk h2⟩, h3.z, h3.lt⟩
    · cases hc
  · cases h

theorem plain_all : ∀ k, k < 61 → k ∈ [0, 1, 2, 3, 7, 11, 13, 14, 16, 18, 19, 48, 50, 57, 60] ∨ plain k = true := by
  decide +kernel

end Ruy.Neon.Dot

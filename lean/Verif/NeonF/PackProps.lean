import Verif.NeonF.PackLoop
import Verif.Float.Props
/-
Property C72: packing of float matrices on AArch64 (paths kNeon and kNeonDotprod, which inherits it).

  c72_asm          the two `asm` statements: they stop in every case, access only their buffers, and store four packed
                   columns, bit by bit
  c72_pack         `PackImpl::Run` around them: every run ends without a fault and leaves the packed columns
  c72_tuning       the two functions leave the same packed matrix
  c72_layout       packed entries are where the layout of the packed matrix says
  c72_memcpy       packing a row-major matrix with the same elements (memcpy, pack_common.h) leaves the same packed matrix
  c72_generic      so does the portable code, for elements with `x - 0 + 0 = x`
  c72_minus_zero   but not for -0.0
  c72_overflow     what happens if `src_stride * block_col` does not fit an int
-/
namespace Ruy.NeonF.FPack
open PJob
open Ruy.Mat Ruy.Mul
variable {A : Type}

/-- C72, one block: for every state at the start of either statement, whatever the other registers hold. -/
theorem c72_asm (a55 : Bool) {j : PJob A} (hf : Fits j) {s : St A} (h : j.Start s) :
    ∃ s', Stops j.env (if a55 then fpackACode else fpackCode) s s' ∧ Result j s' := by
  cases a55
  · exact fpack_ok hf h
  · exact fpackA_ok hf h

variable {p : Call A} {start stop : Nat} {m : Region → Nat → A}

/-- C72: packing columns [start, stop).  There is a run, and every run ends without a fault, with the columns in
memory. -/
theorem c72_pack (hf : CallFits p start stop) :
    (∃ r, Run p start stop m r) ∧ ∀ r, Run p start stop m r → ∃ m', r = .ok m' ∧ Packed p start stop m m' :=
  run_ok hf

/-- Both functions leave the same memory. -/
theorem c72_tuning {q : Call A} (hq : q = { p with a55 := !p.a55 }) (hf : CallFits p start stop)
    {r r' : Region → Nat → A} (h : Run p start stop m (.ok r)) (h' : Run q start stop m (.ok r')) :
    ∀ g, g ≠ .zeros → r g = r' g := by
  have hf' : CallFits q start stop := by subst hq; exact ⟨hf.1, hf.2, hf.3, hf.4, hf.5, hf.6, hf.7⟩
  obtain ⟨m1, e1, h1⟩ := (c72_pack hf).2 _ h
  obtain ⟨m2, e2, h2⟩ := (c72_pack hf').2 _ h'
  cases e1; cases e2
  have w : wanted q = wanted p := by subst hq; rfl
  have pl : spot q = spot p := by subst hq; rfl
  have pr : q.rows = p.rows := by subst hq; rfl
  intro g hg
  by_cases g1 : g = .packed
  · subst g1
    funext o
    by_cases ho : ∀ c, start ≤ c → c < stop → ∀ k, k < p.rows → o ≠ spot p k c
    · rw [h1.restPacked o ho, h2.restPacked o (by rw [pl, pr]; exact ho)]
    · push Not at ho
      obtain ⟨c, c1, c2, k, k1, rfl⟩ := ho
      have b := h2.entry c c1 c2 k (by rw [pr]; exact k1)
      rw [w, pl] at b
      rw [h1.entry c c1 c2 k k1, b]
  · rw [h1.rest g g1 hg, h2.rest g g1 hg]

theorem poff_spot {l : PMatLayout} (ho : l.order = .colMajor) (hk : l.kernel = ⟨.rowMajor, 1, 8⟩)
    (hs : l.stride = p.packedStride) (k c : Nat) : poff l k c = spot p k c := by
  rw [Float.poff_row l ho hk, hs]
  unfold spot
  ring

/-- Entries are where `Offset` (mat.h:338-347) puts them in a column-major packed matrix with kernel layout
`FixedKernelLayout<kRowMajor, 1, 8>`. -/
theorem c72_layout {l : PMatLayout} (ho : l.order = .colMajor) (hk : l.kernel = ⟨.rowMajor, 1, 8⟩)
    (hs : l.stride = p.packedStride) {k c : Nat} (h : spot p k c < 2 ^ 31) : poffset l k c = .ok (spot p k c) := by
  rw [poffset_eq (by rw [hk]; exact ⟨⟨0, rfl⟩, ⟨3, rfl⟩⟩), poff_spot ho hk hs]
  exact C.int_of h

/-- A matrix of the generic model whose elements are the floats of the source. -/
structure Mirrors (p : Call A) (m : Region → Nat → A) (src : Mul.Mat A) (q : PMat A) : Prop where
  rows : src.layout.rows = p.rows
  cols : src.layout.cols = p.cols
  values : ∀ k c, k < p.rows → c < p.cols → src.at k c = m .src (p.stride * c + k)
  layout : createPackedLayout src.layout ⟨.rowMajor, 1, 8⟩ = .ok q.layout
  stride : q.layout.stride = p.packedStride

/-- C72: `MemcpyRowMajorFloatPackImpl` (pack_common.h:101-139) on a row-major matrix with the same elements leaves the
same packed entries. -/
theorem c72_memcpy (hf : CallFits p start stop) {src : Mul.Mat A} {q q' : PMat A} (hm : Mirrors p m src q)
    (hr : src.layout.order = .rowMajor) (hh : stop ≤ q.layout.cols)
    (hg : Float.memcpyPack p.ops.zero 8 src start stop q = .ok q') {m' : Region → Nat → A} (h : Run p start stop m (.ok m')) :
    ∀ c, start ≤ c → c < stop → ∀ k, k < q.layout.rows → q'.data.val (poff q.layout k c) = m' .packed (spot p k c) ∧
      poff q.layout k c = spot p k c := by
  obtain ⟨m1, e1, hp⟩ := (c72_pack hf).2 _ h
  cases e1
  obtain ⟨-, l1, -, l3, -⟩ := createPackedLayout_ok hm.layout
  have fits : Float.Fits 8 src q.layout start stop :=
    ⟨hr, hm.layout, Nat.dvd_of_mod_eq_zero hf.aligned.1, Nat.dvd_of_mod_eq_zero hf.aligned.2, hh⟩
  obtain ⟨-, -, -, -, hv, -⟩ := Float.memcpyPack_ok fits hg
  intro c h1 h2 k hk
  have hk' : k < src.layout.rows := by rw [← fits.rows]; exact hk
  refine ⟨?_, poff_spot l1 l3 hm.stride k c⟩
  rw [hv k c hk' h1 h2, hp.entry c h1 h2 k (by rw [← hm.rows]; exact hk')]
  unfold Float.rowVal wanted
  rw [hm.cols]
  split
  · rename_i hc
    exact hm.values k c (by rw [← hm.rows]; exact hk') hc
  · rfl

/-- C72: agreement with the portable packing code (pack.h:104-151), which computes `x - 0 + 0` for each element: if
that leaves all elements as they are, the packed entries are the same. -/
theorem c72_generic (hf : CallFits p start stop) {f : Float.Ops A} (hz : f.zero = p.ops.zero) {src : Mul.Mat A} {q q' : PMat A}
    (hm : Mirrors p m src q) (hq : q.zp = 0) (hh : stop ≤ q.layout.cols)
    (hpk : ∀ k c, k < p.rows → c < p.cols → f.pack (src.at k c) = src.at k c)
    (hg : Mul.runPack f.arith f.pack src start stop q = .ok q') {m' : Region → Nat → A} (h : Run p start stop m (.ok m')) :
    ∀ c, start ≤ c → c < stop → ∀ k, k < q.layout.rows → q'.data.val (poff q.layout k c) = m' .packed (spot p k c) ∧
      poff q.layout k c = spot p k c := by
  obtain ⟨m1, e1, hp⟩ := (c72_pack hf).2 _ h
  cases e1
  obtain ⟨lok, l1, -, l3, l4, l5, -⟩ := createPackedLayout_ok hm.layout
  obtain ⟨a1, a2, a3⟩ := runPack_ok lok hh hg
  intro c h1 h2 k hk
  have hk' : k < src.layout.rows := by
    change q.layout.rows < src.layout.rows + 1 at l5
    omega
  refine ⟨?_, poff_spot l1 l3 hm.stride k c⟩
  rw [hp.entry c h1 h2 k (by rw [← hm.rows]; exact hk')]
  obtain ⟨v, e1, e2⟩ := (a3 c h1 h2).data k (by rw [a1.layout]; exact hk)
  obtain ⟨o, ho, _, hv⟩ := elem_ok e1
  have := (poffset_ok ho).2
  rw [a1.layout] at this
  subst this
  rw [← hv, a1.zp, hq] at *
  unfold packedVal at e2
  unfold wanted
  rw [hm.cols] at e2
  by_cases hc : c < p.cols
  · rw [if_pos ⟨hc, hk'⟩] at e2
    obtain ⟨x, hx, e2⟩ := C.bind_ok e2
    cases e2
    rw [if_pos hc, elem_at hx, hpk k c (by rw [← hm.rows]; exact hk') hc, hm.values k c (by rw [← hm.rows]; exact hk') hc]
  · rw [if_neg (fun h => hc h.1), Float.ofInt_zero] at e2
    cases e2
    rw [if_neg hc]
    exact hz

/-- A 2 × 3 matrix of floats. -/
def smallCall (a55 : Bool) (o : Ops A) : Call A :=
  ⟨a55, 2, 3, 2, 2, fun r => match r with | .src => 6 | .packed => 16 | _ => 0, o⟩

theorem small_fits (a55 : Bool) (o : Ops A) : CallFits (smallCall a55 o) 0 8 := by
  refine ⟨by decide, by decide, by show 2 < _; omega, le_rfl, fun c hc k hk => ?_, by show 2 * 8 ≤ 16; omega, fun c hc => ?_⟩
  · show 2 * c + k < 6
    have hc : c < 3 := hc
    have hk : k < 2 := hk
    omega
  · show 2 * c < _ ∧ 2 * c < _
    omega

/-- A matrix of negative zeros, for the portable code. -/
def minusSrc : Mul.Mat Float.Fl := ⟨⟨2, 3, 2, .colMajor⟩, ⟨6, fun _ => .zero true⟩, 0⟩
def minusPacked : PMat Float.Fl := ⟨⟨2, 8, 2, .colMajor, ⟨.rowMajor, 1, 8⟩⟩, ⟨16, fun _ => .nan 7⟩, none, 0⟩

/-- C72: the portable code turns -0.0 into 0.0, the assembly code keeps it. -/
theorem c72_minus_zero (a55 : Bool) {o : Ops Float.Fl} {m' : Region → Nat → Float.Fl}
    (h : Run (smallCall a55 o) 0 8 (fun _ _ => .zero true) (.ok m')) :
    ∃ q', Mul.runPack Float.x86Env.ops.arith Float.x86Env.ops.pack minusSrc 0 8 minusPacked = .ok q' ∧
      q'.data.val 0 = .zero false ∧ m' .packed 0 = .zero true := by
  obtain ⟨m1, e1, hp⟩ := (c72_pack (small_fits a55 o)).2 _ h
  cases e1
  exact ⟨_, rfl, rfl, hp.entry 0 (by omega) (by omega) 0 (by show 0 < 2; omega)⟩

/-- A matrix with columns 2^28 floats apart: the offset of the block at column 8 is computed in `int` and overflows,
although all buffers fit in memory. -/
theorem c72_overflow (a55 : Bool) (o : Ops A) : ∃ p : Call A, p.a55 = a55 ∧ p.rows = 16 ∧ p.cols = 16 ∧
    p.stride * (p.cols - 1) + p.rows ≤ p.size .src ∧ p.size .src < 2 ^ 33 ∧
    ∀ m, Run p 8 16 m (.error .ub) ∧ ∀ r, Run p 8 16 m r → r = .error .ub := by
  refine ⟨⟨a55, 16, 16, 2 ^ 28, 16, fun _ => 2 ^ 33 - 1, o⟩, rfl, rfl, rfl, by norm_num, by norm_num, fun m => ?_⟩
  simp only [Run, Nat.mod_self, if_true]
  generalize hp : (⟨a55, 16, 16, 2 ^ 28, 16, fun _ => 2 ^ 33 - 1, o⟩ : Call A) = p
  have hb : ∀ m, block p 8 m = .error .ub := fun m => by
    unfold block
    have : ¬p.stride * 8 < 2 ^ 31 := by subst hp; norm_num
    simp only [C.int, if_neg this]
    rfl
  refine ⟨.overflow (by decide) (hb _), fun r hr => ?_⟩
  cases hr with
  | done h => omega
  | overflow h e => rw [hb] at e; cases e; rfl
  | fault => rfl
  | stuck h e => rw [hb] at e; cases e
  | next h e => rw [hb] at e; cases e

/-! ### Examples -/

/-- Integers for floats. -/
def exOps : Ops Int := ⟨0, fun d a b => d + a * b, (· + ·), max, min⟩

/-- A 7 × 10 matrix with stride 9, packed with stride 8. -/
def exCall (a55 : Bool) : Call Int :=
  ⟨a55, 7, 10, 9, 8, fun r => match r with | .src => 90 | .packed => 128 | _ => 0, exOps⟩

theorem exCall_fits (a55 : Bool) : CallFits (exCall a55) 0 16 := by
  refine ⟨by decide, by decide, by show 7 < _; omega, by show 7 ≤ 8; omega, fun c hc k hk => ?_, by show 8 * 16 ≤ 128; omega, fun c hc => ?_⟩
  · show 9 * c + k < 90
    have hc : c < 10 := hc
    have hk : k < 7 := hk
    omega
  · show 9 * c < _ ∧ 8 * c < _
    omega

def exMem (r : Region) (o : Nat) : Int := if r = .src then 3 * o + 7 else -1

example (a55 : Bool) : ∃ m', Run (exCall a55) 0 16 exMem (.ok m') := by
  obtain ⟨⟨r, h⟩, h2⟩ := c72_pack (m := exMem) (exCall_fits a55)
  obtain ⟨m', rfl, _⟩ := h2 r h
  exact ⟨m', h⟩

/-- Row 6 of column 9, the padding beside it, and the unused last row of the packed matrix. -/
example (a55 : Bool) {m' : Region → Nat → Int} (h : Run (exCall a55) 0 16 exMem (.ok m')) :
    m' .packed 113 = 268 ∧ m' .packed 114 = 0 ∧ m' .packed 120 = -1 := by
  obtain ⟨m1, e1, hp⟩ := (c72_pack (exCall_fits a55)).2 _ h
  cases e1
  refine ⟨hp.entry 9 (by omega) (by omega) 6 (by show 6 < 7; omega), hp.entry 10 (by omega) (by omega) 6 (by show 6 < 7; omega),
    hp.restPacked 120 (fun c _ hc k hk => ?_)⟩
  have hk : k < 7 := hk
  show 120 ≠ 8 * (8 * (c / 8)) + 8 * k + c % 8
  omega

/-- The hypotheses of `c72_asm`: the third block of the same call, two columns of which come from `zerobuf`. -/
example (a55 : Bool) : Fits (job (exCall a55) 8 exMem) ∧ (job (exCall a55) 8 exMem).Start (begin (job (exCall a55) 8 exMem)) ∧
    (job (exCall a55) 8 exMem).reg 1 = .src ∧ (job (exCall a55) 8 exMem).reg 2 = .zeros :=
  ⟨job_fits (exCall_fits a55) (by decide) (by decide), begin_ok _, rfl, rfl⟩

/-- The hypotheses of `c72_memcpy`: the elements of `smallCall` in row-major order. -/
def exSrc : Mul.Mat Int := ⟨⟨2, 3, 3, .rowMajor⟩, ⟨6, fun o => 3 * (2 * (o % 3) + o / 3 : Nat) + 7⟩, 0⟩
def exPacked : PMat Int := ⟨⟨2, 8, 2, .colMajor, ⟨.rowMajor, 1, 8⟩⟩, ⟨16, fun _ => 0⟩, none, 0⟩

example (a55 : Bool) : Mirrors (smallCall a55 exOps) exMem exSrc exPacked ∧
    (Float.memcpyPack 0 8 exSrc 0 8 exPacked).toOption.isSome := by
  refine ⟨⟨rfl, rfl, fun k c hk hc => ?_, by decide, rfl⟩, by decide +kernel⟩
  have hk : k < 2 := hk
  have hc : c < 3 := hc
  interval_cases k <;> interval_cases c <;> rfl

/-- The hypotheses of `c72_generic`. -/
def exOps' : Float.Ops Int := ⟨0, (· + ·), (· - ·), (· * ·), fun a b => decide (a < b), id⟩
def exSrc' : Mul.Mat Int := ⟨⟨2, 3, 2, .colMajor⟩, ⟨6, fun o => 3 * o + 7⟩, 0⟩

example (a55 : Bool) : Mirrors (smallCall a55 exOps) exMem exSrc' exPacked ∧ (∀ x, exOps'.pack x = x) ∧
    (Mul.runPack exOps'.arith exOps'.pack exSrc' 0 8 exPacked).toOption.isSome := by
  refine ⟨⟨rfl, rfl, fun k c hk hc => ?_, by decide, rfl⟩, fun x => ?_, by decide +kernel⟩
  · have hk : k < 2 := hk
    have hc : c < 3 := hc
    interval_cases k <;> interval_cases c <;> rfl
  · show x - 0 + 0 = x
    omega

end Ruy.NeonF.FPack

import Verif.Neon.DotA55Blocks
/-
The blocks of `Kernel8bitNeonDotprodA55ish` that are not reorderings: after the loop over depth.
-/
namespace Ruy.Neon.Dot

/-- From a successful load of sixteen bytes and of the next sixteen. -/
theorem two_inv {e : Env} {p : Val} (h1 : out e p 0 16 = false) (h2 : out e (addVal p 16) 0 16 = false) :
    ∃ r a, p = .ptr r a ∧ a + 32 ≤ e.size r := by
  obtain ⟨r, a, rfl, _⟩ := out_inv h1
  obtain ⟨r', a', e1, h⟩ := out_inv h2
  cases e1
  exact ⟨r, a, rfl, by omega⟩

/-! ### Bias -/

def pre7 : List Instr := [.movX lhsPtr lhsColPtr, .movX rhsPtr rhsColPtr, .mvni 8, .ldpW 3 .prodZpDepth, .ldpB 6 .flags,
  .dupS 9 3, .ldpX 1 .bias, .tst 6 32, .cselW 3 rRow rCol .eq, .addX 5 1 3 2, .tst 6 1, .cselX 1 1 5 .eq]
def q7 : List Instr := [.ldq 14 1 0 16, .ldq 15 1 0 0]
def h7 : List Instr := [.ldd 14 1 0 8, .ldxP 5 1, .insD 14 1 5, .ldd 15 1 0 8, .ldxP 5 1, .insD 15 1 5]
def post7 : List Instr := [.v3 .add 14 14 9, .v3 .add 15 15 9, .tst 6 32]

theorem halves7 {e : Env} {u : St} (h : (exec e q7 u).bad = false) :
    Agree [1, 5] [] (exec e q7 u) (exec e h7 u) := by
  have h' : (u.bad || out e (u.x 1) 0 16 || out e (addVal (u.x 1) 16) 0 16) = false := h
  simp only [Bool.or_eq_false_iff] at h'
  obtain ⟨⟨hb, h1⟩, h2⟩ := h'
  obtain ⟨r, a, hp, ha⟩ := two_inv h1 h2
  refine halves (i := 14) (j := 15) (by decide) (by decide) (by decide) (by decide) (by decide) (by decide) (by decide)
    (by decide) h ?_ ?_ ?_
  · show (u.bad || out e (u.x 1) 0 8 || out e (addVal (u.x 1) 8) 0 8 || false ||
      out e (addVal (addVal (u.x 1) 8) 8) 0 8 || out e (addVal (addVal (addVal (u.x 1) 8) 8) 8) 0 8 || false) = false
    rw [hp, hb]
    show (false || out e (.ptr r a) 0 8 || out e (.ptr r (a + 8)) 0 8 || false ||
      out e (.ptr r (a + 8 + 8)) 0 8 || out e (.ptr r (a + 8 + 8 + 8)) 0 8 || false) = false
    repeat rw [out_ptr (by omega)]
    rfl
  · show Veq (fun k => if k / 8 = 1 then numByte (Val.int (le8 (bytes u (addVal (u.x 1) 8) 0) 0)).num (k % 8)
      else lower (bytes u (u.x 1) 0) k) (bytes u (u.x 1) 0)
    rw [hp]
    exact ins_veq _ (fun _ => rfl) (fun k => congrArg (u.m r) (by show a + 8 + 0 + k = a + 0 + (8 + k); omega))
  · show Veq (fun k => if k / 8 = 1 then numByte (Val.int (le8 (bytes u (addVal (addVal (addVal (u.x 1) 8) 8) 8) 0) 0)).num (k % 8)
      else lower (bytes u (addVal (addVal (u.x 1) 8) 8) 0) k) (bytes u (addVal (u.x 1) 16) 0)
    rw [hp]
    exact ins_veq _ (fun _ => rfl) (fun k => congrArg (u.m r) (by show a + 8 + 8 + 8 + 0 + k = a + 16 + 0 + (8 + k); omega))

theorem loadQ_frame {e : Env} {u : St} (h : (exec e loadQ u).bad = false) :
    Agree [34, 35] [0, 1, 2, 3] (exec e loadQ u) u := by
  refine ⟨fun r _ hd => (exec_x (fun h => hd ?_)).symm, fun k _ hd => Veq.of (exec_v (fun h => hd ?_)).symm, rfl, rfl, rfl,
    (exec_bad h).trans h.symm⟩
  · exact (show ∀ r ∈ wxs loadQ, r ∈ [34, 35] by decide) r h
  · exact (show ∀ r ∈ wvs loadQ, r ∈ [0, 1, 2, 3] by decide) k h

theorem rel7 {e : Env} {n : Nat} : Simulated e n dotx7 dota7 7 := by
  refine ⟨rfl, fun s t h hb => ?_⟩
  obtain ⟨h1, h2⟩ := h
  have h1' : Agree [1, 2, 3, 4] [] s t := h1
  have e1 : exec e dotx7.body s = exec e loadQ (exec e post7 (exec e q7 (exec e pre7 s))) := by
    rw [← exec_append, ← exec_append, ← exec_append]; exact reorder_exec (by decide +kernel)
  have e2 : exec e dota7.body t = exec e post7 (exec e h7 (exec e pre7 t)) := by
    rw [← exec_append, ← exec_append]; exact reorder_exec (by decide +kernel)
  have hA : Agree [2, 4] [] (exec e pre7 s) (exec e pre7 t) := Agree.exec (d := ([2, 4], [])) (by decide +kernel) h1'
  have hb' := hb
  rw [e1] at hb'
  have hb1 : (exec e post7 (exec e q7 (exec e pre7 s))).bad = false := exec_bad hb'
  have hb2 : (exec e q7 (exec e pre7 s)).bad = false := exec_bad hb1
  have hB : Agree [1, 2, 4, 5] [] (exec e q7 (exec e pre7 s)) (exec e h7 (exec e pre7 t)) := by
    have h3 : Agree [2, 4] [] (exec e q7 (exec e pre7 s)) (exec e q7 (exec e pre7 t)) :=
      Agree.exec (d := ([2, 4], [])) (by decide +kernel) hA
    exact (h3.weaken (by decide) (by simp)).trans ((halves7 (h3.bad.trans hb2)).weaken (by decide) (by simp))
  have hC : Agree [1, 2, 4, 5] [] (exec e post7 (exec e q7 (exec e pre7 s))) (exec e post7 (exec e h7 (exec e pre7 t))) :=
    Agree.exec (d := ([1, 2, 4, 5], [])) (by decide +kernel) hB
  have hD : Agree [1, 2, 3, 4, 5, 7, 34, 35] [0, 1, 2, 3] (exec e dotx7.body s) (exec e dota7.body t) := by
    rw [e1, e2]
    exact ((loadQ_frame hb').weaken (by decide) (by decide)).trans (hC.weaken (by decide) (by simp))
  have hd : (exec e dotx7.body s).x 12 = .int (4 * (n + 1)) := (exec_x (by decide)).trans (h2.depth (by decide))
  have f6 : (exec e dotx7.body s).x 6 = flagsVal e := rfl
  have f3 : (exec e post7 (exec e q7 (exec e pre7 s))).x 3 = chanOff e s := rfl
  have fc : chanOff e (exec e dotx7.body s) = chanOff e s := chan_of (by decide) (by decide)
  have t3 : (exec e dota7.body t).x 3 = chanOff e (exec e dotx7.body s) := by
    rw [e2, hC.x 3 (by decide) (by decide), f3, fc]
  obtain ⟨r, a, q, b, k1, k2, k3, k4, _⟩ := loadQ_inv hb'
  have hp : Pend e (exec e dotx7.body s) (exec e dota7.body t) := by
    rw [e1, e2]
    generalize exec e post7 (exec e q7 (exec e pre7 s)) = u at *
    refine ⟨r, a, q, b, (hC.x 34 (by decide) (by decide)).trans k1, (hC.x 35 (by decide) (by decide)).trans k2, ?_, ?_, k3, k4,
      ?_, ?_, ?_, ?_⟩
    · show addVal (addVal (u.x 34) 16) 16 = _
      rw [k1]; rfl
    · show addVal (addVal (u.x 35) 16) 16 = _
      rw [k2]; rfl
    · show Veq (bytes u (u.x 34) 0) (fun k => u.m r (a + k))
      rw [k1]; exact Veq.refl _
    · show Veq (bytes u (addVal (u.x 34) 16) 0) (fun k => u.m r (a + 16 + k))
      rw [k1]; exact Veq.refl _
    · show Veq (bytes u (u.x 35) 0) (fun k => u.m q (b + k))
      rw [k2]; exact Veq.refl _
    · show Veq (bytes u (addVal (u.x 35) 16) 0) (fun k => u.m q (b + 16 + k))
      rw [k2]; exact Veq.refl _
  have hptr : ∃ r a, (exec e dotx7.body s).x 34 = .ptr r a := by
    obtain ⟨r, a, _, _, _, _, h3, _⟩ := hp
    exact ⟨r, a + 32, h3⟩
  refine ⟨⟨agree_next (tm := dotx7.term) (d := ([1, 2, 3, 4, 5, 7, 34, 35], [0, 1, 2, 3])) (by decide) rfl hD, ?_⟩, hD.z, hD.lt⟩
  have hl : ∀ l ∈ targets dotx7.term, l ≠ 1 ∧ l ≠ 2 ∧ based l = false := by decide
  obtain ⟨l1, l2, l3⟩ := hl _ (next_mem (exec e dotx7.body s) dotx7.term)
  exact ⟨fun _ => hd, fun _ => hptr, fun h => (by rw [l3] at h; cases h), fun h => absurd h l1, fun h => absurd h l2,
    fun _ => f6, fun _ => t3, fun _ => hp⟩

/-! ### Sums -/

def q11 : List Instr := [.ldpX 3 .rhsSums, .addX 3 3 rCol 2, .ldq 14 3 0 16, .ldq 15 3 0 0]
def h11 : List Instr := [.ldpX 5 .rhsSums, .addX 5 5 rCol 2, .ldd 14 5 0 8, .ldxP 7 5, .ldd 15 5 0 8, .insD 14 1 7,
  .ldxP 7 5, .insD 15 1 7]
def post11 : List Instr := dotx11.body.drop 6

theorem halves11 {e : Env} {u : St} (h : (exec e q11 u).bad = false) :
    Agree [3, 5, 7] [] (exec e q11 u) (exec e h11 u) := by
  have h' : (u.bad || (u.x 39).isPtr || out e (addVal (e.field .rhsSums) ((u.x 39).num * 2 ^ 2)) 0 16 ||
    out e (addVal (addVal (e.field .rhsSums) ((u.x 39).num * 2 ^ 2)) 16) 0 16) = false := h
  simp only [Bool.or_eq_false_iff] at h'
  obtain ⟨⟨⟨hb, h0⟩, h1⟩, h2⟩ := h'
  obtain ⟨r, a, hp, ha⟩ := two_inv h1 h2
  refine halves (i := 14) (j := 15) (by decide) (by decide) (by decide) (by decide) (by decide) (by decide) (by decide)
    (by decide) h ?_ ?_ ?_
  · show (u.bad || (u.x 39).isPtr || out e (addVal (e.field .rhsSums) ((u.x 39).num * 2 ^ 2)) 0 8 ||
      out e (addVal (addVal (e.field .rhsSums) ((u.x 39).num * 2 ^ 2)) 8) 0 8 ||
      out e (addVal (addVal (addVal (e.field .rhsSums) ((u.x 39).num * 2 ^ 2)) 8) 8) 0 8 || false ||
      out e (addVal (addVal (addVal (addVal (e.field .rhsSums) ((u.x 39).num * 2 ^ 2)) 8) 8) 8) 0 8 || false) = false
    rw [hp, hb, h0]
    show (false || false || out e (.ptr r a) 0 8 || out e (.ptr r (a + 8)) 0 8 ||
      out e (.ptr r (a + 8 + 8)) 0 8 || false || out e (.ptr r (a + 8 + 8 + 8)) 0 8 || false) = false
    repeat rw [out_ptr (by omega)]
    rfl
  · show Veq (fun k => if k / 8 = 1 then
      numByte (Val.int (le8 (bytes u (addVal (addVal (e.field .rhsSums) ((u.x 39).num * 2 ^ 2)) 8) 0) 0)).num (k % 8)
      else lower (bytes u (addVal (e.field .rhsSums) ((u.x 39).num * 2 ^ 2)) 0) k)
      (bytes u (addVal (e.field .rhsSums) ((u.x 39).num * 2 ^ 2)) 0)
    rw [hp]
    exact ins_veq _ (fun _ => rfl) (fun k => congrArg (u.m r) (by show a + 8 + 0 + k = a + 0 + (8 + k); omega))
  · show Veq (fun k => if k / 8 = 1 then
      numByte (Val.int (le8 (bytes u (addVal (addVal (addVal (addVal (e.field .rhsSums) ((u.x 39).num * 2 ^ 2)) 8) 8) 8) 0) 0)).num (k % 8)
      else lower (bytes u (addVal (addVal (addVal (e.field .rhsSums) ((u.x 39).num * 2 ^ 2)) 8) 8) 0) k)
      (bytes u (addVal (addVal (e.field .rhsSums) ((u.x 39).num * 2 ^ 2)) 16) 0)
    rw [hp]
    exact ins_veq _ (fun _ => rfl) (fun k => congrArg (u.m r) (by show a + 8 + 8 + 8 + 0 + k = a + 16 + 0 + (8 + k); omega))

/-- A block whose middle part loads two registers in another way. -/
theorem agree_middle {e : Env} {g a p b c q : List Instr} {d d' : List Nat} {s t : St}
    (e1 : reorder (p ++ b ++ q) g = true) (e2 : reorder (p ++ c ++ q) a = true)
    (f1 : flow (p ++ b) (d, [0, 1, 2, 3]) = some (d', [0, 1, 2, 3])) (f2 : flow q (d, [0, 1, 2, 3]) = some (d, [0, 1, 2, 3]))
    (hs : ∀ r ∈ d', r ∈ d) (hm : ∀ u, (exec e b u).bad = false → Agree d [] (exec e b u) (exec e c u))
    (h : Agree d [0, 1, 2, 3] s t) (hb : (exec e g s).bad = false) :
    Agree d [0, 1, 2, 3] (exec e g s) (exec e a t) := by
  rw [reorder_exec e1, exec_append e (p ++ b) q] at hb ⊢
  rw [reorder_exec e2, exec_append e (p ++ c) q]
  have h1 := Agree.exec (e := e) f1 h
  refine Agree.exec f2 ((h1.weaken hs (fun _ h => h)).trans ?_)
  rw [exec_append, exec_append]
  refine (hm _ ?_).weaken (fun _ h => h) (by simp)
  rw [← exec_append, h1.bad]
  exact exec_bad hb

theorem rel11 {e : Env} {n : Nat} : Simulated e n dotx11 dota11 11 := by
  refine ⟨rfl, fun s t h hb => ?_⟩
  obtain ⟨h1, h2⟩ := h
  have hA : Agree [1, 2, 3, 4, 5, 7, 34, 35] [0, 1, 2, 3] (exec e dotx11.body s) (exec e dota11.body t) :=
    agree_middle (p := [.ldpW 5 .lhsZeroPoint, .dupS 10 5]) (b := q11) (c := h11) (q := post11) (by decide +kernel)
      (by decide +kernel) (d' := [1, 2, 4, 7, 34, 35]) (by decide +kernel) (by decide +kernel) (by decide)
      (fun u hu => (halves11 hu).weaken (by decide) (by simp)) h1 hb
  exact ⟨⟨agree_next (tm := dotx11.term) (d := ([1, 2, 3, 4, 5, 7, 34, 35], [0, 1, 2, 3])) (by decide) rfl hA,
    facts_next (by decide +kernel) h2⟩, hA.z, hA.lt⟩

def q13 : List Instr := [.ldq 11 2 0 16, .ldq 12 2 0 0]
def h13 : List Instr := [.ldd 11 2 0 8, .ldxP 4 2, .insD 11 1 4, .ldd 12 2 0 8, .ldxP 4 2, .insD 12 1 4]
def post13 : List Instr := dotx13.body.drop 6

theorem halves13 {e : Env} {u : St} (h : (exec e q13 u).bad = false) :
    Agree [2, 4] [] (exec e q13 u) (exec e h13 u) := by
  have h' : (u.bad || out e (u.x 2) 0 16 || out e (addVal (u.x 2) 16) 0 16) = false := h
  simp only [Bool.or_eq_false_iff] at h'
  obtain ⟨⟨hb, h1⟩, h2⟩ := h'
  obtain ⟨r, a, hp, ha⟩ := two_inv h1 h2
  refine halves (i := 11) (j := 12) (by decide) (by decide) (by decide) (by decide) (by decide) (by decide) (by decide)
    (by decide) h ?_ ?_ ?_
  · show (u.bad || out e (u.x 2) 0 8 || out e (addVal (u.x 2) 8) 0 8 || false ||
      out e (addVal (addVal (u.x 2) 8) 8) 0 8 || out e (addVal (addVal (addVal (u.x 2) 8) 8) 8) 0 8 || false) = false
    rw [hp, hb]
    show (false || out e (.ptr r a) 0 8 || out e (.ptr r (a + 8)) 0 8 || false ||
      out e (.ptr r (a + 8 + 8)) 0 8 || out e (.ptr r (a + 8 + 8 + 8)) 0 8 || false) = false
    repeat rw [out_ptr (by omega)]
    rfl
  · show Veq (fun k => if k / 8 = 1 then numByte (Val.int (le8 (bytes u (addVal (u.x 2) 8) 0) 0)).num (k % 8)
      else lower (bytes u (u.x 2) 0) k) (bytes u (u.x 2) 0)
    rw [hp]
    exact ins_veq _ (fun _ => rfl) (fun k => congrArg (u.m r) (by show a + 8 + 0 + k = a + 0 + (8 + k); omega))
  · show Veq (fun k => if k / 8 = 1 then numByte (Val.int (le8 (bytes u (addVal (addVal (addVal (u.x 2) 8) 8) 8) 0) 0)).num (k % 8)
      else lower (bytes u (addVal (addVal (u.x 2) 8) 8) 0) k) (bytes u (addVal (u.x 2) 16) 0)
    rw [hp]
    exact ins_veq _ (fun _ => rfl) (fun k => congrArg (u.m r) (by show a + 8 + 8 + 8 + 0 + k = a + 16 + 0 + (8 + k); omega))

theorem rel13 {e : Env} {n : Nat} : Simulated e n dotx13 dota13 13 := by
  refine ⟨rfl, fun s t h hb => ?_⟩
  obtain ⟨h1, h2⟩ := h
  have hA : Agree [1, 2, 3, 4, 5, 7, 34, 35] [0, 1, 2, 3] (exec e dotx13.body s) (exec e dota13.body t) :=
    agree_middle (p := [.ldpX 2 .lhsSums, .addX 2 2 rRow 2, .ldpW 5 .rhsZeroPoint, .insS 13 1 5]) (b := q13) (c := h13)
      (q := post13) (by decide +kernel) (by decide +kernel) (d' := [1, 3, 4, 7, 34, 35]) (by decide +kernel)
      (by decide +kernel) (by decide) (fun u hu => (halves13 hu).weaken (by decide) (by simp)) h1 hb
  exact ⟨⟨agree_next (tm := dotx13.term) (d := ([1, 2, 3, 4, 5, 7, 34, 35], [0, 1, 2, 3])) (by decide) rfl hA,
    facts_next (by decide +kernel) h2⟩, hA.z, hA.lt⟩

/-! ### Multiplier -/

def rest14 : List Instr := dotx14.body.drop 4

theorem rel14 {e : Env} {n : Nat} (hn : Nums e n) : Simulated e n dotx14 dota14 14 := by
  refine ⟨rfl, fun s t h hb => ?_⟩
  obtain ⟨h1, h2⟩ := h
  have h1' : Agree [1, 2, 3, 4, 5, 7, 34, 35] [0, 1, 2, 3] s t := h1
  have e1 : exec e dotx14.body s = exec e rest14 (exec e [.ldpX 1 .mulExp, .tst 6 32, .cselW 3 rRow rCol .eq, .tst 6 8] s) := by
    rw [← exec_append]; rfl
  have e2 : exec e dota14.body t = exec e rest14 (exec e [.ldpX 1 .mulExp, .ldpB 6 .flags, .tst 6 8] t) := by
    rw [← exec_append]; exact reorder_exec (by decide +kernel)
  have hb' := hb
  rw [e1] at hb'
  have s6 := h2.flags (by decide)
  have hA : Agree [2, 4, 5, 7, 34, 35] [0, 1, 2, 3] (exec e [.ldpX 1 .mulExp, .tst 6 32, .cselW 3 rRow rCol .eq, .tst 6 8] s)
      (exec e [.ldpX 1 .mulExp, .ldpB 6 .flags, .tst 6 8] t) := by
    refine ⟨fun r hr hd => ?_, fun k hk hd => h1'.v k hk hd, (exec_m (by decide)).trans (h1'.m.trans (exec_m (by decide)).symm),
      ?_, rfl, ?_⟩
    · by_cases r1 : r = 1
      · subst r1; rfl
      by_cases r3 : r = 3
      · subst r3
        show t.x 3 = Val.int ((bif Nat.beq ((s.x 6).num % 2 ^ 32 &&& 32) 0 then (s.x 38).num else (s.x 39).num) % 2 ^ 32)
        rw [h2.chanOff (by decide), s6]; rfl
      by_cases r6 : r = 6
      · subst r6
        exact s6.symm
      rw [exec_x (b := [.ldpX 1 .mulExp, .tst 6 32, .cselW 3 rRow rCol .eq, .tst 6 8])
        (by simp only [wxs, Instr.wx, List.flatMap_cons, List.flatMap_nil]; simp; omega),
        exec_x (b := [.ldpX 1 .mulExp, .ldpB 6 .flags, .tst 6 8])
        (by simp only [wxs, Instr.wx, List.flatMap_cons, List.flatMap_nil]; simp; omega)]
      exact h1'.x r hr (by simp only [List.mem_cons, List.not_mem_nil, or_false] at hd ⊢; omega)
    · show Nat.beq ((flagsVal e).num % 2 ^ 32 &&& 8) 0 = Nat.beq ((s.x 6).num % 2 ^ 32 &&& 8) 0
      rw [s6]
    · rw [exec_bad hb']
      show (t.bad || (e.field .flags).isPtr || false) = false
      rw [hn.flags, h1'.bad, exec_bad hb]; rfl
  have hB : Agree [2, 7, 34, 35] [0, 1, 2, 3] (exec e dotx14.body s) (exec e dota14.body t) := by
    rw [e1, e2]; exact Agree.exec (d := ([2, 7, 34, 35], [0, 1, 2, 3])) (by decide +kernel) hA
  exact ⟨⟨agree_next (tm := dotx14.term) (d := ([2, 7, 34, 35], [0, 1, 2, 3])) (by decide) rfl hB,
    facts_next (by decide +kernel) h2⟩, hB.z, hB.lt⟩

/-! ### The operands of the next block -/

def loadD : List Instr := [.ldd 0 34 0 8, .ldxP 1 34, .ldd 1 34 0 8, .ldxP 2 34, .ldd 2 35 0 8, .ldxP 5 35, .ldd 3 35 0 8,
  .ldxP 6 35, .insD 0 1 1, .insD 1 1 2, .insD 2 1 5, .insD 3 1 6]

theorem loadD_agree {e : Env} {d : List Nat} {s t : St} (h : Agree d [0, 1, 2, 3] s t) (hp : Pend e s t)
    (hs : s.bad = false) (hd : ∀ r ∈ [1, 2, 5, 6], r ∈ d) : Agree (less d [34, 35]) [] s (exec e loadD t) := by
  obtain ⟨r, a, q, b, t1, t2, s1, s2, h3, h4, v0, v1, v2, v3⟩ := hp
  refine ⟨fun k hk hk' => ?_, fun k hk _ => ?_, (exec_m (by decide)).trans h.m, (exec_flags (by decide)).1.trans h.z,
    (exec_flags (by decide)).2.trans h.lt, ?_⟩
  · by_cases h34 : k = 34
    · subst h34
      show addVal (addVal (addVal (addVal (t.x 34) 8) 8) 8) 8 = _
      rw [t1, s1]; rfl
    by_cases h35 : k = 35
    · subst h35
      show addVal (addVal (addVal (addVal (t.x 35) 8) 8) 8) 8 = _
      rw [t2, s2]; rfl
    have hkd : k ∉ d := not_less hk' (by simp [h34, h35])
    rw [exec_x (b := loadD)]
    · exact h.x k hk hkd
    · intro hm
      have : ∀ k ∈ wxs loadD, k ∈ [1, 2, 5, 6] ∨ k = 34 ∨ k = 35 := by decide
      rcases this k hm with h | h | h
      · exact hkd (hd k h)
      · exact h34 h
      · exact h35 h
  · rcases Nat.lt_or_ge k 4 with k4 | k4
    · rw [← h.m] at v0 v1 v2 v3
      interval_cases k
      · refine Veq.trans ?_ (fun b hb => (v0 b hb).symm)
        show Veq (fun k => if k / 8 = 1 then numByte (Val.int (le8 (bytes t (addVal (t.x 34) 8) 0) 0)).num (k % 8)
          else lower (bytes t (t.x 34) 0) k) _
        rw [t1]
        exact ins_veq _ (fun _ => rfl) (fun k => congrArg (t.m r) (by show a + 8 + 0 + k = a + (8 + k); omega))
      · refine Veq.trans ?_ (fun b hb => (v1 b hb).symm)
        show Veq (fun k => if k / 8 = 1 then numByte (Val.int (le8 (bytes t (addVal (addVal (addVal (t.x 34) 8) 8) 8) 0) 0)).num (k % 8)
          else lower (bytes t (addVal (addVal (t.x 34) 8) 8) 0) k) _
        rw [t1]
        exact ins_veq _ (fun _ => rfl) (fun k => congrArg (t.m r) (by show a + 8 + 8 + 8 + 0 + k = a + 16 + (8 + k); omega))
      · refine Veq.trans ?_ (fun b hb => (v2 b hb).symm)
        show Veq (fun k => if k / 8 = 1 then numByte (Val.int (le8 (bytes t (addVal (t.x 35) 8) 0) 0)).num (k % 8)
          else lower (bytes t (t.x 35) 0) k) _
        rw [t2]
        exact ins_veq _ (fun _ => rfl) (fun k => congrArg (t.m q) (by show b + 8 + 0 + k = b + (8 + k); omega))
      · refine Veq.trans ?_ (fun b hb => (v3 b hb).symm)
        show Veq (fun k => if k / 8 = 1 then numByte (Val.int (le8 (bytes t (addVal (addVal (addVal (t.x 35) 8) 8) 8) 0) 0)).num (k % 8)
          else lower (bytes t (addVal (addVal (t.x 35) 8) 8) 0) k) _
        rw [t2]
        exact ins_veq _ (fun _ => rfl) (fun k => congrArg (t.m q) (by show b + 8 + 8 + 8 + 0 + k = b + 16 + (8 + k); omega))
    · rw [exec_v (b := loadD)]
      · exact h.v k hk (by simp only [List.mem_cons, List.not_mem_nil, or_false]; omega)
      · exact fun h => absurd ((show ∀ k ∈ wvs loadD, k < 4 by decide) k h) (by omega)
  · rw [hs]
    show (t.bad || out e (t.x 34) 0 8 || out e (addVal (t.x 34) 8) 0 8 || out e (addVal (addVal (t.x 34) 8) 8) 0 8 ||
      out e (addVal (addVal (addVal (t.x 34) 8) 8) 8) 0 8 || out e (t.x 35) 0 8 || out e (addVal (t.x 35) 8) 0 8 ||
      out e (addVal (addVal (t.x 35) 8) 8) 0 8 || out e (addVal (addVal (addVal (t.x 35) 8) 8) 8) 0 8 ||
      false || false || false || false) = false
    rw [t1, t2, h.bad, hs]
    show (false || out e (.ptr r a) 0 8 || out e (.ptr r (a + 8)) 0 8 || out e (.ptr r (a + 8 + 8)) 0 8 ||
      out e (.ptr r (a + 8 + 8 + 8)) 0 8 || out e (.ptr q b) 0 8 || out e (.ptr q (b + 8)) 0 8 ||
      out e (.ptr q (b + 8 + 8)) 0 8 || out e (.ptr q (b + 8 + 8 + 8)) 0 8 || false || false || false || false) = false
    repeat rw [out_ptr (by omega)]
    rfl

theorem rel_multiply {e : Env} {n k : Nat} {g a : Block} (hk : k = 16 ∨ k = 18) (ht : g.term = .jmp 19) (ht' : a.term = .jmp 19)
    (hr : reorder (loadD ++ (g.body ++ zpIns)) a.body = true)
    (hf : flow (g.body ++ zpIns) ([1, 2, 5, 6, 7], []) = some ([1, 2, 5, 6, 7], []))
    (hz : keeps g.body a.body k 19 = true) : Simulated e n g a k := by
  refine ⟨ht.trans ht'.symm, fun s t h hb => ?_⟩
  obtain ⟨h1, h2⟩ := h
  have h1' : Agree [2, 7, 34, 35] [0, 1, 2, 3] s t := by
    rcases hk with rfl | rfl <;> exact h1
  have hl : late k = true := by rcases hk with rfl | rfl <;> rfl
  have hA : Agree [1, 2, 5, 6, 7] [] s (exec e loadD t) :=
    loadD_agree (d := [1, 2, 5, 6, 7, 34, 35]) (h1'.weaken (by decide) (by decide)) (h2.pend hl) (exec_bad hb) (by decide)
  have hB : Agree [1, 2, 5, 6, 7] [] (exec e (g.body ++ zpIns) s) (exec e a.body t) := by
    rw [reorder_exec hr, exec_append e loadD]; exact Agree.exec hf hA
  rw [exec_append] at hB
  have hn : next (exec e g.body s) g.term = 19 := by rw [ht]; rfl
  rw [hn]
  exact ⟨⟨hB, h2.keep hz⟩, hB.z, hB.lt⟩

theorem rel16 {e : Env} {n : Nat} : Simulated e n dotx16 dota16 16 :=
  rel_multiply (.inl rfl) rfl rfl (by decide +kernel) (by decide +kernel) (by decide +kernel)

theorem rel18 {e : Env} {n : Nat} : Simulated e n dotx18 dota18 18 :=
  rel_multiply (.inr rfl) rfl rfl (by decide +kernel) (by decide +kernel) (by decide +kernel)

theorem rel19 {e : Env} {n : Nat} : Simulated e n dotx19 dota19 19 := by
  refine ⟨rfl, fun s t h hb => ?_⟩
  obtain ⟨h1, h2⟩ := h
  have h1' : Agree [1, 2, 5, 6, 7] [] (exec e zpIns s) t := h1
  have hB : Agree [1, 2, 5, 6, 7] [] (exec e dota19.body (exec e zpIns s)) (exec e dota19.body t) :=
    Agree.exec (d := ([1, 2, 5, 6, 7], [])) (by decide +kernel) h1'
  rw [← exec_append] at hB
  have hC : Agree [1, 2, 5, 6, 7] [] (exec e dotx19.body s) (exec e dota19.body t) := hB
  exact ⟨⟨agree_next (tm := dotx19.term) (d := ([1, 2, 5, 6, 7], [])) (by decide) rfl hC, facts_next (by decide +kernel) h2⟩,
    hC.z, hC.lt⟩

theorem rel48 {e : Env} {n : Nat} : Simulated e n dotx48 dota48 48 := by
  refine ⟨rfl, fun s t h hb => ?_⟩
  obtain ⟨h1, h2⟩ := h
  have h1' : Agree [1, 2, 3, 4, 5, 7, 34, 35] [0, 1, 2, 3] s t := h1
  have hA : Agree [1, 2, 3, 4, 5, 6, 7] [] s (exec e loadD t) :=
    loadD_agree (d := [1, 2, 3, 4, 5, 6, 7, 34, 35]) (h1'.weaken (by decide) (by decide)) (h2.pend rfl) (exec_bad hb) (by decide)
  have hB : Agree [4, 5, 6, 7] [] (exec e dotx48.body s) (exec e dota48.body t) := by
    rw [show exec e dota48.body t = exec e (loadD ++ dotx48.body) t from reorder_exec (by decide +kernel), exec_append]
    exact Agree.exec (d := ([4, 5, 6, 7], [])) (by decide +kernel) hA
  exact ⟨⟨agree_next (tm := dotx48.term) (d := ([4, 5, 6, 7], [])) (by decide) rfl hB, facts_next (by decide +kernel) h2⟩,
    hB.z, hB.lt⟩

/-! ### Storing two registers at once -/

theorem store_pair {e : Env} {a b : Nat} {u : St} (h : (exec e [.movX 3 4, .stqP a 3, .stqP b 3] u).bad = false)
    (h11 : (u.x 11).isPtr = false) :
    Agree [3, 4] [] (exec e [.movX 3 4, .stqP a 3, .stqP b 3] u) (exec e [.st2R a b 4 11] u) := by
  have h' : (u.bad || out e (u.x 4) 0 16 || out e (addVal (u.x 4) 16) 0 16) = false := h
  simp only [Bool.or_eq_false_iff] at h'
  obtain ⟨⟨hb, h1⟩, h2⟩ := h'
  obtain ⟨r, o, hp, ho⟩ := two_inv h1 h2
  refine ⟨fun k _ hd => ?_, fun _ _ _ => Veq.refl _, ?_, rfl, rfl, ?_⟩
  · rw [exec_x (b := [.movX 3 4, .stqP a 3, .stqP b 3]) (fun h => hd ?_), exec_x (b := [.st2R a b 4 11]) (fun h => hd ?_)]
    · simp only [wxs, Instr.wx, List.flatMap_cons, List.flatMap_nil, List.mem_append, List.mem_cons, List.not_mem_nil, or_false] at h ⊢
      omega
    · simp only [wxs, Instr.wx, List.flatMap_cons, List.flatMap_nil, List.mem_append, List.mem_cons, List.not_mem_nil, or_false] at h ⊢
      omega
  · show wr (store u (u.x 4) 0 16 (u.v a)) (u.x 4).region ((u.x 4).off + 16) 16 (u.v b) =
      wr (wr u.m (u.x 4).region ((u.x 4).off + 0) 16 (u.v a)) (addVal (u.x 4) 16).region ((addVal (u.x 4) 16).off + 0) 16 (u.v b)
    rw [hp]; rfl
  · rw [h]
    show (u.bad || (u.x 11).isPtr || out e (u.x 4) 0 32) = false
    rw [hb, h11, hp, out_ptr (by omega)]; rfl

/-- The same with the address of the next column. -/
theorem store_next {e : Env} {a b : Nat} {u : St} (h : (exec e [.movX 3 4, .stqP a 3, .stqP b 3, .addX 4 4 11 0] u).bad = false) :
    Agree [3] [] (exec e [.movX 3 4, .stqP a 3, .stqP b 3, .addX 4 4 11 0] u) (exec e [.st2R a b 4 11] u) := by
  have h' : ((exec e [.movX 3 4, .stqP a 3, .stqP b 3] u).bad || (u.x 11).isPtr) = false := h
  obtain ⟨h1, h2⟩ := Bool.or_eq_false_iff.1 h'
  have hA := store_pair h1 h2
  refine ⟨fun k hk hd => ?_, fun k hk hd => hA.v k hk hd, ?_, hA.z, hA.lt, ?_⟩
  · by_cases h4 : k = 4
    · subst h4
      show addVal (u.x 4) (u.x 11).num = addVal (u.x 4) ((u.x 11).num * 2 ^ 0)
      rw [show (u.x 11).num * 2 ^ 0 = (u.x 11).num from Nat.mul_one _]
    · rw [hA.x k hk (by simp only [List.mem_cons, List.not_mem_nil, or_false] at hd ⊢; omega)]
      exact (exec_x (e := e) (b := [.addX 4 4 11 0]) (s := exec e [.movX 3 4, .stqP a 3, .stqP b 3] u)
        (by simpa [wxs, Instr.wx] using h4)).symm
  · exact hA.m.trans (exec_m (e := e) (b := [.addX 4 4 11 0]) (s := exec e [.movX 3 4, .stqP a 3, .stqP b 3] u) (by decide)).symm
  · rw [h, hA.bad, h1]

def sPair (a b : Nat) : List Instr := [.movX 3 4, .stqP a 3, .stqP b 3, .addX 4 4 11 0] ++ [.movi a, .movi b]
def tPair (a b : Nat) : List Instr := [.st2R a b 4 11] ++ [.movi a, .movi b]

theorem pair_agree {e : Env} {a b : Nat} {s t : St} (hf : flow [.movX 3 4, .stqP a 3, .stqP b 3, .addX 4 4 11 0] ([3, 5, 6, 7], []) =
    some ([5, 6, 7], [])) (hf' : flow [.movi a, .movi b] ([3, 5, 6, 7], []) = some ([3, 5, 6, 7], []))
    (h : Agree [3, 5, 6, 7] [] s t) (hb : (exec e (sPair a b) s).bad = false) :
    Agree [3, 5, 6, 7] [] (exec e (sPair a b) s) (exec e (tPair a b) t) := by
  unfold sPair at hb ⊢
  unfold tPair
  rw [exec_append] at hb ⊢
  rw [exec_append]
  have h1 := Agree.exec (e := e) hf h
  exact Agree.exec hf' ((h1.weaken (by decide) (by simp)).trans
    ((store_next (h1.bad.trans (exec_bad hb))).weaken (by decide) (by simp)))

theorem rel50 {e : Env} {n : Nat} : Simulated e n dotx50 dota50 50 := by
  refine ⟨rfl, fun s t h hb => ?_⟩
  obtain ⟨h1, h2⟩ := h
  have h1' : Agree [4, 5, 6, 7] [] s t := h1
  have e1 : exec e dotx50.body s = exec e [.movi 30, .movi 31] (exec e [.movX 3 4, .stqP 30 3, .stqP 31 3] (exec e (sPair 28 29)
      (exec e (sPair 26 27) (exec e (sPair 24 25) (exec e (sPair 22 23) (exec e (sPair 20 21) (exec e (sPair 18 19)
      (exec e (sPair 16 17) (exec e [.movX 4 37] s))))))))) := by
    simp only [← exec_append]; exact reorder_exec (by decide +kernel)
  have e2 : exec e dota50.body t = exec e [.movi 30, .movi 31] (exec e [.st2R 30 31 4 11] (exec e (tPair 28 29)
      (exec e (tPair 26 27) (exec e (tPair 24 25) (exec e (tPair 22 23) (exec e (tPair 20 21) (exec e (tPair 18 19)
      (exec e (tPair 16 17) (exec e [.movX 4 37] t))))))))) := by
    simp only [← exec_append]; exact reorder_exec (by decide +kernel)
  have hb' := hb
  rw [e1] at hb'
  have b8 := exec_bad hb'
  have b7 := exec_bad b8
  have b6 := exec_bad b7
  have b5 := exec_bad b6
  have b4 := exec_bad b5
  have b3 := exec_bad b4
  have b2 := exec_bad b3
  have b1 := exec_bad b2
  have a0 : Agree [5, 6, 7] [] (exec e [.movX 4 37] s) (exec e [.movX 4 37] t) :=
    Agree.exec (d := ([5, 6, 7], [])) (by decide +kernel) h1'
  have a1 := pair_agree (by decide +kernel) (by decide +kernel) (a0.weaken (by decide) (by simp)) b1
  have a2 := pair_agree (by decide +kernel) (by decide +kernel) a1 b2
  have a3 := pair_agree (by decide +kernel) (by decide +kernel) a2 b3
  have a4 := pair_agree (by decide +kernel) (by decide +kernel) a3 b4
  have a5 := pair_agree (by decide +kernel) (by decide +kernel) a4 b5
  have a6 := pair_agree (by decide +kernel) (by decide +kernel) a5 b6
  have a7 := pair_agree (by decide +kernel) (by decide +kernel) a6 b7
  have s11 : (s.x 11).isPtr = false := by
    have hu := b1
    unfold sPair at hu
    rw [exec_append] at hu
    have hv : ((exec e [.movX 3 4, .stqP 16 3, .stqP 17 3] (exec e [.movX 4 37] s)).bad || (s.x 11).isPtr) = false := exec_bad hu
    exact (Bool.or_eq_false_iff.1 hv).2
  have t11 : ((exec e (tPair 28 29) (exec e (tPair 26 27) (exec e (tPair 24 25) (exec e (tPair 22 23) (exec e (tPair 20 21)
      (exec e (tPair 18 19) (exec e (tPair 16 17) (exec e [.movX 4 37] t)))))))).x 11).isPtr = false := by
    rw [exec_x (by decide), exec_x (by decide), exec_x (by decide), exec_x (by decide), exec_x (by decide), exec_x (by decide),
      exec_x (by decide), exec_x (by decide), h1'.x 11 (by decide) (by decide)]
    exact s11
  have hE : Agree [3, 4, 5, 6, 7] [] (exec e dotx50.body s) (exec e dota50.body t) := by
    rw [e1, e2]
    refine Agree.exec (d := ([3, 4, 5, 6, 7], [])) (dx := [3, 4, 5, 6, 7]) (dv := []) (by decide +kernel) ?_
    have h9 : Agree [5, 6, 7] [] _ _ := Agree.exec (e := e) (b := [.movX 3 4, .stqP 30 3, .stqP 31 3]) (d := ([5, 6, 7], []))
      (by decide +kernel) a7
    exact (h9.weaken (by decide) (by simp)).trans ((store_pair (h9.bad.trans b8) t11).weaken (by decide) (by simp))
  exact ⟨⟨agree_next (tm := dotx50.term) (d := ([3, 4, 5, 6, 7], [])) (by decide) rfl hE, facts_next (by decide +kernel) h2⟩,
    hE.z, hE.lt⟩

/-! ### The next block -/

theorem rel57 {e : Env} {n : Nat} : Simulated e n dotx57 dota57 57 := by
  refine ⟨rfl, fun s t h hb => ?_⟩
  obtain ⟨h1, h2⟩ := h
  have h1' : Agree [1, 2, 3, 4, 5, 6, 7] [] s t := h1
  have hA : Agree [1, 2, 3, 4, 5, 6, 7] [] (exec e [.ldpX 5 .lhsBasePtr] s) t :=
    (Agree.symm (agree_of_frame (d := [1, 2, 3, 4, 5, 6, 7]) (by decide) rfl rfl rfl rfl)).trans h1'
  have hB : Agree [1, 2, 3, 4, 5] [] (exec e dotx57.body s) (exec e dota57.body t) :=
    Agree.exec (b := dota57.body) (d := ([1, 2, 3, 4, 5], [])) (by decide +kernel) hA
  refine ⟨⟨agree_next (tm := dotx57.term) (d := ([1, 2, 3, 4, 5], [])) (by decide) rfl hB, ?_⟩, hB.z, hB.lt⟩
  have hl : ∀ l ∈ targets dotx57.term, l ≠ 1 ∧ l ≠ 2 ∧ flagged l = false ∧ late l = false := by decide
  obtain ⟨l1, l2, l3, l4⟩ := hl _ (next_mem (exec e dotx57.body s) dotx57.term)
  refine ⟨fun _ => (exec_x (by decide)).trans (h2.depth (by decide)), fun _ => ?_, fun _ => rfl, fun h => absurd h l1,
    fun h => absurd h l2, fun h => ?_, fun h => ?_, fun h => ?_⟩
  · rw [exec_x (by decide)]; exact h2.ptr (by decide)
  · rw [l3] at h; cases h
  · rw [l3] at h; cases h
  · rw [l4] at h; cases h

theorem rel60 {e : Env} {n : Nat} : Simulated e n dotx60 dota60 60 := by
  refine ⟨rfl, fun s t h hb => ?_⟩
  obtain ⟨h1, h2⟩ := h
  have h1' : Agree [1, 2, 3, 4, 5] [] s t := h1
  have hA : Agree [1, 2, 3, 4, 5] [] (exec e [.cmpW 39 8] s) (exec e [.cmpW 39 8] t) :=
    Agree.exec (d := ([1, 2, 3, 4, 5], [])) (by decide +kernel) h1'
  have hB : Agree [1, 2, 3, 4] [] (exec e dotx60.body s) (exec e dota60.body t) := by
    refine ⟨fun r hr hd => ?_, fun k hk hd => hA.v k hk hd, (exec_m (by decide)).trans (h1'.m.trans (exec_m (by decide)).symm),
      hA.z, hA.lt, hA.bad⟩
    by_cases h5 : r = 5
    · subst h5; exact (h2.base (by decide)).symm
    · have hr5 : r ∉ [1, 2, 3, 4, 5] := by simp only [List.mem_cons, List.not_mem_nil, or_false] at hd ⊢; omega
      rw [exec_x (b := dotx60.body) (fun h => hr5 ((show ∀ r ∈ wxs dotx60.body, r ∈ [1, 2, 3, 4, 5] by decide) r h)),
        exec_x (b := dota60.body) (fun h => hr5 ((show ∀ r ∈ wxs dota60.body, r ∈ [1, 2, 3, 4, 5] by decide) r h))]
      exact h1'.x r hr hr5
  refine ⟨⟨agree_next (tm := dotx60.term) (d := ([1, 2, 3, 4], [])) (by decide) rfl hB, ?_⟩, hB.z, hB.lt⟩
  have hl : ∀ l ∈ targets dotx60.term, l ≠ 2 ∧ flagged l = false ∧ late l = false := by decide
  obtain ⟨l2, l3, l4⟩ := hl _ (next_mem (exec e dotx60.body s) dotx60.term)
  refine ⟨fun _ => (exec_x (by decide)).trans (h2.depth (by decide)), fun _ => ?_,
    fun _ => (exec_x (by decide)).trans (h2.base (by decide)), fun _ => rfl,
    fun h => absurd h l2, fun h => ?_, fun h => ?_, fun h => ?_⟩
  · rw [exec_x (by decide)]; exact h2.ptr (by decide)
  · rw [l3] at h; cases h
  · rw [l3] at h; cases h
  · rw [l4] at h; cases h

/-! ### The whole kernel -/

theorem simulated {e : Env} {n : Nat} (hn : Nums e n) (k : Nat) (hk : k < 61) :
    ∃ g a, dotxCode[k]? = some g ∧ dotaCode[k]? = some a ∧ Simulated e n g a k := by
  rcases plain_all k hk with h | h
  · simp only [List.mem_cons, List.not_mem_nil, or_false] at h
    rcases h with rfl | rfl | rfl | rfl | rfl | rfl | rfl | rfl | rfl | rfl | rfl | rfl | rfl | rfl | rfl
    · exact ⟨_, _, rfl, rfl, rel0 hn⟩
    · exact ⟨_, _, rfl, rfl, rel1 hn⟩
    · exact ⟨_, _, rfl, rfl, rel2 hn⟩
    · exact ⟨_, _, rfl, rfl, rel3⟩
    · exact ⟨_, _, rfl, rfl, rel7⟩
    · exact ⟨_, _, rfl, rfl, rel11⟩
    · exact ⟨_, _, rfl, rfl, rel13⟩
    · exact ⟨_, _, rfl, rfl, rel14 hn⟩
    · exact ⟨_, _, rfl, rfl, rel16⟩
    · exact ⟨_, _, rfl, rfl, rel18⟩
    · exact ⟨_, _, rfl, rfl, rel19⟩
    · exact ⟨_, _, rfl, rfl, rel48⟩
    · exact ⟨_, _, rfl, rfl, rel50⟩
    · exact ⟨_, _, rfl, rfl, rel57⟩
    · exact ⟨_, _, rfl, rfl, rel60⟩
  · exact sim_plain h

/-- The two kernels take the same way through their blocks. -/
theorem sim_run {e : Env} {n : Nat} (hn : Nums e n) {i : Nat} : ∀ {k : Nat} {s t : St}, Rel e n k s t →
    (run e dotxCode i (k, s)).2.bad = false →
    ∃ t', run e dotaCode i (k, t) = ((run e dotxCode i (k, s)).1, t') ∧
      Rel e n (run e dotxCode i (k, s)).1 (run e dotxCode i (k, s)).2 t' := by
  induction i with
  | zero => intro k s t h _; exact ⟨t, rfl, h⟩
  | succ i ih =>
    intro k s t h hb
    rcases Nat.lt_or_ge k 61 with h61 | h61
    · obtain ⟨g, a, hg, ha, hs⟩ := simulated hn k h61
      have e1 : run e dotxCode (i + 1) (k, s) =
          run e dotxCode i (next (exec e g.body s) g.term, exec e g.body s) := by
        show run e dotxCode i (bstep e dotxCode (k, s)) = _
        rw [bstep_some hg]
      have e2 : run e dotaCode (i + 1) (k, t) = run e dotaCode i (next (exec e a.body t) a.term, exec e a.body t) := by
        show run e dotaCode i (bstep e dotaCode (k, t)) = _
        rw [bstep_some ha]
      rw [e1] at hb ⊢
      obtain ⟨hr, hf⟩ := hs.rel s t h (run_bad hb)
      rw [e2, ← hs.term, next_eq hf]
      exact ih hr hb
    · have e1 : run e dotxCode (i + 1) (k, s) = run e dotxCode i (k, s) := by
        show run e dotxCode i (bstep e dotxCode (k, s)) = _
        rw [bstep_none (List.getElem?_eq_none h61)]
      have e2 : run e dotaCode (i + 1) (k, t) = run e dotaCode i (k, t) := by
        show run e dotaCode i (bstep e dotaCode (k, t)) = _
        rw [bstep_none (List.getElem?_eq_none h61)]
      rw [e1] at hb ⊢
      rw [e2]
      exact ih h hb

/-- From the same state, both kernels stop with the same memory. -/
theorem dota_same {e : Env} {n : Nat} (hn : Nums e n) {i : Nat} {s s' : St} (h : run e dotxCode i (0, s) = (61, s'))
    (hb : s'.bad = false) : ∃ t', run e dotaCode i (0, s) = (61, t') ∧ t'.m = s'.m ∧ t'.bad = false := by
  obtain ⟨t', h1, h2⟩ := sim_run (k := 0) (s := s) (t := s) hn (i := i)
    ⟨Agree.refl s, ⟨fun h => absurd h (by decide), fun h => absurd h (by decide), fun h => absurd h (by decide),
      fun h => absurd h (by decide), fun h => absurd h (by decide), fun h => absurd h (by decide),
      fun h => absurd h (by decide), fun h => absurd h (by decide)⟩⟩ (by rw [h]; exact hb)
  rw [h] at h1 h2
  have h3 := h2.1
  exact ⟨t', h1, Agree.m h3, (Agree.bad h3).trans hb⟩

end Ruy.Neon.Dot

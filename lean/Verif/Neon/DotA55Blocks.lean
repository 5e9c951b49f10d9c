import Verif.Neon.DotA55Sim
/-
The blocks of `Kernel8bitNeonDotprodA55ish` that are not reorderings.
-/
namespace Ruy.Neon.Dot

theorem agree_of_frame {e : Env} {b : List Instr} {d : List Nat} (hx : ∀ r ∈ wxs b, r ∈ d) (hv : wvs b = [])
    (hm : b.any Instr.wm = false) (hf : b.any Instr.wf = false) {s : St} (hb : (exec e b s).bad = s.bad) :
    Agree d [] s (exec e b s) :=
  ⟨fun r _ hr => exec_x (fun h => hr (hx r h)), fun k _ _ => Veq.of (exec_v (by rw [hv]; exact List.not_mem_nil)),
    exec_m hm, (exec_flags hf).1, (exec_flags hf).2, hb⟩

theorem Agree.symm {d d' : List Nat} {s t : St} (h : Agree d d' s t) : Agree d d' t s :=
  ⟨fun r h1 h2 => (h.x r h1 h2).symm, fun k h1 h2 b hb => (h.v k h1 h2 b hb).symm, h.m.symm, h.z.symm, h.lt.symm,
    h.bad.symm⟩

/-- Two ways to load the registers `i` and `j`. -/
theorem halves {e : Env} {b c : List Instr} {d : List Nat} {i j : Nat} {u : St} (hx : ∀ r ∈ wxs b, r ∈ d)
    (kx : ∀ r ∈ wxs c, r ∈ d) (hv : ∀ r ∈ wvs b, r = i ∨ r = j) (kv : ∀ r ∈ wvs c, r = i ∨ r = j)
    (hm : b.any Instr.wm = false) (km : c.any Instr.wm = false) (hf : b.any Instr.wf = false)
    (kf : c.any Instr.wf = false) (hb : (exec e b u).bad = false) (kb : (exec e c u).bad = false)
    (hi : Veq ((exec e c u).v i) ((exec e b u).v i)) (hj : Veq ((exec e c u).v j) ((exec e b u).v j)) :
    Agree d [] (exec e b u) (exec e c u) := by
  refine ⟨fun r _ hd => ?_, fun k _ _ => ?_, (exec_m km).trans (exec_m hm).symm,
    (exec_flags kf).1.trans (exec_flags hf).1.symm, (exec_flags kf).2.trans (exec_flags hf).2.symm, kb.trans hb.symm⟩
  · rw [exec_x (fun h => hd (hx r h)), exec_x (fun h => hd (kx r h))]
  · by_cases h1 : k = i
    · subst h1; exact hi
    by_cases h2 : k = j
    · subst h2; exact hj
    rw [exec_v (fun h => (hv k h).elim h1 h2), exec_v (fun h => (kv k h).elim h1 h2)]
    exact Veq.refl _

/-! ### Block 0 -/

theorem rel0 {e : Env} {n : Nat} (hn : Nums e n) : Simulated e n dotx0 dota0 0 := by
  refine ⟨rfl, fun s t h hb => ?_⟩
  have h0 : Agree [] [] s t := h.1
  have e1 : exec e dotx0.body s = exec e [.movI 1 4] (exec e dota0.body s) := by
    rw [← exec_append]; exact (reorder_exec (by decide +kernel)).symm
  have h1 : Agree [] [] (exec e dota0.body s) (exec e dota0.body t) :=
    Agree.exec (d := ([], [])) (by decide +kernel) h0
  have h2 : Agree [1] [] (exec e dotx0.body s) (exec e dota0.body t) := by
    rw [e1]
    exact (Agree.symm (agree_of_frame (d := [1]) (by decide) rfl rfl rfl rfl)).trans (h1.weaken (by simp) (by simp))
  have hp : (s.bad || (e.field .startRow).isPtr || (e.field .lastRow).isPtr || (e.field .lastCol).isPtr ||
      (e.field .lhsStride).isPtr || (e.field .rhsStride).isPtr || (e.field .dstStride).isPtr ||
      (e.field .depth).isPtr || out e (s.x 34) 0 16) = false := by
    exact exec_bad (b := dotx0.body.drop 9) (s := exec e (dotx0.body.take 9) s) hb
  obtain ⟨r, a, ha, _⟩ := out_inv (Bool.or_eq_false_iff.1 hp).2
  show Rel e n 1 _ _ ∧ _
  refine ⟨⟨h2.weaken (by decide) (by decide), ⟨fun _ => ?_, fun _ => ⟨r, a + 16 + 16, ?_⟩, fun _ => rfl, fun _ => rfl,
    fun h => absurd h (by decide), fun h => absurd h (by decide), fun h => absurd h (by decide),
    fun h => absurd h (by decide)⟩⟩, h2.z, h2.lt⟩
  · show Val.int ((e.field .depth).num % 2 ^ 32) = _
    rw [hn.depth]
    show Val.int (4 * (n + 1) % 2 ^ 32) = _
    rw [Nat.mod_eq_of_lt (by have := hn.fits; omega)]
  · show addVal (addVal (s.x 34) 16) 16 = _
    rw [ha]; rfl

/-! ### The loop over depth -/

theorem rel1 {e : Env} {n : Nat} (hn : Nums e n) : Simulated e n dotx1 dota1 1 := by
  refine ⟨rfl, fun s t h hb => ?_⟩
  obtain ⟨h1, h2⟩ := h
  have h1' : Agree [1, 2, 3, 4] [] s t := h1
  obtain ⟨r, a, hp⟩ := h2.ptr (by decide)
  have hd := h2.depth (by decide)
  have h4 := h2.four rfl
  have tp : t.x 34 = .ptr r a := (h1'.x 34 (by decide) (by decide)).trans hp
  have td : t.x 12 = .int (4 * (n + 1)) := (h1'.x 12 (by decide) (by decide)).trans hd
  have e5 : (exec e dota1.body t).x 5 = .ptr r (a + 32 * n) := by
    show Val.ptr (addVal (t.x 34) ((t.x 12).num * 2 ^ 3)).region ((addVal (t.x 34) ((t.x 12).num * 2 ^ 3)).off - 32) = _
    rw [tp, td]
    show Val.ptr r (a + 4 * (n + 1) * 2 ^ 3 - 32) = _
    exact congrArg (Val.ptr r) (by omega)
  have f := hn.fits
  have ez : (exec e dotx1.body s).z = decide (n = 0) := by
    show decide (sgn (s.x 1).num = sgn (s.x 12).num) = _
    rw [h4, hd]
    show decide (sgn 4 = sgn (4 * (n + 1))) = _
    rw [sgn_of (by omega), sgn_of f, decide_eq_decide]
    omega
  have el : (exec e dotx1.body s).lt = decide (0 < n) := by
    show decide (sgn (s.x 1).num < sgn (s.x 12).num) = _
    rw [h4, hd]
    show decide (sgn 4 < sgn (4 * (n + 1))) = _
    rw [sgn_of (by omega), sgn_of f, decide_eq_decide]
    omega
  have tz : (exec e dota1.body t).z = decide (n = 0) := by
    show Nat.beq (t.x 34).off ((exec e dota1.body t).x 5).off = _
    rw [e5, tp, Bool.eq_iff_iff, Nat.beq_eq, decide_eq_true_eq]
    show a = a + 32 * n ↔ _
    omega
  have tl : (exec e dota1.body t).lt = decide (0 < n) := by
    show Nat.blt (t.x 34).off ((exec e dota1.body t).x 5).off = _
    rw [e5, tp, Bool.eq_iff_iff, Nat.blt_eq, decide_eq_true_eq]
    show a < a + 32 * n ↔ _
    omega
  have hb' : s.bad = false := exec_bad hb
  have tb : (exec e dota1.body t).bad = false := by
    show (t.bad || (t.x 12).isPtr || !(addVal (t.x 34) ((t.x 12).num * 2 ^ 3)).isPtr ||
      Nat.blt (addVal (t.x 34) ((t.x 12).num * 2 ^ 3)).off 32 || !(t.x 34).isPtr || !((exec e dota1.body t).x 5).isPtr ||
      !decide ((t.x 34).region = ((exec e dota1.body t).x 5).region)) = false
    rw [e5, tp, td, h1'.bad, hb']
    have : Nat.blt (a + 4 * (n + 1) * 2 ^ 3) 32 = false := by
      rw [Bool.eq_false_iff, Ne, Nat.blt_eq]; omega
    show (false || false || false || Nat.blt (a + 4 * (n + 1) * 2 ^ 3) 32 || false || false || !decide (r = r)) = false
    rw [this, decide_eq_true rfl]; rfl
  have hA : Agree [1, 2, 3, 4, 5] [] (exec e dotx1.body s) (exec e dota1.body t) := by
    refine ⟨fun k hk hd => ?_, fun k hk hd => h1'.v k hk hd, h1'.m, tz.trans ez.symm, tl.trans el.symm, tb.trans hb.symm⟩
    rw [exec_x (b := dota1.body) (fun h => hd ((show ∀ r ∈ wxs dota1.body, r ∈ [1, 2, 3, 4, 5] by decide) k h)),
      exec_x (b := dotx1.body) (by rw [show wxs dotx1.body = [] from rfl]; exact List.not_mem_nil)]
    exact h1'.x k hk (fun h => hd (by simp only [List.mem_cons, List.not_mem_nil, or_false] at h ⊢; omega))
  refine ⟨⟨agree_next (tm := dotx1.term) (d := ([1, 2, 3, 4, 5], [])) (by decide) rfl hA, ?_⟩, hA.z, hA.lt⟩
  have hnx : next (exec e dotx1.body s) dotx1.term = bif decide (n = 0) then 3 else 2 := by
    show (bif (exec e dotx1.body s).z then 3 else 2) = _
    rw [ez]
  rw [hnx]
  by_cases hz : n = 0
  · rw [decide_eq_true hz]
    exact ⟨fun _ => hd, fun _ => ⟨r, a, hp⟩, fun _ => h2.base (by decide), fun h => absurd h (by decide),
      fun h => absurd h (by decide), fun h => absurd h (by decide), fun h => absurd h (by decide),
      fun h => absurd h (by decide)⟩
  · rw [decide_eq_false hz]
    exact ⟨fun _ => hd, fun _ => ⟨r, a, hp⟩, fun _ => h2.base (by decide), fun h => absurd h (by decide),
      fun _ => ⟨r, a, 0, by omega, h4, hp, e5⟩, fun h => absurd h (by decide), fun h => absurd h (by decide),
      fun h => absurd h (by decide)⟩

def loadQ : List Instr := [.ldq 0 lhsPtr 0 16, .ldq 1 lhsPtr 0 16, .ldq 2 rhsPtr 0 16, .ldq 3 rhsPtr 0 16]
def loadH : List Instr := [.ldx 1 lhsPtr 8, .ldx 3 rhsPtr 8, .ldx 4 rhsPtr 24, .ldd 0 lhsPtr 0 0, .insD 0 1 1,
  .ldx 2 lhsPtr 24, .addXI lhsPtr lhsPtr 32, .ldd 2 rhsPtr 0 0, .insD 2 1 3, .addXI rhsPtr rhsPtr 32,
  .lddN 3 rhsPtr 16, .lddN 1 lhsPtr 16, .insD 3 1 4, .insD 1 1 2]
def before2 : List Instr := [.ve .sdot 24 0 3 0, .ve .sdot 26 0 3 1, .ve .sdot 28 0 3 2, .ve .sdot 30 0 3 3,
  .ve .sdot 17 1 2 0, .ve .sdot 19 1 2 1, .ve .sdot 21 1 2 2, .ve .sdot 23 1 2 3, .ve .sdot 25 1 3 0,
  .ve .sdot 27 1 3 1, .ve .sdot 29 1 3 2, .ve .sdot 31 1 3 3]
def after2 : List Instr := [.ve .sdot 16 0 2 0, .ve .sdot 18 0 2 1, .ve .sdot 20 0 2 2, .ve .sdot 22 0 2 3]

theorem loadQ_inv {e : Env} {u : St} (h : (exec e loadQ u).bad = false) :
    ∃ r a q b, u.x 34 = .ptr r a ∧ u.x 35 = .ptr q b ∧ a + 32 ≤ e.size r ∧ b + 32 ≤ e.size q ∧ u.bad = false := by
  have h' : (u.bad || out e (u.x 34) 0 16 || out e (addVal (u.x 34) 16) 0 16 ||
    out e (u.x 35) 0 16 || out e (addVal (u.x 35) 16) 0 16) = false := h
  simp only [Bool.or_eq_false_iff] at h'
  obtain ⟨⟨⟨⟨hb, h0⟩, h1⟩, k0⟩, k1⟩ := h'
  obtain ⟨r, a, hl, _⟩ := out_inv h0
  obtain ⟨q, b, hr, _⟩ := out_inv k0
  rw [hl] at h1
  rw [hr] at k1
  obtain ⟨r', a', e1, h4⟩ := out_inv h1
  obtain ⟨q', b', e2, k4⟩ := out_inv k1
  cases e1
  cases e2
  exact ⟨r, a, q, b, hl, hr, by omega, by omega, hb⟩

theorem loadH_agree {e : Env} {u : St} (h : (exec e loadQ u).bad = false) :
    Agree [1, 2, 3, 4] [] (exec e loadQ u) (exec e loadH u) := by
  obtain ⟨r, a, q, b, hl, hr, h1, h2, h3⟩ := loadQ_inv h
  have q0 : (exec e loadQ u).v 0 = bytes u (u.x 34) 0 := rfl
  have q1 : (exec e loadQ u).v 1 = bytes u (addVal (u.x 34) 16) 0 := rfl
  have q2 : (exec e loadQ u).v 2 = bytes u (u.x 35) 0 := rfl
  have q3 : (exec e loadQ u).v 3 = bytes u (addVal (u.x 35) 16) 0 := rfl
  have p0 : (exec e loadH u).v 0 = fun k => if k / 8 = 1 then numByte (Val.int (le8 (bytes u (u.x 34) 8) 0)).num (k % 8)
    else lower (bytes u (u.x 34) 0) k := rfl
  have p2 : (exec e loadH u).v 2 = fun k => if k / 8 = 1 then numByte (Val.int (le8 (bytes u (u.x 35) 8) 0)).num (k % 8)
    else lower (bytes u (u.x 35) 0) k := rfl
  have a34 : addVal (u.x 34) 0 = u.x 34 := by rw [hl]; rfl
  have a35 : addVal (u.x 35) 0 = u.x 35 := by rw [hr]; rfl
  have p1 : (exec e loadH u).v 1 = fun k => if k / 8 = 1 then numByte (Val.int (le8 (bytes u (addVal (u.x 34) 0) 24) 0)).num (k % 8)
    else lower (bytesN u (addVal (addVal (u.x 34) 0) 32) 16) k := rfl
  have p3 : (exec e loadH u).v 3 = fun k => if k / 8 = 1 then numByte (Val.int (le8 (bytes u (u.x 35) 24) 0)).num (k % 8)
    else lower (bytesN u (addVal (addVal (u.x 35) 0) 32) 16) k := rfl
  refine ⟨fun k hk hd => ?_, fun k hk _ => ?_, rfl, rfl, rfl, ?_⟩
  · by_cases h34 : k = 34
    · subst h34
      show addVal (addVal (u.x 34) 0) 32 = addVal (addVal (u.x 34) 16) 16
      rw [hl]; rfl
    by_cases h35 : k = 35
    · subst h35
      show addVal (addVal (u.x 35) 0) 32 = addVal (addVal (u.x 35) 16) 16
      rw [hr]; rfl
    rw [exec_x (b := loadQ), exec_x (b := loadH)]
    · intro h
      have : ∀ k ∈ wxs loadH, k ∈ [1, 2, 3, 4] ∨ k = 34 ∨ k = 35 := by decide
      rcases this k h with h | h | h
      · exact hd h
      · exact h34 h
      · exact h35 h
    · intro h
      have : ∀ k ∈ wxs loadQ, k = 34 ∨ k = 35 := by decide
      exact (this k h).elim h34 h35
  · rcases Nat.lt_or_ge k 4 with h4 | h4
    · interval_cases k
      · rw [q0, p0, hl]
        exact ins_veq _ (fun _ => rfl) (fun k => congrArg (u.m r) (by show a + 8 + k = a + 0 + (8 + k); omega))
      · rw [q1, p1, a34, hl]
        exact ins_veq _ (fun k => congrArg (u.m r) (by show a + 32 - 16 + k = a + 16 + 0 + k; omega))
          (fun k => congrArg (u.m r) (by show a + 24 + k = a + 16 + 0 + (8 + k); omega))
      · rw [q2, p2, hr]
        exact ins_veq _ (fun _ => rfl) (fun k => congrArg (u.m q) (by show b + 8 + k = b + 0 + (8 + k); omega))
      · rw [q3, p3, a35, hr]
        exact ins_veq _ (fun k => congrArg (u.m q) (by show b + 32 - 16 + k = b + 16 + 0 + k; omega))
          (fun k => congrArg (u.m q) (by show b + 24 + k = b + 16 + 0 + (8 + k); omega))
    · rw [exec_v (b := loadQ), exec_v (b := loadH)]
      · exact Veq.refl _
      · exact fun h => absurd ((show ∀ k ∈ wvs loadH, k < 4 by decide) k h) (by omega)
      · exact fun h => absurd ((show ∀ k ∈ wvs loadQ, k < 4 by decide) k h) (by omega)
  · rw [h]
    show (u.bad || out e (u.x 34) 8 8 || out e (u.x 35) 8 8 || out e (u.x 35) 24 8 || out e (u.x 34) 0 8 || false ||
      out e (addVal (u.x 34) 0) 24 8 || out e (u.x 35) 0 8 || false || outN e (addVal (addVal (u.x 35) 0) 32) 16 8 ||
      outN e (addVal (addVal (u.x 34) 0) 32) 16 8 || false || false) = false
    rw [a34, a35, hl, hr, h3]
    show (false || out e (.ptr r a) 8 8 || out e (.ptr q b) 8 8 || out e (.ptr q b) 24 8 || out e (.ptr r a) 0 8 || false ||
      out e (.ptr r a) 24 8 || out e (.ptr q b) 0 8 || false || outN e (.ptr q (b + 32)) 16 8 ||
      outN e (.ptr r (a + 32)) 16 8 || false || false) = false
    repeat' first
      | rw [out_ptr (by omega)]
      | rw [outN_ptr (by omega) (by omega)]
    rfl

theorem rel2 {e : Env} {n : Nat} (hn : Nums e n) : Simulated e n dotx2 dota2 2 := by
  refine ⟨rfl, fun s t h hb => ?_⟩
  obtain ⟨h1, h2⟩ := h
  have h1' : Agree [1, 2, 3, 4, 5] [] s t := h1
  have e1 : exec e dotx2.body s = exec e after2 (exec e [.addWI 1 1 4, .cmpW 1 12] (exec e (before2 ++ loadQ) s)) := by
    rw [← exec_append, ← exec_append]; exact reorder_exec (by decide +kernel)
  have e2 : exec e dota2.body t = exec e after2 (exec e [.cmpPP 34 5] (exec e (before2 ++ loadH) t)) := by
    rw [← exec_append, ← exec_append]; exact reorder_exec (by decide +kernel)
  have hA : Agree [1, 2, 3, 4, 5] [] (exec e (before2 ++ loadQ) s) (exec e (before2 ++ loadQ) t) :=
    Agree.exec (d := ([1, 2, 3, 4, 5], [])) (by decide +kernel) h1'
  have hb0 := hb
  rw [e1] at hb0
  have hb1 : (exec e (before2 ++ loadQ) s).bad = false := exec_bad (exec_bad hb0)
  have hB : Agree [1, 2, 3, 4, 5] [] (exec e (before2 ++ loadQ) t) (exec e (before2 ++ loadH) t) := by
    rw [exec_append, exec_append]
    refine (loadH_agree ?_).weaken (by simp) (by simp)
    rw [← exec_append, hA.bad, hb1]
  have hC := hA.trans hB
  obtain ⟨r, a, i, hi, c1, c2, c3⟩ := h2.count rfl
  have s1 : (exec e (before2 ++ loadQ) s).x 1 = .int (4 * (i + 1)) := (exec_x (by decide)).trans c1
  have s12 : (exec e (before2 ++ loadQ) s).x 12 = .int (4 * (n + 1)) := (exec_x (by decide)).trans (h2.depth (by decide))
  have s34 : (exec e (before2 ++ loadQ) s).x 34 = .ptr r (a + 32 * (i + 1)) := by
    show addVal (addVal (s.x 34) 16) 16 = _
    rw [c2]; rfl
  have t34 := (hC.x 34 (by decide) (by decide)).trans s34
  have t5 : (exec e (before2 ++ loadH) t).x 5 = .ptr r (a + 32 * n) := (exec_x (by decide)).trans c3
  have s5 : (exec e (before2 ++ loadQ) s).x 5 = e.field .lhsBasePtr := (exec_x (by decide)).trans (h2.base (by decide))
  rw [e1, e2] at *
  clear e1 e2
  generalize exec e (before2 ++ loadQ) s = u at *
  generalize exec e (before2 ++ loadH) t = w at *
  have f := hn.fits
  have m1 : (4 * (i + 1) + 4) % 4294967296 = 4 * (i + 2) := by omega
  have u1 : (exec e [.addWI 1 1 4, .cmpW 1 12] u).x 1 = .int (4 * (i + 2)) := by
    show Val.int (((u.x 1).num + 4) % 4294967296) = _
    rw [s1]
    show Val.int ((4 * (i + 1) + 4) % 4294967296) = _
    rw [m1]
  have ez : (exec e [.addWI 1 1 4, .cmpW 1 12] u).z = decide (i + 1 = n) := by
    show decide (sgn (((u.x 1).num + 4) % 4294967296) = sgn (u.x 12).num) = _
    rw [s1, s12]
    show decide (sgn ((4 * (i + 1) + 4) % 4294967296) = sgn (4 * (n + 1))) = _
    rw [m1, sgn_of (by omega), sgn_of f, decide_eq_decide]
    omega
  have el : (exec e [.addWI 1 1 4, .cmpW 1 12] u).lt = decide (i + 1 < n) := by
    show decide (sgn (((u.x 1).num + 4) % 4294967296) < sgn (u.x 12).num) = _
    rw [s1, s12]
    show decide (sgn ((4 * (i + 1) + 4) % 4294967296) < sgn (4 * (n + 1))) = _
    rw [m1, sgn_of (by omega), sgn_of f, decide_eq_decide]
    omega
  have tz : (exec e [.cmpPP 34 5] w).z = decide (i + 1 = n) := by
    show Nat.beq (w.x 34).off (w.x 5).off = _
    rw [t34, t5, Bool.eq_iff_iff, Nat.beq_eq, decide_eq_true_eq]
    show a + 32 * (i + 1) = a + 32 * n ↔ _
    omega
  have tl : (exec e [.cmpPP 34 5] w).lt = decide (i + 1 < n) := by
    show Nat.blt (w.x 34).off (w.x 5).off = _
    rw [t34, t5, Bool.eq_iff_iff, Nat.blt_eq, decide_eq_true_eq]
    show a + 32 * (i + 1) < a + 32 * n ↔ _
    omega
  have tb : (exec e [.cmpPP 34 5] w).bad = false := by
    show (w.bad || !(w.x 34).isPtr || !(w.x 5).isPtr || !decide ((w.x 34).region = (w.x 5).region)) = false
    rw [t34, t5, hC.bad, hb1]
    show (false || false || false || !decide (r = r)) = false
    rw [decide_eq_true rfl]; rfl
  have hD : Agree [1, 2, 3, 4, 5] [] (exec e [.addWI 1 1 4, .cmpW 1 12] u) (exec e [.cmpPP 34 5] w) := by
    refine ⟨fun k hk hd => ?_, fun k hk hd => hC.v k hk hd,
      (exec_m (by decide)).trans (hC.m.trans (exec_m (by decide)).symm), tz.trans ez.symm, tl.trans el.symm,
      tb.trans (exec_bad hb0).symm⟩
    rw [exec_x (b := [.addWI 1 1 4, .cmpW 1 12]) (fun h => hd
      ((show ∀ r ∈ wxs [.addWI 1 1 4, .cmpW 1 12], r ∈ [1, 2, 3, 4, 5] by decide) k h))]
    exact hC.x k hk hd
  have hE : Agree [1, 2, 3, 4, 5] [] (exec e after2 (exec e [.addWI 1 1 4, .cmpW 1 12] u))
      (exec e after2 (exec e [.cmpPP 34 5] w)) :=
    Agree.exec (d := ([1, 2, 3, 4, 5], [])) (by decide +kernel) hD
  refine ⟨⟨agree_next (tm := dotx2.term) (d := ([1, 2, 3, 4, 5], [])) (by decide) rfl hE, ?_⟩, hE.z, hE.lt⟩
  have hnx : next (exec e after2 (exec e [.addWI 1 1 4, .cmpW 1 12] u)) dotx2.term = bif decide (i + 1 < n) then 2 else 3 := by
    show (bif (exec e [.addWI 1 1 4, .cmpW 1 12] u).lt then 2 else 3) = _
    rw [el]
  rw [hnx]
  by_cases hl : i + 1 < n
  · rw [decide_eq_true hl]
    exact ⟨fun _ => s12, fun _ => ⟨_, _, s34⟩, fun _ => s5, fun h => absurd h (by decide),
      fun _ => ⟨r, a, i + 1, hl, u1, s34, t5⟩, fun h => absurd h (by decide), fun h => absurd h (by decide),
      fun h => absurd h (by decide)⟩
  · rw [decide_eq_false hl]
    exact ⟨fun _ => s12, fun _ => ⟨_, _, s34⟩, fun _ => s5, fun h => absurd h (by decide),
      fun h => absurd h (by decide), fun h => absurd h (by decide), fun h => absurd h (by decide),
      fun h => absurd h (by decide)⟩

theorem rel3 {e : Env} {n : Nat} : Simulated e n dotx3 dota3 3 := by
  refine ⟨rfl, fun s t h hb => ?_⟩
  obtain ⟨h1, h2⟩ := h
  have h1' : Agree [1, 2, 3, 4, 5] [] s t := h1
  have e2 : exec e dota3.body t = exec e dotx3.body (exec e [.ldpX 5 .lhsBasePtr] t) := by
    rw [← exec_append]; exact reorder_exec (by decide +kernel)
  have hA : Agree [1, 2, 3, 4] [] s (exec e [.ldpX 5 .lhsBasePtr] t) := by
    refine ⟨fun r hr hd => ?_, fun k hk hd => h1'.v k hk hd, h1'.m, h1'.z, h1'.lt, h1'.bad⟩
    by_cases h5 : r = 5
    · subst h5; exact (h2.base (by decide)).symm
    · rw [exec_x (by simpa [wxs, Instr.wx] using h5)]
      exact h1'.x r hr (by simp only [List.mem_cons, List.not_mem_nil, or_false] at hd ⊢; omega)
  have hB : Agree [1, 2, 3, 4] [] (exec e dotx3.body s) (exec e dota3.body t) := by
    rw [e2]; exact Agree.exec (d := ([1, 2, 3, 4], [])) (by decide +kernel) hA
  exact ⟨⟨agree_next (tm := dotx3.term) (d := ([1, 2, 3, 4], [])) (by decide) rfl hB, facts_next (by decide +kernel) h2⟩,
    hB.z, hB.lt⟩

end Ruy.Neon.Dot

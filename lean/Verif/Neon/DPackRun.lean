import Verif.Neon.DPackAsm
/-
The last rows of the pack functions for dot products, and the whole statements.
-/
namespace Ruy.Neon.DPack
open Simd (wrap8 wrap16 wrap32)
open PJob (pos full and_high and_low beq_zero beq_ne u32_byte nat_byte rowLoads pRow pCmp exec_append keepP raw_eq entry_full
  pos_succ keepR joined numByte_le8)

theorem quads_eq (j : PJob) : quads j = 4 * j.full + (j.rows % 16 + 3) / 4 := by
  unfold quads PJob.full; omega

theorem count_eq {j : PJob} (hf : Fits j) {a b : Nat} (ha : a ≤ j.full) (hb : b ≤ j.full) :
    decide (sgn (16 * a) = sgn (16 * b)) = decide (a = b) := by
  have := hf.rows
  unfold PJob.full at *
  rw [decide_eq_decide, sgn_of (by omega), sgn_of (by omega)]; omega

theorem in_src {j : PJob} (hf : Fits j) {c t : Nat} (hc : c < 4) (ht : t < j.full) :
    j.pos t c + 16 ≤ j.env.size (j.reg c) := by
  unfold PJob.full at ht
  have := hf.src c hc (16 * t + 15) (by omega)
  rw [show (16 * t + 15) / 16 = t by omega, show (16 * t + 15) % 16 = 15 by omega] at this
  exact this

theorem outs {j : PJob} (hf : Fits j) {n k c : Nat} (hc : c < 4) (hk : k < j.full) {p : Nat → Nat} {s : St} (h : At j n p s)
    (hp : p c = j.pos k c) {o l : Nat} (ho : o + l ≤ 16) : out j.env (s.x (48 + c)) o l = false := by
  rw [h.src c hc, hp]
  exact out_ptr (by have := in_src hf hc hk; omega)

theorem outp {j : PJob} (hf : Fits j) {n u : Nat} (hn : n + u < quads j) {p : Nat → Nat} {s : St} (h : At j n p s) :
    out j.env (s.x 52) (32 * u) 16 = false := by
  rw [h.packed]
  have := hf.packed
  exact out_ptr (by show _ ≤ j.size .packed; omega)

theorem outq {j : PJob} (hf : Fits j) {t : Nat} (ht : t < j.full) {p : Nat → Nat} {s : St} (h : At j (4 * t) p s) :
    out j.env (s.x 52) 0 16 = false ∧ out j.env (s.x 52) 32 16 = false ∧ out j.env (s.x 52) 64 16 = false ∧
      out j.env (s.x 52) 96 16 = false := by
  have := quads_eq j
  exact ⟨outp (u := 0) hf (by omega) h, outp (u := 1) hf (by omega) h, outp (u := 2) hf (by omega) h, outp (u := 3) hf (by omega) h⟩

theorem incs {j : PJob} {n c : Nat} (hc : c < 4) {p : Nat → Nat} {s : St} (h : At j n p s) :
    (s.x (54 + c)).isPtr = false := by rw [h.inc c hc]; rfl

theorem src_byte {j : PJob} (hf : Fits j) {t n c : Nat} (hc : c < 4) {s : St} {p : Nat → Nat} (h : At j n p s)
    (hp : p c = j.pos t c) (o b : Nat) :
    bytes s (s.x (48 + c)) o b = j.m (j.reg c) (j.pos t c + o + b) := by
  unfold bytes
  rw [h.src c hc, h.mem, hp]
  show stored j n (j.reg c) _ = _
  rw [stored_src hf hc]
  rfl

/-! ### The last rows -/

/-- `k` of the remaining rows are loaded. -/
structure Tail (j : PJob) (k : Nat) (s : St) : Prop where
  inv : At j (4 * j.full) (fun c => j.pos j.full c + k) s
  left : s.x 2 = .int (j.rows % 16)
  v : ∀ c, c < 4 → ∀ b, b < 16 → s.v c b = if b < k then j.raw c (16 * j.full + b) else BitVec.ofInt 8 j.zp

theorem Tail.step {j : PJob} (hf : Fits j) {k : Nat} {s : St} (h : Tail j k s) (hk : k < j.rows % 16) :
    Tail j (k + 1) (exec j.env (rowLoads k) s) := by
  obtain ⟨h1, h2, h3, h4, h5, h6, h7⟩ := pRow j.env k s
  have h8 := eRow j.env k s
  generalize exec j.env (rowLoads k) s = s' at *
  have hfull : j.full = j.rows / 16 := rfl
  have e1 : (16 * j.full + k) / 16 = j.full := by omega
  have e2 : (16 * j.full + k) % 16 = k := by omega
  have hin : ∀ c, c < 4 → j.pos j.full c + k + 0 + 1 ≤ j.env.size (j.reg c) := by
    intro c hc
    have := hf.src c hc (16 * j.full + k) (by omega)
    rw [e1, e2] at this
    exact this
  refine ⟨h.inv.of (h1.sub (by decide)) h2 h5 h6 h8 (fun c hc => ?_) ?_, ?_, fun c hc b hb => ?_⟩
  · rw [h3 c hc, h.inv.src c hc]; rfl
  · rw [h7, h.inv.ok, h.inv.src 0 (by omega), h.inv.src 1 (by omega), h.inv.src 2 (by omega), h.inv.src 3 (by omega),
      out_ptr (hin 0 (by omega)), out_ptr (hin 1 (by omega)), out_ptr (hin 2 (by omega)), out_ptr (hin 3 (by omega))]
    rfl
  · rw [h1.get (by decide)]; exact h.left
  · rw [h4 c hc, h.inv.src c hc]
    dsimp only [Val.region, Val.off]
    by_cases hbk : b = k
    · subst hbk
      rw [show Nat.beq b b = true by simp, if_pos (by omega), h.inv.mem, stored_src hf hc]
      show j.m _ _ = j.m _ _
      rw [e1, e2]; rfl
    · rw [beq_ne hbk]
      show s.v c b = _
      rw [h.v c hc b hb]
      by_cases hb' : b < k
      · rw [if_pos hb', if_pos (by omega)]
      · rw [if_neg hb', if_neg (by omega)]

theorem Tail.cmp {j : PJob} {k : Nat} {s : St} (h : Tail j k s) (i : Nat) (hi : i < 2 ^ 31) :
    Tail j k (exec j.env [.cmpI 2 i] s) ∧ (exec j.env [.cmpI 2 i] s).z = decide (j.rows % 16 = i) := by
  rw [pCmp]
  refine ⟨⟨⟨h.inv.src, h.inv.packed, h.inv.sums, h.inv.inc, h.inv.rows, h.inv.zp, h.inv.mem, h.inv.acc, h.inv.x26, h.inv.x27, ?_⟩,
    h.left, h.v⟩, ?_⟩
  · show (s.bad || (s.x 2).isPtr) = false
    rw [h.inv.ok, h.left]; rfl
  · show decide (sgn (s.x 2).num = sgn i) = _
    rw [h.left]
    exact sgn_eq (by omega) hi

theorem Tail.entry {j : PJob} {s : St} (h : Tail j (j.rows % 16) s) :
    ∀ c, c < 4 → ∀ b, b < 16 → eorV (s.v c) (s.v 26) b = j.entry c (16 * j.full + b) := by
  intro c hc b hb
  unfold eorV
  rw [h.inv.x26 b hb, h.v c hc b hb]
  unfold PJob.entry
  have hfull : j.full = j.rows / 16 := rfl
  congr 1
  by_cases hr : b < j.rows % 16
  · rw [if_pos hr, if_pos (by omega)]
  · rw [if_neg hr, if_neg (by omega)]

/-- The remaining rows one by one. -/
theorem Rest.rows {P : List Block} {o : Nat} (R : Rest P o) {j : PJob} (hf : Fits j) : ∀ n k s, k + n + 1 = j.rows % 16 →
    Tail j k s → ∃ s', Reach j.env P (o + 2 + k, s) (o + 17, s') ∧ Tail j (j.rows % 16) s' := by
  intro n
  induction n with
  | zero =>
    intro k s hn h
    have hk : k < 15 := by omega
    have h' := h.step hf (by omega)
    rcases (by omega : k = 14 ∨ k < 14) with rfl | hk'
    · refine ⟨exec j.env (rowLoads 14) s, Reach.block R.b16 rfl, ?_⟩
      rw [← hn]; exact h'
    · obtain ⟨c1, c2⟩ := h'.cmp (k + 1) (by omega)
      refine ⟨exec j.env [.cmpI 2 (k + 1)] (exec j.env (rowLoads k) s), ?_, by rw [← hn]; exact c1⟩
      rw [← exec_append] at *
      refine Reach.block (R.row k hk') ?_
      show (bif (exec j.env (rowLoads k ++ [.cmpI 2 (k + 1)]) s).z then o + 17 else o + 3 + k) = o + 17
      rw [c2, decide_eq_true (by omega)]; rfl
  | succ n ih =>
    intro k s hn h
    have hk : k < 14 := by omega
    have h' := h.step hf (by omega)
    obtain ⟨c1, c2⟩ := h'.cmp (k + 1) (by omega)
    obtain ⟨s', r, hs'⟩ := ih (k + 1) _ (by omega) c1
    refine ⟨s', Reach.trans ?_ r, hs'⟩
    rw [← exec_append] at *
    refine Reach.block (R.row k hk) ?_
    show (bif (exec j.env (rowLoads k ++ [.cmpI 2 (k + 1)]) s).z then o + 17 else o + 3 + k) = o + 2 + (k + 1)
    rw [c2, decide_eq_false (by omega)]
    show o + 3 + k = _
    omega

/-- All rows are stored. -/
structure Done (j : PJob) (s : St) : Prop where
  sums : s.x sumsPtr = (match j.sumsAt with | some o => .ptr .sums o | none => .int 0)
  mem : s.m = stored j (quads j)
  acc : Sums j (quads j) s
  ok : s.bad = false

/-- `u` groups of the last rows are stored. -/
structure Mid (j : PJob) (u : Nat) (s : St) : Prop where
  packed : u < 4 → s.x 52 = .ptr .packed (j.packedBase + 32 * (4 * j.full))
  sums : s.x sumsPtr = (match j.sumsAt with | some o => .ptr .sums o | none => .int 0)
  left : s.x 2 = .int (j.rows % 16)
  mem : s.m = stored j (4 * j.full + u)
  acc : Sums j (4 * j.full + u) s
  x27 : ∀ b, b < 16 → s.v 27 b = 1
  ok : s.bad = false

theorem sum_part {T a w : Int} {n : Int} (h : (T + a) % 4294967296 = w % 4294967296) : (T + wrap32 (a + n)) % 4294967296 = (w + n) % 4294967296 := by
  unfold wrap32; omega

/-- One more group. -/
theorem Mid.step {j : PJob} (hf : Fits j) {q : Nat → Vec} {u d : Nat} {s s' : St} (h : Mid j u s) (hp : Part j.env q u d s s')
    (hd : d = 28 ∨ d = 29 ∨ d = 30 ∨ d = 31) (hu : u < 4) (hn : 4 * j.full + u < quads j)
    (hq : ∀ b, b < 16 → q u b = j.entry (b / 4) (4 * (4 * j.full + u) + b % 4)) :
    Mid j (u + 1) s' ∧ (u < 3 → (s'.z || s'.lt) = decide (quads j = 4 * j.full + u + 1)) := by
  have hpk := hf.packed
  have hm : j.rows % 16 < 16 := Nat.mod_lt _ (by omega)
  refine ⟨⟨fun h' => ?_, ?_, ?_, ?_, fun c hc => ?_, fun b hb => ?_, ?_⟩, fun h' => ?_⟩
  · rw [hp.x52 (by omega)]; exact h.packed hu
  · rw [show sumsPtr = 53 from rfl, hp.x53]; exact h.sums
  · rw [hp.x2]; exact h.left
  · rw [hp.m, h.mem, h.packed hu]
    dsimp only [Val.region, Val.off]
    exact stored_succ (by ring) hq
  · have := h.acc c hc
    have hv : getS (s'.v d) c = wrap32 (getS (s.v d) c + quadSum j c (4 * j.full + u)) := by rw [hp.v, getS_dotV hc h.x27 hq]
    rw [show 4 * j.full + (u + 1) = 4 * j.full + u + 1 from rfl, sumTo_succ]
    unfold total at this ⊢
    generalize sumTo j c (4 * j.full + u) = w at *
    generalize quadSum j c (4 * j.full + u) = n at *
    rcases hd with rfl | rfl | rfl | rfl
    · rw [hv, hp.other 29 (by omega) (by omega) (by omega), hp.other 30 (by omega) (by omega) (by omega),
        hp.other 31 (by omega) (by omega) (by omega)]
      generalize getS (s.v 28) c = a at *
      generalize getS (s.v 29) c = b at *
      generalize getS (s.v 30) c = d at *
      generalize getS (s.v 31) c = e at *
      unfold wrap32; omega
    · rw [hv, hp.other 28 (by omega) (by omega) (by omega), hp.other 30 (by omega) (by omega) (by omega),
        hp.other 31 (by omega) (by omega) (by omega)]
      generalize getS (s.v 28) c = a at *
      generalize getS (s.v 29) c = b at *
      generalize getS (s.v 30) c = d at *
      generalize getS (s.v 31) c = e at *
      unfold wrap32; omega
    · rw [hv, hp.other 28 (by omega) (by omega) (by omega), hp.other 29 (by omega) (by omega) (by omega),
        hp.other 31 (by omega) (by omega) (by omega)]
      generalize getS (s.v 28) c = a at *
      generalize getS (s.v 29) c = b at *
      generalize getS (s.v 30) c = d at *
      generalize getS (s.v 31) c = e at *
      unfold wrap32; omega
    · rw [hv, hp.other 28 (by omega) (by omega) (by omega), hp.other 29 (by omega) (by omega) (by omega),
        hp.other 30 (by omega) (by omega) (by omega)]
      generalize getS (s.v 28) c = a at *
      generalize getS (s.v 29) c = b at *
      generalize getS (s.v 30) c = d at *
      generalize getS (s.v 31) c = e at *
      unfold wrap32; omega
  · rw [hp.other 27 (by omega) (by omega) (by omega)]; exact h.x27 b hb
  · rw [hp.bad, h.ok, h.left, h.packed hu, out_ptr (by show _ ≤ j.size .packed; omega)]
    split <;> rfl
  · rw [hp.flag h', h.left, quads_eq]
    show (decide (sgn (j.rows % 16) = _) || decide (sgn (j.rows % 16) < _)) = _
    have e1 : sgn (j.rows % 16) = ((j.rows % 16 : Nat) : Int) := sgn_of (by omega)
    have e2 : sgn (4 * (u + 1)) = ((4 * (u + 1) : Nat) : Int) := sgn_of (by omega)
    rw [e1, e2, ← Bool.decide_or, decide_eq_decide]
    rw [quads_eq] at hn
    push_cast
    omega

theorem Mid.done {j : PJob} {u : Nat} {s : St} (m : Mid j u s) (e : quads j = 4 * j.full + u) : Done j s :=
  ⟨m.sums, by rw [e]; exact m.mem, by rw [e]; exact m.acc, m.ok⟩

/-- One group with its test. -/
theorem group {P : List Block} {pc a b : Nat} {l : List Instr} (hb : P[pc]? = some ⟨l, .br .le a b⟩) {j : PJob} (hf : Fits j)
    {x : Nat → Vec} {u d : Nat} {s : St} (h : Mid j u s) (hp : Part j.env (tq x) u d s (exec j.env l s))
    (hd : d = 28 ∨ d = 29 ∨ d = 30 ∨ d = 31) (hu : u < 3) (hn : 4 * j.full + u < quads j)
    (ent : ∀ c, c < 4 → ∀ b, b < 16 → x c b = j.entry c (16 * j.full + b)) :
    ∃ s', (Reach j.env P (pc, s) (a, s') ∧ Done j s') ∨ (Reach j.env P (pc, s) (b, s') ∧ Mid j (u + 1) s' ∧
      4 * j.full + (u + 1) < quads j ∧ ∀ i, i < 4 → s'.v (20 + i) = tq x i) := by
  obtain ⟨m, f⟩ := h.step hf hp hd (by omega) hn (tq_entry ent (by omega))
  have f := f hu
  have nx : ∀ t, (bif ((exec j.env l s).z || (exec j.env l s).lt) then a else b) = t →
    Reach j.env P (pc, s) (t, exec j.env l s) := fun t ht => Reach.block hb ht
  have hq := hp.q
  clear hp
  generalize exec j.env l s = s1 at *
  rw [f] at nx
  refine ⟨s1, ?_⟩
  by_cases c1 : quads j = 4 * j.full + u + 1
  · rw [decide_eq_true c1] at nx
    exact .inl ⟨nx _ rfl, m.done c1⟩
  · rw [decide_eq_false c1] at nx
    exact .inr ⟨nx _ rfl, m, by omega, hq⟩

theorem part_of {e : Env} {q q' : Nat → Vec} {u d : Nat} {s s' : St} (h : Part e q u d s s') (hu : u < 4)
    (hq : ∀ i, i < 4 → q i = q' i) : Part e q' u d s s' :=
  ⟨h.x2, h.x53, h.x52, by rw [h.m, hq u hu], by rw [h.v, hq u hu], h.other, fun i hi => by rw [h.q i hi, hq i hi], h.flag, h.bad⟩

/-- The groups of the last rows, from label 5 to label 4. -/
theorem Rest.groups {P : List Block} {o : Nat} (R : Rest P o) {j : PJob} (hf : Fits j) {s : St} (h : Tail j (j.rows % 16) s)
    (hl : j.rows % 16 ≠ 0) : ∃ s', Reach j.env P (o + 17, s) (o + 21, s') ∧ Done j s' := by
  have hq := quads_eq j
  have hm : j.rows % 16 < 16 := Nat.mod_lt _ (by omega)
  have m0 : Mid j 0 s := ⟨fun _ => h.inv.packed, h.inv.sums, h.left, by rw [Nat.add_zero]; exact h.inv.mem,
    by rw [Nat.add_zero]; exact h.inv.acc, h.inv.x27, h.inv.ok⟩
  have ent := h.entry
  obtain ⟨s1, ⟨r, d⟩ | ⟨r1, m1, n1, q1⟩⟩ := group R.b17 hf m0 (e17 j.env s) (by omega) (by omega) (by omega) ent
  · exact ⟨s1, r, d⟩
  obtain ⟨s2, ⟨r, d⟩ | ⟨r2, m2, n2, q2⟩⟩ := group R.b18 hf m1 (part_of (e18 j.env s1) (by omega) q1) (by omega) (by omega) n1 ent
  · exact ⟨s2, r1.trans r, d⟩
  obtain ⟨s3, ⟨r, d⟩ | ⟨r3, m3, n3, q3⟩⟩ := group R.b19 hf m2 (part_of (e19 j.env s2) (by omega) q2) (by omega) (by omega) n2 ent
  · exact ⟨s3, (r1.trans r2).trans r, d⟩
  have m4 := (m3.step hf (part_of (e20 j.env s3) (by omega) q3) (by omega) (by omega) n3 (tq_entry ent (by omega))).1
  exact ⟨_, ((r1.trans r2).trans r3).trans (Reach.block R.b20 rfl), m4.done (by omega)⟩

/-- From label 3 to label 4. -/
theorem Rest.tail {P : List Block} {o : Nat} (R : Rest P o) {j : PJob} (hf : Fits j) {s : St}
    (h : At j (4 * j.full) (j.pos j.full) s) : ∃ s', Reach j.env P (o, s) (o + 21, s') ∧ Done j s' := by
  have hfull : j.full = j.rows / 16 := rfl
  have hq := quads_eq j
  have hr := hf.rows
  obtain ⟨h1, h2, h3, h4, h5, h6⟩ := e0 j.env s
  have nx : ∀ l, (bif (exec j.env r0 s).z then o + 21 else o + 1) = l → Reach j.env P (o, s) (l, exec j.env r0 s) :=
    fun l hl => Reach.block R.b0 hl
  generalize exec j.env r0 s = s1 at *
  rw [h.rows] at h3 h4 h6
  change s1.x 2 = .int (j.rows % 2 ^ 32 &&& 15) at h3
  change s1.z = Nat.beq (j.rows % 2 ^ 32 &&& 15) 0 at h4
  rw [and_low hr] at h3 h4
  have inv : At j (4 * j.full) (j.pos j.full) s1 :=
    h.of (h1.sub (by decide)) h2 (fun c hc => by rw [h5]) (by rw [h5]) (by rw [h5])
      (fun c hc => by rw [h1.get (by interval_cases c <;> decide)]; exact h.src c hc) (by rw [h6, h.ok]; rfl)
  by_cases h0 : j.rows % 16 = 0
  · refine ⟨s1, nx _ (by rw [h4, h0]; rfl), inv.sums, ?_, ?_, inv.ok⟩
    · rw [show quads j = 4 * j.full by omega]; exact inv.mem
    · rw [show quads j = 4 * j.full by omega]; exact inv.acc
  · have r1 := nx (o + 1) (by rw [h4, beq_zero, decide_eq_false h0]; rfl)
    obtain ⟨g1, g2, g3, g4, g5, g6, g6', g7⟩ := e1 j.env s1
    have nx' : ∀ l, (bif (exec j.env DPack.r1 s1).z then o + 17 else o + 2) = l →
        Reach j.env P (o + 1, s1) (l, exec j.env DPack.r1 s1) := fun l hl => Reach.block R.b1 hl
    generalize exec j.env DPack.r1 s1 = s2 at *
    have r2 := nx' (o + 2) (by
      rw [g3, h3, show decide (sgn (Val.int (j.rows % 16)).num = sgn 0) = decide (j.rows % 16 = 0) from
        sgn_eq (by omega) (by omega), decide_eq_false h0]
      rfl)
    have t0 : Tail j 0 s2 := by
      refine ⟨inv.of (g1.sub (by decide)) g2 g5 g6 g6'
        (fun c hc => by rw [g1.get (by interval_cases c <;> decide)]; exact inv.src c hc) (by rw [g7, inv.ok, inv.zp, h3]; rfl),
        by rw [g1.get (by decide)]; exact h3, fun c hc b hb => ?_⟩
      rw [g4 c hc, inv.zp, if_neg (by omega)]
      exact u32_byte _
    obtain ⟨s3, r3, h'⟩ := R.rows hf (j.rows % 16 - 1) 0 s2 (by omega) t0
    obtain ⟨s4, r4, h''⟩ := R.groups hf h' h0
    exact ⟨s4, ((r1.trans r2).trans r3).trans r4, h''⟩

theorem addV_eq (a b c d : Vec) (i : Nat) : getS (addV (addV a b) (addV c d)) i =
    wrap32 (getS a i + getS b i + getS c i + getS d i) := by
  unfold addV
  rw [getS_ofS, getS_ofS, getS_ofS]
  unfold wrap32; omega

theorem wrap_of_mod {a b : Int} (h : a % 4294967296 = b % 4294967296) : wrap32 a = wrap32 b := by
  unfold wrap32; omega

/-- From label 4 to the end. -/
theorem Rest.finish {P : List Block} {o : Nat} (R : Rest P o) {j : PJob} (hf : Fits j) {s0 s2 : St}
    (r : Reach j.env P (0, s0) (o + 21, s2)) (h2 : Done j s2) : ∃ s', Stops j.env P s0 s' ∧ Result j s' := by
  have hp := hf.packed
  have hent : ∀ c, c < 4 → ∀ k, k < 4 * quads j → stored j (quads j) .packed (place j c k) = j.entry c k := by
    intro c hc k hk
    unfold stored place
    rw [if_pos ⟨rfl, by omega, by omega, by omega⟩]
    congr 1 <;> omega
  have hrest : ∀ o, (∀ c, c < 4 → ∀ k, k < 4 * quads j → o ≠ place j c k) → stored j (quads j) .packed o = j.m .packed o := by
    intro o ho
    unfold stored
    rw [if_neg]
    rintro ⟨-, h1, h2, h3⟩
    refine ho ((o - j.packedBase) % 32 / 4) (by omega) (4 * ((o - j.packedBase) / 32) + (o - j.packedBase) % 4) (by omega) ?_
    unfold place
    omega
  have hother : ∀ r, r ≠ .packed → stored j (quads j) r = j.m r := by
    intro r hr
    funext o
    unfold stored
    rw [if_neg (fun hh => hr hh.1)]
  obtain ⟨g1, g2, g3, g4, g5⟩ := e21 j.env s2
  have nx : ∀ l, (bif (exec j.env r21 s2).z then o + 23 else o + 22) = l →
      Reach j.env P (o + 21, s2) (l, exec j.env r21 s2) :=
    fun l hl => Reach.block R.b21 hl
  generalize exec j.env r21 s2 = s3 at *
  have hs := h2.sums
  cases ha : j.sumsAt with
  | none =>
    rw [ha] at hs
    refine ⟨s3, stops_of ?_, ?_⟩
    · rw [R.len]
      exact r.trans (nx _ (by rw [g3, hs]; rfl))
    · refine ⟨by rw [g5, h2.ok], ?_, fun o ho => by simp [ha] at ho, ?_, fun o _ => ?_, fun r hr _ => ?_⟩
      · rw [g2, h2.mem]; exact hent
      · rw [g2, h2.mem]; exact hrest
      · rw [g2, h2.mem, hother _ (by decide)]
      · rw [g2, h2.mem, hother _ hr]
  | some a =>
    rw [ha] at hs
    have hsz := hf.sums a ha
    obtain ⟨k1, k2⟩ := e22 j.env s3
    have r4 : Reach j.env P (o + 22, s3) (o + 23, exec j.env r22 s3) := Reach.block R.b22 rfl
    generalize exec j.env r22 s3 = s4 at *
    have hx : s3.x 53 = .ptr .sums a := by rw [g1]; exact hs
    rw [hx] at k1 k2
    simp only [Val.region, Val.off, Nat.add_zero] at k1
    have hm : ∀ r, r ≠ .sums → s4.m r = stored j (quads j) r := by
      intro r hr
      rw [k1, g2, h2.mem]
      funext o
      unfold wr
      rw [if_neg (fun hh => hr hh.1)]
    refine ⟨s4, stops_of ?_, ?_⟩
    · rw [R.len]
      exact (r.trans (nx _ (by rw [g3, hs]; rfl))).trans r4
    · refine ⟨?_, ?_, fun o ho c hc b hb => ?_, ?_, fun o ho => ?_, fun r hr hr' => ?_⟩
      · rw [k2, g5, h2.ok, out_ptr (by show a + 0 + 16 ≤ j.size .sums; omega)]; rfl
      · rw [hm _ (by decide)]; exact hent
      · obtain rfl : a = o := by simpa [ha] using ho
        rw [k1]
        unfold wr
        rw [if_pos ⟨rfl, by omega, by omega⟩, show a + 4 * c + b - a = 4 * c + b by omega, ← byteOf_getS (s3.v 28) c b hb, g4,
          addV_eq]
        have := h2.acc c hc
        unfold total at this
        rw [sumTo_eq] at this
        unfold colSum
        rw [wrap_of_mod this]
      · rw [hm _ (by decide)]; exact hrest
      · rw [k1]
        unfold wr
        have := ho a ha
        rw [if_neg (by omega), g2, h2.mem, hother _ (by decide)]
      · rw [hm _ hr', hother _ hr]

end Ruy.Neon.DPack

import Verif.Simd.Threads
import Verif.Simd.FlowProps
import Verif.TrMul.Props
/-
TrMul on the x86 paths: lemmas.
-/
namespace Ruy.Simd.Flow
open Ruy.Mat Ruy.Mul Ruy.BlockMap
open Ruy.TrMul (Mem setSide Cfg State Seq Grid MapFor PC Locals Call)

/-! ### Lists of calls -/

theorem runOps_append {P : Path} {jb : Job} {ops ops' : List Op} {m : Mem Int} :
    runOps P jb (ops ++ ops') m = runOps P jb ops m >>= runOps P jb ops' := by
  induction ops generalizing m with
  | nil => rfl
  | cons o os ih =>
    show (step P jb m o >>= fun m' => runOps P jb (os ++ ops') m') = (step P jb m o >>= _) >>= _
    cases step P jb m o with
    | error e => rfl
    | ok m' => exact ih

theorem runOps_snoc {P : Path} {jb : Job} {ops : List Op} {o : Op} {m m1 m2 : Mem Int}
    (h1 : runOps P jb ops m = .ok m1) (h2 : step P jb m1 o = .ok m2) :
    runOps P jb (ops ++ [o]) m = .ok m2 := by
  rw [runOps_append, h1, C.ok_bind]
  show (step P jb m1 o >>= _) = _
  rw [h2, C.ok_bind]
  rfl

theorem runOps_last {P : Path} {jb : Job} {ops : List Op} {o : Op} {m m1 m2 : Mem Int}
    (h1 : runOps P jb ops m = .ok m1) (h2 : runOps P jb (ops ++ [o]) m = .ok m2) :
    step P jb m1 o = .ok m2 := by
  rw [runOps_append, h1, C.ok_bind] at h2
  obtain ⟨m', h3, h4⟩ := C.bind_ok h2
  cases h4
  exact h3

/-- Where a list with one more element can be split. -/
theorem split_snoc {α : Type} {l pre post : List α} {a x : α} (h : l ++ [a] = pre ++ x :: post) :
    (pre = l ∧ x = a ∧ post = []) ∨ ∃ post', post = post' ++ [a] ∧ l = pre ++ x :: post' := by
  rcases List.eq_nil_or_concat post with rfl | ⟨q, b, rfl⟩
  · have := List.append_inj' h rfl
    exact Or.inl ⟨this.1.symm, (List.cons.inj this.2).1.symm, rfl⟩
  · refine Or.inr ⟨q, ?_, ?_⟩
    · have h' : l ++ [a] = (pre ++ x :: q) ++ [b] := by simpa using h
      have := List.append_inj' h' rfl
      rw [(List.cons.inj this.2).1]
      simp
    · have h' : l ++ [a] = (pre ++ x :: q) ++ [b] := by simpa using h
      exact (List.append_inj' h' rfl).1

section
variable {kc : Nat} {jb : Job} {m : Mem Int}

theorem Ordered.nil : Ordered kc jb m [] where
  packs _ _ _ h := by cases h
  kernels _ _ h := by cases h
  first pre _ _ _ h := by cases pre <;> cases h

theorem Ordered.pack {ops : List Op} (h : Ordered kc jb m ops) {s : Side} {lo hi : Nat}
    (hb : Block kc (m.packed.get s).layout.cols lo hi) : Ordered kc jb m (ops ++ [.pack s lo hi]) where
  packs s' lo' hi' hm := by
    rcases List.mem_append.1 hm with hm | hm
    · exact h.packs s' lo' hi' hm
    · cases List.mem_singleton.1 hm; exact hb
  kernels start stop hm := by
    rcases List.mem_append.1 hm with hm | hm
    · exact h.kernels start stop hm
    · cases List.mem_singleton.1 hm
  first pre start stop post he := by
    rcases split_snoc he with ⟨_, hx, _⟩ | ⟨post', _, he'⟩
    · cases hx
    · exact h.first pre start stop post' he'

theorem Ordered.kernel {ops : List Op} (h : Ordered kc jb m ops) {start stop : SidePair Nat}
    (hb : ∀ s : Side, Block kc (m.packed.get s).layout.cols (start.get s) (stop.get s))
    (hc : ∀ (s : Side) (c : Nat), start.get s ≤ c → c < stop.get s → Covered ops s c) :
    Ordered kc jb m (ops ++ [.kernel start stop]) where
  packs s' lo' hi' hm := by
    rcases List.mem_append.1 hm with hm | hm
    · exact h.packs s' lo' hi' hm
    · cases List.mem_singleton.1 hm
  kernels start stop hm := by
    rcases List.mem_append.1 hm with hm | hm
    · exact h.kernels start stop hm
    · cases List.mem_singleton.1 hm; exact hb
  first pre start stop post he := by
    rcases split_snoc he with ⟨rfl, hx, _⟩ | ⟨post', _, he'⟩
    · cases hx
      exact fun s c h1 h2 _ => hc s c h1 h2
    · exact h.first pre start stop post' he'

end

/-! ### Traces -/

/-- The calls `ops` lead from `m` to `m'`, in order, and include those for prepacked sides. -/
structure Trace (P : Path) (jb : Job) (pre : SidePair Bool) (m : Mem Int) (ops : List Op) (m' : Mem Int) :
    Prop where
  run : runOps P jb ops m = .ok m'
  ordered : Ordered P.kernel.isa.kc jb m ops
  pre : ∀ s : Side, pre.get s = true → Op.pack s 0 (m.packed.get s).layout.cols ∈ ops

section
variable {P : Path} {ml : Int → Int → Int → Int} {jb : Job} {pre : SidePair Bool} {m : Mem Int}

theorem Trace.add (hP : (P, ml) ∈ paths) (h : JobOk P.kernel.isa.kc jb m) {ops : List Op} {m' : Mem Int}
    (t : Trace P jb pre m ops m') {o : Op} (ho : Ordered P.kernel.isa.kc jb m (ops ++ [o])) :
    ∃ m'', step P jb m' o = .ok m'' ∧ Trace P jb pre m (ops ++ [o]) m'' := by
  obtain ⟨m'', e, _⟩ := c52_any_order hP h ho
  exact ⟨m'', runOps_last t.run e, e, ho, fun s hs => List.mem_append_left _ (t.pre s hs)⟩

/-- The matrices that are prepacked can be packed. -/
theorem prepack_of (hP : (P, ml) ∈ paths) (h : JobOk P.kernel.isa.kc jb m)
    (hb : ∀ s : Side, 0 < (jb.src.get s).layout.cols) :
    ∃ m', Trace P jb pre m (prepackOps pre m) m' := by
  have hkc := kc_of (paths_ok hP)
  have hbl : ∀ s : Side, Block P.kernel.isa.kc (m.packed.get s).layout.cols 0 (m.packed.get s).layout.cols :=
    fun s => whole_block hkc (h.side s) (hb s)
  have ho : Ordered P.kernel.isa.kc jb m (prepackOps pre m) := by
    obtain ⟨pl, pr⟩ := pre
    unfold prepackOps
    cases pl <;> cases pr
    · exact Ordered.nil
    · exact Ordered.nil.pack (s := .rhs) (hbl .rhs)
    · exact Ordered.nil.pack (s := .lhs) (hbl .lhs)
    · exact (Ordered.nil.pack (s := .lhs) (hbl .lhs)).pack (s := .rhs) (hbl .rhs)
  obtain ⟨m', e, _⟩ := c52_any_order hP h ho
  refine ⟨m', e, ho, fun s hs => ?_⟩
  unfold prepackOps
  cases s
  · have hs : pre.lhs = true := hs
    rw [hs]; simp
  · have hs : pre.rhs = true := hs
    rw [hs]; simp

/-! ### Blocks -/

theorem block_of_tiles {n dim kc : Nat} {coords : Nat → C (Nat × Nat)} (t : Tiles n dim kc coords) {b : Nat}
    {x : Nat × Nat} (hb : b < n) (h : coords b = .ok x) : Block kc dim x.1 x.2 := by
  obtain ⟨s, e, h1, h2, ⟨u, h3⟩, ⟨v, h4⟩⟩ := t.block b hb
  rw [h1] at h; cases h
  refine ⟨?_, ?_, h2, (TrMul.tiles_le t hb h1).2.1⟩
  · show s % kc = 0
    rw [h3]; simp
  · show e % kc = 0
    rw [h4]; simp

/-- The grid of a block map, with the width of the kernel. -/
structure MapOk (kc : Nat) (m : Mem Int) (bm : BlockMap) (n kd : SidePair Nat) : Prop where
  grid : Grid bm ⟨m.packed.lhs.layout.cols, m.packed.rhs.layout.cols⟩ kd n
  width : ∀ s : Side, kd.get s = kc
  layout : ∀ s : Side, kd.get s = (m.packed.get s).layout.kernel.cols

theorem mapOk_of (hP : (P, ml) ∈ paths) (h : JobOk P.kernel.isa.kc jb m) {bm : BlockMap} (hm : MapFor m bm) :
    ∃ n kd, MapOk P.kernel.isa.kc m bm n kd := by
  obtain ⟨n, kd, g, hk⟩ := hm.grid
  refine ⟨n, kd, g, fun s => ?_, hk⟩
  obtain ⟨_, _, _, l3, _⟩ := (h.side s).facts (kc_of (paths_ok hP))
  rw [hk, l3]

theorem MapOk.block {kc : Nat} {bm : BlockMap} {n kd : SidePair Nat} (h : MapOk kc m bm n kd) {s : Side}
    {b : Nat} {x : Nat × Nat} (hb : b < n.get s) (hx : getBlockMatrixCoords s bm b = .ok x) :
    Block kc (m.packed.get s).layout.cols x.1 x.2 := by
  have t := h.grid.tiles s
  rw [h.width, TrMul.dims_get] at t
  exact block_of_tiles t hb hx

theorem MapOk.cols (hP : (P, ml) ∈ paths) (hj : JobOk P.kernel.isa.kc jb m) {bm : BlockMap}
    {n kd : SidePair Nat} (h : MapOk P.kernel.isa.kc m bm n kd) (s : Side) :
    0 < (jb.src.get s).layout.cols := by
  have t := h.grid.tiles s
  obtain ⟨a, e, h1, h2, _⟩ := t.block 0 t.nonempty
  obtain ⟨_, _, h3, h4⟩ := h.block t.nonempty h1
  obtain ⟨_, _, _, _, _, _, l6, l7, _⟩ := (hj.side s).facts (kc_of (paths_ok hP))
  by_contra hc
  have hc : (jb.src.get s).layout.cols = 0 := by omega
  rw [hc] at l6 l7
  rcases kc_of (paths_ok hP) with hk | hk <;> rw [hk] at l7 <;> dsimp only at * <;> omega

/-- The columns of block `b` have been packed. -/
def HasPack (bm : BlockMap) (ops : List Op) (s : Side) (b : Nat) : Prop :=
  ∃ x, getBlockMatrixCoords s bm b = .ok x ∧ Op.pack s x.1 x.2 ∈ ops

/-- Destination block `id` has been computed. -/
def HasKernel (bm : BlockMap) (ops : List Op) (id : Nat) : Prop :=
  ∃ b l r, getBlockByIndex bm id = .ok b ∧ getBlockMatrixCoords .lhs bm b.lhs = .ok l ∧
    getBlockMatrixCoords .rhs bm b.rhs = .ok r ∧ Op.kernel ⟨l.1, r.1⟩ ⟨l.2, r.2⟩ ∈ ops

theorem HasPack.mono {bm : BlockMap} {ops : List Op} {s : Side} {b : Nat} (h : HasPack bm ops s b) (o : Op) :
    HasPack bm (ops ++ [o]) s b := by
  obtain ⟨x, h1, h2⟩ := h
  exact ⟨x, h1, List.mem_append_left _ h2⟩

theorem HasKernel.mono {bm : BlockMap} {ops : List Op} {id : Nat} (h : HasKernel bm ops id) (o : Op) :
    HasKernel bm (ops ++ [o]) id := by
  obtain ⟨b, l, r, h1, h2, h3, h4⟩ := h
  exact ⟨b, l, r, h1, h2, h3, List.mem_append_left _ h4⟩

/-- A packed or prepacked block covers its columns. -/
theorem Trace.covered {ops : List Op} {m' : Mem Int} (t : Trace P jb pre m ops m') {kc : Nat} {bm : BlockMap}
    {n kd : SidePair Nat} (hm : MapOk kc m bm n kd) {s : Side} {b : Nat} {x : Nat × Nat} (hb : b < n.get s)
    (hx : getBlockMatrixCoords s bm b = .ok x) (h : pre.get s = true ∨ HasPack bm ops s b) {c : Nat}
    (h1 : x.1 ≤ c) (h2 : c < x.2) : Covered ops s c := by
  rcases h with h | ⟨y, hy, hmem⟩
  · have := (hm.block hb hx).2.2.2
    exact ⟨_, _, t.pre s h, Nat.zero_le _, by omega⟩
  · rw [hx] at hy; cases hy
    exact ⟨_, _, hmem, h1, h2⟩

/-- All blocks computed: all entries written. -/
theorem written_all {kc : Nat} {bm : BlockMap} {n kd : SidePair Nat} (hm : MapOk kc m bm n kd) {ops : List Op}
    (h : ∀ id, id < n.lhs * n.rhs → HasKernel bm ops id) {i j : Nat} (hi : i < m.packed.lhs.layout.cols)
    (hj : j < m.packed.rhs.layout.cols) : Written ops i j := by
  obtain ⟨id, hid, hin⟩ := hm.grid.cover (i := i) (j := j) hi hj
  obtain ⟨b, l, r, h1, h2, h3, h4⟩ := h id hid
  obtain ⟨g1, g2, g3, g4⟩ := hin.coords h1 h2 h3
  exact ⟨_, _, h4, g1, g2, g3, g4⟩

/-- What a complete multiplication leaves: every entry, and nothing else changed. -/
structure Multiplied (ml : Int → Int → Int → Int) (jb : Job) (m m' : Mem Int) : Prop where
  same : DSame m.dst m'.dst
  entries : ∀ i j, i < m.dst.layout.rows → j < m.dst.layout.cols →
    m'.dst.elem i j = .ok (stored ml jb m.dst.zp i j)
  rest : DOutside (fun i j => i < m.dst.layout.rows ∧ j < m.dst.layout.cols) m.dst m'.dst

theorem Trace.multiplied (hP : (P, ml) ∈ paths) (h : JobOk P.kernel.isa.kc jb m) {ops : List Op} {m' : Mem Int}
    (t : Trace P jb pre m ops m') {bm : BlockMap} {n kd : SidePair Nat}
    (hm : MapOk P.kernel.isa.kc m bm n kd) (hall : ∀ id, id < n.lhs * n.rhs → HasKernel bm ops id) :
    Multiplied ml jb m m' := by
  obtain ⟨m'', e, hs, hv, hr⟩ := c52_any_order hP h t.ordered
  rw [t.run] at e; cases e
  have hkc := kc_of (paths_ok hP)
  obtain ⟨_, _, _, _, _, ll, _⟩ := (h.side .lhs).facts hkc
  obtain ⟨_, _, _, _, _, lr, _⟩ := (h.side .rhs).facts hkc
  simp only [SidePair.get_lhs, SidePair.get_rhs] at ll lr
  have := h.drows
  have := h.dcols
  exact ⟨hs, fun i j hi hj => hv i j hi hj (written_all hm hall (by omega) (by omega)),
    hr.mono (fun i j h => ⟨h.1, h.2.1⟩)⟩

theorem Multiplied.unique {m1 m2 : Mem Int} (h1 : Multiplied ml jb m m1) (h2 : Multiplied ml jb m m2) :
    m1.dst = m2.dst :=
  Kern.mat_ext h1.same h2.same h1.rest h2.rest
    (fun i j h => ⟨_, h1.entries i j h.1 h.2, h2.entries i j h.1 h.2⟩)

/-! ### The block loop -/

/-- The state of the block loop, seen through its trace. -/
structure SeqOk (P : Path) (jb : Job) (pre : SidePair Bool) (bm : BlockMap) (n : SidePair Nat) (m : Mem Int)
    (k : Nat) (ops : List Op) (s : Seq Int) : Prop where
  trace : Trace P jb pre m ops s.mem
  packed : ∀ (sd : Side) b, s.packed.get sd b = true → HasPack bm ops sd b
  done : ∀ id, id < k → HasKernel bm ops id

theorem tryPack_of (hP : (P, ml) ∈ paths) (h : JobOk P.kernel.isa.kc jb m) {bm : BlockMap}
    {n kd : SidePair Nat} (hm : MapOk P.kernel.isa.kc m bm n kd) {k : Nat} {ops : List Op} {s : Seq Int}
    (ok : SeqOk P jb pre bm n m k ops s) {sd : Side} {b : Nat} {x : Nat × Nat} (hb : b < n.get sd)
    (hx : getBlockMatrixCoords sd bm b = .ok x) :
    ∃ s' ops', tryPack P jb pre sd b x.1 x.2 s = .ok s' ∧ SeqOk P jb pre bm n m k ops' s' ∧
      (pre.get sd = true ∨ HasPack bm ops' sd b) ∧
      ∀ sd' b', HasPack bm ops sd' b' → HasPack bm ops' sd' b' := by
  unfold tryPack
  by_cases h1 : pre.get sd = true
  · rw [if_pos h1]
    exact ⟨s, ops, rfl, ok, Or.inl h1, fun _ _ h => h⟩
  · rw [if_neg h1]
    by_cases h2 : s.packed.get sd b = true
    · rw [if_pos h2]
      exact ⟨s, ops, rfl, ok, Or.inr (ok.packed sd b h2), fun _ _ h => h⟩
    · rw [if_neg h2]
      obtain ⟨m', e, t'⟩ := ok.trace.add hP h (ok.trace.ordered.pack (hm.block hb hx))
      have hp : HasPack bm (ops ++ [.pack sd x.1 x.2]) sd b := ⟨x, hx, by simp⟩
      rw [e, C.ok_bind]
      refine ⟨_, _, rfl, ⟨t', fun sd' b' hp' => ?_, fun id hid => (ok.done id hid).mono _⟩, Or.inr hp,
        fun _ _ h => h.mono _⟩
      dsimp only at hp'
      rw [get_setSide] at hp'
      split at hp'
      · rename_i he; subst he
        by_cases hbb : b' = b
        · subst hbb; exact hp
        · rw [Function.update_of_ne hbb] at hp'
          exact (ok.packed sd' b' hp').mono _
      · exact (ok.packed sd' b' hp').mono _

theorem blockStep_of (hP : (P, ml) ∈ paths) (h : JobOk P.kernel.isa.kc jb m) {bm : BlockMap}
    {n kd : SidePair Nat} (hm : MapOk P.kernel.isa.kc m bm n kd) {k : Nat} (hk : k < n.lhs * n.rhs)
    {ops : List Op} {s : Seq Int} (ok : SeqOk P jb pre bm n m k ops s) :
    ∃ s' ops', blockStep P jb pre bm k s = .ok s' ∧ SeqOk P jb pre bm n m (k + 1) ops' s' := by
  obtain ⟨b, hb, hbl, hbr⟩ := hm.grid.decode k hk
  obtain ⟨l1, l2, hl, _⟩ := (hm.grid.tiles .lhs).block b.lhs hbl
  obtain ⟨r1, r2, hr, _⟩ := (hm.grid.tiles .rhs).block b.rhs hbr
  obtain ⟨s1, ops1, e1, ok1, a1, _⟩ := tryPack_of hP h hm ok (sd := .lhs) hbl hl
  obtain ⟨s2, ops2, e2, ok2, a2, mono⟩ := tryPack_of hP h hm ok1 (sd := .rhs) hbr hr
  have ho : Ordered P.kernel.isa.kc jb m (ops2 ++ [.kernel ⟨l1, r1⟩ ⟨l2, r2⟩]) := by
    refine ok2.trace.ordered.kernel (fun sd => ?_) (fun sd c h1 h2 => ?_)
    · cases sd
      · exact hm.block (s := .lhs) hbl hl
      · exact hm.block (s := .rhs) hbr hr
    · cases sd
      · exact ok2.trace.covered hm (s := .lhs) hbl hl (a1.imp id (mono _ _)) h1 h2
      · exact ok2.trace.covered hm (s := .rhs) hbr hr a2 h1 h2
  obtain ⟨m', e3, t'⟩ := ok2.trace.add hP h ho
  refine ⟨{ s2 with mem := m' }, _, ?_, t', fun sd b' hp => (ok2.packed sd b' hp).mono _, fun id hid => ?_⟩
  · unfold blockStep
    rw [hb, C.ok_bind, hl, C.ok_bind, hr, C.ok_bind, e1, C.ok_bind, e2, C.ok_bind, e3, C.ok_bind]
  · by_cases hid' : id < k
    · exact (ok2.done id hid').mono _
    · have : id = k := by omega
      subst this
      exact ⟨b, _, _, hb, hl, hr, by simp⟩

theorem blockLoop_of (hP : (P, ml) ∈ paths) (h : JobOk P.kernel.isa.kc jb m) {bm : BlockMap}
    {n kd : SidePair Nat} (hm : MapOk P.kernel.isa.kc m bm n kd) {m1 : Mem Int} {ops : List Op}
    (t : Trace P jb pre m ops m1) :
    ∃ m', blockLoop P jb pre bm m1 = .ok m' ∧ Multiplied ml jb m m' := by
  obtain ⟨s, e, ops', ok⟩ := forUpTo_total (n := n.lhs * n.rhs) (body := blockStep P jb pre bm)
    (s := ⟨m1, ⟨fun _ => false, fun _ => false⟩⟩)
    (fun k s => ∃ ops, SeqOk P jb pre bm n m k ops s)
    ⟨ops, t, fun sd b hp => by cases sd <;> exact absurd hp (by simp), fun id hid => absurd hid (Nat.not_lt_zero _)⟩
    (fun k s hk ⟨ops, ok⟩ => by
      obtain ⟨s', ops', e, ok'⟩ := blockStep_of hP h hm hk ok
      exact ⟨s', e, ops', ok'⟩)
  refine ⟨s.mem, ?_, ok.trace.multiplied hP h hm ok.done⟩
  unfold blockLoop
  rw [hm.grid.total, C.ok_bind, e, C.ok_bind]

end

end Ruy.Simd.Flow

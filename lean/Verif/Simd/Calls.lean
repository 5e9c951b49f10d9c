import Verif.Simd.ThreadsInv
/-
The calls of RunPack and RunKernel that TrMul issues, for any element types: they depend on the block map, the
packing statuses and the shapes of the packed matrices only.  Used by the paths whose packing and kernels work on
bytes.
-/
namespace Ruy.Simd.Flow
open Ruy.Mat Ruy.Mul Ruy.BlockMap
open Ruy.TrMul (Mem setSide Cfg State Grid PC)

/-! ### Model -/

/-- Packing of matrices that are prepacked (prepack / the packed cache), before TrMul starts. -/
def prepackCalls (pre : SidePair Bool) (dims : SidePair Nat) : List Op :=
  (if pre.lhs then [.pack .lhs 0 dims.lhs] else []) ++ if pre.rhs then [.pack .rhs 0 dims.rhs] else []

/-- The calls issued so far, and `local_already_packed_`. -/
structure Issued where
  ops : List Op
  packed : SidePair (Nat → Bool)

/-- trmul.cc:126-196 (`TryPack`) without atomics. -/
def tryCall (pre : SidePair Bool) (side : Side) (block lo hi : Nat) (s : Issued) : Issued :=
  if pre.get side then s
  else if s.packed.get side block then s
  else ⟨s.ops ++ [.pack side lo hi], setSide s.packed side (Function.update (s.packed.get side) block true)⟩

/-- trmul.cc:97-116: one iteration of the main loop. -/
def blockCall (pre : SidePair Bool) (bm : BlockMap) (id : Nat) (s : Issued) : C Issued := do
  let block ← getBlockByIndex bm id
  let l ← getBlockMatrixCoords .lhs bm block.lhs
  let r ← getBlockMatrixCoords .rhs bm block.rhs
  let s2 := tryCall pre .rhs block.rhs r.1 r.2 (tryCall pre .lhs block.lhs l.1 l.2 s)
  .ok { s2 with ops := s2.ops ++ [.kernel ⟨l.1, r.1⟩ ⟨l.2, r.2⟩] }

/-- trmul.cc:78-119 (`Run`) with thread_count = 1: the calls, in order. -/
def blockCalls (pre : SidePair Bool) (bm : BlockMap) : C (List Op) := do
  let n ← numBlocks bm
  let s ← forUpTo n (blockCall pre bm) ⟨[], ⟨fun _ => false, fun _ => false⟩⟩
  .ok s.ops

/-! ### Orders of calls -/

/-- Calls of non-empty blocks of matrices with `dims` columns; a kernel call only after the columns it reads have been
packed. -/
structure InOrder (kc : Side → Nat) (dims : SidePair Nat) (ops : List Op) : Prop where
  packs : ∀ s lo hi, Op.pack s lo hi ∈ ops → Block (kc s) (dims.get s) lo hi
  kernels : ∀ start stop, Op.kernel start stop ∈ ops → ∀ s : Side, Block (kc s) (dims.get s) (start.get s) (stop.get s)
  first : ∀ pre start stop post, ops = pre ++ Op.kernel start stop :: post → ∀ (s : Side) (c : Nat),
    start.get s ≤ c → c < stop.get s → Covered pre s c

section
variable {kc : Side → Nat} {dims : SidePair Nat} {ops : List Op}

theorem InOrder.nil : InOrder kc dims [] where
  packs _ _ _ h := by cases h
  kernels _ _ h := by cases h
  first pre _ _ _ h := by cases pre <;> cases h

theorem InOrder.pack (h : InOrder kc dims ops) {s : Side} {lo hi : Nat} (hb : Block (kc s) (dims.get s) lo hi) :
    InOrder kc dims (ops ++ [.pack s lo hi]) where
  packs s' lo' hi' hm := by
    rcases List.mem_append.1 hm with hm | hm
    · exact h.packs s' lo' hi' hm
    · cases List.mem_singleton.1 hm; exact hb
  kernels start stop hm := by
    rcases List.mem_append.1 hm with hm | hm
    · exact h.kernels start stop hm
    · cases List.mem_singleton.1 hm
  first pre start stop post he := by
    rcases split_snoc he with ⟨_, hx, _⟩ | ⟨post', _, he'⟩
    · cases hx
    · exact h.first pre start stop post' he'

theorem InOrder.kernel (h : InOrder kc dims ops) {start stop : SidePair Nat}
    (hb : ∀ s : Side, Block (kc s) (dims.get s) (start.get s) (stop.get s))
    (hc : ∀ (s : Side) (c : Nat), start.get s ≤ c → c < stop.get s → Covered ops s c) :
    InOrder kc dims (ops ++ [.kernel start stop]) where
  packs s' lo' hi' hm := by
    rcases List.mem_append.1 hm with hm | hm
    · exact h.packs s' lo' hi' hm
    · cases List.mem_singleton.1 hm
  kernels start stop hm := by
    rcases List.mem_append.1 hm with hm | hm
    · exact h.kernels start stop hm
    · cases List.mem_singleton.1 hm; exact hb
  first pre start stop post he := by
    rcases split_snoc he with ⟨rfl, hx, _⟩ | ⟨post', _, he'⟩
    · cases hx
      exact fun s c h1 h2 => hc s c h1 h2
    · exact h.first pre start stop post' he'

end

/-! ### Blocks -/

/-- The grid of a block map, with kernels of width `kc`. -/
structure GridOk (kc : Side → Nat) (dims : SidePair Nat) (bm : BlockMap) (n kd : SidePair Nat) : Prop where
  grid : Grid bm dims kd n
  width : ∀ s : Side, kd.get s = kc s

section
variable {kc : Side → Nat} {dims : SidePair Nat} {pre : SidePair Bool} {bm : BlockMap} {n kd : SidePair Nat} {ops : List Op}

theorem GridOk.block (h : GridOk kc dims bm n kd) {s : Side} {b : Nat} {x : Nat × Nat} (hb : b < n.get s)
    (hx : getBlockMatrixCoords s bm b = .ok x) : Block (kc s) (dims.get s) x.1 x.2 := by
  have t := h.grid.tiles s
  rw [h.width] at t
  exact block_of_tiles t hb hx

theorem GridOk.pos (h : GridOk kc dims bm n kd) (s : Side) : 0 < dims.get s := by
  have t := h.grid.tiles s
  obtain ⟨a, e, h1, h2, _⟩ := t.block 0 t.nonempty
  obtain ⟨_, _, h3, h4⟩ := h.block t.nonempty h1
  dsimp only at h3 h4
  omega

/-- Calls in order that include those for prepacked sides. -/
structure CallsOk (kc : Side → Nat) (dims : SidePair Nat) (pre : SidePair Bool) (ops : List Op) : Prop where
  order : InOrder kc dims ops
  pre : ∀ s : Side, pre.get s = true → Op.pack s 0 (dims.get s) ∈ ops

theorem CallsOk.add (h : CallsOk kc dims pre ops) {o : Op} (ho : InOrder kc dims (ops ++ [o])) :
    CallsOk kc dims pre (ops ++ [o]) :=
  ⟨ho, fun s hs => List.mem_append_left _ (h.pre s hs)⟩

theorem prepackCalls_ok (h : ∀ s : Side, Block (kc s) (dims.get s) 0 (dims.get s)) :
    CallsOk kc dims pre (prepackCalls pre dims) := by
  refine ⟨?_, fun s hs => ?_⟩
  · obtain ⟨pl, pr⟩ := pre
    unfold prepackCalls
    cases pl <;> cases pr
    · exact InOrder.nil
    · exact InOrder.nil.pack (s := .rhs) (h .rhs)
    · exact InOrder.nil.pack (s := .lhs) (h .lhs)
    · exact (InOrder.nil.pack (s := .lhs) (h .lhs)).pack (s := .rhs) (h .rhs)
  · unfold prepackCalls
    cases s
    · have hs : pre.lhs = true := hs
      rw [hs]; simp
    · have hs : pre.rhs = true := hs
      rw [hs]; simp

theorem CallsOk.covered (h : CallsOk kc dims pre ops) (hm : GridOk kc dims bm n kd) {s : Side} {b : Nat} {x : Nat × Nat}
    (hb : b < n.get s) (hx : getBlockMatrixCoords s bm b = .ok x) (hp : pre.get s = true ∨ HasPack bm ops s b) {c : Nat}
    (h1 : x.1 ≤ c) (h2 : c < x.2) : Covered ops s c := by
  rcases hp with hp | ⟨y, hy, hmem⟩
  · have := (hm.block hb hx).2.2.2
    exact ⟨_, _, h.pre s hp, Nat.zero_le _, by omega⟩
  · rw [hx] at hy; cases hy
    exact ⟨_, _, hmem, h1, h2⟩

theorem all_written (hm : GridOk kc dims bm n kd) (h : ∀ id, id < n.lhs * n.rhs → HasKernel bm ops id) {i j : Nat}
    (hi : i < dims.lhs) (hj : j < dims.rhs) : Written ops i j := by
  obtain ⟨id, hid, hin⟩ := hm.grid.cover (i := i) (j := j) hi hj
  obtain ⟨b, l, r, h1, h2, h3, h4⟩ := h id hid
  obtain ⟨g1, g2, g3, g4⟩ := hin.coords h1 h2 h3
  exact ⟨_, _, h4, g1, g2, g3, g4⟩

/-! ### The block loop -/

/-- The state of the block loop after the calls `ops0` for prepacked sides. -/
structure IssuedOk (kc : Side → Nat) (dims : SidePair Nat) (pre : SidePair Bool) (bm : BlockMap) (ops0 : List Op) (k : Nat)
    (s : Issued) : Prop where
  calls : CallsOk kc dims pre (ops0 ++ s.ops)
  packed : ∀ (sd : Side) b, s.packed.get sd b = true → HasPack bm (ops0 ++ s.ops) sd b
  done : ∀ id, id < k → HasKernel bm (ops0 ++ s.ops) id

variable {ops0 : List Op} {k : Nat} {s : Issued}

theorem tryCall_of (hm : GridOk kc dims bm n kd) (ok : IssuedOk kc dims pre bm ops0 k s) {sd : Side} {b : Nat} {x : Nat × Nat}
    (hb : b < n.get sd) (hx : getBlockMatrixCoords sd bm b = .ok x) :
    IssuedOk kc dims pre bm ops0 k (tryCall pre sd b x.1 x.2 s) ∧
      (pre.get sd = true ∨ HasPack bm (ops0 ++ (tryCall pre sd b x.1 x.2 s).ops) sd b) ∧
      ∀ sd' b', HasPack bm (ops0 ++ s.ops) sd' b' → HasPack bm (ops0 ++ (tryCall pre sd b x.1 x.2 s).ops) sd' b' := by
  unfold tryCall
  by_cases h1 : pre.get sd = true
  · rw [if_pos h1]
    exact ⟨ok, Or.inl h1, fun _ _ h => h⟩
  · rw [if_neg h1]
    by_cases h2 : s.packed.get sd b = true
    · rw [if_pos h2]
      exact ⟨ok, Or.inr (ok.packed sd b h2), fun _ _ h => h⟩
    · rw [if_neg h2]
      have t' := ok.calls.add (ok.calls.order.pack (hm.block hb hx))
      have hp : HasPack bm (ops0 ++ s.ops ++ [.pack sd x.1 x.2]) sd b := ⟨x, hx, by simp⟩
      rw [List.append_assoc] at t' hp
      have mono : ∀ sd' b', HasPack bm (ops0 ++ s.ops) sd' b' → HasPack bm (ops0 ++ (s.ops ++ [.pack sd x.1 x.2])) sd' b' :=
        fun sd' b' h => by rw [← List.append_assoc]; exact h.mono _
      refine ⟨⟨t', fun sd' b' hp' => ?_, fun id hid => ?_⟩, Or.inr hp, mono⟩
      · dsimp only at hp'
        rw [get_setSide] at hp'
        split at hp'
        · rename_i he; subst he
          by_cases hbb : b' = b
          · subst hbb; exact hp
          · rw [Function.update_of_ne hbb] at hp'
            exact mono _ _ (ok.packed sd' b' hp')
        · exact mono _ _ (ok.packed sd' b' hp')
      · rw [← List.append_assoc]
        exact (ok.done id hid).mono _

theorem blockCall_of (hm : GridOk kc dims bm n kd) (hk : k < n.lhs * n.rhs) (ok : IssuedOk kc dims pre bm ops0 k s) :
    ∃ s', blockCall pre bm k s = .ok s' ∧ IssuedOk kc dims pre bm ops0 (k + 1) s' := by
  obtain ⟨b, hb, hbl, hbr⟩ := hm.grid.decode k hk
  obtain ⟨l1, l2, hl, _⟩ := (hm.grid.tiles .lhs).block b.lhs hbl
  obtain ⟨r1, r2, hr, _⟩ := (hm.grid.tiles .rhs).block b.rhs hbr
  obtain ⟨ok1, a1, _⟩ := tryCall_of hm ok (sd := .lhs) hbl hl
  obtain ⟨ok2, a2, mono⟩ := tryCall_of hm ok1 (sd := .rhs) hbr hr
  generalize hs2 : tryCall pre .rhs b.rhs r1 r2 (tryCall pre .lhs b.lhs l1 l2 s) = s2 at *
  have ho : InOrder kc dims (ops0 ++ s2.ops ++ [.kernel ⟨l1, r1⟩ ⟨l2, r2⟩]) := by
    refine ok2.calls.order.kernel (fun sd => ?_) (fun sd c h1 h2 => ?_)
    · cases sd
      · exact hm.block (s := .lhs) hbl hl
      · exact hm.block (s := .rhs) hbr hr
    · cases sd
      · exact ok2.calls.covered hm (s := .lhs) hbl hl (a1.imp id (mono _ _)) h1 h2
      · exact ok2.calls.covered hm (s := .rhs) hbr hr a2 h1 h2
  have t' := ok2.calls.add ho
  refine ⟨{ s2 with ops := s2.ops ++ [.kernel ⟨l1, r1⟩ ⟨l2, r2⟩] }, ?_, ?_, fun sd b' hp => ?_, fun id hid => ?_⟩
  · unfold blockCall
    rw [hb, C.ok_bind, hl, C.ok_bind, hr, C.ok_bind]
    dsimp only
    rw [hs2]
  · show CallsOk kc dims pre (ops0 ++ (s2.ops ++ _))
    rw [← List.append_assoc]; exact t'
  · show HasPack bm (ops0 ++ (s2.ops ++ _)) sd b'
    rw [← List.append_assoc]; exact (ok2.packed sd b' hp).mono _
  · show HasKernel bm (ops0 ++ (s2.ops ++ _)) id
    rw [← List.append_assoc]
    by_cases hid' : id < k
    · exact (ok2.done id hid').mono _
    · have : id = k := by omega
      subst this
      exact ⟨b, _, _, hb, hl, hr, by simp⟩

theorem blockCalls_of (hm : GridOk kc dims bm n kd) (h0 : CallsOk kc dims pre ops0) :
    ∃ ops, blockCalls pre bm = .ok ops ∧ CallsOk kc dims pre (ops0 ++ ops) ∧
      ∀ i j, i < dims.lhs → j < dims.rhs → Written (ops0 ++ ops) i j := by
  obtain ⟨s, e, ok⟩ := forUpTo_total (n := n.lhs * n.rhs) (body := blockCall pre bm)
    (s := ⟨[], ⟨fun _ => false, fun _ => false⟩⟩) (fun k s => IssuedOk kc dims pre bm ops0 k s)
    ⟨by rw [List.append_nil]; exact h0, fun sd b hp => by cases sd <;> exact absurd hp (by simp),
      fun id hid => absurd hid (Nat.not_lt_zero _)⟩
    (fun k s hk ok => blockCall_of hm hk ok)
  refine ⟨s.ops, ?_, ok.calls, fun i j hi hj => all_written hm ok.done hi hj⟩
  unfold blockCalls
  rw [hm.grid.total, C.ok_bind, e, C.ok_bind]

end

/-! ### Several threads -/

section
variable {kc : Side → Nat} {sh : Mem Unit} {pre : SidePair Bool} {bm : BlockMap} {n kd : SidePair Nat} {threads : Nat}

/-- Columns of the packed matrices. -/
def colsOf (sh : Mem Unit) : SidePair Nat := ⟨sh.packed.lhs.layout.cols, sh.packed.rhs.layout.cols⟩

/-- The state of an execution, seen through the calls that have returned. -/
structure CtlOk (kc : Side → Nat) (sh : Mem Unit) (pre : SidePair Bool) (bm : BlockMap) (n : SidePair Nat) (threads : Nat)
    (ops : List Op) (s : State Unit) : Prop where
  inv : TrMul.Inv (control pre bm threads) n sh s
  calls : CallsOk kc (colsOf sh) pre ops
  packed : ∀ (sd : Side) b, b < n.get sd → s.status sd b = .finished → HasPack bm ops sd b
  done : ∀ id, id < s.counter → id < n.lhs * n.rhs → (∃ t, id ∈ (s.pc t).ids) ∨ HasKernel bm ops id

theorem ctl_step (hm : GridOk kc (colsOf sh) bm n kd) (su : TrMul.Setup (control pre bm threads) sh n)
    {ops : List Op} {s s' : State Unit} (ok : CtlOk kc sh pre bm n threads ops s) {t : Nat}
    (hs : TrMul.step (control pre bm threads) s t = .ok s') :
    (returning bm s t = .ok none ∧ CtlOk kc sh pre bm n threads ops s') ∨
      ∃ o, returning bm s t = .ok (some o) ∧ CtlOk kc sh pre bm n threads (ops ++ [o]) s' := by
  have hinv := TrMul.step_inv su ok.inv hs
  have pcok := ok.inv.pc t
  cases step_kind hs with
  | head b N hpc hn hb hc ho hi hst =>
    refine .inl ⟨by unfold returning; rw [hpc], hinv, ok.calls,
      fun sd b' hb' hf => ok.packed sd b' hb' (by rw [← hst]; exact hf), fun id h1 h2 => ?_⟩
    by_cases hid : id = s.counter
    · exact Or.inl ⟨t, by rw [hi, hid]; simp⟩
    · rcases ok.done id (by omega) h2 with ⟨u, hu⟩ | hd
      · by_cases hut : u = t
        · subst hut
          rw [hpc] at hu
          simp only [PC.ids, List.mem_cons, List.not_mem_nil, or_false] at hu
          exact Or.inl ⟨u, by rw [hi, hu]; simp⟩
        · exact Or.inl ⟨u, by rw [ho u hut]; exact hu⟩
      · exact Or.inr hd
  | exit b N hpc hn hb hc ho hst =>
    refine .inl ⟨by unfold returning; rw [hpc], hinv, ok.calls,
      fun sd b' hb' hf => ok.packed sd b' hb' (by rw [← hst]; exact hf),
      done_mono ok.done hc ho (fun _ h => h) (fun id hid hlt => ?_)⟩
    rw [hpc] at hid
    simp only [PC.ids, List.mem_cons, List.not_mem_nil, or_false] at hid
    have := hm.grid.total
    rw [show (control pre bm threads).bm = bm from rfl, this] at hn
    cases hn
    omega
  | quiet e hids q hnp hnk =>
    refine .inl ⟨?_, hinv, ok.calls, fun sd b' hb' hf => ok.packed sd b' hb' (q.status sd b' hf),
      done_mono ok.done q.counter q.others (fun _ h => h) (fun id hid _ => Or.inl (by rw [q.ids, ← hids]; exact hid))⟩
    unfold returning
    split
    · rename_i e' c sd b col stop hpc
      rw [if_pos (hnp e' c sd b col stop hpc)]
    · rename_i e' i j hpc
      rw [if_pos (hnk e' i j hpc)]
    · rfl
  | packed e c sd b col stop hpc hlt hc ho hi hst =>
    rw [hpc] at pcok
    obtain ⟨_, _, _, _, _, hbn, _, lo, hco, _⟩ := pcok
    have hco : getBlockMatrixCoords sd bm b = .ok (lo, stop) := hco
    refine .inr ⟨.pack sd lo stop, ?_, hinv, ok.calls.add (ok.calls.order.pack (hm.block hbn hco)), fun sd' b' hb' hf => ?_,
      done_mono ok.done hc ho (fun _ h => h.mono _) (fun id hid _ => Or.inl ?_)⟩
    · unfold returning
      rw [hpc]
      dsimp only
      rw [if_neg hlt, hco, C.ok_bind]
    · rw [hst] at hf
      rcases setStatus_finished hf with hf | ⟨rfl, rfl, _⟩
      · exact (ok.packed sd' b' hb' hf).mono _
      · exact ⟨_, hco, by simp⟩
    · rw [hi]; rw [hpc] at hid; exact hid
  | computed e i j hpc hlt hc ho hi hst =>
    rw [hpc] at pcok
    obtain ⟨lok, _, hav, _⟩ := pcok
    have hblt : ∀ sd, e.block.get sd < n.get sd := lok.blockLt (cfg := control pre bm threads) hm.grid
    have hco : ∀ sd, getBlockMatrixCoords sd bm (e.block.get sd) = .ok (e.start.get sd, e.stop.get sd) := lok.coords
    have hord : InOrder kc (colsOf sh) (ops ++ [.kernel e.start e.stop]) := by
      refine ok.calls.order.kernel (fun sd => hm.block (hblt sd) (hco sd)) (fun sd c h1 h2 => ?_)
      refine ok.calls.covered hm (hblt sd) (hco sd) ((hav sd).imp (fun h => h) (fun hl => ?_)) h1 h2
      exact ok.packed sd _ (hblt sd) (ok.inv.locals t sd _ hl).1
    refine .inr ⟨.kernel e.start e.stop, ?_, hinv, ok.calls.add hord,
      fun sd' b' hb' hf => (ok.packed sd' b' hb' (by rw [← hst]; exact hf)).mono _,
      done_mono ok.done hc ho (fun _ h => h.mono _) (fun id hid hN => ?_)⟩
    · unfold returning
      rw [hpc]
      dsimp only
      rw [if_neg hlt]
    · rw [hpc] at hid
      simp only [PC.ids, List.mem_cons, List.not_mem_nil, or_false] at hid
      rcases hid with rfl | rfl
      · refine Or.inr ⟨e.block, _, _, lok.block, hco .lhs, hco .rhs, ?_⟩
        simp only [SidePair.get_lhs, SidePair.get_rhs, List.mem_append, List.mem_singleton]
        exact Or.inr trivial
      · exact Or.inl (by rw [hi]; simp)
  | done hpc hs' =>
    subst hs'
    exact .inl ⟨by unfold returning; rw [hpc], ok⟩

theorem ctl_start (su : TrMul.Setup (control pre bm threads) sh n) {ops : List Op}
    (h : CallsOk kc (colsOf sh) pre ops) :
    CtlOk kc sh pre bm n threads ops (TrMul.initState (control pre bm threads) sh) where
  inv := TrMul.init_inv su
  calls := h
  packed sd b _ hf := by cases hf
  done id h1 _ := by
    have h1 : id < threads := h1
    refine Or.inl ⟨id, ?_⟩
    show id ∈ (if id < threads then PC.head id else PC.done).ids
    rw [if_pos h1]
    simp [PC.ids]

theorem ctl_finish (hm : GridOk kc (colsOf sh) bm n kd) (ht : 0 < threads) {ops : List Op} {s : State Unit}
    (ok : CtlOk kc sh pre bm n threads ops s) (hf : TrMul.Finished (control pre bm threads) s) {i j : Nat}
    (hi : i < (colsOf sh).lhs) (hj : j < (colsOf sh).rhs) : Written ops i j := by
  refine all_written hm (fun id hid => ?_) hi hj
  have hdone : ∀ t, s.pc t = .done := fun t => by
    by_cases h : t < threads
    · exact hf t h
    · exact ok.inv.outside t (by show threads ≤ t; omega)
  rcases ok.done id (Nat.lt_of_lt_of_le hid (ok.inv.exit 0 ht (hf 0 ht))) hid with ⟨u, hu⟩ | hd
  · rw [hdone u] at hu
    simp [PC.ids] at hu
  · exact hd

/-! ### Matrices without elements -/

/-- Shapes for which the control flow does not fail. -/
structure ShapeOk (sh : Mem Unit) : Prop where
  layout : ∀ s : Side, PackedOk (sh.packed.get s).layout
  fits : ∀ s : Side, PFits (sh.packed.get s)
  depth : sh.packed.lhs.layout.rows = sh.packed.rhs.layout.rows
  zps : sh.packed.lhs.zp = 0 ∧ sh.packed.rhs.zp = 0
  dzp : sh.dst.zp = 0
  nosums : sh.packed.lhs.sums = none ∧ sh.packed.rhs.sums = none
  stride : StrideOk sh.dst.layout
  dfits : DFits sh.dst
  rows : sh.dst.layout.rows ≤ sh.packed.lhs.layout.cols
  cols : sh.dst.layout.cols ≤ sh.packed.rhs.layout.cols
  lastRow : sh.packed.lhs.layout.cols < sh.dst.layout.rows + sh.packed.lhs.layout.kernel.cols
  lastCol : sh.packed.rhs.layout.cols < sh.dst.layout.cols + sh.packed.rhs.layout.kernel.cols

theorem target_sh {sh : Mem Unit} (h : ShapeOk sh) (i j : Nat) :
    TrMul.target (control pre bm threads).tp sh i j = .ok () := by
  have hsh : sh = ⟨⟨⟨sh.packed.lhs.layout, sh.packed.lhs.data, sh.packed.lhs.sums, 0⟩,
      ⟨sh.packed.rhs.layout, sh.packed.rhs.data, sh.packed.rhs.sums, 0⟩⟩, ⟨sh.dst.layout, sh.dst.data, 0⟩⟩ := by
    have h1 := h.zps
    have h2 := h.dzp
    clear h
    obtain ⟨⟨⟨_, _, _, _⟩, _, _, _, _⟩, _, _, _⟩ := sh
    simp_all
  unfold TrMul.target opEntry opAccum
  obtain ⟨s, e, _⟩ := forUpTo_total (n := (TrMul.operand (control pre bm threads).tp sh .lhs).depth)
    (s := ())
    (body := opDotStep unitArith (TrMul.operand (control pre bm threads).tp sh .lhs)
      (TrMul.operand (control pre bm threads).tp sh .rhs) i j) (fun _ _ => True) trivial
    (fun k t _ _ => ⟨(), by
      unfold opDotStep
      rw [show (TrMul.operand (control pre bm threads).tp sh .lhs).val unitArith k i = .ok () from
          packedVal_unit (bm := bm) (threads := threads) _ pre .lhs _ _ _, C.ok_bind,
        show (TrMul.operand (control pre bm threads).tp sh .rhs).val unitArith k j = .ok () from
          packedVal_unit (bm := bm) (threads := threads) _ pre .rhs _ _ _, C.ok_bind]
      rfl, trivial⟩)
  have e : forUpTo (TrMul.operand (control pre bm threads).tp sh .lhs).depth
      (opDotStep (control pre bm threads).tp.ar (TrMul.operand (control pre bm threads).tp sh .lhs)
      (TrMul.operand (control pre bm threads).tp sh .rhs) i j) (control pre bm threads).tp.ar.zero = .ok () := e
  rw [e, C.ok_bind, hsh]
  rfl

theorem ShapeOk.ready (h : ShapeOk sh) : TrMul.Ready (control pre bm threads).tp sh where
  layout := h.layout
  depth := h.depth
  stride := h.stride
  rows := h.rows
  cols := h.cols
  lsums := Or.inr h.zps.2
  rsums := Or.inr h.zps.1
  prepacked sd _ _ hc := by
    unfold TrMul.Packed
    refine ⟨fun r hr => ⟨(), elem_unit (h.layout sd) (h.fits sd) hr hc, packedVal_unit _ pre sd _ _ _⟩, fun hn => ?_⟩
    have := h.nosums
    cases sd
    · rw [show (sh.packed.get .lhs).sums = none from this.1] at hn; cases hn
    · rw [show (sh.packed.get .rhs).sums = none from this.2] at hn; cases hn

theorem ShapeOk.safe (h : ShapeOk sh) : TrMul.Safe (control pre bm threads).tp sh where
  fits := h.fits
  dfits := h.dfits
  sums sd _ _ _ := ⟨(), colSum_unit _ pre sd _ _ _⟩
  entries i j _ _ := ⟨(), target_sh h i j⟩
  rows := h.lastRow
  cols := h.lastCol

end

end Ruy.Simd.Flow

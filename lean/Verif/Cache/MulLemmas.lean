import Verif.Cache.MulModel
import Verif.Cache.Lemmas
import Verif.Front.Lemmas
/-
The invariant of a context with a cache: every cached matrix holds the packing of its source.
-/
namespace Ruy.Cache
open Ruy.Mat Ruy.Mul Ruy.Front Ruy.TrMul

variable {A : Type}

/-- What a cached matrix is the packing of. -/
structure Origin (A : Type) where
  src : Mul.Mat A
  ar : Arith A
  pack : A → A
  types : ElemTypes

/-- The packed matrix at the pointers of `p`. -/
def pm (w : World A) (p : PE) : PMat A :=
  ⟨p.layout, w.buf p.data, if p.sums = 0 then none else some (w.buf p.sums), p.zp⟩

def Alive (c : Cache) (h : Nat) : Prop := ∃ b ∈ c.held, b.1 = h

theorem load_of {w : World A} {h : Nat} (h0 : h ≠ 0) (ha : Alive w.cache h) : w.load h = .ok (w.buf h) := by
  unfold World.load
  have ha : ∃ b ∈ w.cache.held, b.1 = h := ha
  rw [if_neg h0, C.require_of ha, C.ok_bind]

theorem load_ok {w : World A} {h : Nat} {b : Buf A} (h0 : h ≠ 0) (hl : w.load h = .ok b) :
    b = w.buf h ∧ Alive w.cache h := by
  unfold World.load at hl
  rw [if_neg h0] at hl
  obtain ⟨_, h1, hl⟩ := C.bind_ok hl
  cases hl
  have h2 : ∃ b ∈ w.cache.held, b.1 = h := C.require_ok h1
  exact ⟨rfl, h2⟩

theorem loadMat_of {w : World A} {p : PE} (h0 : p.data ≠ 0) (hd : Alive w.cache p.data)
    (hs : p.sums ≠ 0 → Alive w.cache p.sums) : w.loadMat p = .ok (pm w p) := by
  unfold World.loadMat pm
  rw [load_of h0 hd, C.ok_bind]
  split
  · rfl
  · rename_i h
    rw [load_of h (hs h), C.ok_bind]

theorem loadMat_ok {w : World A} {p : PE} {q : PMat A} (h0 : p.data ≠ 0) (h : w.loadMat p = .ok q) :
    q = pm w p := by
  unfold World.loadMat at h
  obtain ⟨d, hd, h⟩ := C.bind_ok h
  obtain ⟨rfl, -⟩ := load_ok h0 hd
  unfold pm
  split at h
  · rename_i hz
    cases h
    rw [if_pos hz]
  · rename_i hz
    obtain ⟨s, hs, h⟩ := C.bind_ok h
    obtain ⟨rfl, -⟩ := load_ok hz hs
    cases h
    rw [if_neg hz]

/-- The buffers of `p` hold the packing of `o`. -/
structure Holds (o : Origin A) (w : World A) (p : PE) : Prop where
  types : ⟨p.dataSize, p.sumsSize, p.sumsFloat⟩ = o.types
  data : p.data ≠ 0
  sums : p.sums = 0 ↔ p.sumsFloat = true
  size : (w.buf p.data).size = pflatSize p.layout
  sumsSize : p.sums ≠ 0 → (w.buf p.sums).size = p.layout.cols
  done : ∀ c, c < p.layout.cols → ColDone o.ar o.pack o.src (pm w p) c

/-- What an entry contributes to the reported size when it is inserted. -/
def nb (p : PE) : Nat :=
  pflatSize p.layout * p.dataSize + if p.sumsFloat then 0 else p.layout.cols * p.sumsSize

theorem nb_le_rep (e : Entry) : nb e.mat ≤ rep e := by
  unfold nb rep
  split <;> omega

def nbs (L : List Entry) : Nat := (L.map fun e => nb e.mat).sum

theorem nbs_append (L M : List Entry) : nbs (L ++ M) = nbs L + nbs M := by simp [nbs]
theorem nbs_cons (e : Entry) (L : List Entry) : nbs (e :: L) = nb e.mat + nbs L := by simp [nbs]
theorem nbs_le_reps : ∀ L : List Entry, nbs L ≤ reps L
  | [] => Nat.le_refl _
  | e :: L => by
    have h1 := nb_le_rep e
    have h2 := nbs_le_reps L
    have h3 : reps (e :: L) = rep e + reps L := by simp [reps]
    rw [nbs_cons]
    omega

/-- The invariant of a context. `f` tells which matrix each key stands for. -/
structure Good (f : Key → Origin A) (w : World A) (L : List Entry) : Prop where
  inv : Inv w.cache L []
  holds : ∀ e ∈ L, Holds (f e.key) w e.mat
  bytes : w.cache.bytes ≤ (nbs L : Nat)

theorem good_start [Inhabited A] (f : Key → Origin A) (cap : Int) : Good f (World.start cap) [] :=
  ⟨init_inv cap, by simp, Int.le_refl _⟩

/-- Buffers that existed in `w` are the same in `w'`. -/
structure Agree (w w' : World A) : Prop where
  calls : w.cache.calls ≤ w'.cache.calls
  buf : ∀ h, h ≤ w.cache.calls → w'.buf h = w.buf h

theorem Agree.refl (w : World A) : Agree w w := ⟨Nat.le_refl _, fun _ _ => rfl⟩

theorem Agree.pm {w w' : World A} (h : Agree w w') {p : PE} (hd : p.data ≤ w.cache.calls)
    (hs : p.sums ≤ w.cache.calls) : pm w' p = pm w p := by
  unfold Cache.pm
  rw [h.buf _ hd, h.buf _ hs]

theorem Agree.holds {w w' : World A} (h : Agree w w') {o : Origin A} {p : PE}
    (hd : p.data ≤ w.cache.calls) (hs : p.sums ≤ w.cache.calls) (hp : Holds o w p) : Holds o w' p := by
  refine ⟨hp.types, hp.data, hp.sums, ?_, ?_, ?_⟩
  · rw [h.buf _ hd]; exact hp.size
  · rw [h.buf _ hs]; exact hp.sumsSize
  · rw [h.pm hd hs]; exact hp.done

theorem Inv.alive {c : Cache} {L : List Entry} (inv : Inv c L []) {e : Entry} (he : e ∈ L) :
    (e.mat.data ≠ 0 → Alive c e.mat.data) ∧ (e.mat.sums ≠ 0 → Alive c e.mat.sums) := by
  constructor
  · intro h0
    refine ⟨(e.mat.data, pflatSize e.mat.layout * e.mat.dataSize),
      inv.held.symm.subset (List.mem_flatMap.mpr ⟨e, he, ?_⟩), rfl⟩
    unfold blocks; rw [if_neg h0]; simp
  · intro h0
    refine ⟨(e.mat.sums, e.mat.layout.cols * e.mat.sumsSize),
      inv.held.symm.subset (List.mem_flatMap.mpr ⟨e, he, ?_⟩), rfl⟩
    unfold blocks; rw [if_neg h0]; simp

theorem Inv.le_calls {c : Cache} {L : List Entry} (inv : Inv c L []) {e : Entry} (he : e ∈ L) :
    e.mat.data ≤ c.calls ∧ e.mat.sums ≤ c.calls := by
  obtain ⟨h1, h2⟩ := inv.alive he
  constructor
  · by_cases h0 : e.mat.data = 0
    · omega
    · obtain ⟨b, hb, h⟩ := h1 h0
      have := (inv.range b hb).2
      omega
  · by_cases h0 : e.mat.sums = 0
    · omega
    · obtain ⟨b, hb, h⟩ := h2 h0
      have := (inv.range b hb).2
      omega

/-- What is known after the request of `prepareCached`, before packing. -/
structure Requested (f : Key → Origin A) (sys : Nat → Bool) (w : World A) (L : List Entry) (r : Req)
    (pe : PE) (c' : Cache) (L' : List Entry) : Prop where
  inv : Inv c' L' []
  cap : c'.cap = w.cache.cap
  calls : w.cache.calls ≤ c'.calls
  bytes : c'.bytes ≤ (nbs L' : Nat)
  layout : pe.layout = r.layout
  zp : pe.zp = r.zp
  types : (⟨pe.dataSize, pe.sumsSize, pe.sumsFloat⟩ : ElemTypes) = ⟨r.dataSize, r.sumsSize, r.sumsFloat⟩
  data : pe.data ≠ 0
  sums : pe.sums = 0 ↔ r.sumsFloat = true
  head : ∃ s K, L' = ⟨r.key, pe, s⟩ :: K ∧ ∀ e ∈ K, e ∈ L
  /-- the most recent entry is only lost if there is no room for it besides the new one -/
  stays : ∀ e K, L = e :: K → (nb e.mat : Int) + (newBytes r : Nat) ≤ w.cache.cap →
    ∃ s, (⟨e.key, e.mat, s⟩ : Entry) ∈ L'

theorem newBytes_nb (r : Req) : newBytes r = nb r.mat := by
  unfold newBytes nb Req.mat
  dsimp only

theorem requested {f : Key → Origin A} {sys : Nat → Bool} {w : World A} {L : List Entry} {r : Req}
    (hsys : ∀ k, sys k = true) (g : Good f w L) (hs : Sizes r.mat)
    (ht : ⟨r.dataSize, r.sumsSize, r.sumsFloat⟩ = (f r.key).types) :
    ∃ pe ins c' L', get sys w.cache r = .ok (pe, ins, c') ∧ Requested f sys w L r pe c' L' ∧
      ((ins = false ∧ Holds (f r.key) w pe ∧ pe.data ≤ w.cache.calls ∧ pe.sums ≤ w.cache.calls) ∨
       (ins = true ∧ w.cache.calls < pe.data ∧ (pe.sums = 0 ∨ w.cache.calls < pe.sums) ∧
        pe.data ≠ pe.sums)) := by
  obtain ⟨pe, ins, c', L', hg, inv', hcap, hcalls, h⟩ := get_spec (sys := sys) g.inv hs
  refine ⟨pe, ins, c', L', hg, ?_⟩
  rcases h with ⟨hi, h⟩ | ⟨hi, h⟩
  · obtain ⟨e, K1, K2, hL, hk, rfl, hL'⟩ := h.split
    have heL : e ∈ L := by rw [hL]; simp
    obtain ⟨k1, k2⟩ := g.inv.key e heL
    have hh := g.holds e heL
    obtain ⟨l1, l2⟩ := g.inv.le_calls heL
    have hnb : nbs L' = nbs L := by
      rw [hL', hL, nbs_cons, nbs_append, nbs_append, nbs_cons]
      dsimp only
      omega
    rw [hk] at hh k1 k2
    refine ⟨⟨inv', hcap, hcalls, ?_, k1, k2, ?_, hh.data, ?_, ?_, ?_⟩, .inl ⟨hi, hh, l1, l2⟩⟩
    · rw [h.bytes, hnb]; exact g.bytes
    · rw [hh.types, ht]
    · rw [hh.sums]
      have := hh.types.trans ht.symm
      rw [(ElemTypes.mk.inj this).2.2]
    · refine ⟨w.cache.clock, K1 ++ K2, by rw [hL', ← hk], fun x hx => ?_⟩
      rw [hL]
      rcases List.mem_append.mp hx with h | h <;> simp [h]
    · intro x K hx _
      rw [hL'] 
      cases K1 with
      | nil =>
        rw [hL] at hx
        obtain ⟨rfl, rfl⟩ := List.cons.inj hx
        exact ⟨w.cache.clock, List.mem_cons_self⟩
      | cons y K1 =>
        rw [hL] at hx
        obtain ⟨rfl, -⟩ := List.cons.inj hx
        exact ⟨y.stamp, by simp⟩
  · obtain ⟨kept, dropped, hL, hL', b1, b2, b3⟩ := h.split
    obtain ⟨f1, f2, f3, f4, f5⟩ := h.fields
    obtain ⟨s1, s2⟩ := h.served hsys
    obtain ⟨q1, q2, q3⟩ := h.fresh
    have hnb : nb pe = newBytes r := by
      rw [newBytes_nb]
      unfold nb
      rw [f1, f3, f4, f5]
      rfl
    refine ⟨⟨inv', hcap, hcalls, ?_, f1, f2, by rw [f3, f4, f5], s1, ?_, ?_, ?_⟩,
      .inr ⟨hi, q1.resolve_left s1, q2, q3 s1⟩⟩
    · rw [b1, hL', nbs_cons]
      have hb := g.bytes
      rw [hL, nbs_append] at hb
      have := nbs_le_reps dropped
      dsimp only
      omega
    · constructor
      · intro h0
        by_contra hf
        exact s2 (by simpa using hf) h0
      · exact h.float
    · exact ⟨w.cache.clock, kept, hL', fun x hx => by rw [hL]; simp [hx]⟩
    · intro e K hx hroom
      cases kept with
      | cons y kept =>
        rw [hL] at hx
        obtain ⟨rfl, -⟩ := List.cons.inj hx
        exact ⟨y.stamp, by rw [hL']; simp⟩
      | nil =>
        exfalso
        rw [List.nil_append] at hL
        subst hL
        subst hx
        have := b3 K ⟨[e], rfl⟩ (by
          intro h
          have := congrArg List.length h
          simp at this)
        have hb := g.bytes
        rw [nbs_cons] at hb
        have := nbs_le_reps K
        omega

theorem prepareCached_eq {f : Key → Origin A} {sys : Nat → Bool} {w : World A} {L : List Entry}
    {ar : Arith A} {pack : A → A} {packZp : Int → Int} {t : ElemTypes} {arg : Arg A} {l : PMatLayout}
    {data sums : Nat → A} (hsys : ∀ k, sys k = true) (g : Good f w L)
    (hs : Sizes (request packZp t arg l).mat) (hf : f (request packZp t arg l).key = ⟨arg.mat, ar, pack, t⟩) :
    ∃ pe c' L', Requested f sys w L (request packZp t arg l) pe c' L' ∧
      (prepareCached sys ar pack packZp t arg l data sums w = .ok (.cached pe, { w with cache := c' }) ∧
          Good f { w with cache := c' } L' ∨
       ∃ w2 : World A, w2.cache = c' ∧ (pm w2 pe).data.size = pflatSize l ∧
        (∀ b, (pm w2 pe).sums = some b → b.size = l.cols) ∧
        prepareCached sys ar pack packZp t arg l data sums w =
          (runPack ar pack arg.mat 0 l.cols (pm w2 pe) >>= fun p' => .ok (.cached pe, w2.store pe p')) ∧
        ∀ p', PackedOk l → runPack ar pack arg.mat 0 l.cols (pm w2 pe) = .ok p' →
          Good f (w2.store pe p') L' ∧ Agree w (w2.store pe p')) := by
  obtain ⟨pe, ins, c', L', hg, rq, h⟩ := requested hsys g hs (by rw [hf]; rfl)
  refine ⟨pe, c', L', rq, ?_⟩
  obtain ⟨s, K, hL', hK⟩ := rq.head
  rcases h with ⟨hi, hh, l1, l2⟩ | ⟨hi, n1, n2, n3⟩
  · left
    constructor
    · unfold prepareCached
      rw [hg, C.ok_bind]
      dsimp only
      rw [hi]
      rfl
    · refine ⟨rq.inv, ?_, rq.bytes⟩
      intro e he
      have ag : Agree w { w with cache := c' } := ⟨rq.calls, fun _ _ => rfl⟩
      rw [hL'] at he
      rcases List.mem_cons.mp he with rfl | he
      · exact ag.holds l1 l2 hh
      · obtain ⟨a1, a2⟩ := g.inv.le_calls (hK e he)
        exact ag.holds a1 a2 (g.holds e (hK e he))
  · right
    have hal := rq.inv.alive (e := ⟨(request packZp t arg l).key, pe, s⟩) (by rw [hL']; simp)
    have hd0 := rq.data
    refine ⟨World.alloc { w with cache := c' } pe data sums, rfl, ?_, ?_, ?_, ?_⟩
    · unfold pm World.alloc
      dsimp only
      rw [if_pos ⟨hd0, rfl⟩, rq.layout]
      rfl
    · intro b hb
      unfold pm World.alloc at hb
      dsimp only at hb
      split at hb
      · cases hb
      · rename_i h0
        rw [if_neg (fun h => n3 h.2.symm), if_pos ⟨h0, rfl⟩] at hb
        cases hb
        rw [rq.layout]
        rfl
    · unfold prepareCached
      rw [hg, C.ok_bind]
      dsimp only
      rw [hi, if_pos rfl, loadMat_of hd0 (hal.1 hd0) hal.2, C.ok_bind]
    · intro p' hl hp
      set w2 : World A := World.alloc { w with cache := c' } pe data sums with hw2
      have hlay : (pm w2 pe).layout = l := rq.layout
      obtain ⟨ss, -, cd⟩ := runPack_ok (p := pm w2 pe) (by rw [hlay]; exact hl) (by rw [hlay]) hp
      have hbuf : ∀ h, h ≤ w.cache.calls → (w2.store pe p').buf h = w.buf h := by
        intro h hle
        have e1 : h ≠ pe.data := by omega
        have e2 : ¬ (h ≠ 0 ∧ h = pe.sums) := by
          rintro ⟨h0, rfl⟩
          rcases n2 with n2 | n2 <;> omega
        unfold World.store
        dsimp only
        rw [if_neg (fun h => e1 h.2), if_neg e2, hw2]
        unfold World.alloc
        dsimp only
        rw [if_neg (fun h => e1 h.2), if_neg e2]
      have ag : Agree w (w2.store pe p') := ⟨rq.calls, hbuf⟩
      have hpm : pm (w2.store pe p') pe = p' := by
        have h1 := ss.layout
        have h2 := ss.zp
        have h3 := ss.sums
        unfold pm at h1 h2 h3 ⊢
        dsimp only at h1 h2 h3
        have hsum : (if pe.sums = 0 then none else some ((w2.store pe p').buf pe.sums)) = p'.sums := by
          split
          · rename_i h0
            rw [if_pos h0] at h3
            cases hh : p'.sums with
            | none => rfl
            | some b => rw [hh] at h3; cases h3
          · rename_i h0
            rw [if_neg h0] at h3
            cases hh : p'.sums with
            | none => rw [hh] at h3; cases h3
            | some b =>
              unfold World.store
              dsimp only
              rw [if_neg (fun h => n3 h.2.symm), if_pos ⟨h0, rfl⟩, hh]
              rfl
        have hdat : (w2.store pe p').buf pe.data = p'.data := by
          unfold World.store
          dsimp only
          rw [if_pos ⟨hd0, rfl⟩]
        rw [hsum, hdat, ← h1, ← h2]
      refine ⟨⟨rq.inv, ?_, rq.bytes⟩, ag⟩
      intro e he
      rw [hL'] at he
      rcases List.mem_cons.mp he with rfl | he
      · dsimp only
        rw [hf]
        refine ⟨rq.types, hd0, ?_, ?_, ?_, ?_⟩
        · rw [rq.sums]
          have := (ElemTypes.mk.inj rq.types).2.2
          rw [this]
        · have h1 := ss.size
          have h2 : (pm (w2.store pe p') pe).data.size = ((w2.store pe p').buf pe.data).size := rfl
          rw [← h2, hpm, h1]
          show (w2.buf pe.data).size = _
          rw [hw2]
          unfold World.alloc
          dsimp only
          rw [if_pos ⟨hd0, rfl⟩]
        · intro h0
          have h2 : (pm (w2.store pe p') pe).sums = some ((w2.store pe p').buf pe.sums) := by
            unfold pm
            dsimp only
            rw [if_neg h0]
          rw [hpm] at h2
          have h3 : (pm w2 pe).sums = some (w2.buf pe.sums) := by
            unfold pm
            dsimp only
            rw [if_neg h0]
          rw [ss.sumsSize _ _ h3 h2, hw2]
          unfold World.alloc
          dsimp only
          rw [if_neg (fun h => n3 h.2.symm), if_pos ⟨h0, rfl⟩]
        · intro c hc
          rw [hpm]
          exact cd c (Nat.zero_le _) (by rw [← hlay]; exact hc)
      · obtain ⟨a1, a2⟩ := g.inv.le_calls (hK e he)
        exact ag.holds a1 a2 (g.holds e (hK e he))

/-- One side after PreparePackedMatrices. `L` are the cache entries. -/
inductive SlotOk (ar : Arith A) (pack : A → A) (zp : Int) (t : ElemTypes) (src : Mul.Mat A)
    (l : PMatLayout) (w : World A) (L : List Entry) : Slot A → Prop
  | fresh (p : PMat A) : p.layout = l → p.zp = zp → p.data.size = pflatSize l → (∃ b, p.sums = some b) →
      (∀ b, p.sums = some b → b.size = l.cols) → pflatSize l ≠ 0 → l.cols ≠ 0 →
      SlotOk ar pack zp t src l w L (.fresh p)
  | cached (k : Key) (p : PE) (s : Nat) (K : List Entry) : L = ⟨k, p, s⟩ :: K → p.layout = l → p.zp = zp →
      Holds ⟨src, ar, pack, t⟩ w p → SlotOk ar pack zp t src l w L (.cached p)

/-- The caching decision, independently of the code. -/
def Wanted (policy : CachePolicy) (otherWidth otherKernel : Nat) : Prop :=
  match policy with
  | .neverCache => False
  | .alwaysCache => True
  | .cacheIfLargeSpeedup => otherWidth ≤ otherKernel
  | .cacheIfSignificantSpeedup => otherWidth ≤ 4 * otherKernel

instance (policy : CachePolicy) (a b : Nat) : Decidable (Wanted policy a b) := by
  unfold Wanted; cases policy <;> infer_instance

theorem shouldCache_ok {p : CachePolicy} {a k : Nat} {b : Bool} (h : shouldCache p a k = .ok b) :
    b = decide (Wanted p a k) := by
  unfold shouldCache at h
  cases p with
  | neverCache => cases h; rfl
  | alwaysCache => cases h; rfl
  | cacheIfLargeSpeedup => cases h; rfl
  | cacheIfSignificantSpeedup =>
    obtain ⟨x, hx, h⟩ := C.bind_ok h
    obtain ⟨rfl, -⟩ := C.int_ok hx
    cases h
    rfl

theorem shouldCache_of {p : CachePolicy} {a k : Nat} (h : 4 * k < 2 ^ 31) :
    shouldCache p a k = .ok (decide (Wanted p a k)) := by
  unfold shouldCache
  cases p with
  | neverCache => rfl
  | alwaysCache => rfl
  | cacheIfLargeSpeedup => rfl
  | cacheIfSignificantSpeedup =>
    dsimp only
    rw [C.int_of h, C.ok_bind]
    rfl

/-- The matrix of one side is what its key stands for, and its sizes are representable. -/
structure SideOk (f : Key → Origin A) (ar : Arith A) (pack : A → A) (packZp : Int → Int) (t : ElemTypes)
    (arg : Arg A) (l : PMatLayout) : Prop where
  sizes : Sizes (request packZp t arg l).mat
  origin : f (request packZp t arg l).key = ⟨arg.mat, ar, pack, t⟩

theorem prepareSide_ok {f : Key → Origin A} {sys : Nat → Bool} {w w' : World A} {L : List Entry}
    {ar : Arith A} {pack : A → A} {packZp : Int → Int} {t : ElemTypes} {arg : Arg A} {l : PMatLayout}
    {ow ok : Nat} {data sums : Nat → A} {sl : Slot A} (hsys : ∀ k, sys k = true) (g : Good f w L)
    (hl : PackedOk l) (hw : Wanted arg.policy ow ok → SideOk f ar pack packZp t arg l)
    (h : prepareSide sys ar pack packZp t arg l ow ok data sums w = .ok (sl, w')) :
    ∃ L', Good f w' L' ∧ Agree w w' ∧ w'.cache.cap = w.cache.cap ∧
      SlotOk ar pack (packZp arg.mat.zp) t arg.mat l w' L' sl ∧
      sl.isCached = decide (Wanted arg.policy ow ok) ∧
      (¬ Wanted arg.policy ow ok → w' = w) ∧
      ∀ e K, L = e :: K →
        (Wanted arg.policy ow ok →
          (nb e.mat : Int) + (newBytes (request packZp t arg l) : Nat) ≤ w.cache.cap) →
        ∃ s, (⟨e.key, e.mat, s⟩ : Entry) ∈ L' := by
  unfold prepareSide at h
  obtain ⟨b, hb, h⟩ := C.bind_ok h
  have hb' := shouldCache_ok hb
  subst hb'
  by_cases hwant : Wanted arg.policy ow ok
  · rw [if_pos (by simpa using hwant)] at h
    have so := hw hwant
    obtain ⟨pe, c', L', rq, hc⟩ := prepareCached_eq (data := data) (sums := sums) hsys g so.sizes so.origin
    obtain ⟨s, K, hL', hK⟩ := rq.head
    have fin : ∀ w1 : World A, Good f w1 L' → SlotOk ar pack (packZp arg.mat.zp) t arg.mat l w1 L'
        (.cached pe) := by
      intro w1 g1
      refine .cached _ pe s K hL' rq.layout rq.zp ?_
      have := g1.holds ⟨(request packZp t arg l).key, pe, s⟩ (by rw [hL']; simp)
      rw [← so.origin]
      exact this
    rcases hc with ⟨hc, g1⟩ | ⟨w2, hw2, -, -, hc, hp⟩
    · rw [hc] at h
      cases h
      exact ⟨L', g1, ⟨rq.calls, fun _ _ => rfl⟩, rq.cap, fin _ g1, (decide_eq_true hwant).symm,
        fun h => absurd hwant h, fun e K hL hr => rq.stays e K hL (hr hwant)⟩
    · rw [hc] at h
      obtain ⟨p', hp', h⟩ := C.bind_ok h
      cases h
      obtain ⟨g1, ag⟩ := hp p' hl hp'
      exact ⟨L', g1, ag, by rw [← rq.cap, ← hw2]; rfl, fin _ g1, (decide_eq_true hwant).symm,
        fun h => absurd hwant h, fun e K hL hr => rq.stays e K hL (hr hwant)⟩
  · rw [if_neg (by simpa using hwant)] at h
    unfold prepareFresh at h
    obtain ⟨_, h1, h⟩ := C.bind_ok h
    obtain ⟨_, h2, h⟩ := C.bind_ok h
    cases h
    refine ⟨L, g, .refl w, rfl, ?_, (decide_eq_false hwant).symm, fun _ => rfl,
      fun e K hL _ => ⟨e.stamp, by rw [hL]; exact List.mem_cons_self⟩⟩
    exact .fresh _ rfl rfl rfl ⟨_, rfl⟩ (fun b hb => by cases hb; rfl) (C.check_ok h1) (C.check_ok h2)

/-- A slot that could be loaded, possibly after the other side was prepared. -/
structure Loaded (ar : Arith A) (pack : A → A) (zp : Int) (t : ElemTypes) (src : Mul.Mat A)
    (l : PMatLayout) (sl : Slot A) (p : PMat A) : Prop where
  layout : p.layout = l
  zp : p.zp = zp
  size : p.data.size = pflatSize l
  sums : p.sums.isSome ∨ t.sumsFloat = true
  sumsSize : ∀ b, p.sums = some b → b.size = l.cols
  done : sl.isCached = true → ∀ c, c < l.cols → ColDone ar pack src p c

theorem SlotOk.loaded {ar : Arith A} {pack : A → A} {zp : Int} {t : ElemTypes} {src : Mul.Mat A}
    {l : PMatLayout} {w w' : World A} {L : List Entry} {sl : Slot A} {p : PMat A} (hi : Inv w.cache L [])
    (h : SlotOk ar pack zp t src l w L sl) (ag : Agree w w') (hp : sl.load w' = .ok p) :
    Loaded ar pack zp t src l sl p := by
  cases h with
  | fresh q h1 h2 h3 h4 h5 h6 h7 =>
    cases hp
    obtain ⟨b, hb⟩ := h4
    exact ⟨h1, h2, h3, .inl (by rw [hb]; rfl), h5, fun h => by cases h⟩
  | cached k q s K hL h1 h2 hh =>
    have hp : w'.loadMat q = .ok p := hp
    obtain ⟨a1, a2⟩ := hi.le_calls (e := ⟨k, q, s⟩) (by rw [hL]; simp)
    have e := loadMat_ok hh.data hp
    rw [ag.pm a1 a2] at e
    subst e
    subst h1
    refine ⟨rfl, h2, hh.size, ?_, ?_, fun _ => hh.done⟩
    · by_cases h0 : q.sums = 0
      · right
        have h1 := hh.sums.mp h0
        have h2 := hh.types
        dsimp only at h2
        rw [← h2]
        exact h1
      · left
        unfold pm
        dsimp only
        rw [if_neg h0]
        rfl
    · intro b hb
      unfold pm at hb
      dsimp only at hb
      split at hb
      · cases hb
      · rename_i h0
        cases hb
        exact hh.sumsSize h0

/-- What a call must satisfy, in the form in which it reaches TrMul (column-major destination,
transposed LHS). -/
structure CallOk (f : Key → Origin A) (cl : Call A) : Prop where
  lhs : ∀ l, createPackedLayout cl.lhs.mat.layout cl.kern.lhs = .ok l →
    Wanted cl.lhs.policy cl.rhs.mat.layout.cols cl.kern.rhs.cols →
    SideOk f cl.sc.ar cl.sc.pack.lhs cl.sc.packZp.lhs cl.types.lhs cl.lhs l
  rhs : ∀ l, createPackedLayout cl.rhs.mat.layout cl.kern.rhs = .ok l →
    Wanted cl.rhs.policy cl.lhs.mat.layout.cols cl.kern.lhs.cols →
    SideOk f cl.sc.ar cl.sc.pack.rhs cl.sc.packZp.rhs cl.types.rhs cl.rhs l
  /-- floating-point matrices have no sums, and need none -/
  lfloat : cl.types.lhs.sumsFloat = true → cl.sc.packZp.rhs cl.rhs.mat.zp = 0
  rfloat : cl.types.rhs.sumsFloat = true → cl.sc.packZp.lhs cl.lhs.mat.zp = 0

theorem createColMajorC_ok {f : Key → Origin A} {sys : Nat → Bool} {w w' : World A} {L : List Entry}
    {cl : Call A} {ch : ChannelDim} {junk : Junk A} {tp : TrMul.Params A} {m : Mem A} {adv : Bool}
    (hsys : ∀ k, sys k = true) (g : Good f w L) (ok : CallOk f cl)
    (h : createColMajorC sys cl ch junk w = .ok (tp, m, adv, w')) :
    Filled cl.sc cl.kern cl.lhs.mat cl.rhs.mat cl.dst cl.mp ch tp m ∧ Supplied tp m ∧
      w'.cache.cap = w.cache.cap ∧ ∃ L', Good f w' L' := by
  unfold createColMajorC at h
  obtain ⟨_, h1, h⟩ := C.bind_ok h
  obtain ⟨ll, hll, h⟩ := C.bind_ok h
  obtain ⟨lr, hlr, h⟩ := C.bind_ok h
  dsimp only at h
  obtain ⟨e, he, h⟩ := C.bind_ok h
  obtain ⟨⟨sa, wa⟩, ha, h⟩ := C.bind_ok h
  obtain ⟨⟨sb, wb⟩, hb, h⟩ := C.bind_ok h
  obtain ⟨pl, hpl, h⟩ := C.bind_ok h
  obtain ⟨pr, hpr, h⟩ := C.bind_ok h
  cases h
  dsimp only at hb hpl hpr
  obtain ⟨La, ga, aga, ca, oa, -⟩ := prepareSide_ok hsys g (createPackedLayout_ok hll).1 (ok.lhs ll hll) ha
  obtain ⟨Lb, gb, agb, cb, ob, -⟩ := prepareSide_ok hsys ga (createPackedLayout_ok hlr).1 (ok.rhs lr hlr) hb
  have la := oa.loaded ga.inv agb hpl
  have lb := ob.loaded gb.inv (.refl _) hpr
  refine ⟨⟨rfl, rfl, rfl, rfl, ?_, la.zp, ?_, lb.zp, ensureBuffers_same he⟩, ⟨?_, ?_, ?_⟩, cb.trans ca, Lb, gb⟩
  · rw [hll]; dsimp only; rw [la.layout]
  · rw [hlr]; dsimp only; rw [lb.layout]
  · rcases la.sums with h | h
    · exact .inl h
    · right; dsimp only; rw [lb.zp]; exact ok.lfloat h
  · rcases lb.sums with h | h
    · exact .inl h
    · right; dsimp only; rw [la.zp]; exact ok.rfloat h
  · intro s hp c hc
    cases s
    · exact la.done hp c (by rw [← la.layout]; exact hc)
    · exact lb.done hp c (by rw [← lb.layout]; exact hc)

/-- The call as it reaches createColMajorC. -/
def Call.inner (cl : Call A) : Call A :=
  if cl.dst.layout.order = .colMajor then cl.transposeLhs else cl.transposeLhs.exchange

theorem frontEndC_ok {f : Key → Origin A} {sys : Nat → Bool} {w w' : World A} {L : List Entry}
    {cl : Call A} {junk : Junk A} {tp : TrMul.Params A} {m : Mem A} {adv : Bool}
    (hsys : ∀ k, sys k = true) (g : Good f w L) (ok : CallOk f cl.inner)
    (h : frontEndC sys cl junk w = .ok (tp, m, adv, w')) :
    UserFilled cl.sc cl.kern cl.lhs.mat cl.rhs.mat cl.dst cl.mp tp m ∧ Supplied tp m ∧
      w'.cache.cap = w.cache.cap ∧ ∃ L', Good f w' L' := by
  unfold frontEndC at h
  obtain ⟨_, _, h⟩ := C.bind_ok h
  unfold Call.inner at ok
  unfold UserFilled
  split at h
  · rename_i hord
    rw [if_pos hord] at ok ⊢
    exact createColMajorC_ok hsys g ok h
  · rename_i hord
    rw [if_neg hord] at ok ⊢
    exact createColMajorC_ok hsys g ok h

/-! ### Both matrices stay in memory -/

/-- The bytes a side takes in the cache if it is cached. -/
def sideBytes (packZp : Int → Int) (t : ElemTypes) (arg : Arg A) (l : PMatLayout) (ow ok : Nat) : Nat :=
  if Wanted arg.policy ow ok then newBytes (request packZp t arg l) else 0

theorem SlotOk.loadable {ar : Arith A} {pack : A → A} {zp : Int} {t : ElemTypes} {src : Mul.Mat A}
    {l : PMatLayout} {w w' : World A} {L L' : List Entry} {sl : Slot A} (hi : Inv w'.cache L' [])
    (h : SlotOk ar pack zp t src l w L sl)
    (hm : ∀ e K, L = e :: K → sl = .cached e.mat → ∃ s, (⟨e.key, e.mat, s⟩ : Entry) ∈ L') :
    ∃ p, sl.load w' = .ok p := by
  cases h with
  | fresh q => exact ⟨q, rfl⟩
  | cached k q s K hL h1 h2 hh =>
    obtain ⟨s', hs'⟩ := hm _ K hL rfl
    obtain ⟨a1, a2⟩ := hi.alive hs'
    exact ⟨_, loadMat_of hh.data (a1 hh.data) a2⟩

theorem nb_request {pe : PE} {r : Req} (h1 : pe.layout = r.layout)
    (h2 : (⟨pe.dataSize, pe.sumsSize, pe.sumsFloat⟩ : ElemTypes) = ⟨r.dataSize, r.sumsSize, r.sumsFloat⟩) :
    nb pe = newBytes r := by
  obtain ⟨e1, e2, e3⟩ := ElemTypes.mk.inj h2
  rw [newBytes_nb]
  unfold nb
  rw [h1, e1, e2, e3]
  rfl

theorem both_loadable {f : Key → Origin A} {sys : Nat → Bool} {w wa wb : World A} {L : List Entry}
    {ar : Arith A} {packl packr : A → A} {zl zr : Int → Int} {tl tr : ElemTypes} {lhs rhs : Arg A}
    {ll lr : PMatLayout} {owl okl owr okr : Nat} {dl sl' dr sr : Nat → A} {sa sb : Slot A}
    (hsys : ∀ k, sys k = true) (g : Good f w L) (hll : PackedOk ll) (hlr : PackedOk lr)
    (hwl : Wanted lhs.policy owl okl → SideOk f ar packl zl tl lhs ll)
    (hwr : Wanted rhs.policy owr okr → SideOk f ar packr zr tr rhs lr)
    (hroom : (sideBytes zl tl lhs ll owl okl + sideBytes zr tr rhs lr owr okr : Nat) ≤ w.cache.cap)
    (ha : prepareSide sys ar packl zl tl lhs ll owl okl dl sl' w = .ok (sa, wa))
    (hb : prepareSide sys ar packr zr tr rhs lr owr okr dr sr wa = .ok (sb, wb)) :
    ∃ pl pr, sa.load wb = .ok pl ∧ sb.load wb = .ok pr := by
  obtain ⟨La, ga, aga, ca, oa, cac, -⟩ := prepareSide_ok hsys g hll hwl ha
  obtain ⟨Lb, gb, agb, cb, ob, -, -, st⟩ := prepareSide_ok hsys ga hlr hwr hb
  obtain ⟨pr, hpr⟩ := ob.loadable gb.inv (L' := Lb) (w' := wb)
    (fun e K hL _ => ⟨e.stamp, by rw [hL]; exact List.mem_cons_self⟩)
  have : ∃ pl, sa.load wb = .ok pl := by
    refine oa.loadable gb.inv (fun e K hL hsl => st e K hL (fun hw => ?_))
    have hwl' : Wanted lhs.policy owl okl := by
      rw [hsl] at cac
      exact of_decide_eq_true cac.symm
    have hn : nb e.mat = newBytes (request zl tl lhs ll) := by
      rw [hsl] at oa
      cases oa with
      | cached k q s K' hL' h1 h2 hh => exact nb_request h1 hh.types
    unfold sideBytes at hroom
    rw [if_pos hw, if_pos hwl'] at hroom
    rw [hn, ca]
    push_cast at hroom
    exact hroom
  obtain ⟨pl, hpl⟩ := this
  exact ⟨pl, pr, hpl, hpr⟩

/-! ### Mul returns -/

theorem prepareSide_total {f : Key → Origin A} {sys : Nat → Bool} {w : World A} {L : List Entry}
    {ar : Arith A} {pack : A → A} {packZp : Int → Int} {t : ElemTypes} {arg : Arg A} {l : PMatLayout}
    {ow ok : Nat} {data sums : Nat → A} (hsys : ∀ k, sys k = true) (g : Good f w L) (hl : PackedOk l)
    (hw : Wanted arg.policy ow ok → SideOk f ar pack packZp t arg l) (hk : 4 * ok < 2 ^ 31)
    (hne : pflatSize l ≠ 0 ∧ l.cols ≠ 0) (hfl : pflatSize l ≤ 2 ^ 31)
    (hsum : ∀ c, c < l.cols → ∃ s, colSum ar pack arg.mat (packZp arg.mat.zp) l.rows c = .ok s) :
    ∃ sl w', prepareSide sys ar pack packZp t arg l ow ok data sums w = .ok (sl, w') := by
  unfold prepareSide
  rw [shouldCache_of hk, C.ok_bind]
  by_cases hwant : Wanted arg.policy ow ok
  · rw [if_pos (by simpa using hwant)]
    have so := hw hwant
    obtain ⟨pe, c', L', rq, hc⟩ := prepareCached_eq (data := data) (sums := sums) hsys g so.sizes so.origin
    rcases hc with ⟨hc, -⟩ | ⟨w2, hw2, hsz, hss, hc, -⟩
    · exact ⟨_, _, hc⟩
    · have hlay : (pm w2 pe).layout = l := rq.layout
      have hzp : (pm w2 pe).zp = packZp arg.mat.zp := rq.zp
      obtain ⟨p', hp'⟩ := runPack_total (ar := ar) (pack := pack) (src := arg.mat) (p := pm w2 pe) (lo := 0)
        (hi := l.cols) (by rw [hlay]; exact hl)
        ⟨by rw [hlay]; exact hfl, by rw [hlay, hsz], fun b hb => by rw [hlay, hss b hb]⟩
        (by rw [hlay]) (by rw [hlay]; exact hl.cols) (fun c _ hc => by
          rw [hlay, hzp]; exact hsum c hc)
      exact ⟨_, _, by rw [hc, hp']; rfl⟩
  · rw [if_neg (by simpa using hwant)]
    unfold prepareFresh
    rw [C.check_of hne.1, C.ok_bind, C.check_of hne.2, C.ok_bind]
    exact ⟨_, _, rfl⟩

theorem createColMajorC_prepared {f : Key → Origin A} {sys : Nat → Bool} {w : World A} {L : List Entry}
    {cl : Call A} {ch : ChannelDim} {junk junk0 : Junk A} {tp0 : TrMul.Params A} {m0 : Mem A} {adv0 : Bool}
    (hsys : ∀ k, sys k = true) (g : Good f w L) (ok : CallOk f cl)
    (hk : 4 * cl.kern.lhs.cols < 2 ^ 31 ∧ 4 * cl.kern.rhs.cols < 2 ^ 31)
    (h0 : createColMajor cl.sc cl.kern cl.lhs.mat cl.rhs.mat cl.dst cl.mp ch junk0 = .ok (tp0, m0, adv0))
    (hs0 : Safe tp0 m0) :
    ∃ e sa wa sb wb, tp0.mp = kernelParams cl.sc e ∧
      prepareSide sys cl.sc.ar cl.sc.pack.lhs cl.sc.packZp.lhs cl.types.lhs cl.lhs m0.packed.lhs.layout
        cl.rhs.mat.layout.cols cl.kern.rhs.cols junk.data.lhs junk.sums.lhs w = .ok (sa, wa) ∧
      prepareSide sys cl.sc.ar cl.sc.pack.rhs cl.sc.packZp.rhs cl.types.rhs cl.rhs m0.packed.rhs.layout
        cl.lhs.mat.layout.cols cl.kern.lhs.cols junk.data.rhs junk.sums.rhs wa = .ok (sb, wb) ∧
      createColMajorC sys cl ch junk w = (do
        let pl ← sa.load wb
        let pr ← sb.load wb
        .ok (⟨cl.sc.ar, kernelParams cl.sc e, ⟨cl.lhs.mat, cl.rhs.mat⟩, cl.sc.pack,
          ⟨sa.isCached, sb.isCached⟩⟩, ⟨⟨pl, pr⟩, cl.dst⟩, adv0, wb)) := by
  have cr := createColMajor_ok h0
  obtain ⟨e, he, hmp, hadv⟩ : ∃ e, ensureBuffers cl.sc { cl.mp with channelDim := ch }
      ((SidePair.mk cl.lhs.mat cl.rhs.mat).get (channelSide ch)).layout.cols
      ((SidePair.mk m0.packed.lhs.layout m0.packed.rhs.layout).get (channelSide ch)).cols = .ok e ∧
      tp0.mp = kernelParams cl.sc e.1 ∧ adv0 = e.2 := by
    unfold createColMajor at h0
    obtain ⟨_, h1, h0⟩ := C.bind_ok h0
    obtain ⟨pl, hl, h0⟩ := C.bind_ok h0
    obtain ⟨pr, hr, h0⟩ := C.bind_ok h0
    dsimp only at h0
    obtain ⟨e, he, h0⟩ := C.bind_ok h0
    cases h0
    refine ⟨e, ?_, rfl, rfl⟩
    rw [← he]
    cases ch <;> rfl
  have hll := cr.lpk.layout
  have hlr := cr.rpk.layout
  have hsum : ∀ s c, c < (m0.packed.get s).layout.cols → ∃ x, (operand tp0 m0 s).sum tp0.ar c = .ok x :=
    fun s c hc => hs0.sums s (by rw [cr.prepacked]; cases s <;> rfl) c hc
  obtain ⟨sa, wa, ha⟩ := prepareSide_total (data := junk.data.lhs) (sums := junk.sums.lhs) hsys g
    (createPackedLayout_ok hll).1 (ok.lhs _ hll) hk.2 cr.lpk.nonempty (hs0.fits .lhs).int
    (fun c hc => by
      obtain ⟨x, hx⟩ := hsum .lhs c hc
      refine ⟨x, ?_⟩
      unfold TrMul.operand Operand.sum at hx
      rw [cr.ar, cr.pack, cr.src] at hx
      simp only [SidePair.get_lhs] at hx
      rw [cr.lpk.zp] at hx
      exact hx)
  obtain ⟨La, ga, aga, ca, oa, cac, -⟩ := prepareSide_ok hsys g (createPackedLayout_ok hll).1 (ok.lhs _ hll) ha
  obtain ⟨sb, wb, hb⟩ := prepareSide_total (data := junk.data.rhs) (sums := junk.sums.rhs) hsys ga
    (createPackedLayout_ok hlr).1 (ok.rhs _ hlr) hk.1 cr.rpk.nonempty (hs0.fits .rhs).int
    (fun c hc => by
      obtain ⟨x, hx⟩ := hsum .rhs c hc
      refine ⟨x, ?_⟩
      unfold TrMul.operand Operand.sum at hx
      rw [cr.ar, cr.pack, cr.src] at hx
      simp only [SidePair.get_rhs] at hx
      rw [cr.rpk.zp] at hx
      exact hx)
  refine ⟨e.1, sa, wa, sb, wb, hmp, ha, hb, ?_⟩
  unfold createColMajorC
  rw [C.check_of cr.order, C.ok_bind, hll, C.ok_bind, hlr, C.ok_bind]
  dsimp only
  rw [he, C.ok_bind, ha, C.ok_bind, hb, C.ok_bind, hadv]

theorem createColMajorC_total {f : Key → Origin A} {sys : Nat → Bool} {w : World A} {L : List Entry}
    {cl : Call A} {ch : ChannelDim} {junk junk0 : Junk A} {tp0 : TrMul.Params A} {m0 : Mem A} {adv0 : Bool}
    (hsys : ∀ k, sys k = true) (g : Good f w L) (ok : CallOk f cl)
    (hk : 4 * cl.kern.lhs.cols < 2 ^ 31 ∧ 4 * cl.kern.rhs.cols < 2 ^ 31)
    (hroom : ∀ ll lr, createPackedLayout cl.lhs.mat.layout cl.kern.lhs = .ok ll →
      createPackedLayout cl.rhs.mat.layout cl.kern.rhs = .ok lr →
      (sideBytes cl.sc.packZp.lhs cl.types.lhs cl.lhs ll cl.rhs.mat.layout.cols cl.kern.rhs.cols +
        sideBytes cl.sc.packZp.rhs cl.types.rhs cl.rhs lr cl.lhs.mat.layout.cols cl.kern.lhs.cols : Nat) ≤
        w.cache.cap)
    (h0 : createColMajor cl.sc cl.kern cl.lhs.mat cl.rhs.mat cl.dst cl.mp ch junk0 = .ok (tp0, m0, adv0))
    (hs0 : Safe tp0 m0) :
    ∃ tp m adv w', createColMajorC sys cl ch junk w = .ok (tp, m, adv, w') ∧ Safe tp m := by
  have cr := createColMajor_ok h0
  have hll := cr.lpk.layout
  have hlr := cr.rpk.layout
  have hsum : ∀ s c, c < (m0.packed.get s).layout.cols → ∃ x, (operand tp0 m0 s).sum tp0.ar c = .ok x :=
    fun s c hc => hs0.sums s (by rw [cr.prepacked]; cases s <;> rfl) c hc
  obtain ⟨e, sa, wa, sb, wb, hmp, ha, hb, heq⟩ := createColMajorC_prepared (junk := junk) hsys g ok hk h0 hs0
  obtain ⟨La, ga, aga, ca, oa, cac, -⟩ := prepareSide_ok hsys g (createPackedLayout_ok hll).1 (ok.lhs _ hll) ha
  obtain ⟨pl, pr, hpl, hpr⟩ := both_loadable hsys g (createPackedLayout_ok hll).1 (createPackedLayout_ok hlr).1
    (ok.lhs _ hll) (ok.rhs _ hlr) (hroom _ _ hll hlr) ha hb
  have hres : createColMajorC sys cl ch junk w = .ok (⟨cl.sc.ar, kernelParams cl.sc e,
      ⟨cl.lhs.mat, cl.rhs.mat⟩, cl.sc.pack, ⟨sa.isCached, sb.isCached⟩⟩, ⟨⟨pl, pr⟩, cl.dst⟩, adv0, wb) := by
    rw [heq, hpl, C.ok_bind, hpr, C.ok_bind]
  refine ⟨_, _, _, _, hres, ?_⟩
  obtain ⟨Lb, gb, agb, cb, ob, -⟩ := prepareSide_ok hsys ga (createPackedLayout_ok hlr).1 (ok.rhs _ hlr) hb
  have la := oa.loaded ga.inv agb hpl
  have lb := ob.loaded gb.inv (.refl _) hpr
  have hop : ∀ s, operand ⟨cl.sc.ar, kernelParams cl.sc e,
      ⟨cl.lhs.mat, cl.rhs.mat⟩, cl.sc.pack, ⟨sa.isCached, sb.isCached⟩⟩ ⟨⟨pl, pr⟩, cl.dst⟩ s =
      operand tp0 m0 s := by
    intro s
    unfold TrMul.operand
    rw [cr.pack, cr.src]
    cases s
    · simp only [SidePair.get_lhs]
      rw [la.zp, la.layout, cr.lpk.zp]
    · simp only [SidePair.get_rhs]
      rw [lb.zp, lb.layout, cr.rpk.zp]
  have htar : TrMul.target ⟨cl.sc.ar, kernelParams cl.sc e,
      ⟨cl.lhs.mat, cl.rhs.mat⟩, cl.sc.pack, ⟨sa.isCached, sb.isCached⟩⟩ ⟨⟨pl, pr⟩, cl.dst⟩ =
      TrMul.target tp0 m0 := by
    unfold TrMul.target
    rw [hop, hop, hmp, cr.ar, cr.dst]
  refine ⟨?_, ?_, ?_, ?_, ?_, ?_⟩
  · intro s
    cases s
    · refine ⟨?_, ?_, fun b hb => ?_⟩
      · simp only [SidePair.get_lhs]; rw [la.layout]; exact (hs0.fits .lhs).int
      · simp only [SidePair.get_lhs]; rw [la.layout, la.size]
      · simp only [SidePair.get_lhs] at hb ⊢; rw [la.layout, la.sumsSize b hb]
    · refine ⟨?_, ?_, fun b hb => ?_⟩
      · simp only [SidePair.get_rhs]; rw [lb.layout]; exact (hs0.fits .rhs).int
      · simp only [SidePair.get_rhs]; rw [lb.layout, lb.size]
      · simp only [SidePair.get_rhs] at hb ⊢; rw [lb.layout, lb.sumsSize b hb]
  · have := hs0.dfits
    rw [cr.dst] at this
    exact this
  · intro s _ c hc
    rw [hop]
    have hlay : ((⟨⟨pl, pr⟩, cl.dst⟩ : Mem A).packed.get s).layout = (m0.packed.get s).layout := by
      cases s
      · exact la.layout
      · exact lb.layout
    rw [hlay] at hc
    have := hsum s c hc
    rw [cr.ar] at this
    exact this
  · intro i j hi hj
    rw [htar]
    exact hs0.entries i j (by rw [cr.dst]; exact hi) (by rw [cr.dst]; exact hj)
  · have := hs0.rows
    rw [cr.dst] at this
    dsimp only
    rw [la.layout]
    exact this
  · have := hs0.cols
    rw [cr.dst] at this
    dsimp only
    rw [lb.layout]
    exact this

/-- There is room in the cache for the matrices of one call. -/
def RoomFor (cap : Int) (cl : Call A) : Prop :=
  ∀ ll lr, createPackedLayout cl.lhs.mat.layout cl.kern.lhs = .ok ll →
    createPackedLayout cl.rhs.mat.layout cl.kern.rhs = .ok lr →
    (sideBytes cl.sc.packZp.lhs cl.types.lhs cl.lhs ll cl.rhs.mat.layout.cols cl.kern.rhs.cols +
      sideBytes cl.sc.packZp.rhs cl.types.rhs cl.rhs lr cl.lhs.mat.layout.cols cl.kern.lhs.cols : Nat) ≤ cap

theorem frontEndC_total {f : Key → Origin A} {sys : Nat → Bool} {w : World A} {L : List Entry}
    {cl : Call A} {junk junk0 : Junk A} {tp0 : TrMul.Params A} {m0 : Mem A} {adv0 : Bool}
    (hsys : ∀ k, sys k = true) (g : Good f w L) (ok : CallOk f cl.inner)
    (hk : 4 * cl.kern.lhs.cols < 2 ^ 31 ∧ 4 * cl.kern.rhs.cols < 2 ^ 31)
    (hroom : RoomFor w.cache.cap cl.inner)
    (h0 : frontEnd cl.sc cl.kern cl.lhs.mat cl.rhs.mat cl.dst cl.mp junk0 = .ok (tp0, m0, adv0))
    (hs0 : Safe tp0 m0) :
    ∃ tp m adv w', frontEndC sys cl junk w = .ok (tp, m, adv, w') ∧ Safe tp m := by
  unfold frontEnd at h0
  obtain ⟨u, hv, h0⟩ := C.bind_ok h0
  unfold createTrMulParams at h0
  unfold frontEndC
  rw [hv, C.ok_bind]
  unfold Call.inner at ok hroom
  split at h0
  · rename_i hord
    rw [if_pos hord] at ok hroom ⊢
    exact createColMajorC_total (cl := cl.transposeLhs) hsys g ok hk hroom h0 hs0
  · rename_i hord
    rw [if_neg hord] at ok hroom ⊢
    exact createColMajorC_total (cl := cl.transposeLhs.exchange) hsys g ok hk hroom h0 hs0

end Ruy.Cache

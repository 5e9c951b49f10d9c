import Verif.XFloat.PackRun
import Verif.XFloat.KernLemmas
import Verif.Simd.Calls
/-
Float packing and kernels of the x86 paths together: lemmas for property C61.
-/
namespace Ruy.XFloat
open Ruy.Mat Ruy.Mul
open Ruy.Front (MulParams)
open Ruy.TrMul (Mem setSide)
open Ruy.Simd.Flow (Op Covered Written get_setSide covered_snoc written_snoc written_mono start_lt)

variable {A : Type}

/-! ### Specification -/

/-- The bias of a channel. -/
def biasAt (z : A) (mp : MulParams A) (ch : Nat) : A :=
  match mp.bias with
  | none => z
  | some b => b.val ch

/-- Entry (i, j): multiply-adds in the order of the depth, starting with the bias, then clamped.  The LHS is already
transposed: both sources have the depth as rows. -/
def entry (o : VOps A) (jb : Job A) (i j : Nat) : A :=
  clamped o jb.mp.clampMin jb.mp.clampMax
    (dot o.madd (biasAt o.zero jb.mp (channelOf jb.mp.channelDim i j)) (fun d => jb.src.lhs.at d i)
      (fun d => jb.src.rhs.at d j) jb.src.lhs.layout.rows)

/-- The end of the channels of a block. -/
def channelStop (mp : MulParams A) (stop : SidePair Nat) : Nat :=
  match mp.channelDim with
  | .row => stop.lhs
  | .col => stop.rhs

/-- Calls as TrMul issues them: non-empty blocks of the packed matrices, and a kernel call only after the
columns it needs have been packed. -/
structure Ordered (kc : Nat) (jb : Job A) (m : Mem A) (ops : List Op) : Prop where
  packs : ∀ s lo hi, Op.pack s lo hi ∈ ops → Simd.Flow.Block kc (m.packed.get s).layout.cols lo hi
  kernels : ∀ start stop, Op.kernel start stop ∈ ops → ∀ s : Side,
    Simd.Flow.Block kc (m.packed.get s).layout.cols (start.get s) (stop.get s)
  first : ∀ pre start stop post, ops = pre ++ Op.kernel start stop :: post → ∀ (s : Side) (c : Nat),
    start.get s ≤ c → c < stop.get s → c < (jb.src.get s).layout.cols → Covered pre s c

/-- A multiplication as Mul sets it up: packed matrices from CreatePackedLayout, a column-major destination, a bias buffer
that covers the packed width, offsets that are ints and strides that are int32 in bytes. -/
structure JobOk (kc : Nat) (jb : Job A) (m : Mem A) : Prop where
  side : ∀ s : Side, SideOk kc (jb.src.get s) (m.packed.get s)
  depth : jb.src.rhs.layout.rows = jb.src.lhs.layout.rows
  drows : m.dst.layout.rows = jb.src.lhs.layout.cols
  dcols : m.dst.layout.cols = jb.src.rhs.layout.cols
  dorder : m.dst.layout.order = .colMajor
  dstride : m.dst.layout.rows ≤ m.dst.layout.stride
  dfits : DFits m.dst
  bias : ∀ b, jb.mp.bias = some b →
    channelStop jb.mp ⟨m.packed.lhs.layout.cols, m.packed.rhs.layout.cols⟩ ≤ b.size
  depth4 : 4 * jb.src.lhs.layout.rows < 2 ^ 31
  stride4 : 4 * m.dst.layout.stride < 2 ^ 31
  /-- kernel_avx512.cc:953-991 -/
  deep : kc = 16 → 0 < jb.src.lhs.layout.rows

/-! ### Kernel calls -/

/-- What is known of a path. -/
structure PathOk (P : Path A) : Prop where
  isa : IsaOk P.isa
  packer : PackerOk P.isa.kc P.packer
  kernel : ∀ {k : KParams A} {sl sr st size : Nat} {L R B : Nat → Nat → A}, KOk P.isa k sl sr st size L R B →
    (P.isa.kc = 16 → 0 < k.depth) → ∀ {b : Buf A}, b.size = size →
    ∃ b', P.kernel k b = .ok b' ∧ Part 0 st (entryOf P.isa.ops k L R B) (inBlock k) b b'
  single : ∀ {k : KParams A} {sl sr st size : Nat} {L R B : Nat → Nat → A}, KOk P.isa k sl sr st size L R B →
    k.channelCol = false → k.dstCols = 1 → k.startCol = 0 → k.endCol = P.isa.kc → ∀ {b : Buf A}, b.size = size →
    ∃ b', P.single k b = .ok b' ∧ Part 0 st (entryOf P.isa.ops k L R B) (inBlock k) b b'

theorem isaAvx_ok (o : VOps A) : IsaOk (⟨8, o, bcastAvx⟩ : Isa A) := ⟨Or.inl rfl, bcastAvx_ok⟩
theorem isa512_ok (o : VOps A) : IsaOk (⟨16, o, bcast512⟩ : Isa A) := ⟨Or.inr rfl, bcast512_ok⟩

theorem pathAvx_ok (o : VOps A) : PathOk (pathAvx o) where
  isa := isaAvx_ok o
  packer := pack8_ok packAvx_ok
  kernel h _ _ hb := kernel8_of (isaAvx_ok o) rfl h hb
  single h h1 h2 h3 h4 _ hb := singleCol_of (isaAvx_ok o) h h1 h2 h3 h4 hb

theorem pathAvx2_ok (o : VOps A) : PathOk (pathAvx2 o) where
  isa := isaAvx_ok o
  packer := pack8_ok packAvx2_ok
  kernel h _ _ hb := kernel8_of (isaAvx_ok o) rfl h hb
  single h h1 h2 h3 h4 _ hb := singleCol_of (isaAvx_ok o) h h1 h2 h3 h4 hb

theorem pathAvx512_ok (o : VOps A) : PathOk (pathAvx512 o) where
  isa := isa512_ok o
  packer := pack16_ok packAvx512_ok
  kernel h hd _ hb := kernel16_of (isa512_ok o) rfl h (hd rfl) hb
  single h h1 h2 h3 h4 _ hb := singleCol_of (isa512_ok o) h h1 h2 h3 h4 hb

/-- Element (d, i) of a packed matrix. -/
def pat (p : PMat A) (d i : Nat) : A := p.data.val (poff p.layout d i)

theorem channelStop_le {mp : MulParams A} {a b : SidePair Nat} (hl : a.lhs ≤ b.lhs) (hr : a.rhs ≤ b.rhs) :
    channelStop mp a ≤ channelStop mp b := by
  unfold channelStop
  cases mp.channelDim
  · exact hl
  · exact hr

theorem strideBytes_of {s : Nat} (h : 4 * s < 2 ^ 31) : strideBytes s / 4 = (s : Int) := by
  unfold strideBytes Simd.wrap32
  omega

theorem side_val {kc : Nat} (hk : 0 < kc) {src : Mul.Mat A} {p : PMat A} (h : SideOk kc src p) {c0 d : Nat}
    (hc : c0 % kc = 0) (hc' : c0 + kc ≤ p.layout.cols) (hd : d < src.layout.rows) :
    c0 * src.layout.rows + kc * d + kc ≤ p.data.size ∧
      ∀ i, i < kc → p.data.val (c0 * src.layout.rows + kc * d + i) = pat p d (c0 + i) := by
  have h1 := h.block hc'
  have h2 := h.data
  have h3 : kc * (d + 1) ≤ kc * src.layout.rows := Nat.mul_le_mul_left _ hd
  rw [Nat.mul_add, Nat.mul_one] at h3
  rw [Nat.mul_comm c0]
  refine ⟨by omega, fun i hi => ?_⟩
  unfold pat
  rw [h.poff hk hc hi, Nat.mul_comm d]

theorem block_room {kc n lo hi : Nat} (hk : kc = 8 ∨ kc = 16) (h : Simd.Flow.Block kc n lo hi) : lo + kc ≤ n := by
  obtain ⟨b1, b2, b3, b4⟩ := h
  rcases hk with rfl | rfl <;> omega

theorem block_single {kc n lo hi : Nat} (hk : kc = 8 ∨ kc = 16) (h : Simd.Flow.Block kc n lo hi) (h1 : 1 ≤ n) (h2 : n < 1 + kc)
    (h3 : n % kc = 0) : lo = 0 ∧ hi = kc := by
  obtain ⟨b1, b2, b3, b4⟩ := h
  rcases hk with rfl | rfl <;> omega

section
variable {P : Path A}

theorem makeParams_of (ok : PathOk P) {jb : Job A} {m : Mem A} (h : JobOk P.isa.kc jb m) {start stop : SidePair Nat}
    (hb : ∀ s : Side, Simd.Flow.Block P.isa.kc (m.packed.get s).layout.cols (start.get s) (stop.get s)) :
    ∃ k, makeParams P.isa.kc P.isa.ops.zero m.packed.lhs m.packed.rhs jb.mp start stop m.dst = .ok k ∧
      KOk P.isa k jb.src.lhs.layout.rows jb.src.lhs.layout.rows m.dst.layout.stride m.dst.data.size
        (pat m.packed.lhs) (pat m.packed.rhs)
        (fun i j => biasAt P.isa.ops.zero jb.mp (channelOf jb.mp.channelDim i j)) ∧
      k.startRow = start.lhs ∧ k.startCol = start.rhs ∧ k.endRow = stop.lhs ∧ k.endCol = stop.rhs ∧
      k.dstRows = m.dst.layout.rows ∧ k.dstCols = m.dst.layout.cols ∧ k.depth = jb.src.lhs.layout.rows ∧
      k.clampMin = jb.mp.clampMin ∧ k.clampMax = jb.mp.clampMax ∧ k.channelCol = decide (jb.mp.channelDim = .col) := by
  have hkc := ok.isa.kc
  have hk : 0 < P.isa.kc := by omega
  have sl := h.side .lhs
  have sr := h.side .rhs
  have bl := hb .lhs
  have br := hb .rhs
  simp only [SidePair.get_lhs, SidePair.get_rhs] at sl sr bl br
  obtain ⟨_, _, tl, _, rl, cl, cl', ml⟩ := sl.facts
  obtain ⟨_, _, tr, _, rr, cr, cr', mr⟩ := sr.facts
  obtain ⟨al, al'⟩ := start_lt hkc bl cl'
  obtain ⟨ar, ar'⟩ := start_lt hkc br cr'
  have hd4 := h.depth4
  have il : start.lhs * m.packed.lhs.layout.stride < 2 ^ 31 := by
    have h1 := sl.block (c0 := start.lhs) (block_room hkc bl)
    have h2 := sl.int
    rw [tl, Nat.mul_comm]; omega
  have ir : start.rhs * m.packed.rhs.layout.stride < 2 ^ 31 := by
    have h1 := sr.block (c0 := start.rhs) (block_room hkc br)
    have h2 := sr.int
    rw [tr, Nat.mul_comm]; omega
  have id : start.rhs * m.dst.layout.stride < 2 ^ 31 := by
    have := (h.dfits 0 start.rhs (by rw [h.drows]; omega) (by rw [h.dcols]; exact ar)).1
    unfold off at this
    rw [h.dorder] at this
    dsimp only at this
    omega
  unfold makeParams
  rw [C.check_of bl.1, C.ok_bind, C.check_of br.1, C.ok_bind, C.check_of bl.2.1, C.ok_bind, C.check_of br.2.1, C.ok_bind,
    C.int_of il, C.ok_bind, C.int_of ir, C.ok_bind, C.int_of id, C.ok_bind, C.check_of (by rw [h.drows]; exact al'), C.ok_bind,
    C.check_of (by rw [h.dcols]; exact ar'), C.ok_bind]
  refine ⟨_, rfl, ?_, rfl, rfl, rfl, rfl, rfl, rfl, rl, rfl, rfl, rfl⟩
  have hcs := channelStop_le (mp := jb.mp) (a := stop)
    (b := ⟨m.packed.lhs.layout.cols, m.packed.rhs.layout.cols⟩) bl.2.2.2 br.2.2.2
  refine {
    ls := ?_, rs := ?_, ds := ?_, lbase := ?_, rbase := ?_, dbase := rfl, startRow := bl.1, startCol := br.1
    endRow := bl.2.1, endCol := br.2.1, lhs := ?_, rhs := ?_, biasCol := ?_, biasRow := ?_, dst := ?_, rows := h.dstride }
  · show strideBytes _ / 4 = _
    rw [tl, strideBytes_of hd4]
  · show strideBytes _ / 4 = _
    rw [tr, h.depth, strideBytes_of hd4]
  · exact strideBytes_of h.stride4
  · show start.lhs * _ = start.lhs * _
    rw [tl]
  · show start.rhs * _ = start.rhs * _
    rw [tr, h.depth]
  · intro row d h1 h2 h3
    exact side_val hk sl h1 (Nat.le_trans h2 bl.2.2.2) (by rw [← rl]; exact h3)
  · intro row d h1 h2 h3
    have := side_val hk sr h1 (Nat.le_trans h2 br.2.2.2) (d := d) (by rw [h.depth, ← rl]; exact h3)
    rw [h.depth] at this
    exact this
  · intro hc col h1
    have hc : jb.mp.channelDim = .col := by simpa using hc
    unfold KParams.inc biasAt
    dsimp only at h1 ⊢
    cases hbias : jb.mp.bias with
    | none =>
      simp only [Option.getD_none, Option.isSome_none, Bool.false_eq_true, if_false, Nat.mul_zero, Nat.zero_add]
      exact ⟨by show 8 ≤ P.isa.kc; omega, fun _ _ _ => rfl⟩
    | some b =>
      have := h.bias b hbias
      unfold channelStop at hcs this
      rw [hc] at hcs this
      dsimp only at hcs this
      simp only [Option.getD_some, Option.isSome_some, if_true, Nat.mul_one]
      refine ⟨by omega, fun i j _ => ?_⟩
      rw [hc]; rfl
  · intro hc row h1
    have hc : jb.mp.channelDim = .row := by
      cases hd : jb.mp.channelDim with
      | row => rfl
      | col => rw [hd] at hc; simp at hc
    unfold KParams.inc biasAt
    dsimp only at h1 ⊢
    cases hbias : jb.mp.bias with
    | none =>
      simp only [Option.getD_none, Option.isSome_none, Bool.false_eq_true, if_false, Nat.mul_zero, Nat.zero_add]
      exact ⟨Nat.le_refl _, fun _ _ _ => rfl⟩
    | some b =>
      have := h.bias b hbias
      unfold channelStop at hcs this
      rw [hc] at hcs this
      dsimp only at hcs this
      simp only [Option.getD_some, Option.isSome_some, if_true, Nat.mul_one]
      refine ⟨by omega, fun i j _ => ?_⟩
      rw [hc]; rfl
  · intro i j hi hj
    have := (h.dfits i j hi hj).2
    unfold off at this
    rw [h.dorder] at this
    dsimp only at this
    omega

/-- One kernel call. -/
theorem runKernel_of (ok : PathOk P) {jb : Job A} {m : Mem A} (h : JobOk P.isa.kc jb m) {start stop : SidePair Nat}
    (hb : ∀ s : Side, Simd.Flow.Block P.isa.kc (m.packed.get s).layout.cols (start.get s) (stop.get s)) :
    ∃ d, runKernel P m.packed.lhs m.packed.rhs jb.mp start stop m.dst = .ok d ∧ DSame m.dst d ∧
      Part 0 m.dst.layout.stride (fun i j => clamped P.isa.ops jb.mp.clampMin jb.mp.clampMax
        (dot P.isa.ops.madd (biasAt P.isa.ops.zero jb.mp (channelOf jb.mp.channelDim i j)) (fun d => pat m.packed.lhs d i)
          (fun d => pat m.packed.rhs d j) jb.src.lhs.layout.rows))
        (fun i j => start.lhs ≤ i ∧ i < min m.dst.layout.rows stop.lhs ∧ start.rhs ≤ j ∧ j < min m.dst.layout.cols stop.rhs)
        m.dst.data d.data := by
  obtain ⟨k, e, hK, k1, k2, k3, k4, k5, k6, k7, k8, k9, k10⟩ := makeParams_of ok h hb
  have hP : ∃ d, (if m.dst.layout.cols = 1 ∧ jb.mp.channelDim = .row then P.single k m.dst.data
      else P.kernel k m.dst.data) = .ok d ∧ Part 0 m.dst.layout.stride (entryOf P.isa.ops k (pat m.packed.lhs) (pat m.packed.rhs)
        (fun i j => biasAt P.isa.ops.zero jb.mp (channelOf jb.mp.channelDim i j))) (inBlock k) m.dst.data d := by
    by_cases hs : m.dst.layout.cols = 1 ∧ jb.mp.channelDim = .row
    · rw [if_pos hs]
      have br := hb .rhs
      have sr := h.side .rhs
      simp only [SidePair.get_rhs] at br sr
      obtain ⟨_, _, _, _, _, cr, cr', mr⟩ := sr.facts
      rw [← h.dcols, hs.1] at cr cr'
      have hz := block_single ok.isa.kc br cr cr' mr
      exact ok.single hK (by rw [k10, hs.2]; rfl) (by rw [k6]; exact hs.1) (by rw [k2]; exact hz.1)
        (by rw [k4]; exact hz.2) rfl
    · rw [if_neg hs]
      exact ok.kernel hK (by rw [k7]; exact h.deep) rfl
  obtain ⟨d, e', hP⟩ := hP
  unfold runKernel
  rw [e, C.ok_bind]
  refine ⟨{ m.dst with data := d }, ?_, ⟨rfl, rfl, hP.size⟩, ?_⟩
  · by_cases hs : m.dst.layout.cols = 1 ∧ jb.mp.channelDim = .row
    · rw [if_pos hs] at e' ⊢
      rw [e']; rfl
    · rw [if_neg hs] at e' ⊢
      rw [e']; rfl
  · refine (hP.congr (fun i j _ _ => ?_)).iff (fun i j _ => ?_)
    · unfold entryOf
      rw [k7, k8, k9]
    · unfold inBlock KParams.rowEnd KParams.colEnd
      rw [k1, k2, k3, k4, k5, k6]

/-! ### The invariant -/

/-- The column holds its packed form. -/
def ColOk (src : Mul.Mat A) (p : PMat A) (c : Nat) : Prop := ∀ r, r < src.layout.rows → pat p r c = src.at r c

structure Inv (o : VOps A) (jb : Job A) (m0 : Mem A) (pre : List Op) (m : Mem A) : Prop where
  shape : ∀ s : Side, SameShape (m0.packed.get s) (m.packed.get s)
  dsame : DSame m0.dst m.dst
  cols : ∀ (s : Side) (c : Nat), Covered pre s c → c < (jb.src.get s).layout.cols →
    ColOk (jb.src.get s) (m.packed.get s) c
  entries : Part 0 m0.dst.layout.stride (entry o jb)
    (fun i j => i < m0.dst.layout.rows ∧ j < m0.dst.layout.cols ∧ Written pre i j) m0.dst.data m.dst.data

theorem Inv.start (o : VOps A) (jb : Job A) (m : Mem A) : Inv o jb m [] m where
  shape _ := SameShape.refl _
  dsame := DSame.refl _
  cols s c h := by obtain ⟨_, _, h, _⟩ := h; cases h
  entries := (Part.refl _).iff (fun i j _ => ⟨False.elim, fun ⟨_, _, _, _, h, _⟩ => by cases h⟩)

theorem JobOk.same {kc : Nat} {jb : Job A} {m m' : Mem A} (h : JobOk kc jb m)
    (hs : ∀ s : Side, SameShape (m.packed.get s) (m'.packed.get s)) (hd : DSame m.dst m'.dst) :
    JobOk kc jb m' := by
  have hl1 : m'.packed.lhs.layout = m.packed.lhs.layout := (hs .lhs).layout
  have hr1 : m'.packed.rhs.layout = m.packed.rhs.layout := (hs .rhs).layout
  have hd1 := hd.layout
  exact ⟨fun s => (h.side s).same (hs s), h.depth, by rw [hd1]; exact h.drows, by rw [hd1]; exact h.dcols,
    by rw [hd1]; exact h.dorder, by rw [hd1]; exact h.dstride, h.dfits.same hd, by rw [hl1, hr1]; exact h.bias, h.depth4,
    by rw [hd1]; exact h.stride4, h.deep⟩

theorem pack_step (ok : PathOk P) {jb : Job A} {m0 m : Mem A} {pre : List Op} {s : Side} {lo hi : Nat}
    (h : JobOk P.isa.kc jb m0) (hI : Inv P.isa.ops jb m0 pre m)
    (hb : Simd.Flow.Block P.isa.kc (m0.packed.get s).layout.cols lo hi) :
    ∃ m', step P jb m (.pack s lo hi) = .ok m' ∧ Inv P.isa.ops jb m0 (pre ++ [.pack s lo hi]) m' := by
  have hj := h.same hI.shape hI.dsame
  have hs := hj.side s
  have hk : 0 < P.isa.kc := by rcases ok.isa.kc with e | e <;> omega
  have hcols : hi ≤ (m.packed.get s).layout.cols := by rw [(hI.shape s).layout]; exact hb.2.2.2
  obtain ⟨q, e, hp⟩ := packSide_of hk ok.packer (junk := jb.junk s) hs hb.1 hb.2.1 hb.2.2.1 hcols
  obtain ⟨pk, _, _, _, rows, pc, _⟩ := hs.facts
  refine ⟨{ m with packed := setSide m.packed s q }, ?_, fun s' => ?_, hI.dsame, fun s' c hc hlt => ?_, hI.entries.iff ?_⟩
  · unfold step
    dsimp only
    rw [e]; rfl
  · dsimp only
    rw [get_setSide]
    split
    · rename_i hss; subst hss
      exact (hI.shape s').trans hp.shape
    · exact hI.shape s'
  · dsimp only
    rw [get_setSide]
    by_cases hss : s' = s
    · subst hss
      rw [if_pos rfl]
      intro r hr
      unfold pat
      rw [hp.shape.layout]
      by_cases hin : lo ≤ c ∧ c < hi
      · rw [hp.data r c (by omega) hin.1 hin.2]
        unfold Float.rowVal
        rw [if_pos hlt]
      · rw [hp.out.data _ (fun r' c' hr' hc' he => ?_)]
        · rcases covered_snoc hc with hc | ⟨lo', hi', he, h1, h2⟩
          · exact hI.cols s' c hc hlt r hr
          · cases he
            exact absurd ⟨h1, h2⟩ hin
        · obtain ⟨_, rfl⟩ := poff_inj pk (by omega) (by omega) hr' (by omega) he
          exact hin hc'
    · rw [if_neg hss]
      rcases covered_snoc hc with hc | ⟨lo', hi', he, h1, h2⟩
      · exact hI.cols s' c hc hlt
      · cases he
        exact absurd rfl hss
  · intro i j _
    constructor
    · rintro ⟨h1, h2, h3⟩
      exact ⟨h1, h2, written_mono h3⟩
    · rintro ⟨h1, h2, h3⟩
      rcases written_snoc h3 with h3 | ⟨_, _, he, _⟩
      · exact ⟨h1, h2, h3⟩
      · cases he

theorem dot_congr {madd : A → A → A → A} {init : A} {f f' g g' : Nat → A} {n : Nat} (hf : ∀ d, d < n → f d = f' d)
    (hg : ∀ d, d < n → g d = g' d) : dot madd init f g n = dot madd init f' g' n := by
  induction n with
  | zero => rfl
  | succ n ih =>
    unfold dot
    rw [hf n (by omega), hg n (by omega), ih (fun d hd => hf d (by omega)) (fun d hd => hg d (by omega))]

theorem kernel_step (ok : PathOk P) {jb : Job A} {m0 m : Mem A} {pre : List Op} {start stop : SidePair Nat}
    (h : JobOk P.isa.kc jb m0) (hI : Inv P.isa.ops jb m0 pre m)
    (hb : ∀ s : Side, Simd.Flow.Block P.isa.kc (m0.packed.get s).layout.cols (start.get s) (stop.get s))
    (hc : ∀ (s : Side) (c : Nat), start.get s ≤ c → c < stop.get s → c < (jb.src.get s).layout.cols →
      Covered pre s c) :
    ∃ m', step P jb m (.kernel start stop) = .ok m' ∧ Inv P.isa.ops jb m0 (pre ++ [.kernel start stop]) m' := by
  have hj := h.same hI.shape hI.dsame
  obtain ⟨d, e, d1, d2⟩ := runKernel_of ok hj (start := start) (stop := stop)
    (fun s => by rw [(hI.shape s).layout]; exact hb s)
  have hlay := hI.dsame.layout
  rw [hlay] at d2
  refine ⟨{ m with dst := d }, ?_, hI.shape, hI.dsame.trans d1, fun s c hcv hlt => ?_, ?_⟩
  · unfold step
    dsimp only
    rw [e]; rfl
  · rcases covered_snoc hcv with hcv | ⟨_, _, he, _⟩
    · exact hI.cols s c hcv hlt
    · cases he
  · refine (hI.entries.trans (d2.congr (W := entry P.isa.ops jb) ?_)).iff (fun i j _ => ?_)
    · rintro i j - ⟨a1, a2, a3, a4⟩
      unfold entry
      have hil : i < jb.src.lhs.layout.cols := by rw [← h.drows]; omega
      have hjr : j < jb.src.rhs.layout.cols := by rw [← h.dcols]; omega
      congr 1
      refine dot_congr (fun d hd => ?_) (fun d hd => ?_)
      · exact hI.cols .lhs i (hc .lhs i a1 (by show i < stop.lhs; omega) hil) hil d hd
      · exact hI.cols .rhs j (hc .rhs j a3 (by show j < stop.rhs; omega) hjr) hjr d
          (by show d < jb.src.rhs.layout.rows; rw [h.depth]; exact hd)
    · constructor
      · rintro (⟨h1, h2, h3⟩ | ⟨h1, h2, h3, h4⟩)
        · exact ⟨h1, h2, written_mono h3⟩
        · exact ⟨by omega, by omega, start, stop, by simp, h1, by omega, h3, by omega⟩
      · rintro ⟨h1, h2, h3⟩
        rcases written_snoc h3 with h3 | ⟨_, _, he, g1, g2, g3, g4⟩
        · exact Or.inl ⟨h1, h2, h3⟩
        · cases he
          exact Or.inr ⟨g1, by omega, g3, by omega⟩

theorem op_step (ok : PathOk P) {jb : Job A} {m0 m : Mem A} {pre : List Op} {o : Op} (h : JobOk P.isa.kc jb m0)
    (hI : Inv P.isa.ops jb m0 pre m) (ho : Ordered P.isa.kc jb m0 (pre ++ [o])) :
    ∃ m', step P jb m o = .ok m' ∧ Inv P.isa.ops jb m0 (pre ++ [o]) m' := by
  cases o with
  | pack s lo hi => exact pack_step ok h hI (ho.packs s lo hi (by simp))
  | kernel start stop => exact kernel_step ok h hI (ho.kernels start stop (by simp)) (ho.first pre start stop [] rfl)

theorem runOps_inv (ok : PathOk P) {jb : Job A} {m0 : Mem A} {ops : List Op} (h : JobOk P.isa.kc jb m0)
    (ho : Ordered P.isa.kc jb m0 ops) :
    ∃ m', runOps P jb ops m0 = .ok m' ∧ Inv P.isa.ops jb m0 ops m' := by
  suffices H : ∀ (post pre : List Op) (m : Mem A), ops = pre ++ post → Inv P.isa.ops jb m0 pre m →
      ∃ m', runOps P jb post m = .ok m' ∧ Inv P.isa.ops jb m0 ops m' from
    H ops [] m0 rfl (Inv.start _ _ _)
  intro post
  induction post with
  | nil =>
    intro pre m he hI
    rw [List.append_nil] at he
    subst he
    exact ⟨m, rfl, hI⟩
  | cons o os ih =>
    intro pre m he hI
    have hstep : ∃ m', step P jb m o = .ok m' ∧ Inv P.isa.ops jb m0 (pre ++ [o]) m' := by
      cases o with
      | pack s lo hi => exact pack_step ok h hI (ho.packs s lo hi (by rw [he]; simp))
      | kernel start stop =>
        exact kernel_step ok h hI (ho.kernels start stop (by rw [he]; simp)) (ho.first pre start stop os he)
    obtain ⟨m1, e1, hI1⟩ := hstep
    obtain ⟨m2, e2, hI2⟩ := ih (pre ++ [o]) m1 (by rw [he]; simp) hI1
    refine ⟨m2, ?_, hI2⟩
    unfold runOps
    rw [e1, C.ok_bind]
    exact e2

/-- What the invariant says about the elements of the destination. -/
theorem Inv.elem {o : VOps A} {jb : Job A} {m0 m : Mem A} {ops : List Op} (hI : Inv o jb m0 ops m) {kc : Nat}
    (h : JobOk kc jb m0) {i j : Nat} (hi : i < m0.dst.layout.rows) (hj : j < m0.dst.layout.cols) (hw : Written ops i j) :
    m.dst.elem i j = .ok (entry o jb i j) := by
  have hf := h.dfits i j hi hj
  have hst := h.dstride
  have hv := hI.entries.inn i j (by omega) ⟨hi, hj, hw⟩
  unfold Mat.elem
  rw [hI.dsame.layout, offset_eq, C.int_of hf.1, C.ok_bind, Buf.read_of (by rw [hI.dsame.size]; exact hf.2)]
  congr 1
  rw [← hv]
  congr 1
  unfold off
  rw [h.dorder]
  dsimp only
  omega

theorem Inv.rest {o : VOps A} {jb : Job A} {m0 m : Mem A} {ops : List Op} (hI : Inv o jb m0 ops m) {kc : Nat}
    (h : JobOk kc jb m0) :
    DOutside (fun i j => i < m0.dst.layout.rows ∧ j < m0.dst.layout.cols ∧ Written ops i j) m0.dst m.dst := by
  intro x hx
  refine hI.entries.out x (fun i j _ hs he => hx i j hs ?_)
  unfold off
  rw [h.dorder]
  dsimp only
  omega

end

end Ruy.XFloat

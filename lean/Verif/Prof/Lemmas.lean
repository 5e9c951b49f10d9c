import Verif.Prof.Spec
import Mathlib.Data.List.Induction

/-! # Profiler: samples as bytes, and the stacks of the threads -/

namespace Ruy.Prof

theorem le_length (k n : Nat) : (le k n).length = k := by
  induction k generalizing n with
  | zero => rfl
  | succ k ih => simp [le, ih]

theorem unle_le (k n : Nat) : unle (le k n) = n % 256 ^ k := by
  induction k generalizing n with
  | zero => simp [le, unle, Nat.mod_one]
  | succ k ih =>
    rw [le, unle, ih, Nat.pow_succ', Nat.mod_mul]
    simp

theorem bytes_length (r : Raw) : r.bytes.length = 32 := by
  simp [Raw.bytes, le_length]

theorem ofBytes_bytes (r : Raw) : Raw.ofBytes r.bytes = r := by
  have h8 : ∀ x : BitVec 64, BitVec.ofNat 64 (unle (le 8 x.toNat)) = x := fun x => by
    rw [unle_le]
    apply BitVec.eq_of_toNat_eq
    have := x.isLt
    simp only [BitVec.toNat_ofNat]
    omega
  have h4 : ∀ x : BitVec 32, BitVec.ofNat 32 (unle (le 4 x.toNat)) = x := fun x => by
    rw [unle_le]
    apply BitVec.eq_of_toNat_eq
    have := x.isLt
    simp only [BitVec.toNat_ofNat]
    omega
  cases r
  simp [Raw.ofBytes, Raw.bytes, le_length, List.drop_append, List.take_of_length_le,
    List.drop_of_length_le, h8, h4]

/-- The bytes of a sample, from its id and its labels. -/
def encode (s : BitVec 32 × List Raw) : List UInt8 :=
  le 4 s.1.toNat ++ le 4 s.2.length ++ s.2.flatMap Raw.bytes

/-- The labels on a stack. -/
def Stack.content (k : Stack) : List Raw := (List.range k.size).map k.labels

theorem toBuffer_eq (k : Stack) : k.toBuffer = encode (k.id, k.content) := by
  simp [Stack.toBuffer, encode, Stack.content, List.flatMap_map]

theorem flatMap_bytes_length (ls : List Raw) : (ls.flatMap Raw.bytes).length = ls.length * 32 := by
  induction ls with
  | nil => rfl
  | cons l ls ih => simp only [List.flatMap_cons, List.length_append, bytes_length, ih, List.length_cons]; omega

theorem encode_length (s) : (encode s).length = 8 + s.2.length * 32 := by
  simp only [encode, List.length_append, le_length, flatMap_bytes_length]

theorem readLabels_encode (ls : List Raw) (rest : List UInt8) :
    readLabels ls.length (ls.flatMap Raw.bytes ++ rest) = ls := by
  induction ls with
  | nil => rfl
  | cons l ls ih =>
    simp only [List.length_cons, readLabels, List.flatMap_cons, List.append_assoc]
    rw [List.take_left' (bytes_length l), List.drop_left' (bytes_length l), ih, ofBytes_bytes]

theorem readStack_encode (s : BitVec 32 × List Raw) (h : s.2.length ≤ 64) (rest : List UInt8) :
    readStack (encode s ++ rest) = some (s, rest) := by
  have hid : BitVec.ofNat 32 (unle (le 4 s.1.toNat)) = s.1 := by
    rw [unle_le]
    apply BitVec.eq_of_toNat_eq
    have := s.1.isLt
    simp only [BitVec.toNat_ofNat]
    omega
  have e1 : (encode s ++ rest).take 4 = le 4 s.1.toNat := by
    simp [encode, le_length]
  have e2 : ((encode s ++ rest).drop 4).take 4 = le 4 s.2.length := by
    simp [encode, le_length]
  have e3 : (encode s ++ rest).drop 8 = s.2.flatMap Raw.bytes ++ rest := by
    simp [encode, List.drop_append, le_length, List.drop_of_length_le]
  have e4 : unle (le 4 s.2.length) = s.2.length := by
    rw [unle_le]
    exact Nat.mod_eq_of_lt (by omega)
  have hl := encode_length s
  unfold readStack
  rw [if_neg (by simp only [List.length_append]; omega)]
  simp only [e1, e2, e3, e4, hid]
  rw [if_neg (by simp only [maxSize]; omega), if_neg (by simp only [List.length_append]; omega),
    readLabels_encode, List.drop_left' hl]

theorem readAll_encode (ss : List (BitVec 32 × List Raw))
    (h : ∀ s ∈ ss, s.2 ≠ [] ∧ s.2.length ≤ 64) : readAll (ss.flatMap encode) = some ss := by
  induction ss with
  | nil => simp [readAll]
  | cons s ss ih =>
    have h0 := h s List.mem_cons_self
    have ih := ih fun x hx => h x (List.mem_cons_of_mem _ hx)
    rw [List.flatMap_cons, readAll, if_neg]
    · split
      · next h' => rw [readStack_encode s h0.2] at h'; exact absurd h' (by simp)
      · next r rest h' =>
        rw [readStack_encode s h0.2] at h'
        obtain ⟨rfl, rfl⟩ : s = r ∧ _ = rest := by simpa using h'
        rw [if_neg (by simpa using h0.1), ih]
        rfl
    · have := encode_length s
      intro h'
      rw [List.isEmpty_iff_length_eq_zero, List.length_append] at h'
      omega

/-! ## The run against its specification -/

/-- The state of the program and what the profiler should see agree. -/
structure Agree (s : St) (a : Abs) : Prop where
  stacks : ∀ t, (s.stacks t).map (fun k => (k.id, k.content)) = (a.scopes t).map stored
  size : ∀ t k, s.stacks t = some k → k.size ≤ 64
  next : s.next = a.count
  buf : s.buf = (a.taken.map stored).flatMap encode
  taken : ∀ x ∈ a.taken, x.2 ≠ [] ∧ x.2.length ≤ 64
  small : s.buf.length < 2 ^ 31

theorem agree_init : Agree .init .init where
  stacks _ := rfl
  size _ _ h := by simp [St.init] at h
  next := rfl
  buf := rfl
  taken _ h := by simp [Abs.init] at h
  small := by simp [St.init]

theorem content_length (k : Stack) : k.content.length = k.size := by simp [Stack.content]

theorem content_push {k k' : Stack} {l} (h : k.push l = .ok k') :
    k'.id = k.id ∧ k'.content = k.content ++ [l] ∧ k'.size = k.size + 1 ∧ k.size < 64 := by
  unfold Stack.push at h
  split at h
  · exact absurd h (by simp)
  · next hs =>
    obtain rfl : _ = k' := by simpa using h
    refine ⟨rfl, ?_, rfl, Nat.lt_of_not_le hs⟩
    simp only [Stack.content, List.range_succ, List.map_append, List.map_cons, List.map_nil,
      Function.update_self]
    congr 1
    apply List.map_congr_left
    intro i hi
    rw [Function.update_of_ne (Nat.ne_of_lt (List.mem_range.mp hi))]

theorem content_pop (k : Stack) :
    Stack.content { k with size := k.size - 1 } = k.content.dropLast := by
  simp only [Stack.content]
  rw [← List.map_dropLast]
  congr 1
  cases k.size with
  | zero => rfl
  | succ n => simp [List.range_succ]

theorem agree_step {s s' : St} {a : Abs} {e} (h : Agree s a) (hs : step s e = .ok s') :
    Agree s' (a.step e) := by
  cases e with
  | push t l =>
    simp only [step, bind, Except.bind, pure, Except.pure] at hs
    split at hs
    · exact absurd hs (by simp)
    · next k' hk =>
      obtain ⟨hid, hc, hz, hlt⟩ := content_push hk
      obtain rfl : _ = s' := by simpa using hs
      have hst := h.stacks t
      simp only [Abs.step]
      cases hm : s.stacks t with
      | none =>
        rw [hm] at hst
        have ha : a.scopes t = none := by
          cases hq : a.scopes t with
          | none => rfl
          | some _ => rw [hq] at hst; simp at hst
        simp only [St.local, hm] at hid hc hz ⊢
        rw [ha]
        refine ⟨fun u => ?_, fun u k => ?_, ?_, h.buf, h.taken, h.small⟩
        · by_cases hu : u = t
          · subst hu
            have hf : s.fresh.content = [] := by simp [St.fresh, Stack.content]
            simp [stored, hid, hc, hf]
            simp [St.fresh, h.next]
          · simp only [Function.update_of_ne hu]
            exact h.stacks u
        · by_cases hu : u = t
          · subst hu
            simp only [Function.update_self, Option.some.injEq]
            rintro rfl
            rw [hz]
            simp [St.fresh]
          · simp only [Function.update_of_ne hu]
            exact h.size u k
        · simp [h.next]
      | some k =>
        rw [hm] at hst
        obtain ⟨x, hx⟩ : ∃ x, a.scopes t = some x := by
          cases hq : a.scopes t with
          | none => rw [hq] at hst; simp at hst
          | some x => exact ⟨x, rfl⟩
        rw [hx] at hst
        simp only [Option.map_some, stored, Option.some.injEq, Prod.mk.injEq] at hst
        simp only [St.local, hm] at hid hc hz hlt ⊢
        rw [hx]
        refine ⟨fun u => ?_, fun u k => ?_, h.next, h.buf, h.taken, h.small⟩
        · by_cases hu : u = t
          · subst hu
            simp [stored, hid, hc, hst.1, hst.2]
          · simp only [Function.update_of_ne hu]
            exact h.stacks u
        · by_cases hu : u = t
          · subst hu
            simp only [Function.update_self, Option.some.injEq]
            rintro rfl
            rw [hz]
            exact hlt
          · simp only [Function.update_of_ne hu]
            exact h.size u k
  | pop t =>
    simp only [step] at hs
    split at hs
    · exact absurd hs (by simp)
    · next k hk =>
      split at hs
      · exact absurd hs (by simp)
      · next hz =>
        obtain rfl : _ = s' := by simpa using hs
        have hst := h.stacks t
        rw [hk] at hst
        obtain ⟨x, hx⟩ : ∃ x, a.scopes t = some x := by
          cases hq : a.scopes t with
          | none => rw [hq] at hst; simp at hst
          | some x => exact ⟨x, rfl⟩
        rw [hx] at hst
        simp only [Option.map_some, stored, Option.some.injEq, Prod.mk.injEq] at hst
        refine ⟨fun u => ?_, fun u k' => ?_, h.next, h.buf, h.taken, h.small⟩
        · by_cases hu : u = t
          · subst hu
            simp only [Abs.step, hx, Function.update_self, Option.map_some, stored]
            rw [content_pop, hst.2, hst.1]
          · simp only [Abs.step, Function.update_of_ne hu]
            exact h.stacks u
        · by_cases hu : u = t
          · subst hu
            simp only [Function.update_self, Option.some.injEq]
            rintro rfl
            have := h.size _ _ hk
            simp only
            omega
          · simp only [Function.update_of_ne hu]
            exact h.size u k'
  | exit t =>
    simp only [step, Except.ok.injEq] at hs
    subst hs
    refine ⟨fun u => ?_, fun u k' => ?_, h.next, h.buf, h.taken, h.small⟩
    · by_cases hu : u = t
      · subst hu
        simp [Abs.step]
      · simp only [Abs.step, Function.update_of_ne hu]
        exact h.stacks u
    · by_cases hu : u = t
      · subst hu
        simp
      · simp only [Function.update_of_ne hu]
        exact h.size u k'
  | sample t =>
    have hst := h.stacks t
    simp only [step] at hs
    split at hs
    · next hk =>
      obtain rfl : s = s' := by simpa using hs
      rw [hk] at hst
      have ha : a.scopes t = none := by
        cases hq : a.scopes t with
        | none => rfl
        | some _ => rw [hq] at hst; simp at hst
      simpa [Abs.step, ha] using h
    · next k hk =>
      rw [hk] at hst
      obtain ⟨x, hx⟩ : ∃ x, a.scopes t = some x := by
        cases hq : a.scopes t with
        | none => rw [hq] at hst; simp at hst
        | some x => exact ⟨x, rfl⟩
      rw [hx] at hst
      simp only [Option.map_some, stored, Option.some.injEq, Prod.mk.injEq] at hst
      have hlen := content_length k
      rw [hst.2] at hlen
      split at hs
      · next hz =>
        obtain rfl : s = s' := by simpa using hs
        obtain ⟨i, ls⟩ := x
        obtain rfl : ls = [] := List.length_eq_zero_iff.mp (hlen.trans hz)
        simpa [Abs.step, hx] using h
      · next hz =>
        split at hs
        · exact absurd hs (by simp)
        · next hb =>
          obtain rfl : _ = s' := by simpa using hs
          obtain ⟨i, ls⟩ := x
          cases ls with
          | nil => exact absurd hlen.symm hz
          | cons l ls =>
            have he : k.toBuffer = encode (stored (i, l :: ls)) := by
              rw [toBuffer_eq]
              simp only [stored, hst.1, hst.2]
            simp only [Abs.step, hx]
            refine ⟨h.stacks, h.size, h.next, ?_, ?_, ?_⟩
            · simp [h.buf, he]
            · intro y hy
              rcases List.mem_append.mp hy with hy | hy
              · exact h.taken y hy
              · obtain rfl : y = (i, l :: ls) := by simpa using hy
                exact ⟨by simp, by simp only at hlen ⊢; rw [hlen]; exact h.size t k hk⟩
            · have hl : k.toBuffer.length = k.bufferSize := by
                rw [toBuffer_eq, encode_length, content_length]
                simp only [Stack.bufferSize]
              simp only [List.length_append, hl]
              omega

theorem agree_run {s s' : St} {a : Abs} {es} (h : Agree s a) (hs : run s es = .ok s') :
    Agree s' (es.foldl Abs.step a) := by
  induction es generalizing s a with
  | nil =>
    obtain rfl : s = s' := by simpa [run] using hs
    exact h
  | cons e es ih =>
    simp only [run, bind, Except.bind] at hs
    split at hs
    · exact absurd hs (by simp)
    · next s1 h1 => exact ih (agree_step h h1) hs

theorem read_run {s : St} {es} (hs : run .init es = .ok s) :
    readAll s.buf = some ((Abs.after es).taken.map stored) := by
  have h := agree_run agree_init hs
  rw [h.buf]
  refine readAll_encode _ fun x hx => ?_
  obtain ⟨y, hy, rfl⟩ := List.mem_map.mp hx
  exact h.taken y hy

theorem flatMap_length (ss : List (Nat × List Raw)) :
    ((ss.map stored).flatMap encode).length = sampleBytes ss := by
  induction ss with
  | nil => rfl
  | cons s ss ih =>
    simp only [List.map_cons, List.flatMap_cons, List.length_append, encode_length, ih, sampleBytes,
      List.sum_cons, stored]
    omega

theorem agree_ok {s : St} {a : Abs} {e} (h : Agree s a) :
    (∃ s', step s e = .ok s') ↔ Harmless a e := by
  cases e with
  | push t l =>
    have hst := h.stacks t
    simp only [step, Harmless, bind, Except.bind, pure, Except.pure]
    cases hm : s.stacks t with
    | none =>
      rw [hm] at hst
      have ha : a.scopes t = none := by
        cases hq : a.scopes t with
        | none => rfl
        | some _ => rw [hq] at hst; simp at hst
      simp [ha, St.local, hm, Stack.push, St.fresh, maxSize]
    | some k =>
      rw [hm] at hst
      obtain ⟨x, hx⟩ : ∃ x, a.scopes t = some x := by
        cases hq : a.scopes t with
        | none => rw [hq] at hst; simp at hst
        | some x => exact ⟨x, rfl⟩
      rw [hx] at hst
      simp only [Option.map_some, stored, Option.some.injEq, Prod.mk.injEq] at hst
      have hlen := content_length k
      rw [hst.2] at hlen
      obtain ⟨i, ls⟩ := x
      simp only at hlen
      simp only [St.local, hm, hx, Option.some.injEq, Prod.mk.injEq]
      constructor
      · rintro ⟨s', hs⟩ i' ls' ⟨rfl, rfl⟩
        split at hs
        · exact absurd hs (by simp)
        · next k' hk =>
          have := (content_push hk).2.2.2
          omega
      · intro hl
        have := hl i ls ⟨rfl, rfl⟩
        rw [Stack.push, if_neg (by simp only [maxSize]; omega)]
        exact ⟨_, rfl⟩
  | pop t =>
    have hst := h.stacks t
    simp only [step, Harmless]
    cases hm : s.stacks t with
    | none =>
      rw [hm] at hst
      have ha : a.scopes t = none := by
        cases hq : a.scopes t with
        | none => rfl
        | some _ => rw [hq] at hst; simp at hst
      simp [ha]
    | some k =>
      rw [hm] at hst
      obtain ⟨x, hx⟩ : ∃ x, a.scopes t = some x := by
        cases hq : a.scopes t with
        | none => rw [hq] at hst; simp at hst
        | some x => exact ⟨x, rfl⟩
      rw [hx] at hst
      simp only [Option.map_some, stored, Option.some.injEq, Prod.mk.injEq] at hst
      have hlen := content_length k
      rw [hst.2] at hlen
      obtain ⟨i, ls⟩ := x
      simp only at hlen
      by_cases hz : k.size = 0
      · obtain rfl : ls = [] := List.length_eq_zero_iff.mp (hlen.trans hz)
        simp [hz, hx]
      · have : ls ≠ [] := by rintro rfl; exact hz hlen.symm
        simpa [hz, hx] using this
  | exit t => simp [step, Harmless]
  | sample t =>
    have hst := h.stacks t
    have hsm := h.small
    have hb := flatMap_length a.taken
    rw [← h.buf] at hb
    simp only [step, Harmless]
    cases hm : s.stacks t with
    | none =>
      rw [hm] at hst
      have ha : a.scopes t = none := by
        cases hq : a.scopes t with
        | none => rfl
        | some _ => rw [hq] at hst; simp at hst
      simp only [Abs.step, ha]
      exact ⟨fun _ => by omega, fun _ => ⟨_, rfl⟩⟩
    | some k =>
      rw [hm] at hst
      obtain ⟨x, hx⟩ : ∃ x, a.scopes t = some x := by
        cases hq : a.scopes t with
        | none => rw [hq] at hst; simp at hst
        | some x => exact ⟨x, rfl⟩
      rw [hx] at hst
      simp only [Option.map_some, stored, Option.some.injEq, Prod.mk.injEq] at hst
      have hlen := content_length k
      rw [hst.2] at hlen
      obtain ⟨i, ls⟩ := x
      simp only at hlen
      cases ls with
      | nil =>
        have hz : k.size = 0 := hlen.symm
        simp only [Abs.step, hx, hz, if_true]
        exact ⟨fun _ => by omega, fun _ => ⟨_, rfl⟩⟩
      | cons l ls =>
        have hz : k.size ≠ 0 := by rw [← hlen]; simp
        have hs : sampleBytes (a.taken ++ [(i, l :: ls)]) = s.buf.length + k.bufferSize := by
          rw [hb]
          simp only [sampleBytes, List.map_append, List.sum_append, List.map_cons, List.map_nil,
            List.sum_cons, List.sum_nil, hlen, Stack.bufferSize]
          omega
        simp only [Abs.step, hx, if_neg hz, hs]
        constructor
        · rintro ⟨s', hs'⟩
          split at hs'
          · exact absurd hs' (by simp)
          · omega
        · intro hlt
          rw [if_neg (by omega)]
          exact ⟨_, rfl⟩

theorem run_append (s : St) (es fs : List Ev) :
    run s (es ++ fs) = (run s es).bind fun s => run s fs := by
  induction es generalizing s with
  | nil => rfl
  | cons e es ih =>
    simp only [List.cons_append, run, bind]
    cases step s e with
    | error => rfl
    | ok s1 => exact ih s1

theorem run_ok (es : List Ev) :
    (∃ s, run .init es = .ok s) ↔
      ∀ pre e post, es = pre ++ e :: post → Harmless (Abs.after pre) e := by
  constructor
  · rintro ⟨s, hs⟩ pre e post rfl
    rw [run_append] at hs
    cases h1 : run .init pre with
    | error x => rw [h1] at hs; simp [Except.bind] at hs
    | ok s1 =>
      rw [h1] at hs
      simp only [Except.bind, run, bind] at hs
      have ha := agree_run agree_init h1
      cases h2 : step s1 e with
      | error x => rw [h2] at hs; simp at hs
      | ok s2 => exact (agree_ok ha).mp ⟨s2, h2⟩
  · intro h
    induction es using List.reverseRecOn with
    | nil => exact ⟨_, rfl⟩
    | append_singleton es e ih =>
      obtain ⟨s, hs⟩ := ih fun pre e' post he => h pre e' (post ++ [e]) (by simp [he])
      obtain ⟨s', hs'⟩ := (agree_ok (agree_run agree_init hs)).mpr (h es e [] rfl)
      refine ⟨s', ?_⟩
      rw [run_append, hs]
      simp only [Except.bind, run, bind, hs']

end Ruy.Prof

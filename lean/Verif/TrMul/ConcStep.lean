import Verif.TrMul.ConcInv
/-
Every step of every thread preserves the invariant.
-/
namespace Ruy.TrMul
open Ruy.Mat Ruy.Mul Ruy.BlockMap

variable {A : Type}

/-- Steps that change neither memory nor packing statuses. -/
theorem Inv.control {cfg : Cfg A} {n : SidePair Nat} {m0 : Mem A} {s s' : State A} {t : Nat}
    {p' : PC} (inv : Inv cfg n m0 s) (ht : t < cfg.threads)
    (hpc : s'.pc = Function.update s.pc t p') (hmem : s'.mem = s.mem)
    (hst : s'.status = s.status) (hpk : s'.packs = s.packs)
    (hp : (s.pc t).packs = none) (hp' : p'.packs = none) (hok : PCok cfg n m0 s' t p')
    (hcnt : s.counter ≤ s'.counter) (hexit : p' = .done → n.lhs * n.rhs ≤ s'.counter)
    (hids : ∀ id, id ∈ p'.ids → id ∈ (s.pc t).ids ∨ s.counter ≤ id)
    (hruns : ∀ id, s'.runs id = s.runs id ∨ id ∈ (s.pc t).ids)
    (hcov : ∀ id, id < s'.counter → id < n.lhs * n.rhs →
      id ∈ p'.ids ∨ Computed cfg m0 s' id ∨ (id < s.counter ∧ id ∉ (s.pc t).ids))
    (hfresh : ∀ id, s'.counter ≤ id ∨ n.lhs * n.rhs ≤ id → s'.runs id = 0)
    (hloc : ∀ u sd b, s'.localPacked u sd b = true → s.localPacked u sd b = true ∨
      (s.status sd b = .finished ∧ b < n.get sd))
    (hloc' : ∀ u sd b, s.localPacked u sd b = true → s'.localPacked u sd b = true) :
    Inv cfg n m0 s' := by
  have hother : ∀ u, u ≠ t → s'.pc u = s.pc u := fun u hu => by
    rw [hpc, Function.update_of_ne hu]
  have hself : s'.pc t = p' := by rw [hpc, Function.update_self]
  have hr : ∀ u, u ≠ t → ∀ id, id ∈ (s.pc u).ids → s'.runs id = s.runs id := by
    intro u hu id hid
    rcases hruns id with h | h
    · exact h
    · exact absurd (inv.ids u t id hid h) hu
  refine ⟨?_, ?_, ?_, ?_, ?_, ?_, ?_, hfresh, ?_, ?_, ?_, ?_, ?_, ?_, ?_⟩
  · rw [hmem]; exact inv.same
  · rw [hmem]; exact inv.pre
  · rw [hmem]; exact inv.frame
  · intro u
    by_cases hu : u = t
    · subst hu; rw [hself]; exact hok
    · rw [hother u hu]
      refine PCok.rely (s := s) (h := inv.pc u) ⟨hcnt, hr u hu, hloc' u, ?_, ?_, ?_, ?_⟩
      · intros; rw [hst]
      · intro sd b h; rw [hst]; exact h
      · intro _ _ _ _ _ _ _ _ _ h; rw [hmem]; exact h
      · intro _ _ _ _ _ _ _ h; rw [hmem]; exact h
  · intro u hu; rw [hother u (by omega)]; exact inv.outside u hu
  · have key : ∀ u id, u ≠ t → id ∈ p'.ids → id ∈ (s.pc u).ids → False := by
      intro u id hu h1 h2
      rcases hids id h1 with h | h
      · exact hu (inv.ids u t id h2 h)
      · exact absurd ((inv.pc u).ids_lt h2) (by omega)
    intro u v id h1 h2
    by_cases hu : u = t <;> by_cases hv : v = t
    · rw [hu, hv]
    · subst hu; rw [hself] at h1; rw [hother v hv] at h2; exact (key v id hv h1 h2).elim
    · subst hv; rw [hself] at h2; rw [hother u hu] at h1; exact (key u id hu h2 h1).elim
    · rw [hother u hu] at h1; rw [hother v hv] at h2; exact inv.ids u v id h1 h2
  · intro id h1 h2
    rcases hcov id h1 h2 with h | h | ⟨h, h'⟩
    · exact .inl ⟨t, by rw [hself]; exact h⟩
    · exact .inr h
    · rcases inv.all id h h2 with ⟨u, hu⟩ | hc
      · refine .inl ⟨u, ?_⟩
        by_cases hut : u = t
        · subst hut; exact absurd hu h'
        · rw [hother u hut]; exact hu
      · refine .inr ⟨?_, ?_⟩
        · rcases hruns id with h3 | h3
          · rw [h3]; exact hc.1
          · exact absurd h3 h'
        · rw [hmem]; exact hc.2
  · intro u v x h1 h2
    by_cases hu : u = t
    · subst hu; rw [hself, hp'] at h1; cases h1
    · by_cases hv : v = t
      · subst hv; rw [hself, hp'] at h2; cases h2
      · rw [hother u hu] at h1; rw [hother v hv] at h2; exact inv.packs u v x h1 h2
  · intro sd b h
    rw [hst] at h
    obtain ⟨u, hu⟩ := inv.inProgress sd b h
    refine ⟨u, ?_⟩
    by_cases hut : u = t
    · subst hut; rw [hp] at hu; cases hu
    · rw [hother u hut]; exact hu
  · intro sd b hb h; rw [hst] at h; rw [hmem]; exact inv.finished sd b hb h
  · intro u sd b h
    rw [hst]
    rcases hloc u sd b h with h | h
    · exact inv.locals u sd b h
    · exact h
  · intro sd b; rw [hpk, hst]; exact inv.packCount sd b
  · exact Nat.le_trans inv.counterLe hcnt
  · intro u hu h
    by_cases hut : u = t
    · subst hut; rw [hself] at h; exact hexit h
    · rw [hother u hut] at h; exact Nat.le_trans (inv.exit u hu h) hcnt

theorem ne_done_lt {cfg : Cfg A} {n : SidePair Nat} {m0 : Mem A} {s : State A} {t : Nat}
    (inv : Inv cfg n m0 s) (h : s.pc t ≠ .done) : t < cfg.threads := by
  by_contra hc; exact h (inv.outside t (by omega))

/-- A change of the program counter between points with the same reservations. -/
theorem Inv.move {cfg : Cfg A} {n : SidePair Nat} {m0 : Mem A} {s s' : State A} {t : Nat}
    {p' : PC} (inv : Inv cfg n m0 s) (ht : t < cfg.threads)
    (hpc : s'.pc = Function.update s.pc t p') (hmem : s'.mem = s.mem)
    (hst : s'.status = s.status) (hpk : s'.packs = s.packs)
    (hp : (s.pc t).packs = none) (hp' : p'.packs = none) (hok : PCok cfg n m0 s' t p')
    (hcnt : s'.counter = s.counter) (hids : p'.ids = (s.pc t).ids) (hnd : p' ≠ .done)
    (hruns : ∀ id, s'.runs id = s.runs id ∨ (id ∈ (s.pc t).ids ∧ id < n.lhs * n.rhs))
    (hloc : ∀ u sd b, s'.localPacked u sd b = true → s.localPacked u sd b = true ∨
      (s.status sd b = .finished ∧ b < n.get sd))
    (hloc' : ∀ u sd b, s.localPacked u sd b = true → s'.localPacked u sd b = true) :
    Inv cfg n m0 s' := by
  refine inv.control ht hpc hmem hst hpk hp hp' hok (by omega) ?_ (fun id h => .inl (hids ▸ h))
    (fun id => (hruns id).imp (fun h => h) And.left) ?_ ?_ hloc hloc'
  · intro hd
    rw [hcnt]
    exact absurd hd hnd
  · intro id h1 h2
    by_cases h : id ∈ (s.pc t).ids
    · exact .inl (hids ▸ h)
    · exact .inr (.inr ⟨by omega, h⟩)
  · intro id h
    rcases hruns id with h' | ⟨h', h''⟩
    · rw [h']; exact inv.fresh id (by omega)
    · have := (inv.pc t).ids_lt h'
      omega

/-- The flags of thread `t` after setting one. -/
theorem setLocal_eq (f : Nat → Side → Nat → Bool) (t : Nat) (sd : Side) (b u : Nat) (sd' : Side)
    (b' : Nat) : setLocal f t sd b u sd' b' =
      if u = t ∧ sd' = sd ∧ b' = b then true else f u sd' b' := by
  unfold setLocal
  by_cases hu : u = t
  · subst hu
    by_cases hs : sd' = sd
    · subst hs
      by_cases hb : b' = b
      · subst hb; simp
      · simp [hb]
    · simp [hs]
  · simp [hu]

theorem setStatus_eq (f : Side → Nat → Status) (sd : Side) (b : Nat) (x : Status) (sd' : Side)
    (b' : Nat) : setStatus f sd b x sd' b' = if sd' = sd ∧ b' = b then x else f sd' b' := by
  unfold setStatus
  by_cases hs : sd' = sd
  · subst hs
    by_cases hb : b' = b
    · subst hb; simp
    · simp [hb]
  · simp [hs]

theorem incPacks_eq (f : Side → Nat → Nat) (sd : Side) (b : Nat) (sd' : Side)
    (b' : Nat) : incPacks f sd b sd' b' = if sd' = sd ∧ b' = b then f sd b + 1 else f sd' b' := by
  unfold incPacks
  by_cases hs : sd' = sd
  · subst hs
    by_cases hb : b' = b
    · subst hb; simp
    · simp [hb]
  · simp [hs]

/-- Return from TryPack preserves the invariant. -/
theorem afterTry_inv {cfg : Cfg A} {n : SidePair Nat} {m0 : Mem A} {s s' : State A} {t : Nat}
    {e : Locals} {c : Call} {sd : Side} {ok : Bool} {l : Nat → Side → Nat → Bool}
    (inv : Inv cfg n m0 s) (ht : t < cfg.threads) (hp : (s.pc t).packs = none)
    (hids : (s.pc t).ids = [e.bid, e.next]) (hl : LocOk cfg n e) (hr : Resv s e 0)
    (hcall : CallOk cfg s t e c sd)
    (hloc : ∀ u sd b, l u sd b = true → s.localPacked u sd b = true ∨
      (s.status sd b = .finished ∧ b < n.get sd))
    (hloc' : ∀ u sd b, s.localPacked u sd b = true → l u sd b = true)
    (hav : ok = true → ∀ both, c = .req both →
      cfg.tp.isPrepacked.get sd = true ∨ l t sd (e.block.get sd) = true)
    (h : afterTry { s with localPacked := l } t e c sd ok = .ok s') : Inv cfg n m0 s' := by
  unfold afterTry at h
  cases c with
  | ahead =>
    cases h
    exact inv.move ht rfl rfl rfl rfl hp rfl
      ⟨hl, ⟨hr.ltB, hr.ltN, hr.ne, hr.runsB, hr.runsN⟩, fun _ h => by cases h⟩
      rfl hids.symm (by simp) (fun _ => .inl rfl) hloc hloc'
  | req both =>
    cases sd with
    | lhs =>
      cases h
      refine inv.move ht rfl rfl rfl rfl hp rfl
        ⟨hl, ⟨hr.ltB, hr.ltN, hr.ne, hr.runsB, hr.runsN⟩, fun h _ => ?_⟩
        rfl hids.symm (by simp) (fun _ => .inl rfl) hloc hloc'
      simp only [Call.req.injEq, Bool.and_eq_true] at h
      exact hav h.2 both rfl
    | rhs =>
      dsimp only at h
      split at h
      · rename_i hb
        rw [Bool.and_eq_true] at hb
        obtain ⟨hb1, hb2⟩ := hb
        subst hb1
        unfold enterKernel at h
        obtain ⟨_, _, h⟩ := C.bind_ok h
        obtain ⟨_, _, h⟩ := C.bind_ok h
        cases h
        refine inv.move ht rfl rfl rfl rfl hp rfl
          ⟨hl, ⟨hr.ltB, hr.ltN, hr.ne, ?_, ?_⟩, ?_, Nat.le_refl _, Nat.le_refl _, ?_⟩
          rfl hids.symm (by simp) (fun id => ?_) hloc hloc'
        · simp [hr.runsB]
        · simp only
          rw [Function.update_of_ne (Ne.symm hr.ne)]; exact hr.runsN
        · intro sd
          cases sd with
          | lhs =>
            refine (hcall rfl rfl).imp id (fun h => hloc' t .lhs _ h)
          | rhs => exact hav hb2 true rfl
        · intro i' j' hin _ _ hlt
          have := hl.inBlock.1 hin
          omega
        · by_cases hid : id = e.bid
          · right; subst hid
            exact ⟨by rw [hids]; simp, hl.bid⟩
          · left; simp only [Function.update_of_ne hid]
      · cases h
        exact inv.move ht rfl rfl rfl rfl hp rfl
          ⟨hl, ⟨hr.ltB, hr.ltN, hr.ne, hr.runsB, hr.runsN⟩⟩
          rfl hids.symm (by simp) (fun _ => .inl rfl) hloc hloc'

/-- Successful compare-exchange on a packing status. -/
theorem Inv.cas {cfg : Cfg A} {n : SidePair Nat} {m0 : Mem A} {s : State A} {t : Nat}
    {e : Locals} {c : Call} {sd : Side} {b lo hi : Nat}
    (inv : Inv cfg n m0 s) (ht : t < cfg.threads) (hp : (s.pc t).packs = none)
    (hids : (s.pc t).ids = [e.bid, e.next]) (hl : LocOk cfg n e) (hr : Resv s e 0)
    (hcall : CallOk cfg s t e c sd) (hblk : ∀ both, c = .req both → b = e.block.get sd)
    (hnp : cfg.tp.isPrepacked.get sd = false) (hb : b < n.get sd)
    (hc : getBlockMatrixCoords sd cfg.bm b = .ok (lo, hi)) (hlt : lo ≤ hi)
    (hst : s.status sd b = .notStarted) :
    Inv cfg n m0 { setPC s t (.packing e c sd b lo hi) with
      status := setStatus s.status sd b .inProgress
      packs := incPacks s.packs sd b } := by
  have hne : ∀ u sd' b', (s.pc u).packs = some (sd', b') → ¬ (sd' = sd ∧ b' = b) := by
    rintro u sd' b' hu ⟨rfl, rfl⟩
    have := ((inv.pc u).packs_status hu).1
    rw [hst] at this; cases this
  refine ⟨inv.same, inv.pre, inv.frame, ?_, ?_, ?_, ?_, inv.fresh, ?_, ?_, ?_, ?_, ?_, inv.counterLe, ?_⟩
  · intro u
    by_cases hu : u = t
    · subst hu
      simp only [setPC, Function.update_self]
      refine ⟨hl, ⟨hr.ltB, hr.ltN, hr.ne, hr.runsB, hr.runsN⟩, hcall, hblk, ?_, hb, hnp, lo, hc,
        Nat.le_refl _, hlt, fun x h1 h2 => absurd h2 (by omega)⟩
      simp [setStatus_eq]
    · simp only [setPC, Function.update_of_ne hu]
      refine PCok.rely (s := s) (h := inv.pc u) ⟨Nat.le_refl _, fun _ _ => rfl, fun _ _ h => h, ?_, ?_,
        fun _ _ _ _ _ _ _ _ _ h => h, fun _ _ _ _ _ _ _ h => h⟩
      · intro sd' b' h
        simp only [setStatus_eq]
        rw [if_neg (hne u sd' b' h)]
      · intro sd' b' h
        simp only [setStatus_eq]
        rw [if_neg (by rintro ⟨rfl, rfl⟩; rw [hst] at h; cases h)]
        exact h
  · intro u hu
    simp only [setPC]
    rw [Function.update_of_ne (by omega)]; exact inv.outside u hu
  · have key : ∀ u, ((setPC s t (.packing e c sd b lo hi)).pc u).ids = (s.pc u).ids := by
      intro u
      by_cases hu : u = t
      · subst hu; simp only [setPC, Function.update_self]; exact hids.symm
      · simp only [setPC, Function.update_of_ne hu]
    intro u v id h1 h2
    exact inv.ids u v id (by rw [← key]; exact h1) (by rw [← key]; exact h2)
  · intro id h1 h2
    refine (inv.all id h1 h2).imp ?_ (fun h => h)
    rintro ⟨u, hu⟩
    refine ⟨u, ?_⟩
    by_cases hut : u = t
    · subst hut; simp only [setPC, Function.update_self]; rw [hids] at hu; exact hu
    · simp only [setPC, Function.update_of_ne hut]; exact hu
  · intro u v x h1 h2
    obtain ⟨sd', b'⟩ := x
    by_cases hu : u = t <;> by_cases hv : v = t
    · rw [hu, hv]
    · subst hu
      simp only [setPC, Function.update_self, PC.packs, Option.some.injEq, Prod.mk.injEq] at h1
      simp only [setPC, Function.update_of_ne hv] at h2
      exact absurd ⟨h1.1.symm, h1.2.symm⟩ (hne v sd' b' h2)
    · subst hv
      simp only [setPC, Function.update_self, PC.packs, Option.some.injEq, Prod.mk.injEq] at h2
      simp only [setPC, Function.update_of_ne hu] at h1
      exact absurd ⟨h2.1.symm, h2.2.symm⟩ (hne u sd' b' h1)
    · simp only [setPC, Function.update_of_ne hu] at h1
      simp only [setPC, Function.update_of_ne hv] at h2
      exact inv.packs u v _ h1 h2
  · intro sd' b' h
    by_cases hx : sd' = sd ∧ b' = b
    · obtain ⟨rfl, rfl⟩ := hx
      exact ⟨t, by simp [setPC, PC.packs]⟩
    · simp only [setStatus_eq, if_neg hx] at h
      obtain ⟨u, hu⟩ := inv.inProgress sd' b' h
      refine ⟨u, ?_⟩
      by_cases hut : u = t
      · subst hut; rw [hp] at hu; cases hu
      · simp only [setPC, Function.update_of_ne hut]; exact hu
  · intro sd' b' hb' h
    by_cases hx : sd' = sd ∧ b' = b
    · simp [setStatus_eq, hx] at h
    · simp only [setStatus_eq, if_neg hx] at h
      exact inv.finished sd' b' hb' h
  · intro u sd' b' h
    have := inv.locals u sd' b' h
    refine ⟨?_, this.2⟩
    simp only [setStatus_eq]
    rw [if_neg (by rintro ⟨rfl, rfl⟩; rw [hst] at this; cases this.1)]
    exact this.1
  · intro sd' b'
    simp only [setStatus_eq, incPacks_eq]
    by_cases hx : sd' = sd ∧ b' = b
    · have := inv.packCount sd b
      rw [hst] at this
      simp [hx, this]
    · simp only [if_neg hx]; exact inv.packCount sd' b'
  · intro u hu h
    by_cases hut : u = t
    · subst hut; simp [setPC] at h
    · simp only [setPC, Function.update_of_ne hut] at h; exact inv.exit u hu h

/-- TryPack preserves the invariant. -/
theorem tryPack_inv {cfg : Cfg A} {n : SidePair Nat} {m0 : Mem A} {s s' : State A} {t : Nat}
    {e : Locals} {c : Call} {sd : Side} {b lo hi : Nat} {dims kd : SidePair Nat}
    (g : Grid cfg.bm dims kd n)
    (inv : Inv cfg n m0 s) (ht : t < cfg.threads) (hp : (s.pc t).packs = none)
    (hids : (s.pc t).ids = [e.bid, e.next]) (hl : LocOk cfg n e) (hr : Resv s e 0)
    (hcall : CallOk cfg s t e c sd) (hblk : ∀ both, c = .req both → b = e.block.get sd)
    (hb : b < n.get sd) (hc : getBlockMatrixCoords sd cfg.bm b = .ok (lo, hi))
    (h : tryPack cfg s t e c sd b lo hi = .ok s') : Inv cfg n m0 s' := by
  unfold tryPack at h
  split at h
  · rename_i hpre
    exact afterTry_inv (l := s.localPacked) inv ht hp hids hl hr hcall (fun _ _ _ h => .inl h)
      (fun _ _ _ h => h) (fun _ _ _ => .inl hpre) h
  · rename_i hpre
    obtain ⟨k, _, h⟩ := C.bind_ok h
    obtain ⟨_, _, h⟩ := C.bind_ok h
    split at h
    · rename_i hloc
      refine afterTry_inv (l := s.localPacked) inv ht hp hids hl hr hcall (fun _ _ _ h => .inl h)
        (fun _ _ _ h => h) (fun _ both hboth => .inr ?_) h
      rw [← hblk both hboth]; exact hloc
    · unfold tryCas at h
      split at h
      · rename_i hst
        obtain ⟨_, _, h⟩ := C.bind_ok h
        cases h
        exact inv.cas ht hp hids hl hr hcall hblk (by simpa using hpre) hb hc
          (Nat.le_of_lt (tiles_le (g.tiles sd) hb hc).1) hst
      · exact afterTry_inv (l := s.localPacked) inv ht hp hids hl hr hcall (fun _ _ _ h => .inl h)
          (fun _ _ _ h => h) (fun h => by cases h) h
      · rename_i hst
        cases h
        exact inv.move ht rfl rfl rfl rfl hp rfl
          ⟨hl, ⟨hr.ltB, hr.ltN, hr.ne, hr.runsB, hr.runsN⟩, hcall, hblk, hst, hb, by simpa using hpre⟩
          rfl hids.symm (by simp) (fun _ => .inl rfl) (fun _ _ _ h => .inl h) (fun _ _ _ h => h)

/-- Entering the loop body, or leaving the loop. -/
theorem stepHead_inv {cfg : Cfg A} {n : SidePair Nat} {m0 : Mem A} {s s' : State A} {t b : Nat}
    {dims kd : SidePair Nat} (g : Grid cfg.bm dims kd n)
    (inv : Inv cfg n m0 s) (hpc : s.pc t = .head b) (h : stepHead cfg s t b = .ok s') :
    Inv cfg n m0 s' := by
  have ht : t < cfg.threads := ne_done_lt inv (by rw [hpc]; simp)
  have hok := inv.pc t
  rw [hpc] at hok
  unfold stepHead at h
  rw [g.total, C.ok_bind] at h
  split at h
  · rename_i hlt
    obtain ⟨blk, hblk, h⟩ := C.bind_ok h
    obtain ⟨l, hl, h⟩ := C.bind_ok h
    obtain ⟨r, hr, h⟩ := C.bind_ok h
    cases h
    refine inv.control (t := t) (p' := .tryReq ⟨b, s.counter, blk, ⟨l.1, r.1⟩, ⟨l.2, r.2⟩,
      ⟨blk.lhs + 1, blk.rhs + 1⟩, .lhs⟩ .lhs true) ht rfl rfl rfl rfl (by rw [hpc]; rfl) rfl
      ⟨⟨hlt, hblk, ?_⟩, ⟨?_, ?_, ?_, hok.2, ?_⟩, fun _ h => by cases h⟩ (Nat.le_succ _) (by simp) ?_
      (fun _ => .inl rfl) ?_ ?_ (fun _ _ _ h => .inl h) (fun _ _ _ h => h)
    · intro sd; cases sd
      · exact hl
      · exact hr
    · exact Nat.lt_succ_of_lt hok.1
    · exact Nat.lt_succ_self _
    · exact Nat.ne_of_lt hok.1
    · exact inv.fresh _ (.inl (Nat.le_refl _))
    · intro id hid
      simp only [PC.ids, List.mem_cons, List.not_mem_nil, or_false] at hid
      rcases hid with rfl | rfl
      · left; rw [hpc]; simp [PC.ids]
      · right; exact Nat.le_refl _
    · intro id h1 h2
      rw [hpc]
      simp only [PC.ids, List.mem_cons, List.not_mem_nil, or_false]
      have h1 : id < s.counter + 1 := h1
      by_cases hb : id = b
      · exact .inl (.inl hb)
      · by_cases hc : id = s.counter
        · exact .inl (.inr hc)
        · exact .inr (.inr ⟨by omega, hb⟩)
    · intro id h
      have h : s.counter + 1 ≤ id ∨ n.lhs * n.rhs ≤ id := h
      exact inv.fresh id (by omega)
  · rename_i hge
    cases h
    refine inv.control (t := t) (p' := .done) ht rfl rfl rfl rfl (by rw [hpc]; rfl) rfl trivial
      (Nat.le_refl _) (fun _ => by have := hok.1; simp only [setPC]; omega)
      (fun id h => by simp [PC.ids] at h) (fun _ => .inl rfl) ?_ inv.fresh
      (fun _ _ _ h => .inl h) (fun _ _ _ h => h)
    intro id h1 h2
    rw [hpc]
    simp only [PC.ids, List.mem_cons, List.not_mem_nil, or_false]
    exact .inr (.inr ⟨h1, by omega⟩)

theorem stepAhead_inv {cfg : Cfg A} {n : SidePair Nat} {m0 : Mem A} {s s' : State A} {t : Nat}
    {e : Locals} {dims kd : SidePair Nat} (g : Grid cfg.bm dims kd n)
    (inv : Inv cfg n m0 s) (hpc : s.pc t = .runAhead e) (h : stepAhead cfg s t e = .ok s') :
    Inv cfg n m0 s' := by
  have ht : t < cfg.threads := ne_done_lt inv (by rw [hpc]; simp)
  have hok := inv.pc t
  rw [hpc] at hok
  have hp : (s.pc t).packs = none := by rw [hpc]; rfl
  unfold stepAhead at h
  dsimp only at h
  rw [g.side, C.ok_bind] at h
  split at h
  · cases h
    exact inv.move ht rfl rfl rfl rfl hp rfl
      ⟨⟨hok.1.bid, hok.1.block, hok.1.coords⟩,
        ⟨hok.2.ltB, hok.2.ltN, hok.2.ne, hok.2.runsB, hok.2.runsN⟩, fun _ h => by cases h⟩
      rfl (by rw [hpc]; rfl) (by simp) (fun _ => .inl rfl) (fun _ _ _ h => .inl h) (fun _ _ _ h => h)
  · rename_i hb
    obtain ⟨c, hc, h⟩ := C.bind_ok h
    refine tryPack_inv (e := { e with aheadSide := e.aheadSide.other, ahead := setSide e.ahead e.aheadSide (e.ahead.get e.aheadSide + 1) })
      (c := .ahead) g inv ht hp (by rw [hpc]; rfl) ⟨hok.1.bid, hok.1.block, hok.1.coords⟩
      ⟨hok.2.ltB, hok.2.ltN, hok.2.ne, hok.2.runsB, hok.2.runsN⟩ (fun h => by cases h)
      (fun _ h => by cases h) (Nat.lt_of_not_le hb) hc h

theorem stepConfirm_inv {cfg : Cfg A} {n : SidePair Nat} {m0 : Mem A} {s s' : State A} {t : Nat}
    {e : Locals} {c : Call} {sd : Side} {b : Nat}
    (inv : Inv cfg n m0 s) (hpc : s.pc t = .confirm e c sd b)
    (h : stepConfirm s t e c sd b = .ok s') : Inv cfg n m0 s' := by
  have ht : t < cfg.threads := ne_done_lt inv (by rw [hpc]; simp)
  have hok := inv.pc t
  rw [hpc] at hok
  obtain ⟨h1, h2, h3, h4, h5, h6, h7⟩ := hok
  unfold stepConfirm at h
  obtain ⟨_, _, h⟩ := C.bind_ok h
  refine afterTry_inv inv ht (by rw [hpc]; rfl) (by rw [hpc]; rfl) h1 h2 h3 ?_ ?_ ?_ h
  · intro u sd' b' hl
    rw [setLocal_eq] at hl
    split at hl
    · rename_i hx
      obtain ⟨_, rfl, rfl⟩ := hx
      exact .inr ⟨h5, h6⟩
    · exact .inl hl
  · intro u sd' b' hl
    rw [setLocal_eq]; split
    · rfl
    · exact hl
  · intro _ both hboth
    right
    rw [setLocal_eq, if_pos ⟨rfl, rfl, (h4 both hboth).symm⟩]

/-- Packing one column. -/
theorem Inv.packColumn {cfg : Cfg A} {n : SidePair Nat} {m0 : Mem A} {s : State A} {t : Nat}
    {e : Locals} {c : Call} {sd : Side} {b col stop : Nat} {p : PMat A} (su : Setup cfg m0 n)
    (inv : Inv cfg n m0 s) (hpc : s.pc t = .packing e c sd b col stop) (hlt : col < stop)
    (hp : packCol cfg.tp.ar (cfg.tp.pack.get sd) (cfg.tp.src.get sd) col (s.mem.packed.get sd)
      = .ok p) :
    Inv cfg n m0 { setPC s t (.packing e c sd b (col + 1) stop) with
      mem := { s.mem with packed := setSide s.mem.packed sd p } } := by
  have ht : t < cfg.threads := ne_done_lt inv (by rw [hpc]; simp)
  have hok := inv.pc t
  rw [hpc] at hok
  obtain ⟨h1, h2, h3, h4, h5, h6, h7, lo, h8, h9, h10, h11⟩ := hok
  obtain ⟨kd, g⟩ := su.grid
  have hdim : ∀ sd, (SidePair.mk m0.packed.lhs.layout.cols m0.packed.rhs.layout.cols).get sd =
      (m0.packed.get sd).layout.cols := fun sd => by cases sd <;> rfl
  have hlay := (inv.same.packed sd).layout
  have hle := (tiles_le (g.tiles sd) h6 h8).2.1
  rw [hdim] at hle
  obtain ⟨a1, a2, a3⟩ := packCol_ok (by rw [hlay]; exact su.ready.layout sd)
    (by rw [hlay]; omega) hp
  have hkeep : ∀ sd' x, x < (m0.packed.get sd').layout.cols → (sd' ≠ sd ∨ x ≠ col) →
      Packed cfg.tp s.mem sd' x →
      Packed cfg.tp { s.mem with packed := setSide s.mem.packed sd p } sd' x := by
    intro sd' x hx hne hpk
    unfold Packed at hpk ⊢
    by_cases hs : sd' = sd
    · subst hs
      simp only [setSide_get_same]
      exact hpk.frame a1 a2 (by rw [hlay]; exact su.ready.layout _) (by rw [hlay]; exact hx)
        (fun c' hc' => by rw [hlay]; omega) (by simpa using hne)
    · simp only [setSide_get_other _ _ hs]; exact hpk
  have hnew : Packed cfg.tp { s.mem with packed := setSide s.mem.packed sd p } sd col := by
    unfold Packed; simp only [setSide_get_same]; exact a3
  have hnotcol : ∀ sd' b' lo' hi' x, getBlockMatrixCoords sd' cfg.bm b' = .ok (lo', hi') →
      b' < n.get sd' → ¬ (sd' = sd ∧ b' = b) → lo' ≤ x → x < hi' → sd' ≠ sd ∨ x ≠ col := by
    intro sd' b' lo' hi' x hc hb' hne hx1 hx2
    by_cases hs : sd' = sd
    · subst hs
      right; intro hx; subst hx
      exact hne ⟨rfl, tiles_disj (g.tiles sd') hb' h6 hc h8 ⟨hx1, hx2⟩ ⟨h9, hlt⟩⟩
    · exact .inl hs
  have hin : ∀ sd' b' lo' hi' x, getBlockMatrixCoords sd' cfg.bm b' = .ok (lo', hi') →
      b' < n.get sd' → x < hi' → x < (m0.packed.get sd').layout.cols := by
    intro sd' b' lo' hi' x hc hb' hx2
    have := (tiles_le (g.tiles sd') hb' hc).2.1
    rw [hdim] at this; omega
  have hpcs : ∀ u, ((setPC s t (.packing e c sd b (col + 1) stop)).pc u).ids = (s.pc u).ids ∧
      ((setPC s t (.packing e c sd b (col + 1) stop)).pc u).packs = (s.pc u).packs := by
    intro u
    by_cases hu : u = t
    · subst hu; simp only [setPC, Function.update_self]; rw [hpc]; exact ⟨rfl, rfl⟩
    · simp only [setPC, Function.update_of_ne hu]; exact ⟨trivial, trivial⟩
  refine ⟨?_, ?_, inv.frame, ?_, ?_, ?_, ?_, inv.fresh, ?_, ?_, ?_, inv.locals, inv.packCount,
    inv.counterLe, ?_⟩
  · refine inv.same.trans ⟨fun sd' => ?_, DSame.refl _⟩
    by_cases hs : sd' = sd
    · subst hs; simp only [setSide_get_same]; exact a1
    · simp only [setSide_get_other _ _ hs]; exact SameShape.refl _
  · intro sd' hpre x hx
    refine hkeep sd' x hx (.inl ?_) (inv.pre sd' hpre x hx)
    rintro rfl
    rw [h7] at hpre; cases hpre
  · intro u
    by_cases hu : u = t
    · subst hu
      simp only [setPC, Function.update_self]
      refine ⟨h1, ⟨h2.ltB, h2.ltN, h2.ne, h2.runsB, h2.runsN⟩, h3, h4, h5, h6, h7, lo, h8,
        by omega, by omega, fun x hx1 hx2 => ?_⟩
      by_cases hx : x = col
      · subst hx; exact hnew
      · exact hkeep sd x (by omega) (.inr hx) (h11 x hx1 (by omega))
    · simp only [setPC, Function.update_of_ne hu]
      refine PCok.rely (s := s) (h := inv.pc u) ⟨Nat.le_refl _, fun _ _ => rfl, fun _ _ h => h, fun _ _ _ => rfl,
        fun _ _ h => h, ?_, fun _ _ _ _ _ _ _ h => h⟩
      intro sd' b' lo' hi' x hpk hc hx1 hx2 hpd
      have hb' := ((inv.pc u).packs_status hpk).2.1
      refine hkeep sd' x (hin sd' b' lo' hi' x hc hb' hx2) (hnotcol sd' b' lo' hi' x hc hb' ?_ hx1 hx2) hpd
      rintro ⟨rfl, rfl⟩
      exact hu (inv.packs u t _ hpk (by rw [hpc]; rfl))
  · intro u hu
    simp only [setPC]
    rw [Function.update_of_ne (by omega)]; exact inv.outside u hu
  · intro u v id hu hv
    exact inv.ids u v id (by rw [← (hpcs u).1]; exact hu) (by rw [← (hpcs v).1]; exact hv)
  · intro id hid1 hid2
    refine (inv.all id hid1 hid2).imp ?_ (fun h => h)
    rintro ⟨u, hu⟩
    exact ⟨u, by rw [← (hpcs u).1] at hu; exact hu⟩
  · intro u v x hu hv
    exact inv.packs u v x (by rw [← (hpcs u).2]; exact hu) (by rw [← (hpcs v).2]; exact hv)
  · intro sd' b' hs
    obtain ⟨u, hu⟩ := inv.inProgress sd' b' hs
    exact ⟨u, by rw [← (hpcs u).2] at hu; exact hu⟩
  · intro sd' b' hb' hs x hx y hy1 hy2
    refine hkeep sd' y (hin sd' b' x.1 x.2 y hx hb' hy2)
      (hnotcol sd' b' x.1 x.2 y hx hb' ?_ hy1 hy2) (inv.finished sd' b' hb' hs x hx y hy1 hy2)
    rintro ⟨rfl, rfl⟩
    have hs : s.status sd' b' = .finished := hs
    rw [h5] at hs
    cases hs
  · intro u hu h
    by_cases hut : u = t
    · subst hut; simp [setPC] at h
    · simp only [setPC, Function.update_of_ne hut] at h; exact inv.exit u hu h

/-- Publishing a packed block. -/
theorem Inv.publish {cfg : Cfg A} {n : SidePair Nat} {m0 : Mem A} {s : State A} {t : Nat}
    {e : Locals} {c : Call} {sd : Side} {b col stop : Nat}
    (inv : Inv cfg n m0 s) (hpc : s.pc t = .packing e c sd b col stop) (hge : ¬ col < stop) :
    Inv cfg n m0 { setPC s t (.confirm e c sd b) with
      status := setStatus s.status sd b .finished } := by
  have ht : t < cfg.threads := ne_done_lt inv (by rw [hpc]; simp)
  have hok := inv.pc t
  rw [hpc] at hok
  obtain ⟨h1, h2, h3, h4, h5, h6, h7, lo, h8, h9, h10, h11⟩ := hok
  have hne : ∀ u, u ≠ t → ∀ sd' b', (s.pc u).packs = some (sd', b') → ¬ (sd' = sd ∧ b' = b) := by
    rintro u hu sd' b' hpk ⟨rfl, rfl⟩
    exact hu (inv.packs u t _ hpk (by rw [hpc]; rfl))
  have hids : ∀ u, ((setPC s t (.confirm e c sd b)).pc u).ids = (s.pc u).ids := by
    intro u
    by_cases hu : u = t
    · subst hu; simp only [setPC, Function.update_self]; rw [hpc]; rfl
    · simp only [setPC, Function.update_of_ne hu]
  refine ⟨inv.same, inv.pre, inv.frame, ?_, ?_, ?_, ?_, inv.fresh, ?_, ?_, ?_, ?_, ?_, inv.counterLe, ?_⟩
  · intro u
    by_cases hu : u = t
    · subst hu
      simp only [setPC, Function.update_self]
      exact ⟨h1, ⟨h2.ltB, h2.ltN, h2.ne, h2.runsB, h2.runsN⟩, h3, h4, by simp [setStatus_eq], h6, h7⟩
    · simp only [setPC, Function.update_of_ne hu]
      refine PCok.rely (s := s) (h := inv.pc u) ⟨Nat.le_refl _, fun _ _ => rfl, fun _ _ h => h, ?_, ?_,
        fun _ _ _ _ _ _ _ _ _ h => h, fun _ _ _ _ _ _ _ h => h⟩
      · intro sd' b' h
        simp only [setStatus_eq]
        rw [if_neg (hne u hu sd' b' h)]
      · intro sd' b' h
        simp only [setStatus_eq]
        split
        · rfl
        · exact h
  · intro u hu
    simp only [setPC]
    rw [Function.update_of_ne (by omega)]; exact inv.outside u hu
  · intro u v id hu hv
    exact inv.ids u v id (by rw [← hids u]; exact hu) (by rw [← hids v]; exact hv)
  · intro id hid1 hid2
    refine (inv.all id hid1 hid2).imp ?_ (fun h => h)
    rintro ⟨u, hu⟩
    exact ⟨u, by rw [← hids u] at hu; exact hu⟩
  · intro u v x hu hv
    by_cases hut : u = t
    · subst hut; simp [setPC, PC.packs] at hu
    · by_cases hvt : v = t
      · subst hvt; simp [setPC, PC.packs] at hv
      · simp only [setPC, Function.update_of_ne hut] at hu
        simp only [setPC, Function.update_of_ne hvt] at hv
        exact inv.packs u v x hu hv
  · intro sd' b' h
    simp only [setStatus_eq] at h
    split at h
    · cases h
    · rename_i hx
      obtain ⟨u, hu⟩ := inv.inProgress sd' b' h
      refine ⟨u, ?_⟩
      by_cases hut : u = t
      · subst hut
        rw [hpc] at hu
        simp only [PC.packs, Option.some.injEq, Prod.mk.injEq] at hu
        exact absurd ⟨hu.1.symm, hu.2.symm⟩ hx
      · simp only [setPC, Function.update_of_ne hut]; exact hu
  · intro sd' b' hb' h
    simp only [setStatus_eq] at h
    split at h
    · rename_i hx
      obtain ⟨rfl, rfl⟩ := hx
      intro x hx y hy1 hy2
      rw [h8] at hx; cases hx
      exact h11 y hy1 (by dsimp only at hy2; omega)
    · exact inv.finished sd' b' hb' h
  · intro u sd' b' h
    have := inv.locals u sd' b' h
    refine ⟨?_, this.2⟩
    simp only [setStatus_eq]
    split
    · rfl
    · exact this.1
  · intro sd' b'
    simp only [setStatus_eq]
    have := inv.packCount sd' b'
    split
    · rename_i hx
      obtain ⟨rfl, rfl⟩ := hx
      rw [h5] at this
      rw [if_neg (by decide)]; rw [if_neg (by decide)] at this; exact this
    · exact this
  · intro u hu h
    by_cases hut : u = t
    · subst hut; simp [setPC] at h
    · simp only [setPC, Function.update_of_ne hut] at h; exact inv.exit u hu h

/-- What a thread in RunKernel may assume about packed columns. -/
theorem kernel_packed {cfg : Cfg A} {n : SidePair Nat} {m0 : Mem A} {s : State A} {t : Nat}
    {e : Locals} {i j : Nat} (su : Setup cfg m0 n) (inv : Inv cfg n m0 s)
    (hpc : s.pc t = .kernel e i j) (sd : Side) :
    BlockPacked cfg.tp cfg.bm s.mem sd (e.block.get sd) := by
  have hok := inv.pc t
  rw [hpc] at hok
  obtain ⟨kd, g⟩ := su.grid
  have hb := hok.1.blockLt g sd
  rcases hok.2.2.1 sd with h | h
  · intro x hx c h1 h2
    refine inv.pre sd h c ?_
    have := (tiles_le (g.tiles sd) hb hx).2.1
    cases sd
    · exact Nat.lt_of_lt_of_le h2 this
    · exact Nat.lt_of_lt_of_le h2 this
  · exact inv.finished sd _ hb (inv.locals t sd _ h).1

theorem Inv.ready {cfg : Cfg A} {n : SidePair Nat} {m0 : Mem A} {s : State A}
    (su : Setup cfg m0 n) (inv : Inv cfg n m0 s) : Ready cfg.tp s.mem :=
  su.ready.of_same inv.same inv.pre

/-- Steps inside RunKernel. -/
theorem stepKernel_inv {cfg : Cfg A} {n : SidePair Nat} {m0 : Mem A} {s s' : State A} {t : Nat}
    {e : Locals} {i j : Nat} (su : Setup cfg m0 n) (inv : Inv cfg n m0 s)
    (hpc : s.pc t = .kernel e i j) (h : stepKernel cfg s t e i j = .ok s') : Inv cfg n m0 s' := by
  have ht : t < cfg.threads := ne_done_lt inv (by rw [hpc]; simp)
  have hok := inv.pc t
  rw [hpc] at hok
  obtain ⟨h1, h2, h3, h4, h5, h6⟩ := hok
  obtain ⟨kd, g⟩ := su.grid
  have hp : (s.pc t).packs = none := by rw [hpc]; rfl
  have hdl := inv.same.dst.layout
  unfold stepKernel at h
  split at h
  · rename_i hi
    have hi' := lt_min_iff.1 hi
    rw [hdl] at hi'
    split at h
    · rename_i hj
      have hj' := lt_min_iff.1 hj
      rw [hdl] at hj'
      obtain ⟨d, hd, h⟩ := C.bind_ok h
      cases h
      unfold kernelStep at hd
      obtain ⟨v, hv, hd⟩ := C.bind_ok hd
      have hin : InBlock cfg.bm e.bid i j := h1.inBlock.2 ⟨⟨h4, hi'.1⟩, h5, hj'.1⟩
      have hpl : Packed cfg.tp s.mem .lhs i :=
        kernel_packed su inv hpc .lhs _ (h1.coords .lhs) i h4 hi'.1
      have hpr : Packed cfg.tp s.mem .rhs j :=
        kernel_packed su inv hpc .rhs _ (h1.coords .rhs) j h5 hj'.1
      rw [kernelEntry_target (inv.ready su) hpl hpr, inv.same.target] at hv
      obtain ⟨b1, b2, b3⟩ := dset_ok hd
      have hkeep : ∀ i' j', i' < m0.dst.layout.rows → j' < m0.dst.layout.cols →
          ¬ (i' = i ∧ j' = j) → EntryDone (target cfg.tp m0) s.mem.dst i' j' →
          EntryDone (target cfg.tp m0) d i' j' := by
        rintro i' j' ha hb hne ⟨w, w1, w2⟩
        refine ⟨w, ?_, w2⟩
        rw [← w1]
        apply delem_frame b1 b2 (by rw [hdl]; exact su.ready.stride) (by rw [hdl]; exact ha)
          (by rw [hdl]; exact hb)
        · rintro a b ⟨rfl, rfl⟩; rw [hdl]; exact ⟨hi'.2, hj'.2⟩
        · exact hne
      have hpk : ∀ sd c, Packed cfg.tp s.mem sd c → Packed cfg.tp { s.mem with dst := d } sd c :=
        fun _ _ h => h
      have hpcs : ∀ u, ((setPC s t (.kernel e i (j + 1))).pc u).ids = (s.pc u).ids ∧
          ((setPC s t (.kernel e i (j + 1))).pc u).packs = (s.pc u).packs := by
        intro u
        by_cases hu : u = t
        · subst hu; simp only [setPC, Function.update_self]; rw [hpc]; exact ⟨rfl, rfl⟩
        · simp only [setPC, Function.update_of_ne hu]; exact ⟨trivial, trivial⟩
      refine ⟨inv.same.trans ⟨fun _ => SameShape.refl _, b1⟩, inv.pre, ?_, ?_, ?_, ?_, ?_,
        inv.fresh, ?_, ?_, inv.finished, inv.locals, inv.packCount, inv.counterLe, ?_⟩
      · refine inv.frame.trans inv.same.dst (b2.mono ?_)
        rintro a b ⟨rfl, rfl⟩; exact ⟨hi'.2, hj'.2⟩
      · intro u
        by_cases hu : u = t
        · subst hu
          simp only [setPC, Function.update_self]
          refine ⟨h1, ⟨h2.ltB, h2.ltN, h2.ne, h2.runsB, h2.runsN⟩, h3, h4, by omega,
            fun i' j' ha hb hc hd => ?_⟩
          by_cases hx : i' = i ∧ j' = j
          · obtain ⟨rfl, rfl⟩ := hx; exact ⟨v, b3, hv⟩
          · exact hkeep i' j' hb hc hx (h6 i' j' ha hb hc (by omega))
        · simp only [setPC, Function.update_of_ne hu]
          refine PCok.rely (s := s) (h := inv.pc u) ⟨Nat.le_refl _, fun _ _ => rfl, fun _ _ h => h, fun _ _ _ => rfl,
            fun _ _ h => h, fun _ _ _ _ _ _ _ _ _ h => h, ?_⟩
          intro id i' j' hrun hin' ha hb hdn
          refine hkeep i' j' ha hb ?_ hdn
          rintro ⟨rfl, rfl⟩
          have hidu : id ∈ (s.pc u).ids ∧ id < n.lhs * n.rhs := by
            have hoku := inv.pc u
            cases hq : s.pc u <;> rw [hq] at hrun hoku <;>
              simp only [PC.running, reduceCtorEq, Option.some.injEq] at hrun
            subst hrun
            exact ⟨by simp [PC.ids], hoku.1.bid⟩
          have := g.unique hidu.2 h1.bid hin' hin
          subst this
          exact hu (inv.ids u t _ hidu.1 (by rw [hpc]; simp [PC.ids]))
      · intro u hu
        simp only [setPC]
        rw [Function.update_of_ne (by omega)]; exact inv.outside u hu
      · intro u v id hu hv
        exact inv.ids u v id (by rw [← (hpcs u).1]; exact hu) (by rw [← (hpcs v).1]; exact hv)
      · intro id hid1 hid2
        rcases inv.all id hid1 hid2 with ⟨u, hu⟩ | hc
        · exact .inl ⟨u, by rw [← (hpcs u).1] at hu; exact hu⟩
        · refine .inr ⟨hc.1, fun i' j' hin' ha hb => ?_⟩
          by_cases hx : i' = i ∧ j' = j
          · obtain ⟨rfl, rfl⟩ := hx; exact ⟨v, b3, hv⟩
          · exact hkeep i' j' ha hb hx (hc.2 i' j' hin' ha hb)
      · intro u v x hu hv
        exact inv.packs u v x (by rw [← (hpcs u).2]; exact hu) (by rw [← (hpcs v).2]; exact hv)
      · intro sd' b' hs
        obtain ⟨u, hu⟩ := inv.inProgress sd' b' hs
        exact ⟨u, by rw [← (hpcs u).2] at hu; exact hu⟩
      · intro u hu h
        by_cases hut : u = t
        · subst hut; simp [setPC] at h
        · simp only [setPC, Function.update_of_ne hut] at h; exact inv.exit u hu h
    · rename_i hj
      cases h
      refine inv.move ht rfl rfl rfl rfl hp rfl
        ⟨h1, ⟨h2.ltB, h2.ltN, h2.ne, h2.runsB, h2.runsN⟩, h3, by omega, Nat.le_refl _, ?_⟩
        rfl (by rw [hpc]; rfl) (by simp) (fun _ => .inl rfl) (fun _ _ _ h => .inl h) (fun _ _ _ h => h)
      intro i' j' ha hb hc hd
      refine h6 i' j' ha hb hc ?_
      have := h1.inBlock.1 ha
      unfold colEnd at hj
      rw [hdl] at hj
      omega
  · rename_i hi
    cases h
    have hcomp : Computed cfg m0 s e.bid := by
      refine ⟨h2.runsB, fun i' j' ha hb hc => h6 i' j' ha hb hc ?_⟩
      have := h1.inBlock.1 ha
      unfold rowEnd at hi
      rw [hdl] at hi
      omega
    refine inv.control (t := t) (p' := .head e.next) ht rfl rfl rfl rfl hp rfl
      ⟨h2.ltN, h2.runsN⟩ (Nat.le_refl _) (by simp) ?_ (fun _ => .inl rfl) ?_ inv.fresh
      (fun _ _ _ h => .inl h) (fun _ _ _ h => h)
    · intro id hid
      simp only [PC.ids, List.mem_cons, List.not_mem_nil, or_false] at hid
      subst hid
      left; rw [hpc]; simp [PC.ids]
    · intro id hid1 hid2
      rw [hpc]
      simp only [PC.ids, List.mem_cons, List.not_mem_nil, or_false]
      by_cases hb : id = e.bid
      · subst hb; exact .inr (.inl hcomp)
      · by_cases hb' : id = e.next
        · exact .inl hb'
        · exact .inr (.inr ⟨hid1, by omega⟩)

theorem step_inv {cfg : Cfg A} {n : SidePair Nat} {m0 : Mem A} {s s' : State A} {t : Nat}
    (su : Setup cfg m0 n) (inv : Inv cfg n m0 s) (h : step cfg s t = .ok s') :
    Inv cfg n m0 s' := by
  obtain ⟨kd, g⟩ := su.grid
  unfold step at h
  have hok := inv.pc t
  split at h
  · rename_i b hpc; exact stepHead_inv g inv hpc h
  · rename_i e sd both hpc
    rw [hpc] at hok
    refine tryPack_inv g inv (ne_done_lt inv (by rw [hpc]; simp)) (by rw [hpc]; rfl)
      (by rw [hpc]; rfl) hok.1 hok.2.1 hok.2.2 (fun _ _ => rfl) (hok.1.blockLt g sd)
      (hok.1.coords sd) h
  · rename_i e hpc; exact stepAhead_inv g inv hpc h
  · rename_i e c sd b col stop hpc
    unfold stepPacking at h
    split at h
    · obtain ⟨p, hp, h⟩ := C.bind_ok h
      cases h
      exact inv.packColumn su hpc (by assumption) hp
    · cases h
      exact inv.publish hpc (by assumption)
  · rename_i e c sd b hpc; exact stepConfirm_inv inv hpc h
  · rename_i e i j hpc; exact stepKernel_inv su inv hpc h
  · cases h; exact inv

theorem init_inv {cfg : Cfg A} {n : SidePair Nat} {m0 : Mem A} (su : Setup cfg m0 n) :
    Inv cfg n m0 (initState cfg m0) := by
  have hpk : ∀ t x, ((initState cfg m0).pc t).packs = some x → False := by
    intro t x h
    simp only [initState] at h
    split at h <;> cases h
  refine ⟨MSame.refl _, su.ready.prepacked, fun _ _ => rfl, ?_, ?_, ?_, ?_, fun _ _ => rfl, ?_, ?_, ?_,
    ?_, ?_, Nat.le_refl _, ?_⟩
  · intro t
    simp only [initState]
    split
    · rename_i ht; exact ⟨ht, rfl⟩
    · trivial
  · intro t ht
    simp only [initState]
    rw [if_neg (by omega)]
  · intro t u id h1 h2
    simp only [initState] at h1 h2
    split at h1
    · split at h2
      · simp only [PC.ids, List.mem_cons, List.not_mem_nil, or_false] at h1 h2
        rw [← h1, ← h2]
      · simp [PC.ids] at h2
    · simp [PC.ids] at h1
  · intro id h1 _
    left
    have h1 : id < cfg.threads := h1
    exact ⟨id, by simp [initState, h1, PC.ids]⟩
  · intro t _ x h; exact (hpk t x h).elim
  · intro _ _ h; cases h
  · intro _ _ _ h; cases h
  · intro _ _ _ h; cases h
  · intro _ _; rfl
  · intro t ht h
    simp [initState, ht] at h

theorem run_inv {cfg : Cfg A} {n : SidePair Nat} {m0 : Mem A} (su : Setup cfg m0 n)
    {sched : List Nat} {s s' : State A} (inv : Inv cfg n m0 s) (h : run cfg sched s = .ok s') :
    Inv cfg n m0 s' := by
  induction sched generalizing s with
  | nil => cases h; exact inv
  | cons t ts ih =>
    obtain ⟨s1, h1, h⟩ := C.bind_ok h
    exact ih (step_inv su inv h1) h

/-- A finished execution has computed every entry. -/
theorem finished_computes {cfg : Cfg A} {n : SidePair Nat} {m0 : Mem A} {s : State A}
    (su : Setup cfg m0 n) (ht : 0 < cfg.threads) (inv : Inv cfg n m0 s) (hf : Finished cfg s) :
    (∀ id, id < n.lhs * n.rhs → s.runs id = 1) ∧
      (∀ id, n.lhs * n.rhs ≤ id → s.runs id = 0) ∧ Computes (target cfg.tp m0) m0.dst s.mem.dst := by
  have hdone : ∀ t, s.pc t = .done := fun t => by
    by_cases h : t < cfg.threads
    · exact hf t h
    · exact inv.outside t (by omega)
  obtain ⟨kd, g⟩ := su.grid
  have hall : ∀ id, id < n.lhs * n.rhs → Computed cfg m0 s id := by
    intro id hid
    rcases inv.all id (Nat.lt_of_lt_of_le hid (inv.exit 0 ht (hf 0 ht))) hid with ⟨u, hu⟩ | h
    · rw [hdone u] at hu; simp [PC.ids] at hu
    · exact h
  refine ⟨fun id hid => (hall id hid).1, fun id hid => inv.fresh id (.inr hid), inv.same.dst,
    fun i j hi hj => ?_, inv.frame⟩
  obtain ⟨id, hid, hin⟩ := g.cover (i := i) (j := j) (Nat.lt_of_lt_of_le hi su.ready.rows)
    (Nat.lt_of_lt_of_le hj su.ready.cols)
  exact (hall id hid).2 i j hin hi hj

end Ruy.TrMul

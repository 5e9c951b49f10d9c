import Verif.Ctx.Lemmas
import Verif.Front.Model
import Verif.SizeUtil.NatLevel
/-
Properties C33 (path selection), C34 (enabled paths), C35 (dispatch) and C46 (advisories).
-/
namespace Ruy.Ctx

/-! ### Specification -/

/-- Path number `i` is the one to use: compiled, enabled, and no higher one is both. -/
def Best (compiled enabled : Path) (i : Nat) : Prop :=
  compiled.getLsbD i = true ∧ enabled.getLsbD i = true ∧
    ∀ j, i < j → ¬ (compiled.getLsbD j = true ∧ enabled.getLsbD j = true)

/-- Path number `i` can run on this machine: the portable paths always; SIMD paths if the CPU has
the instructions and, on x86, the code was built. -/
def Supported (m : Machine) (i : Nat) : Bool :=
  match i, m.platform with
  | 0, _ => true
  | 1, _ => true
  | 2, _ => true
  | 3, _ => true
  | 4, .neon64 => true
  | 4, .neon32 => true
  | 5, .neon64 => m.cpuNeonDotprod
  | 4, .x86 => m.builtAvx && m.cpuAvx
  | 5, .x86 => m.builtAvx2Fma && m.cpuAvx2Fma
  | 6, .x86 => m.builtAvx512 && m.cpuAvx512
  | _, _ => false

/-- An x86 machine with AVX2 but not AVX-512. -/
def haswell : Machine := ⟨.x86, false, true, true, false, true, true, true⟩
/-- An x86 machine without AVX. -/
def oldX86 : Machine := ⟨.x86, false, false, false, false, true, true, true⟩

/-! ### C35: dispatch -/

/-- C35: for every set of compiled paths and every path in it, the search calls
PopulateTrMulParams with that path. -/
theorem c35_dispatch (compiled : Path) (i : Nat) (h : compiled.getLsbD i = true) :
    populateAllCompiledPaths compiled (1#8 <<< i) = .ok (1#8 <<< i) := by
  have hi : i < 8 := by
    by_contra hc
    rw [BitVec.getLsbD_of_ge compiled i (by omega)] at h
    exact absurd h (by decide)
  exact search_found compiled i h 8 hi (by omega)

example : (Platform.x86.defaultPaths).getLsbD 5 = true := by decide

/-- C35: a path that was not compiled, or a set of several paths, is never dispatched. -/
theorem c35_no_other (compiled p q : Path) (h : populateAllCompiledPaths compiled p = .ok q) :
    q = p ∧ ∃ i, i < 8 ∧ compiled.getLsbD i = true ∧ p = 1#8 <<< i := by
  by_cases hex : ∃ i, i < 8 ∧ compiled.getLsbD i = true ∧ p = 1#8 <<< i
  · refine ⟨?_, hex⟩
    obtain ⟨i, _, hb, rfl⟩ := hex
    rw [c35_dispatch compiled i hb] at h
    cases h; rfl
  · have : ∀ i, i < 8 → compiled.getLsbD i = true → p ≠ 1#8 <<< i :=
      fun i hi hb he => hex ⟨i, hi, hb, he⟩
    rw [populateAllCompiledPaths, search_missing compiled p this 8 (by omega)] at h
    cases h

example : populateAllCompiledPaths 0x71#8 0x20#8 = .ok 0x20#8 ∧
    populateAllCompiledPaths 0x51#8 0x20#8 = .error .abort ∧
    populateAllCompiledPaths 0x71#8 0x30#8 = .error .abort := by decide

/-- The type combinations for which every SIMD path has kernels of its own
(create_trmul_params.h:95-104): float, and 8-bit integers on both sides. -/
def Fast (l r a d : Ty) : Prop :=
  (l = .f32 ∧ r = .f32 ∧ a = .f32 ∧ d = .f32) ∨
    ((l = .i8 ∨ l = .u8) ∧ (r = .i8 ∨ r = .u8) ∧ a = .i32)

/-- C35: for those types the code that runs is the code of the selected path, on every platform and
for every path that can be compiled there. -/
theorem c35_kernel_of_path (pl : Platform) (i : Nat) (l r a d : Ty) (hf : Fast l r a d)
    (hp : pl.allPaths.getLsbD i = true) : (boundKernel pl (1#8 <<< i) l r a d).code = 1#8 <<< i := by
  have hi : i < 8 := by
    by_contra hc
    rw [BitVec.getLsbD_of_ge _ i (by omega)] at hp
    exact absurd hp (by decide)
  have key : ∀ pl ∈ [Platform.neon64, .neon32, .x86, .other], ∀ i, i < 8 →
      pl.allPaths.getLsbD i = true →
      (boundKernel pl (1#8 <<< i) .f32 .f32 .f32 .f32).code = 1#8 <<< i ∧
      ∀ l ∈ [Ty.i8, .u8], ∀ r ∈ [Ty.i8, .u8], ∀ d ∈ [Ty.f32, .f64, .i8, .u8, .i16, .i32],
        (boundKernel pl (1#8 <<< i) l r .i32 d).code = 1#8 <<< i := by
    decide +kernel
  obtain ⟨k1, k2⟩ := key pl (by cases pl <;> simp) i hi hp
  rcases hf with ⟨rfl, rfl, rfl, rfl⟩ | ⟨hl, hr, rfl⟩
  · exact k1
  · exact k2 l (by rcases hl with rfl | rfl <;> simp) r (by rcases hr with rfl | rfl <;> simp) d
      (by cases d <;> simp)

example : Fast .u8 .i8 .i32 .i16 ∧ Platform.x86.allPaths.getLsbD 6 = true ∧
    boundKernel .x86 (1#8 <<< 6) .u8 .i8 .i32 .i16 = ⟨kAvx512, kAvx512⟩ := by
  refine ⟨Or.inr ⟨Or.inr rfl, Or.inl rfl, rfl⟩, by decide, by decide⟩

/-- C35 for the remaining types: the code is that of the selected path or of a lower one (the
documented fallback), never of a higher one. -/
theorem c35_fallback_lower (pl : Platform) (i : Nat) (l r a d : Ty)
    (hp : pl.allPathsIncludingInternalVariants.getLsbD i = true) :
    ∃ j, j ≤ i ∧ (boundKernel pl (1#8 <<< i) l r a d).code = 1#8 <<< j := by
  have hi : i < 8 := by
    by_contra hc
    rw [BitVec.getLsbD_of_ge _ i (by omega)] at hp
    exact absurd hp (by decide)
  have key : ∀ pl ∈ [Platform.neon64, .neon32, .x86, .other], ∀ i, i < 8 →
      pl.allPathsIncludingInternalVariants.getLsbD i = true →
      ∀ l ∈ [Ty.f32, .f64, .i8, .u8, .i16, .i32], ∀ r ∈ [Ty.f32, .f64, .i8, .u8, .i16, .i32],
      ∀ a ∈ [Ty.f32, .f64, .i8, .u8, .i16, .i32], ∀ d ∈ [Ty.f32, .f64, .i8, .u8, .i16, .i32],
        ∃ j, j < i + 1 ∧ (boundKernel pl (1#8 <<< i) l r a d).code = 1#8 <<< j := by
    decide +kernel
  obtain ⟨j, hj, he⟩ := key pl (by cases pl <;> simp) i hi hp l (by cases l <;> simp)
    r (by cases r <;> simp) a (by cases a <;> simp) d (by cases d <;> simp)
  exact ⟨j, by omega, he⟩

example : boundKernel .x86 kAvx512 .f32 .f64 .f64 .f64 = ⟨kStandardCpp, kStandardCpp⟩ ∧
    boundKernel .x86 kAvx .i8 .i16 .i32 .i16 = ⟨kStandardCpp, kStandardCpp⟩ := by decide

/-- C35, what the code gets wrong: the 8-bit kernel of kAvx declares the wrong path, so an assertion
`kPath == selected path` (create_trmul_params.h:106) would fail for it.  The assertion is never
compiled: CheckKernelPathImpl is specialised for a Kernel whose fifth argument is a MulParams. -/
theorem c35_declared_path_wrong :
    ∃ pl p l r a d, Fast l r a d ∧ (boundKernel pl p l r a d).code = p ∧
      (boundKernel pl p l r a d).kPath ≠ p :=
  ⟨.x86, kAvx, .i8, .i8, .i32, .i32, Or.inr ⟨Or.inl rfl, Or.inl rfl, rfl⟩, by decide, by decide⟩

/-! ### C33: selection -/

/-- C33: a Mul that returns ran with exactly one path; it is compiled and enabled, no compiled and
enabled path is higher, it is the one reported by last_used_path, and the enabled set is the one a
query before or after the Mul reports. -/
theorem c33_mul_uses_best (c c' : Ctx) (m : Machine) (env env' : Option (List Char)) (compiled : Path)
    (body : Path → C Bool) (h : c.mul m env compiled body = .ok c') :
    ∃ i e, Best compiled e i ∧ body (1#8 <<< i) = .ok c'.advisory ∧ c'.lastUsedPath = 1#8 <<< i ∧
      (∃ c₁, c.getRuntimeEnabledPaths m env = .ok (c₁, e)) ∧
      c'.getRuntimeEnabledPaths m env' = .ok (c', e) := by
  rw [Ctx.mul] at h
  dsimp only at h
  obtain ⟨s, hs, h⟩ := C.bind_ok h
  obtain ⟨p, hp, h⟩ := C.bind_ok h
  obtain ⟨adv, ha, h⟩ := C.bind_ok h
  cases h
  rw [Ctx.selectPath] at hs
  obtain ⟨r, hr, hs⟩ := C.bind_ok hs
  obtain ⟨q, hq, hs⟩ := C.bind_ok hs
  cases hs
  obtain ⟨c₁, e⟩ := r
  obtain ⟨hc₁, hne⟩ := get_ok hr
  obtain ⟨rfl, _⟩ := c35_no_other _ _ _ hp
  dsimp only at hq ha
  have hmask : compiled &&& e ≠ 0#8 := by
    intro hz
    rw [hz, mostSignificant_zero] at hq
    cases hq
  obtain ⟨i, hi, hms, hb, hhi⟩ := mostSignificant_spec _ hmask
  rw [hms] at hq
  cases hq
  rw [BitVec.getLsbD_and, Bool.and_eq_true] at hb
  refine ⟨i, e, ⟨hb.1, hb.2, ?_⟩, ?_, rfl, ?_, ?_⟩
  · intro j hj ⟨h1, h2⟩
    by_cases hj8 : j < 8
    · have := hhi j hj8 hj
      rw [BitVec.getLsbD_and, h1, h2] at this
      exact absurd this (by decide)
    · rw [BitVec.getLsbD_of_ge _ j (by omega)] at h1
      exact absurd h1 (by decide)
  · rw [ha, hc₁]; rfl
  · refine ⟨{ c with runtimeEnabledPaths := e }, ?_⟩
    unfold Ctx.getRuntimeEnabledPaths at hr ⊢
    dsimp only at hr
    split at hr
    · next hn => cases hr; rw [if_pos hn]
    · next hn =>
      rw [if_neg hn]
      obtain ⟨v, hv, hr⟩ := C.bind_ok hr
      rw [hv, C.ok_bind]
      split at hr
      · next hv' => cases hr; rw [if_pos hv']
      · next hv' =>
        rw [if_neg hv']
        obtain ⟨d, hd, hr⟩ := C.bind_ok hr
        rw [hd, C.ok_bind]
        cases hr; rfl
  · subst hc₁
    exact get_set m env' hne

example : ∃ c', Ctx.new.mul haswell none Platform.x86.defaultPaths (fun _ => .ok true) = .ok c' ∧
    c'.lastUsedPath = kAvx2Fma := ⟨⟨kAvx2Fma, true, 0x3f#8⟩, by decide +kernel, rfl⟩

/-- C33: what detection enables is exactly what the machine supports. -/
theorem c33_detection (m : Machine) (env : Option (List Char)) (c : Ctx)
    (hc : c.runtimeEnabledPaths = kNone) (he : envPaths env = .ok kNone) :
    ∃ c' d, c.getRuntimeEnabledPaths m env = .ok (c', d) ∧
      ∀ i, d.getLsbD i = Supported m i := by
  obtain ⟨d, hd, hd', _⟩ := detect_ok m
  refine ⟨{ c with runtimeEnabledPaths := d }, d, ?_, ?_⟩
  · rw [Ctx.getRuntimeEnabledPaths, if_neg (by simp [hc]), he, C.ok_bind, if_neg (by simp), hd]
    rfl
  · intro i
    subst hd'
    obtain ⟨pl, a, b, c', d, e, f, g⟩ := m
    by_cases hi : i < 8
    · have key : ∀ a b c d e f g : Bool, ∀ pl ∈ [Platform.neon64, .neon32, .x86, .other], ∀ i, i < 8 →
          (addArchPaths ⟨pl, a, b, c, d, e, f, g⟩ pl.allPaths
            kNonArchPathsIncludingInternalVariants).getLsbD i = Supported ⟨pl, a, b, c, d, e, f, g⟩ i := by
        decide +kernel
      exact key a b c' d e f g pl (by cases pl <;> simp) i hi
    · rw [BitVec.getLsbD_of_ge _ i (by omega)]
      obtain ⟨k, rfl⟩ : ∃ k, i = k + 7 := ⟨i - 7, by omega⟩
      cases pl <;> rfl

example : envPaths none = .ok kNone ∧ envPaths (some "0".toList) = .ok kNone := by decide

/-- A history in which RUY_PATHS never provided paths. -/
def NoEnv (h : List (Option (List Char) × Op)) : Prop := ∀ x ∈ h, envPaths x.1 = .ok kNone

/-- The portable path is never lost while RUY_PATHS provides nothing. -/
theorem portable_inv {m : Machine} : ∀ (h : List (Option (List Char) × Op)) {c c' : Ctx}, NoEnv h →
    (c.runtimeEnabledPaths ≠ kNone → c.runtimeEnabledPaths.getLsbD 0 = true) →
    Ctx.run m h c = .ok c' →
    (c'.runtimeEnabledPaths ≠ kNone → c'.runtimeEnabledPaths.getLsbD 0 = true)
  | [], _, _, _, hi, hr => by cases hr; exact hi
  | (env, op) :: h, c, c', hn, hi, hr => by
    rw [Ctx.run] at hr
    obtain ⟨c₁, h₁, hr⟩ := C.bind_ok hr
    refine portable_inv h (fun x hx => hn x (by simp [hx])) ?_ hr
    have henv : envPaths env = .ok kNone := hn (env, op) (by simp)
    have hget : ∀ (c c₁ : Ctx) (r : Path),
        (c.runtimeEnabledPaths ≠ kNone → c.runtimeEnabledPaths.getLsbD 0 = true) →
        c.getRuntimeEnabledPaths m env = .ok (c₁, r) → c₁.runtimeEnabledPaths.getLsbD 0 = true := by
      intro c c₁ r hi hg
      by_cases hz : c.runtimeEnabledPaths = kNone
      · obtain ⟨c₂, d, h2, hd⟩ := c33_detection m env c hz henv
        rw [h2] at hg
        cases hg
        obtain ⟨he, _⟩ := get_ok h2
        rw [he]
        exact hd 0
      · rw [get_set m env hz] at hg
        cases hg
        exact hi hz
    cases op with
    | setPaths p =>
      rw [Ctx.step] at h₁
      cases h₁
      unfold Ctx.setRuntimeEnabledPaths
      split
      · intro hne; exact absurd rfl hne
      · intro _
        dsimp only
        rw [BitVec.getLsbD_or]
        simp [kNonArchPaths, kStandardCpp]
    | queryPaths =>
      rw [Ctx.step, Ctx.reportPaths] at h₁
      obtain ⟨r, hr1, h₁⟩ := C.bind_ok h₁
      obtain ⟨⟨c₂, e⟩, hg, hr1⟩ := C.bind_ok hr1
      cases hr1
      cases h₁
      exact fun _ => hget c c₂ e hi hg
    | mul compiled body =>
      rw [Ctx.step, Ctx.mul] at h₁
      dsimp only at h₁
      obtain ⟨s, hs, h₁⟩ := C.bind_ok h₁
      obtain ⟨p, hp, h₁⟩ := C.bind_ok h₁
      obtain ⟨adv, ha, h₁⟩ := C.bind_ok h₁
      cases h₁
      rw [Ctx.selectPath] at hs
      obtain ⟨r, hr1, hs⟩ := C.bind_ok hs
      obtain ⟨q, hq, hs⟩ := C.bind_ok hs
      cases hs
      exact fun _ => hget { c with advisory := false } r.1 r.2 hi hr1

/-- C33: as long as RUY_PATHS provides no paths, every Mul finds a path, whatever the history,
provided the portable path was compiled (as in kDefaultPaths).  Partial: with RUY_PATHS set this
fails, see `c33_env_no_path`. -/
theorem c33_path_found_partial (m : Machine) (h : List (Option (List Char) × Op)) (c : Ctx)
    (env : Option (List Char)) (compiled : Path) (body : Path → C Bool) (hh : NoEnv h)
    (he : envPaths env = .ok kNone) (hr : Ctx.run m h Ctx.new = .ok c)
    (hc : compiled.getLsbD 0 = true) (hb : ∀ p, ∃ b, body p = .ok b) :
    ∃ c', c.mul m env compiled body = .ok c' := by
  have hinv := portable_inv h hh (c := Ctx.new) (fun hne => absurd rfl hne) hr
  obtain ⟨c₁, e, hg, hbit⟩ : ∃ c₁ e, ({ c with advisory := false } : Ctx).getRuntimeEnabledPaths m env =
      .ok (c₁, e) ∧ e.getLsbD 0 = true := by
    by_cases hz : c.runtimeEnabledPaths = kNone
    · obtain ⟨c₂, d, h2, hd⟩ := c33_detection m env { c with advisory := false } hz he
      exact ⟨c₂, d, h2, hd 0⟩
    · exact ⟨_, _, get_set m env (c := { c with advisory := false }) hz, hinv hz⟩
  have hmask : compiled &&& e ≠ 0#8 := by
    intro hz
    have := congrArg (fun x => BitVec.getLsbD x 0) hz
    simp only [BitVec.getLsbD_and, hc, hbit] at this
    exact absurd this (by decide)
  obtain ⟨i, _, hms, hbi, _⟩ := mostSignificant_spec _ hmask
  rw [BitVec.getLsbD_and, Bool.and_eq_true] at hbi
  obtain ⟨b, hb⟩ := hb (1#8 <<< i)
  refine ⟨{ c₁ with lastUsedPath := 1#8 <<< i, advisory := c₁.advisory || b }, ?_⟩
  rw [Ctx.mul]
  dsimp only
  rw [Ctx.selectPath, hg]
  simp only [C.ok_bind]
  rw [hms]
  simp only [C.ok_bind]
  have := c35_dispatch compiled i hbi.1
  show (populateAllCompiledPaths compiled (1#8 <<< i) >>= _) = _
  rw [this]
  simp only [C.ok_bind]
  rw [hb]
  rfl

example : NoEnv [(none, .setPaths 0x30#8), (none, .queryPaths)] ∧
    (∃ c, Ctx.run haswell [(none, .setPaths 0x30#8), (none, .queryPaths)] Ctx.new = .ok c ∧
      c.runtimeEnabledPaths = 0x31#8) ∧ Platform.x86.defaultPaths.getLsbD 0 = true := by
  refine ⟨?_, ⟨⟨0, false, 0x31#8⟩, by decide +kernel, rfl⟩, by decide⟩
  intro x hx
  simp only [List.mem_cons, List.not_mem_nil, or_false] at hx
  rcases hx with rfl | rfl <;> rfl

/-- C33 is false with RUY_PATHS: unlike set_runtime_enabled_paths, the environment variable may
leave no compiled path enabled, and Mul stops (without assertions, the undefined __builtin_clz(0) is
evaluated).  The value "avx" is one: it parses as 0xa. -/
theorem c33_env_no_path (body : Path → C Bool) :
    Ctx.new.mul haswell (some "avx".toList) Platform.x86.defaultPaths body = .error .abort ∧
    (Ctx.new.getRuntimeEnabledPaths haswell (some "avx".toList)).map (·.2) = .ok 0x0a#8 := by
  have h : Ctx.selectPath { Ctx.new with advisory := false } haswell (some "avx".toList)
      Platform.x86.defaultPaths = .error .abort := by decide +kernel
  refine ⟨?_, by decide +kernel⟩
  rw [Ctx.mul]
  dsimp only
  rw [h]
  rfl

/-- C33: RUY_PATHS and set_runtime_enabled_paths are not checked against the CPU: a path that the
machine does not support is then used. -/
theorem c33_override_unsupported :
    (∃ c', Ctx.new.mul oldX86 (some "0x40".toList) Platform.x86.defaultPaths (fun _ => .ok false) =
      .ok c' ∧ c'.lastUsedPath = kAvx512) ∧
    (∃ c', (Ctx.new.setRuntimeEnabledPaths kAvx512).mul oldX86 none Platform.x86.defaultPaths
      (fun _ => .ok false) = .ok c' ∧ c'.lastUsedPath = kAvx512) ∧ Supported oldX86 6 = false := by
  refine ⟨⟨⟨kAvx512, false, 0x40#8⟩, by decide +kernel, rfl⟩,
    ⟨⟨kAvx512, false, 0x41#8⟩, by decide +kernel, rfl⟩, by decide⟩

/-- C33: a value of RUY_PATHS that is not a number stops the program. -/
theorem c33_env_not_a_number : envPaths (some "neon".toList) = .error .abort ∧
    envPaths (some "".toList) = .error .abort ∧
    envPaths (some "80000000".toList) = .error .abort := by decide

/-- C33: RUY_PATHS is reduced to eight bits before it is compared with zero. -/
example : envPaths (some "0x100".toList) = .ok kNone ∧ envPaths (some "-1".toList) = .ok 0xff#8 ∧
    envPaths (some "  0x31 rest".toList) = .ok 0x31#8 := by decide

/-! ### C34: enabled paths -/

/-- C34: after set_runtime_enabled_paths(p), p not none, whatever happens except another such call,
and whatever the environment, the enabled paths are exactly p and the portable path, and the public
query reports those of them that are not internal. -/
theorem c34_sticky (m : Machine) (c c' : Ctx) (p : Path) (hp : p ≠ kNone)
    (h : List (Option (List Char) × Op)) (hs : ∀ x ∈ h, ∀ q, x.2 ≠ .setPaths q)
    (hr : Ctx.run m h (c.setRuntimeEnabledPaths p) = .ok c') (env : Option (List Char)) :
    c'.getRuntimeEnabledPaths m env = .ok (c', p ||| kStandardCpp) ∧
    c'.reportPaths m env = .ok (c', (p ||| kStandardCpp) &&& m.platform.allPaths) := by
  have hset : (c.setRuntimeEnabledPaths p).runtimeEnabledPaths = p ||| kStandardCpp := by
    rw [Ctx.setRuntimeEnabledPaths, if_neg hp]; rfl
  have hne : p ||| kStandardCpp ≠ kNone := by
    intro hz
    have := congrArg (fun x => BitVec.getLsbD x 0) hz
    simp [kStandardCpp, kNone] at this
  have he := run_paths h hs (by rw [hset]; exact hne) hr
  rw [hset] at he
  have hg : c'.getRuntimeEnabledPaths m env = .ok (c', p ||| kStandardCpp) := by
    have := get_set m env (c := c') (by rw [he]; exact hne)
    rw [he] at this
    exact this
  exact ⟨hg, by rw [Ctx.reportPaths, hg]; rfl⟩

/-- C34: for a set of public paths the report is exactly `p` plus the portable path. -/
theorem c34_report_exact (m : Machine) (c c' : Ctx) (p : Path) (hp : p ≠ kNone)
    (hsub : ∀ i, p.getLsbD i = true → m.platform.allPaths.getLsbD i = true)
    (h : List (Option (List Char) × Op)) (hs : ∀ x ∈ h, ∀ q, x.2 ≠ .setPaths q)
    (hr : Ctx.run m h (c.setRuntimeEnabledPaths p) = .ok c') (env : Option (List Char)) :
    ∃ r, c'.reportPaths m env = .ok (c', r) ∧
      ∀ i, r.getLsbD i = true ↔ (p.getLsbD i = true ∨ i = 0) := by
  refine ⟨_, (c34_sticky m c c' p hp h hs hr env).2, fun i => ?_⟩
  have h0 : m.platform.allPaths.getLsbD 0 = true := by cases m.platform <;> decide
  have hstd : kStandardCpp.getLsbD i = true ↔ i = 0 := by
    by_cases hi : i < 8
    · have key : ∀ i, i < 8 → (kStandardCpp.getLsbD i = true ↔ i = 0) := by decide
      exact key i hi
    · rw [BitVec.getLsbD_of_ge _ i (by omega)]
      constructor
      · intro h; exact absurd h (by decide)
      · intro h; omega
  rw [BitVec.getLsbD_and, BitVec.getLsbD_or, Bool.and_eq_true, Bool.or_eq_true, hstd]
  constructor
  · rintro ⟨h1, _⟩; exact h1
  · rintro (h1 | rfl)
    · exact ⟨Or.inl h1, hsub i h1⟩
    · exact ⟨Or.inr rfl, h0⟩

example : (0x50#8 : Path) ≠ kNone ∧
    (∃ c', Ctx.run haswell [(some "1".toList, .queryPaths), (none, .mul 0x71#8 (fun _ => .ok false))]
      (Ctx.new.setRuntimeEnabledPaths 0x50#8) = .ok c' ∧ c'.lastUsedPath = kAvx512 ∧
      (c'.reportPaths haswell none).map (·.2) = .ok 0x51#8) := by
  refine ⟨by decide, ⟨⟨kAvx512, false, 0x51#8⟩, by decide +kernel, rfl, by decide +kernel⟩⟩

/-- C34, internal paths: the public query does not report them though they are enabled and used. -/
theorem c34_internal_hidden :
    let c := Ctx.new.setRuntimeEnabledPaths 0x08#8
    (c.reportPaths haswell none).map (·.2) = .ok kStandardCpp ∧
    ∃ c', c.mul haswell none Platform.x86.allPathsIncludingInternalVariants (fun _ => .ok false) =
      .ok c' ∧ c'.lastUsedPath = 0x08#8 := by
  refine ⟨by decide +kernel, ⟨⟨0x08#8, false, 0x09#8⟩, by decide +kernel, rfl⟩⟩

/-- C34: setting none restores detection. -/
theorem c34_none_restores (m : Machine) (c : Ctx) (env : Option (List Char))
    (he : envPaths env = .ok kNone) :
    ∃ c' r, (c.setRuntimeEnabledPaths kNone).reportPaths m env = .ok (c', r) ∧
      ∀ i, r.getLsbD i = (m.platform.allPaths.getLsbD i && Supported m i) := by
  obtain ⟨c', d, hd, hb⟩ := c33_detection m env (c.setRuntimeEnabledPaths kNone)
    (by rw [Ctx.setRuntimeEnabledPaths, if_pos rfl]) he
  refine ⟨c', d &&& m.platform.allPaths, by rw [Ctx.reportPaths, hd]; rfl, fun i => ?_⟩
  rw [BitVec.getLsbD_and, hb i, Bool.and_comm]

example : ((Ctx.new.setRuntimeEnabledPaths 0x40#8).setRuntimeEnabledPaths kNone |>.reportPaths
    haswell none).map (·.2) = .ok 0x31#8 := by decide +kernel

/-- C34: once a query (or a Mul) has determined the enabled paths, every later query gives the same
answer until they are set again, even if the environment changes. -/
theorem c34_repeatable (m : Machine) (c c₁ c₂ : Ctx) (env env' : Option (List Char)) (r : Path)
    (hq : c.reportPaths m env = .ok (c₁, r)) (h : List (Option (List Char) × Op))
    (hs : ∀ x ∈ h, ∀ q, x.2 ≠ .setPaths q) (hr : Ctx.run m h c₁ = .ok c₂) :
    c₂.reportPaths m env' = .ok (c₂, r) := by
  rw [Ctx.reportPaths] at hq
  obtain ⟨⟨c₃, e⟩, hg, hq⟩ := C.bind_ok hq
  cases hq
  obtain ⟨hc, hne⟩ := get_ok hg
  have hce : c₃.runtimeEnabledPaths = e := by rw [hc]
  have he := run_paths h hs (by rw [hce]; exact hne) hr
  rw [hce] at he
  have hg2 := get_set m env' (c := c₂) (by rw [he]; exact hne)
  rw [he] at hg2
  rw [Ctx.reportPaths, hg2]
  rfl

example : (Ctx.new.reportPaths haswell none).map (·.2) = .ok 0x31#8 := by decide +kernel

/-- C34: the portable path is always reported as long as RUY_PATHS provides no paths. -/
theorem c34_portable_kept_partial (m : Machine) (h : List (Option (List Char) × Op)) (c : Ctx)
    (env : Option (List Char)) (hh : NoEnv h) (he : envPaths env = .ok kNone)
    (hr : Ctx.run m h Ctx.new = .ok c) :
    ∃ c' r, c.reportPaths m env = .ok (c', r) ∧ r.getLsbD 0 = true := by
  have hinv := portable_inv h hh (c := Ctx.new) (fun hne => absurd rfl hne) hr
  have h0 : m.platform.allPaths.getLsbD 0 = true := by cases m.platform <;> decide
  by_cases hz : c.runtimeEnabledPaths = kNone
  · obtain ⟨c₂, d, h2, hd⟩ := c33_detection m env c hz he
    refine ⟨c₂, d &&& m.platform.allPaths, by rw [Ctx.reportPaths, h2]; rfl, ?_⟩
    rw [BitVec.getLsbD_and, hd 0, h0]; rfl
  · refine ⟨c, _, by rw [Ctx.reportPaths, get_set m env hz]; rfl, ?_⟩
    rw [BitVec.getLsbD_and, hinv hz, h0]; rfl

/-- C34 is false with RUY_PATHS: the portable path is lost. -/
theorem c34_env_loses_portable :
    ∃ c', Ctx.new.reportPaths haswell (some "20".toList) = .ok (c', kAvx2Fma) :=
  ⟨⟨0, false, kAvx2Fma⟩, by decide +kernel⟩

/-! ### C46: advisories -/

/-- C46: after a Mul, whatever happened before and whatever else than a Mul happens afterwards, the
advisory is reported if and only if that Mul raised it. -/
theorem c46_last_mul_only (m : Machine) (h₁ h₂ : List (Option (List Char) × Op)) (c : Ctx)
    (env : Option (List Char)) (compiled : Path) (body : Path → C Bool)
    (h₂m : ∀ x ∈ h₂, ∀ s b, x.2 ≠ .mul s b)
    (hr : Ctx.run m (h₁ ++ (env, .mul compiled body) :: h₂) Ctx.new = .ok c) :
    ∃ p, body p = .ok c.advisory ∧ c.lastUsedPath = p := by
  rw [run_append] at hr
  obtain ⟨c₁, _, hr⟩ := C.bind_ok hr
  rw [Ctx.run] at hr
  obtain ⟨c₂, hm, hr⟩ := C.bind_ok hr
  obtain ⟨i, e, _, hb, hl, _⟩ := c33_mul_uses_best c₁ c₂ m env none compiled body hm
  have hkeep : ∀ (h : List (Option (List Char) × Op)) (c c' : Ctx), (∀ x ∈ h, ∀ s b, x.2 ≠ .mul s b) →
      Ctx.run m h c = .ok c' → c'.advisory = c.advisory ∧ c'.lastUsedPath = c.lastUsedPath := by
    intro h
    induction h with
    | nil => intro c c' _ hr; cases hr; exact ⟨rfl, rfl⟩
    | cons x h ih =>
      intro c c' hx hr
      obtain ⟨env, op⟩ := x
      rw [Ctx.run] at hr
      obtain ⟨c₁, hs, hr⟩ := C.bind_ok hr
      obtain ⟨i1, i2⟩ := ih c₁ c' (fun y hy => hx y (by simp [hy])) hr
      rw [i1, i2]
      cases op with
      | setPaths p =>
        rw [Ctx.step] at hs
        cases hs
        unfold Ctx.setRuntimeEnabledPaths
        split <;> exact ⟨rfl, rfl⟩
      | queryPaths =>
        rw [Ctx.step, Ctx.reportPaths] at hs
        obtain ⟨r, hr1, hs⟩ := C.bind_ok hs
        obtain ⟨⟨c₃, e⟩, hg, hr1⟩ := C.bind_ok hr1
        cases hr1
        cases hs
        obtain ⟨hc, _⟩ := get_ok hg
        dsimp only at hc ⊢
        rw [hc]
        exact ⟨rfl, rfl⟩
      | mul s b => exact absurd rfl (hx (env, .mul s b) (by simp) s b)
  obtain ⟨k1, k2⟩ := hkeep h₂ c₂ c h₂m hr
  exact ⟨1#8 <<< i, by rw [k1]; exact hb, by rw [k2]; exact hl⟩

example : ∃ c, Ctx.run haswell ([(none, .mul 0x71#8 (fun _ => .ok true))] ++
    (none, .mul 0x71#8 (fun _ => .ok false)) :: [(none, .queryPaths)]) Ctx.new = .ok c ∧
    c.advisory = false := ⟨⟨kAvx2Fma, false, 0x3f#8⟩, by decide +kernel, rfl⟩

end Ruy.Ctx

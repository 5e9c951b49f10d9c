import Verif.Neon.Store
/-
The parts of the four stores that depend on the type of the destination.
-/
namespace Ruy.Neon
open Simd (wrap8 wrap16 wrap32 sqxtn16 sqadd16 sqxtun8 sqxtn8 saddw satS16 satU8 satS8 sat)

/-! ### Stores -/

theorem copy1 : CopyOk gemm20.body 1 := by
  intro e s
  have hm : (exec e gemm20.body s).m = store s (s.x tmpBuf) 0 16 (s.v 16) ∧
      (exec e gemm20.body s).bad = (s.bad || out e (s.x tmpBuf) 0 16) := by
    cases s; exact ⟨rfl, rfl⟩
  have hr : Same keepCopy s (exec e gemm20.body s) ∧ (exec e gemm20.body s).v = s.v ∧
      (exec e gemm20.body s).x 3 = s.x tmpBuf ∧ (exec e gemm20.body s).x 4 = s.x 4 ∧
      (exec e gemm20.body s).x 6 = .int 0 := by
    cases s; exact ⟨by keep, rfl, rfl, rfl, rfl⟩
  refine ⟨hr.1, hr.2.1, hr.2.2.1, hr.2.2.2.1, hr.2.2.2.2, fun ht hs => ?_⟩
  rw [hm.1, hm.2, ht, out_ptr (by omega), Bool.or_false]
  refine ⟨rfl, fun r hr' => wr_other hr', fun b hb => ?_⟩
  unfold store wr tileByte
  simp only [Val.region, Val.off]
  rw [if_pos ⟨trivial, by omega, by omega⟩]
  rw [show b - (0 + 0) = b % 16 by omega, show 16 + b / 16 = 16 by omega]

theorem copy2 : CopyOk gemm36.body 2 := by
  intro e s
  have hm : (exec e gemm36.body s).m =
        wr (store s (s.x tmpBuf) 0 16 (s.v 16)) (s.x tmpBuf).region ((s.x tmpBuf).off + 16) 16 (s.v 17) ∧
      (exec e gemm36.body s).bad = (s.bad || out e (s.x tmpBuf) 0 16 || out e (s.x tmpBuf) 16 16) := by
    cases s; exact ⟨rfl, rfl⟩
  have hr : Same keepCopy s (exec e gemm36.body s) ∧ (exec e gemm36.body s).v = s.v ∧
      (exec e gemm36.body s).x 3 = s.x tmpBuf ∧ (exec e gemm36.body s).x 4 = s.x 4 ∧
      (exec e gemm36.body s).x 6 = .int 0 := by
    cases s; exact ⟨by keep, rfl, rfl, rfl, rfl⟩
  refine ⟨hr.1, hr.2.1, hr.2.2.1, hr.2.2.2.1, hr.2.2.2.2, fun ht hs => ?_⟩
  rw [hm.1, hm.2, ht, out_ptr (by omega), out_ptr (by omega), Bool.or_false, Bool.or_false]
  refine ⟨rfl, fun r hr' => (wr_other hr').trans (wr_other hr'), fun b hb => ?_⟩
  unfold store wr tileByte
  simp only [Val.region, Val.off, true_and]
  split_ifs with h1 h2
  · rw [show b - (0 + 16) = b % 16 by omega, show 16 + b / 16 = 17 by omega]
  · rw [show b - (0 + 0) = b % 16 by omega, show 16 + b / 16 = 16 by omega]
  · omega

theorem copy4 : CopyOk gemm44.body 4 := by
  intro e s
  have hm : (exec e gemm44.body s).m =
        wr (wr (wr (store s (s.x tmpBuf) 0 16 (s.v 16)) (s.x tmpBuf).region ((s.x tmpBuf).off + 16) 16 (s.v 17))
          (s.x tmpBuf).region ((s.x tmpBuf).off + 32) 16 (s.v 18))
          (s.x tmpBuf).region ((s.x tmpBuf).off + 48) 16 (s.v 19) ∧
      (exec e gemm44.body s).bad = (s.bad || out e (s.x tmpBuf) 0 16 || out e (s.x tmpBuf) 16 16 ||
        out e (s.x tmpBuf) 32 16 || out e (s.x tmpBuf) 48 16) := by
    cases s; exact ⟨rfl, rfl⟩
  have hr : Same keepCopy s (exec e gemm44.body s) ∧ (exec e gemm44.body s).v = s.v ∧
      (exec e gemm44.body s).x 3 = s.x tmpBuf ∧ (exec e gemm44.body s).x 4 = s.x 4 ∧
      (exec e gemm44.body s).x 6 = .int 0 := by
    cases s; exact ⟨by keep, rfl, rfl, rfl, rfl⟩
  refine ⟨hr.1, hr.2.1, hr.2.2.1, hr.2.2.2.1, hr.2.2.2.2, fun ht hs => ?_⟩
  rw [hm.1, hm.2, ht, out_ptr (by omega), out_ptr (by omega), out_ptr (by omega), out_ptr (by omega),
    Bool.or_false, Bool.or_false, Bool.or_false, Bool.or_false]
  refine ⟨rfl, fun r hr' => (wr_other hr').trans
    ((wr_other hr').trans ((wr_other hr').trans (wr_other hr'))), fun b hb => ?_⟩
  unfold store wr tileByte
  simp only [Val.region, Val.off, true_and]
  split_ifs with h1 h2 h3 h4
  · rw [show b - (0 + 48) = b % 16 by omega, show 16 + b / 16 = 19 by omega]
  · rw [show b - (0 + 32) = b % 16 by omega, show 16 + b / 16 = 18 by omega]
  · rw [show b - (0 + 16) = b % 16 by omega, show 16 + b / 16 = 17 by omega]
  · rw [show b - (0 + 0) = b % 16 by omega, show 16 + b / 16 = 16 by omega]
  · omega

theorem fast1 : FastOk gemm25.body 1 := by
  intro e s
  have hr : Same keepCopy s (exec e gemm25.body s) ∧ (exec e gemm25.body s).v = s.v ∧
      (exec e gemm25.body s).bad = bad16 e s.bad (s.x 4) (s.x 11) 1 ∧
      (exec e gemm25.body s).m = st16 s.m (s.x 4) (s.x 11) 1 (fun i b => s.v 16 (i + b)) := by
    cases s; exact ⟨by keep, rfl, rfl, rfl⟩
  refine ⟨hr.1, hr.2.1, hr.2.2.1, _, ?_, hr.2.2.2⟩
  intro i hi b hb
  unfold tileByte
  rw [show 16 + (1 * i + b) / 16 = 16 by omega, show (1 * i + b) % 16 = i + b by omega]

theorem fast2 : FastOk gemm41.body 2 := by
  intro e s
  have hr : Same keepCopy s (exec e gemm41.body s) ∧ (exec e gemm41.body s).v = s.v ∧
      (exec e gemm41.body s).bad = bad16 e s.bad (s.x 4) (s.x 11) 2 ∧
      (exec e gemm41.body s).m = st16 s.m (s.x 4) (s.x 11) 2
        (fun i b => s.v (16 + i / 8) (2 * (i % 8) + b)) := by
    cases s; exact ⟨by keep, rfl, rfl, rfl⟩
  refine ⟨hr.1, hr.2.1, hr.2.2.1, _, ?_, hr.2.2.2⟩
  intro i hi b hb
  unfold tileByte
  rw [show (2 * i + b) / 16 = i / 8 by omega, show (2 * i + b) % 16 = 2 * (i % 8) + b by omega]

theorem fast4 : FastOk gemm49.body 4 := by
  intro e s
  have hr : Same keepCopy s (exec e gemm49.body s) ∧ (exec e gemm49.body s).v = s.v ∧
      (exec e gemm49.body s).bad = bad16 e s.bad (s.x 4) (s.x 11) 4 ∧
      (exec e gemm49.body s).m = st16 s.m (s.x 4) (s.x 11) 4
        (fun i b => s.v (16 + i / 4) (4 * (i % 4) + b)) := by
    cases s; exact ⟨by keep, rfl, rfl, rfl⟩
  refine ⟨hr.1, hr.2.1, hr.2.2.1, _, ?_, hr.2.2.2⟩
  intro i hi b hb
  unfold tileByte
  rw [show (4 * i + b) / 16 = i / 4 by omega, show (4 * i + b) % 16 = 4 * (i % 4) + b by omega]

theorem end1 : EndOk gemm26.body 1 2 := by
  intro e s
  cases s
  refine ⟨by keep, rfl, rfl, rfl, ?_, ?_⟩
  all_goals
    intro i hi
    interval_cases i <;> rfl

theorem end2 : EndOk gemm42.body 2 2 := by
  intro e s
  cases s
  refine ⟨by keep, rfl, rfl, rfl, ?_, ?_⟩
  all_goals
    intro i hi
    interval_cases i <;> rfl

theorem end4 : EndOk gemm50.body 4 4 := by
  intro e s
  cases s
  refine ⟨by keep, rfl, rfl, rfl, ?_, ?_⟩
  all_goals
    intro i hi
    interval_cases i <;> rfl

/-! ### Lanes -/

theorem wrap16_sat (x : Int) : wrap16 (satS16 x) = satS16 x := by
  unfold satS16 sat wrap16; split_ifs <;> omega

/-- SQXTN, SQXTN2: columns `a` and `b`. -/
def narrow (d a b : Vec) : Vec := vop .sqxtnS2 (vop .sqxtnS d a a) b b

theorem getH_narrow_lo (d a b : Vec) {u : Nat} (hu : u < 4) : getH (narrow d a b) u = sqxtn16 (getS a u) := by
  unfold narrow
  simp only [vop]
  rw [getH_upper_lo _ _ hu, getH_lower _ hu, getH_ofH]
  exact wrap16_sat _
theorem getH_narrow_hi (d a b : Vec) {u : Nat} : getH (narrow d a b) (4 + u) = sqxtn16 (getS b u) := by
  unfold narrow
  simp only [vop]
  rw [getH_upper_hi _ _ (by omega), getH_ofH, Nat.add_sub_cancel_left]
  exact wrap16_sat _

theorem getH_sqadd (d a z : Vec) (i : Nat) : getH (vop .sqaddH d a z) i = sqadd16 (getH a i) (getH z i) := by
  simp only [vop]
  rw [getH_ofH]
  exact wrap16_sat _

theorem getH_saddw (d a z : Vec) (i : Nat) : getS (vop .saddw d a z) i = saddw (getS a i) (getH z i) := by
  simp only [vop]
  rw [getS_ofS]
  exact Simd.wrap32_wrap32 _

theorem getU_range (v : Vec) (i : Nat) : 0 ≤ getU v i ∧ getU v i < 256 := by
  have := byte_lt (v i)
  unfold getU; omega
theorem getB_range (v : Vec) (i : Nat) : -128 ≤ getB v i ∧ getB v i < 128 := by
  unfold getB wrap8; omega
theorem getH_range (v : Vec) (i : Nat) : -32768 ≤ getH v i ∧ getH v i < 32768 := by
  unfold getH wrap16; omega

theorem getU_sqxtun_lo (d m m' a b : Vec) {i : Nat} (hi : i < 8) :
    getU (vop .sqxtun2 (vop .sqxtun d a m) b m') i = sqxtun8 (getH a i) := by
  simp only [vop]
  rw [getU_upper_lo _ _ hi, getU_lower _ hi, getU_ofB]
  unfold sqxtun8 satU8 sat; split_ifs <;> omega
theorem getU_sqxtun_hi (d m m' a b : Vec) {i : Nat} :
    getU (vop .sqxtun2 (vop .sqxtun d a m) b m') (8 + i) = sqxtun8 (getH b i) := by
  simp only [vop]
  rw [getU_upper_hi _ _ (by omega), getU_ofB, Nat.add_sub_cancel_left]
  unfold sqxtun8 satU8 sat; split_ifs <;> omega
theorem getB_sqxtn_lo (d m m' a b : Vec) {i : Nat} (hi : i < 8) :
    getB (vop .sqxtnH2 (vop .sqxtnH d a m) b m') i = sqxtn8 (getH a i) := by
  simp only [vop]
  rw [getB_upper_lo _ _ hi, getB_lower _ hi, getB_ofB]
  unfold sqxtn8 satS8 sat wrap8; split_ifs <;> omega
theorem getB_sqxtn_hi (d m m' a b : Vec) {i : Nat} :
    getB (vop .sqxtnH2 (vop .sqxtnH d a m) b m') (8 + i) = sqxtn8 (getH b i) := by
  simp only [vop]
  rw [getB_upper_hi _ _ (by omega), getB_ofB, Nat.add_sub_cancel_left]
  unfold sqxtn8 satS8 sat wrap8; split_ifs <;> omega

theorem getU_umax (d a b : Vec) (i : Nat) : getU (vop .umaxB d a b) i = max (getU a i) (getU b i) := by
  simp only [vop]
  rw [getU_ofB]
  have := getU_range a i
  have := getU_range b i
  omega
theorem getB_smax (d a b : Vec) (i : Nat) : getB (vop .smaxB d a b) i = max (getB a i) (getB b i) := by
  simp only [vop]
  rw [getB_ofB]
  have := getB_range a i
  have := getB_range b i
  unfold wrap8
  omega
theorem getH_smax (d a b : Vec) (i : Nat) : getH (vop .smaxH d a b) i = max (getH a i) (getH b i) := by
  simp only [vop]
  rw [getH_ofH]
  have := getH_range a i
  have := getH_range b i
  unfold wrap16
  omega

theorem u32_mod (x : Int) (k : Nat) (hk : k = 8 ∨ k = 16) : ((Job.u32 x % 2 ^ k : Nat) : Int) = x % 2 ^ k := by
  unfold Job.u32
  rcases hk with rfl | rfl <;> norm_num <;> omega

/-! ### Heads -/

/-- The zero point in all lanes, from lane 4 of register 13. -/
def zpV (s : St) : Vec := ofH fun _ => getH (s.v 13) 4

def addZp (d a b z : Vec) : Vec := vop .sqaddH (narrow d a b) (narrow d a b) z

/-- Two halves to bytes, then the two clamps. -/
def bytes8 (o1 o2 o3 o4 : VOp) (a b lo hi : Vec) : Vec :=
  vop o4 (vop o3 (vop o2 (vop o1 a a a) b b) (vop o2 (vop o1 a a a) b b) lo)
    (vop o3 (vop o2 (vop o1 a a a) b b) (vop o2 (vop o1 a a a) b b) lo) hi

def Widths (s s' : St) : Prop :=
  s'.x 1 = widthE (s.x rDstRows) (s.x rRow) ∧ s'.x 2 = widthE (s.x rDstCols) (s.x rCol) ∧
    s'.x 4 = s.x dstPtr ∧ s'.x dstPtr = s.x dstPtr ∧
    s'.z = (decide (sgn (widthE (s.x rDstRows) (s.x rRow)).num = sgn (Val.int 4).num) &&
      decide (sgn (widthE (s.x rDstCols) (s.x rCol)).num = sgn (Val.int 4).num))

theorem widths {j : Job} (hf : j.Fits) {p q : Nat} (hp : p ≤ j.rowSteps) (hq : q ≤ j.colSteps) {s s' : St}
    (hm : Mid j p q s) (h : Widths s s') :
    s'.x dstPtr = s.x dstPtr ∧ s'.x 1 = .int (rowsIn j p) ∧ s'.x 2 = .int (colsIn j q) ∧
      s'.x 4 = .ptr .dst (dstBlk j p q) ∧ s'.z = decide (rowsIn j p = 4 ∧ colsIn j q = 4) := by
  obtain ⟨h1, h2, h3, h4, h5⟩ := h
  have fr := hf.rows
  have fc := hf.cols
  have fr' := hf.rowIn
  have fc' := hf.colIn
  unfold Job.lastRow at fr'
  unfold Job.lastCol at fc'
  have e1 : widthE (s.x rDstRows) (s.x rRow) = .int (rowsIn j p) := by
    rw [hm.rows, hm.row]; exact widthE_eq fr (by omega)
  have e2 : widthE (s.x rDstCols) (s.x rCol) = .int (colsIn j q) := by
    rw [hm.cols, hm.col]; exact widthE_eq fc (by omega)
  rw [e1] at h1 h5
  rw [e2] at h2 h5
  have r4 : rowsIn j p ≤ 4 := by unfold rowsIn; omega
  have c4 : colsIn j q ≤ 4 := by unfold colsIn; omega
  refine ⟨h4, h1, h2, h3.trans hm.dp, ?_⟩
  rw [h5, sgn_eq (by omega) (by omega), sgn_eq (by omega) (by omega), Bool.decide_and]

end Ruy.Neon

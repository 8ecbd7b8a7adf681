import Verif.Props.RoundedWedge

/-!
# Computed tables of AOI losses
-/

namespace PVF

variable {ε : ℝ}

theorem aoiAngles_near (h0 : 0 ≤ ε) (h1 : ε < 1) (A : Arith ε) (n k : ℕ) :
    Near ε 3 (A.aoiAngles n k) (aoiLow n k) (aoiLow n k) := by
  have n0 : (0 : ℝ) ≤ 180 / n := by positivity
  have a1 : Near ε 1 (A.div 180 n) (180 / n) (180 / n) :=
    (near_self (abs_of_nonneg n0).le).round h0 h1 (A.div_err _ _)
  have k0 : Near ε 0 (k : ℝ) k k := near_self (abs_of_nonneg (by positivity)).le
  have a2 := (k0.mul h0 h1 a1).round h0 h1 (A.mul_err _ _)
  have a3 := (a2.add h0 h1 ((near_self (ε := ε) (abs_zero (α := ℝ)).le).mono h0 h1 (Nat.zero_le _))).round h0 h1
    (A.add_err _ _)
  simpa [aoiLow, aoiInterval, Arith.aoiAngles] using a3

theorem aoiStep_near (h0 : 0 ≤ ε) (h1 : ε < 1) (A : Arith ε) (n : ℕ) :
    Near ε 4 (A.aoiStep n) (180 / n) (180 / n) := by
  have := ((aoiAngles_near h0 h1 A n 1).sub h0 h1 (aoiAngles_near h0 h1 A n 0)).round h0 h1 (A.sub_err _ _)
  simpa [aoiLow, aoiInterval, Arith.aoiStep] using this

theorem aoiTop_near (h0 : 0 ≤ ε) (h1 : ε < 1) (A : Arith ε) (n k : ℕ) :
    Near ε 5 (A.add (A.aoiAngles n k) (A.aoiStep n)) (aoiHigh n k) (aoiHigh n k) :=
  (((aoiAngles_near h0 h1 A n k).mono h0 h1 (by omega)).add h0 h1 (aoiStep_near h0 h1 A n)).round h0 h1
    (A.add_err _ _)

theorem aoiMid_near (h0 : 0 ≤ ε) (h1 : ε < 1) (A : Arith ε) (n k : ℕ) :
    Near ε 6 (A.aoiMid n k) (aoiMiddle n k) (aoiMiddle n k) := by
  have two : Rel ε 0 2 2 := ⟨by simp, by simp⟩
  have a1 := ((aoiStep_near h0 h1 A n).div h0 h1 two (by norm_num)).round h0 h1 (A.div_err _ _)
  exact (((aoiAngles_near h0 h1 A n k).mono h0 h1 (by omega)).add h0 h1 a1).round h0 h1 (A.add_err _ _)

/-- Computed cosines of computed angles up to 180 degrees. -/
theorem cosine_near (h0 : 0 ≤ ε) (h1 : ε < 1) (A : TrigArith ε) {x' x : ℝ} (h : Near ε 5 x' x x)
    (hx1 : x ≤ 180) : |A.cosd x' - cosd x| ≤ cosineErr ε := by
  have p0 := Real.pi_pos
  have r1 : Near ε 5 (deg2rad x') (deg2rad x) (deg2rad x) := by
    have := h.mul h0 h1 (near_self (ε := ε) (x := Real.pi / 180) (abs_of_nonneg (by positivity)).le)
    have e : ∀ y : ℝ, y * (Real.pi / 180) = deg2rad y := fun y => by unfold deg2rad; ring
    simpa only [e, add_zero] using this
  have r2 : |A.deg2rad x' - deg2rad x| ≤ (grow ε ^ 6 - 1) * deg2rad x := (r1.round h0 h1 (A.deg2rad_err x')).1
  have m : deg2rad x ≤ Real.pi := by
    unfold deg2rad
    have := mul_le_mul_of_nonneg_right hx1 p0.le
    linarith
  have g := grow_pow_one h0 h1 6
  have r3 := r2.trans (mul_le_mul_of_nonneg_left m (by linarith))
  have c1 := A.cos_err (A.deg2rad x')
  have c2 := Real.abs_cos_sub_cos_le (A.deg2rad x') (deg2rad x)
  have c3 : ε * |Real.cos (A.deg2rad x')| ≤ ε := mul_le_of_le_one_right h0 (Real.abs_cos_le_one _)
  have c4 := abs_add_le (A.cos (A.deg2rad x') - Real.cos (A.deg2rad x'))
    (Real.cos (A.deg2rad x') - Real.cos (deg2rad x))
  rw [sub_add_sub_cancel] at c4
  unfold cosineErr TrigArith.cosd cosd
  linarith

/-- Computed view factors of sections. -/
theorem band_near (h0 : 0 ≤ ε) (h1 : ε < 1) (A : TrigArith ε) {n k : ℕ} (hk : k < n) :
    |A.vfBand (A.aoiAngles n k) (A.add (A.aoiAngles n k) (A.aoiStep n)) - vfBand (aoiLow n k) (aoiHigh n k)|
      ≤ bandErr ε := by
  have hh : aoiHigh n k ≤ 180 := by rw [aoiHigh_eq]; exact aoiLow_le hk
  have hlh : aoiLow n k ≤ aoiHigh n k := by rw [aoiHigh_eq]; exact aoiLow_mono (by omega)
  have c1 := abs_le.1 (cosine_near h0 h1 A ((aoiAngles_near h0 h1 A.toArith n k).mono h0 h1 (by omega))
    (hlh.trans hh))
  have c2 := abs_le.1 (cosine_near h0 h1 A (aoiTop_near h0 h1 A.toArith n k) hh)
  set x' := A.cosd (A.aoiAngles n k)
  set y' := A.cosd (A.add (A.aoiAngles n k) (A.aoiStep n))
  set x := cosd (aoiLow n k) with hx
  set y := cosd (aoiHigh n k) with hy
  have bx := abs_le.1 (Real.abs_cos_le_one (deg2rad (aoiLow n k)))
  have by' := abs_le.1 (Real.abs_cos_le_one (deg2rad (aoiHigh n k)))
  change -1 ≤ x ∧ x ≤ 1 at bx
  change -1 ≤ y ∧ y ≤ 1 at by'
  have s0 : |x - y| ≤ 2 := by rw [abs_le]; constructor <;> linarith [bx.1, bx.2, by'.1, by'.2]
  have s1 : |x' - y' - (x - y)| ≤ 2 * cosineErr ε := by
    rw [abs_le]; constructor <;> linarith [c1.1, c1.2, c2.1, c2.2]
  have s2 : |x' - y'| ≤ 2 + 2 * cosineErr ε := by
    have := abs_add_le (x - y) (x' - y' - (x - y))
    rw [add_sub_cancel] at this
    linarith
  set σ := 2 * cosineErr ε + ε * (2 + 2 * cosineErr ε) with hσ
  have s3 : |A.sub x' y' - (x - y)| ≤ σ := by
    have := abs_add_le (A.sub x' y' - (x' - y')) (x' - y' - (x - y))
    rw [sub_add_sub_cancel] at this
    linarith [A.sub_err x' y', mul_le_mul_of_nonneg_left s2 h0]
  have s4 : |(|A.sub x' y'| - |x - y|)| ≤ σ := (abs_abs_sub_abs_le_abs_sub _ _).trans s3
  have s5 : |A.sub x' y'| ≤ 2 + σ := by linarith [(abs_le.1 s4).2]
  have m := A.mul_err 0.5 |A.sub x' y'|
  rw [abs_mul, abs_abs, abs_of_nonneg (by norm_num : (0 : ℝ) ≤ 0.5)] at m
  have m2 := mul_le_mul_of_nonneg_left (mul_le_mul_of_nonneg_left s5 (by norm_num : (0 : ℝ) ≤ 0.5)) h0
  have t := abs_add_le (A.mul 0.5 |A.sub x' y'| - 0.5 * |A.sub x' y'|)
    (0.5 * |A.sub x' y'| - 0.5 * |x - y|)
  rw [sub_add_sub_cancel, ← mul_sub, abs_mul, abs_of_nonneg (by norm_num : (0 : ℝ) ≤ 0.5)] at t
  have e : bandErr ε = 0.5 * σ + ε * (0.5 * (2 + σ)) := by
    simp only [bandErr, ← hσ]; norm_num; ring
  unfold TrigArith.vfBand vfBand
  rw [e]
  linarith [mul_le_mul_of_nonneg_left s4 (by norm_num : (0 : ℝ) ≤ 0.5)]

/-- C112: the table of AOI losses is right up to rounding errors. -/
theorem C112_table (h0 : 0 ≤ ε) (h1 : ε < 1) (A : TrigArith ε) {n : ℕ} {d φ : ℝ} (f f' : ℝ → ℝ)
    (hf : ∀ x, 0 ≤ x → x ≤ 180 → 0 ≤ f x ∧ f x ≤ d)
    (hφ : ∀ k < n, |f' (A.aoiMid n k) - f ((k + 1 / 2) * (180 / n))| ≤ φ) :
    TableNear (A.aoiTable f' n) f n ((grow ε ^ 5 - 1) * 180) (integrandErr ε d φ) := by
  have g3 := grow_pow_one h0 h1 3
  have g5 := grow_pow_one h0 h1 5
  have g35 := grow_mono h0 h1 (by omega : 3 ≤ 5)
  have top : ∀ k < n, aoiHigh n k ≤ 180 := fun k hk => by rw [aoiHigh_eq]; exact aoiLow_le hk
  have hlh : ∀ k, aoiLow n k ≤ aoiHigh n k := fun k => by rw [aoiHigh_eq]; exact aoiLow_mono (by omega)
  refine ⟨fun k hk => ?_, fun k hk => ?_, fun k hk => ?_⟩
  · have e : aoiLow n k = (k : ℝ) * (180 / n) := rfl
    rw [← e]
    refine (aoiAngles_near h0 h1 A.toArith n k).1.trans ?_
    exact mul_le_mul (by linarith) ((hlh k).trans (top k hk)) (aoiLow_nonneg n k) (by linarith)
  · have e : aoiHigh n k = ((k : ℝ) + 1) * (180 / n) := by unfold aoiHigh aoiLow aoiInterval; ring
    rw [← e]
    exact (aoiTop_near h0 h1 A.toArith n k).1.trans (mul_le_mul_of_nonneg_left (top k hk) (by linarith))
  · have e1 : aoiHigh n k = ((k : ℝ) + 1) * (180 / n) := by unfold aoiHigh aoiLow aoiInterval; ring
    have e2 : aoiMiddle n k = ((k : ℝ) + 1 / 2) * (180 / n) := by unfold aoiMiddle aoiLow aoiInterval; ring
    have e3 : aoiLow n k = (k : ℝ) * (180 / n) := rfl
    have hφ' := hφ k hk
    rw [← e2] at hφ'
    rw [← e1, ← e2, ← e3, aoiHigh_eq, ← sectionVf hk]
    have hm := aoiMiddle_mem hk
    have hf' := hf _ hm.1 hm.2
    have b := band_near h0 h1 A hk
    have b0 := vfBand_nonneg (aoiLow n k) (aoiHigh n k)
    have b1 : vfBand (aoiLow n k) (aoiHigh n k) ≤ 1 := by
      rw [← sum_sections (by omega : 0 < n)]
      exact Finset.single_le_sum (f := fun k => vfBand (aoiLow n k) (aoiHigh n k)) (fun _ _ => vfBand_nonneg _ _)
        (Finset.mem_range.2 hk)
    set v' := A.vfBand (A.aoiAngles n k) (A.add (A.aoiAngles n k) (A.aoiStep n)) with hv'
    set v := vfBand (aoiLow n k) (aoiHigh n k)
    set y' := f' (A.aoiMid n k) with hy'
    set y := f (aoiMiddle n k)
    have φ0 := (abs_nonneg _).trans hφ'
    have ya : |y'| ≤ d + φ := by
      have := abs_add_le y (y' - y)
      rw [add_sub_cancel, abs_of_nonneg hf'.1] at this
      linarith [hf'.2]
    have va : |v'| ≤ 1 + bandErr ε := by
      have := abs_add_le v (v' - v)
      rw [add_sub_cancel, abs_of_nonneg b0] at this
      linarith
    have d0 : 0 ≤ d + φ := (abs_nonneg _).trans ya
    have m := A.mul_err y' v'
    have m1 : |y' * v'| ≤ (d + φ) * (1 + bandErr ε) := by
      rw [abs_mul]; exact mul_le_mul ya va (abs_nonneg _) d0
    have m2 : |y' * v' - y * v| ≤ (d + φ) * bandErr ε + φ := by
      have e : y' * v' - y * v = y' * (v' - v) + (y' - y) * v := by ring
      rw [e]
      refine (abs_add_le _ _).trans (add_le_add ?_ ?_)
      · rw [abs_mul]; exact mul_le_mul ya b (abs_nonneg _) d0
      · rw [abs_mul, abs_of_nonneg b0]
        exact (mul_le_mul hφ' b1 b0 φ0).trans (mul_one φ).le
    have t := abs_add_le (A.mul y' v' - y' * v') (y' * v' - y * v)
    rw [sub_add_sub_cancel] at t
    change |A.mul y' v' - y * v| ≤ _
    unfold integrandErr
    linarith [mul_le_mul_of_nonneg_left m1 h0]

/-- C112: errors of a computed fAOI function at the middle of sections. -/
theorem C112_smooth (h0 : 0 ≤ ε) (h1 : ε < 1) (A : TrigArith ε) {n : ℕ} {L φ : ℝ} (f f' : ℝ → ℝ)
    (hφ : ∀ x, |f' x - f x| ≤ φ) (hL : ∀ x y, |f x - f y| ≤ L * |x - y|) (hL0 : 0 ≤ L) :
    ∀ k < n, |f' (A.aoiMid n k) - f ((k + 1 / 2) * (180 / n))| ≤ φ + L * ((grow ε ^ 6 - 1) * 180) := by
  intro k hk
  have e2 : aoiMiddle n k = ((k : ℝ) + 1 / 2) * (180 / n) := by unfold aoiMiddle aoiLow aoiInterval; ring
  rw [← e2]
  have g := grow_pow_one h0 h1 6
  have m := (aoiMid_near h0 h1 A.toArith n k).1.trans
    (mul_le_mul_of_nonneg_left (aoiMiddle_mem hk).2 (by linarith))
  have t := abs_add_le (f' (A.aoiMid n k) - f (A.aoiMid n k)) (f (A.aoiMid n k) - f (aoiMiddle n k))
  rw [sub_add_sub_cancel] at t
  linarith [hφ (A.aoiMid n k), hL (A.aoiMid n k) (aoiMiddle n k), mul_le_mul_of_nonneg_left m hL0]

/-- C112: computed reflectivities from fAOI functions. -/
theorem C112_rho (h0 : 0 ≤ ε) (h1 : ε < 1) (A : TrigArith ε) {n : ℕ} (hn : 0 < n) {d φ : ℝ} (T : SumTree)
    (hT : T.leaves = Multiset.range n) (f f' : ℝ → ℝ) (hf : ∀ x, 0 ≤ x → x ≤ 180 → 0 ≤ f x ∧ f x ≤ d)
    (hφ : ∀ k < n, |f' (A.aoiMid n k) - f ((k + 1 / 2) * (180 / n))| ≤ φ) :
    let e := n * integrandErr ε d φ + (grow ε ^ n - 1) * (d + n * integrandErr ε d φ)
    |A.rhoFromFaoi T f' n - rhoFromFaoi f n| ≤ e + ε * (1 + d + e) := by
  intro e
  have tab := C112_table h0 h1 A f f' hf hφ
  set w := (A.aoiTable f' n).integrand with hw
  set κ := integrandErr ε d φ with hκ
  have ig : ∀ k < n, 0 ≤ aoiIntegrand f n k ∧ aoiIntegrand f n k ≤ d * vfBand (aoiLow n k) (aoiHigh n k) :=
    fun k hk => by
      have hm := aoiMiddle_mem hk
      have b0 := vfBand_nonneg (aoiLow n k) (aoiHigh n k)
      exact ⟨mul_nonneg (hf _ hm.1 hm.2).1 b0, mul_le_mul_of_nonneg_right (hf _ hm.1 hm.2).2 b0⟩
  have dsum : ∑ k ∈ Finset.range n, d * vfBand (aoiLow n k) (aoiHigh n k) = d := by
    rw [← Finset.mul_sum, sum_sections hn, mul_one]
  have S0 : 0 ≤ ∑ k ∈ Finset.range n, aoiIntegrand f n k :=
    Finset.sum_nonneg fun k hk => (ig k (Finset.mem_range.1 hk)).1
  have S1 : ∑ k ∈ Finset.range n, aoiIntegrand f n k ≤ d := by
    rw [← dsum]; exact Finset.sum_le_sum fun k hk => (ig k (Finset.mem_range.1 hk)).2
  have sN := (A.sum_near' h0 h1 w w (fun k => |w k|) (j := 0) (fun k => near_self le_rfl) T).2
  rw [hT, Multiset.card_range, zero_add] at sN
  have s1 : |A.sum w T - ∑ k ∈ Finset.range n, w k| ≤ (grow ε ^ n - 1) * ∑ k ∈ Finset.range n, |w k| := sN.1
  have s2 : ∑ k ∈ Finset.range n, |w k| ≤ d + n * κ := by
    have : ∀ k ∈ Finset.range n, |w k| ≤ d * vfBand (aoiLow n k) (aoiHigh n k) + κ := fun k hk => by
      have hk' := Finset.mem_range.1 hk
      have h2 := abs_add_le (aoiIntegrand f n k) (w k - aoiIntegrand f n k)
      rw [add_sub_cancel, abs_of_nonneg (ig k hk').1] at h2
      linarith [(tab.sections hk').2.2, (ig k hk').2]
    refine (Finset.sum_le_sum this).trans ?_
    rw [Finset.sum_add_distrib, dsum, Finset.sum_const, Finset.card_range, nsmul_eq_mul]
  have s3 : |∑ k ∈ Finset.range n, w k - ∑ k ∈ Finset.range n, aoiIntegrand f n k| ≤ n * κ := by
    rw [← Finset.sum_sub_distrib]
    refine (Finset.abs_sum_le_sum_abs _ _).trans ((Finset.sum_le_sum fun k hk =>
      (tab.sections (Finset.mem_range.1 hk)).2.2).trans ?_)
    rw [Finset.sum_const, Finset.card_range, nsmul_eq_mul]
  have g := grow_pow_one h0 h1 n
  have s5 := mul_le_mul_of_nonneg_left s2 (by linarith : 0 ≤ grow ε ^ n - 1)
  have s4 := abs_add_le (A.sum w T - ∑ k ∈ Finset.range n, w k)
    (∑ k ∈ Finset.range n, w k - ∑ k ∈ Finset.range n, aoiIntegrand f n k)
  rw [sub_add_sub_cancel] at s4
  have s6 : |A.sum w T - ∑ k ∈ Finset.range n, aoiIntegrand f n k| ≤ e := s4.trans (by linarith)
  have a6 := abs_le.1 s6
  have s7 : |1 - A.sum w T| ≤ 1 + d + e := by rw [abs_le]; constructor <;> linarith [a6.1, a6.2]
  have s8 := A.sub_err 1 (A.sum w T)
  have s9 := abs_le.1 (s8.trans (mul_le_mul_of_nonneg_left s7 h0))
  unfold TrigArith.rhoFromFaoi rhoFromFaoi
  rw [abs_le]
  constructor <;> linarith [s9.1, s9.2, a6.1, a6.2]

/-- C112: view factors of wedges with the computed table. -/
theorem C112_angles {τ d φ : ℝ} (h0 : 0 ≤ ε) (h1 : ε < 1) (A : TrigArith ε) {n : ℕ} (hn : 0 < n) (T : SumTree)
    (hT : T.leaves = Multiset.range n) (f f' : ℝ → ℝ) (hf : ∀ x, 0 ≤ x → x ≤ 180 → 0 ≤ f x ∧ f x ≤ d)
    (hφ : ∀ k < n, |f' (A.aoiMid n k) - f ((k + 1 / 2) * (180 / n))| ≤ φ)
    (hg : (grow ε ^ 5 - 1) * 180 ≤ τ) (h4 : 4 * τ < 180 / n) (x y x' y' : ℝ)
    (hx : |x' - x| ≤ τ) (hy : |y' - y| ≤ τ) (hw : 2 * TOL ≤ |y - x|)
    (hτ : TOL ≤ (1 - ε) * (2 * TOL - 2 * τ)) :
    |A.vfAoiAngles T (A.aoiTable f' n) x' y' - vfAoiAngles f n x y|
      ≤ d * (Real.pi / n) + n * integrandErr ε d φ + (grow ε ^ n - 1) * (d + n * integrandErr ε d φ) := by
  have tab := C112_table h0 h1 A f f' hf hφ
  exact C111_angles h0 h1 A.toArith hn T hT f hf _ ⟨fun k hk => (tab.low k hk).trans hg,
    fun k hk => (tab.high k hk).trans hg, tab.integrand⟩ h4 x y x' y' hx hy hw hτ

/-- The bound of the errors of an integrand for double precision and 300 sections is tiny. -/
theorem integrandErr_small : integrandErr (1 / 2 ^ 53) (9 / 10) (1 / 10 ^ 12) ≤ 1 / 10 ^ 11 := by
  have hp := Real.pi_lt_d2
  have g : (grow (1 / 2 ^ 53) ^ 6 - 1) * Real.pi ≤ 1 / 10 ^ 14 := by
    have g1 : grow (1 / 2 ^ 53) ^ 6 - 1 ≤ 1 / 10 ^ 15 := by norm_num [grow]
    have := mul_le_mul g1 hp.le Real.pi_pos.le (by norm_num)
    linarith
  have c : cosineErr (1 / 2 ^ 53) ≤ 1 / 10 ^ 13 := by unfold cosineErr; norm_num at g ⊢; linarith
  have b : bandErr (1 / 2 ^ 53) ≤ 1 / 10 ^ 12 := by simp only [bandErr]; norm_num at c ⊢; linarith
  unfold integrandErr
  norm_num at b ⊢
  linarith

/-- Witness for C112: the losses of a surface that lets 90 percent of the light through, in an arithmetic in which
all results are too large. -/
theorem C112_demo :
    let A := tooLargeTrig (1 / 2 ^ 53) (by norm_num)
    let f' : ℝ → ℝ := fun _ => 9 / 10 + 1 / 10 ^ 12
    |A.rhoFromFaoi (inOrder 299) f' 300 - rhoFromFaoi (fun _ => 9 / 10) 300| ≤ 1 / 10 ^ 6 ∧
    |A.vfAoiAngles (inOrder 299) (A.aoiTable f' 300) (90 + 1 / 10 ^ 9) 0 - vfAoiAngles (fun _ => 9 / 10) 300 90 0|
      ≤ 1 / 100 := by
  intro A f'
  have hg : grow (1 / 2 ^ 53) ^ 300 - 1 ≤ 1 / 10 ^ 7 := by
    have g1 : grow (1 / 2 ^ 53) ^ 100 ≤ 1 + 1 / 10 ^ 8 := by norm_num [grow]
    have g2 := pow_le_pow_left₀ (pow_nonneg (by norm_num [grow]) _) g1 3
    rw [← pow_mul] at g2
    have g3 : ((1 : ℝ) + 1 / 10 ^ 8) ^ 3 - 1 ≤ 1 / 10 ^ 7 := by norm_num
    linarith
  have hg0 := grow_pow_one (ε := 1 / 2 ^ 53) (by norm_num) (by norm_num) 300
  have hi := integrandErr_small
  have hs : (grow (1 / 2 ^ 53) ^ 300 - 1) * (9 / 10 + (300 : ℕ) * integrandErr (1 / 2 ^ 53) (9 / 10) (1 / 10 ^ 12))
      ≤ 1 / 10 ^ 7 := by
    have h1 : 9 / 10 + ((300 : ℕ) : ℝ) * integrandErr (1 / 2 ^ 53) (9 / 10) (1 / 10 ^ 12) ≤ 1 := by
      push_cast; linarith
    have := mul_le_mul_of_nonneg_left h1 (by linarith : 0 ≤ grow (1 / 2 ^ 53) ^ 300 - 1)
    linarith
  have hf : ∀ x : ℝ, 0 ≤ x → x ≤ 180 → (0 : ℝ) ≤ (fun _ : ℝ => (9 / 10 : ℝ)) x ∧ (fun _ : ℝ => (9 / 10 : ℝ)) x ≤ 9 / 10 :=
    fun _ _ _ => by norm_num
  have hφ : ∀ k < 300, |f' (A.aoiMid 300 k) - (fun _ : ℝ => (9 / 10 : ℝ)) ((k + 1 / 2) * (180 / (300 : ℕ)))|
      ≤ 1 / 10 ^ 12 := fun k _ => by
    rw [abs_le]; constructor <;> norm_num [f']
  constructor
  · have h := C112_rho (ε := 1 / 2 ^ 53) (by norm_num) (by norm_num) A (n := 300) (by norm_num) (inOrder 299)
      (by rw [inOrder_leaves]) _ f' hf hφ
    refine h.trans ?_
    generalize (grow (1 / 2 ^ 53) ^ 300 - 1) * (9 / 10 + (300 : ℕ) * integrandErr (1 / 2 ^ 53) (9 / 10) (1 / 10 ^ 12))
      = s at hs ⊢
    generalize integrandErr (1 / 2 ^ 53) (9 / 10) (1 / 10 ^ 12) = κ at hi ⊢
    norm_num at hs hi ⊢
    linarith
  · have h := C112_angles (ε := 1 / 2 ^ 53) (τ := 1 / 10 ^ 9) (by norm_num) (by norm_num) A (n := 300) (by norm_num)
      (inOrder 299) (by rw [inOrder_leaves]) _ f' hf hφ (by norm_num [grow]) (by norm_num) 90 0 (90 + 1 / 10 ^ 9) 0
      (by norm_num) (by norm_num) (by norm_num [TOL]) (by norm_num [TOL])
    refine h.trans ?_
    have hp := Real.pi_lt_d2
    generalize (grow (1 / 2 ^ 53) ^ 300 - 1) * (9 / 10 + (300 : ℕ) * integrandErr (1 / 2 ^ 53) (9 / 10) (1 / 10 ^ 12))
      = s at hs ⊢
    generalize integrandErr (1 / 2 ^ 53) (9 / 10) (1 / 10 ^ 12) = κ at hi ⊢
    norm_num at hs hi ⊢
    linarith

end PVF

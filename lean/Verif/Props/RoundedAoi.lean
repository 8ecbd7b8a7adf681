import Verif.Props.RoundedInverse
import Verif.Props.AbsorbedLight

/-!
# Absorbed light with AOI losses and rounding
-/

namespace PVF

theorem range_index {p : ArrayParams} (f : ℕ → ℝ) :
    ∑ j ∈ Finset.range (nTsSurfaces p + 1), f j = ∑ b ∈ surfaces p, f (surfIndex p b) + f (nTsSurfaces p) := by
  rw [Finset.sum_range_succ, sum_index' f]

/-- C110: absorbed light with AOI losses, for computed view factors and radiosities with errors. -/
theorem C110_absorbed {ε : ℝ} (h0 : 0 ≤ ε) (h1 : ε < 1) (A : Arith ε) (T : SumTree) (p : ArrayParams)
    (hT : T.leaves = Multiset.range (nTsSurfaces p + 1)) (V V' : ℕ → ℕ → ℝ) (q0 q0' abs' : SurfRef → ℝ)
    (sky sky' M S δ Z Z' : ℝ) (a : SurfRef)
    (hS : ∑ b ∈ surfaces p, |vfBetween p V a b| + |vfToSky p V a| ≤ S)
    (hV : ∑ b ∈ surfaces p, |vfBetween p V' a b - vfBetween p V a b| + |vfToSky p V' a - vfToSky p V a| ≤ δ)
    (hM : (∀ b ∈ surfaces p, |q0' b| ≤ M) ∧ |sky'| ≤ M)
    (hZ : ∀ b ∈ surfaces p, |q0' b - q0 b| ≤ Z) (hZs : |sky' - sky| ≤ Z) (absE : ℝ) (hZ' : |abs' a - absE| ≤ Z') :
    |A.absorbedOf T p V' q0' sky' abs' a
        - (∑ b ∈ surfaces p, vfBetween p V a b * q0 b + vfToSky p V a * sky + absE)|
      ≤ (grow ε ^ (nTsSurfaces p + 3) - 1) * ((S + δ) * M + |abs' a|) + δ * M + S * Z + Z' := by
  set q := fun j => withSky p q0' sky' (Fin.ofNat (nTsSurfaces p + 1) j) with hq
  have n2 := A.dot_near h0 h1 T hT (V' (surfIndex p a)) q
  have n3 := (n2.add h0 h1 ((near_self (ε := ε) (le_refl |abs' a|)).mono h0 h1
    (Nat.zero_le (nTsSurfaces p + 1 + 1)))).round h0 h1 (A.add_err _ _)
  have q1 := n3.1
  have hq1 : ∀ b ∈ surfaces p, q (surfIndex p b) = q0' b := (withSky_ofNat q0' sky').1
  have hq2 : q (nTsSurfaces p) = sky' := (withSky_ofNat q0' sky').2
  have M0 : 0 ≤ M := (abs_nonneg _).trans hM.2
  have Z0 : 0 ≤ Z := (abs_nonneg _).trans hZs
  have s1 : ∑ j ∈ Finset.range (nTsSurfaces p + 1), V' (surfIndex p a) j * q j
      = ∑ b ∈ surfaces p, vfBetween p V' a b * q0' b + vfToSky p V' a * sky' := by
    rw [range_index (fun j => V' (surfIndex p a) j * q j), hq2]
    refine congrArg (· + _) (Finset.sum_congr rfl fun b hb => ?_)
    rw [hq1 b hb]; rfl
  have row : ∑ b ∈ surfaces p, |vfBetween p V' a b| + |vfToSky p V' a| ≤ S + δ := by
    have one : ∀ x y : ℝ, |x| ≤ |y| + |x - y| := fun x y => by
      have := abs_add_le y (x - y)
      rwa [add_sub_cancel] at this
    have l1 := Finset.sum_le_sum fun b (_ : b ∈ surfaces p) => one (vfBetween p V' a b) (vfBetween p V a b)
    rw [Finset.sum_add_distrib] at l1
    linarith [one (vfToSky p V' a) (vfToSky p V a)]
  have s2 : ∑ j ∈ Finset.range (nTsSurfaces p + 1), |V' (surfIndex p a) j| * |q j| ≤ (S + δ) * M := by
    rw [range_index (fun j => |V' (surfIndex p a) j| * |q j|), hq2]
    refine le_trans ?_ (mul_le_mul_of_nonneg_right row M0)
    rw [add_mul, Finset.sum_mul]
    refine add_le_add (Finset.sum_le_sum fun b hb => ?_) (mul_le_mul_of_nonneg_left hM.2 (abs_nonneg _))
    rw [hq1 b hb]
    exact mul_le_mul_of_nonneg_left (hM.1 b hb) (abs_nonneg _)
  rw [s1] at q1
  have g := grow_pow_one h0 h1 (nTsSurfaces p + 3)
  have q2 := q1.trans (mul_le_mul_of_nonneg_left (add_le_add_left s2 |abs' a|) (by linarith))
  have d1 : |∑ b ∈ surfaces p, (vfBetween p V' a b - vfBetween p V a b) * q0' b
      + (vfToSky p V' a - vfToSky p V a) * sky'| ≤ δ * M := by
    refine le_trans ((abs_add_le _ _).trans (add_le_add (Finset.abs_sum_le_sum_abs _ _) (abs_mul _ _).le)) ?_
    refine le_trans ?_ (mul_le_mul_of_nonneg_right hV M0)
    rw [add_mul, Finset.sum_mul]
    refine add_le_add (Finset.sum_le_sum fun b hb => ?_) (mul_le_mul_of_nonneg_left hM.2 (abs_nonneg _))
    rw [abs_mul]
    exact mul_le_mul_of_nonneg_left (hM.1 b hb) (abs_nonneg _)
  have d2 : |∑ b ∈ surfaces p, vfBetween p V a b * (q0' b - q0 b) + vfToSky p V a * (sky' - sky)| ≤ S * Z := by
    refine le_trans ((abs_add_le _ _).trans (add_le_add (Finset.abs_sum_le_sum_abs _ _) (abs_mul _ _).le)) ?_
    refine le_trans ?_ (mul_le_mul_of_nonneg_right hS Z0)
    rw [add_mul, Finset.sum_mul]
    refine add_le_add (Finset.sum_le_sum fun b hb => ?_) (mul_le_mul_of_nonneg_left hZs (abs_nonneg _))
    rw [abs_mul]
    exact mul_le_mul_of_nonneg_left (hZ b hb) (abs_nonneg _)
  have e1 : A.absorbedOf T p V' q0' sky' abs' a
        - (∑ b ∈ surfaces p, vfBetween p V a b * q0 b + vfToSky p V a * sky + absE)
      = (A.absorbedOf T p V' q0' sky' abs' a
          - (∑ b ∈ surfaces p, vfBetween p V' a b * q0' b + vfToSky p V' a * sky' + abs' a))
        + (∑ b ∈ surfaces p, (vfBetween p V' a b - vfBetween p V a b) * q0' b
          + (vfToSky p V' a - vfToSky p V a) * sky')
        + (∑ b ∈ surfaces p, vfBetween p V a b * (q0' b - q0 b) + vfToSky p V a * (sky' - sky))
        + (abs' a - absE) := by
    simp only [sub_mul, mul_sub, Finset.sum_sub_distrib]
    ring
  rw [e1]
  exact (abs_add_le _ _).trans (add_le_add ((abs_add_le _ _).trans (add_le_add ((abs_add_le _ _).trans
    (add_le_add q2 d1)) d2)) hZ')

/-- C110: absorbed light that full mode with AOI methods computes with rounding errors from view factors with
errors, a nearly solved linear system, AOI view factors with errors and absorbed light from the sky with errors. -/
theorem C110_full_mode {ι : Type*} [Fintype ι] {ε : ℝ} (h0 : 0 ≤ ε) (h1 : ε < 1) (A : Arith ε) (T : SumTree)
    (p : ArrayParams) (hT : T.leaves = Multiset.range (nTsSurfaces p + 1)) (u : ι → StepIn) (s : ι → IrrStep)
    (m : AOIMethods) (o : ι → FullOut) (hrun : runFullMode p u s (fun t => some (asgAoiTs m p u t)) = some o)
    (hinv : ∀ t, InverseOk p (s t)) (t : ι) (hp : PhysicalArray p) (hst : PhysicalStep p (u t))
    (F' V' : ℕ → ℕ → ℝ) (e' q0' qinc' abs' : SurfRef → ℝ) (sky' r δ δ' η₁ η₂ η₃ M S Z' : ℝ)
    (hr : ∀ a ∈ surfaces p, 0 ≤ (s t).rho a ∧ (s t).rho a ≤ r) (hr1 : r < 1)
    (hF : ∀ a ∈ surfaces p, ∑ b ∈ surfaces p, |vfBetween p F' a b - vfBetween p (tsVfMatrix p u t) a b|
      + |vfToSky p F' a - vfToSky p (tsVfMatrix p u t) a| ≤ δ)
    (hsol : NearlySolved p F' (fun a => ((s t).comp a).sum) (s t).rho (s t).sky e' q0' qinc' sky' η₁ η₂ η₃ M)
    (a : SurfRef) (ha : a ∈ surfaces p)
    (hS : ∑ b ∈ surfaces p, |vfBetween p (o t).vfAoi a b| + |vfToSky p (o t).vfAoi a| ≤ S)
    (hV : ∑ b ∈ surfaces p, |vfBetween p V' a b - vfBetween p (o t).vfAoi a b|
      + |vfToSky p V' a - vfToSky p (o t).vfAoi a| ≤ δ')
    (hZ' : |abs' a - ((s t).compAbs a).sum| ≤ Z') :
    |A.absorbedOf T p V' q0' sky' abs' a - (o t).qabs a|
      ≤ (grow ε ^ (nTsSurfaces p + 3) - 1) * ((S + δ') * M + |abs' a|) + δ' * M
        + S * (r * ((η₁ + η₂ + η₃ + δ * M) / (1 - r)) + η₂) + Z' := by
  obtain ⟨hB, hsky⟩ := C06_radiosity p u s _ o hrun hinv t
  have hq := fullStep_qabs_some (p := p) (s := s t) (F := tsVfMatrix p u t) (asg := asgAoiTs m p u t) ha
  have h2 := (runFullMode_some hrun t).2
  have hv : (o t).vfAoi = applyAsg (tsVfMatrix p u t) (asgAoiTs m p u t) := by rw [h2]; rfl
  rw [← h2, ← hv, hsky] at hq
  have sys := C96_system p _ F' _ e' (s t).rho _ _ q0' qinc' (s t).sky sky' r δ η₁ η₂ η₃ M hB
    (C02_viewFactorsOk p u t hp hst) hr hr1 hF hsol
  have r0 : 0 ≤ r := (hr a ha).1.trans (hr a ha).2
  have x0 : 0 ≤ r * ((η₁ + η₂ + η₃ + δ * M) / (1 - r)) :=
    mul_nonneg r0 ((abs_nonneg _).trans (sys a ha).1)
  rw [hq]
  exact C110_absorbed h0 h1 A T p hT _ V' _ q0' abs' _ sky' M S δ' _ Z' a hS hV hsol.size
    (fun b hb => (sys b hb).2) (by linarith [hsol.sky]) _ hZ'

/-- C110 (witness).  The upper half of the back of the first of two vertical rows, in an arithmetic that makes
everything too large: AOI view factors that are too large by 1/1000 change the absorbed light only a little. -/
theorem C110_demo (t : Fin 3) :
    let v := inputAt halfPvlib (oneStep 90 270 45 270) 0
    let a := SurfRef.pv 0 .back 1 false
    let A := tooLarge (1 / 2 ^ 53) (by norm_num)
    ∃ o, runFullMode vertArray (fun _ => vertStep) (fun _ => isotropicStep faoiParams v)
        (fun t => some (asgAoiTs demoAoi vertArray (fun _ : Fin 3 => vertStep) t)) = some o ∧
      let S := ∑ b ∈ surfaces vertArray, |vfBetween vertArray (o t).vfAoi a b| + |vfToSky vertArray (o t).vfAoi a|
      let M := ∑ c ∈ surfaces vertArray, |(o t).q0 c| + 100
      |A.absorbedOf (inOrder 25) vertArray (fun i j => (o t).vfAoi i j + 1 / 1000) (o t).q0 100
          (fun a => ((isotropicStep faoiParams v).compAbs a).sum) a - (o t).qabs a|
        ≤ (grow (1 / 2 ^ 53) ^ 28 - 1) * ((S + 26 / 1000) * M
          + |((isotropicStep faoiParams v).compAbs a).sum|) + 26 / 1000 * M := by
  intro v a A
  have hloss : LossesOk faoiParams v := by
    refine ⟨demo_losses.front, demo_losses.back, ?_⟩
    have : v.albedo = 1 / 10 := rfl
    rw [this]; norm_num
  obtain ⟨o, ho⟩ := C07_isotropic vertArray (fun _ : Fin 3 => vertStep) faoiParams
    (fun _ => v) (fun t => some (asgAoiTs demoAoi vertArray (fun _ : Fin 3 => vertStep) t))
    (fun _ => hloss) vert_physicalArray (fun _ => vert_physicalStep)
  have hinv := hloss.inverse_isotropic vertArray
  have ha : a ∈ surfaces vertArray := vert_mem 1 (by norm_num) false
  have hcard : (surfaces vertArray).card = 25 := by
    have := range_index (p := vertArray) (fun _ => (1 : ℝ))
    rw [vert_count] at this
    simp only [Finset.sum_const, nsmul_eq_mul, mul_one, Finset.card_range] at this
    exact_mod_cast (add_right_cancel (this.symm.trans (by norm_num : ((25 + 1 : ℕ) : ℝ) = 25 + 1)))
  obtain ⟨hB, -⟩ := C06_radiosity vertArray _ _ _ o ho (fun _ => hinv) t
  have hsky : (isotropicStep faoiParams v).sky = 100 := rfl
  have hM : (∀ b ∈ surfaces vertArray, |(o t).q0 b| ≤ ∑ c ∈ surfaces vertArray, |(o t).q0 c| + 100) ∧
      |(100 : ℝ)| ≤ ∑ c ∈ surfaces vertArray, |(o t).q0 c| + 100 := by
    have p0 : 0 ≤ ∑ c ∈ surfaces vertArray, |(o t).q0 c| := Finset.sum_nonneg fun _ _ => abs_nonneg _
    refine ⟨fun b hb => ?_, by norm_num; exact p0⟩
    linarith [Finset.single_le_sum (f := fun c => |(o t).q0 c|) (fun _ _ => abs_nonneg _) hb]
  have hd : ∑ b ∈ surfaces vertArray, |vfBetween vertArray (fun i j => (o t).vfAoi i j + 1 / 1000) a b
      - vfBetween vertArray (o t).vfAoi a b| + |vfToSky vertArray (fun i j => (o t).vfAoi i j + 1 / 1000) a
      - vfToSky vertArray (o t).vfAoi a| ≤ 26 / 1000 := by
    simp only [vfBetween, vfToSky, add_sub_cancel_left, Finset.sum_const, hcard, nsmul_eq_mul]
    norm_num
  have := C110_full_mode (ε := 1 / 2 ^ 53) (by norm_num) (by norm_num) A (inOrder 25) vertArray
    (by rw [inOrder_leaves, vert_count]) (fun _ => vertStep) (fun _ => isotropicStep faoiParams v) demoAoi o ho
    (fun _ => hinv) t vert_physicalArray vert_physicalStep
    (tsVfMatrix vertArray (fun _ : Fin 3 => vertStep) t) (fun i j => (o t).vfAoi i j + 1 / 1000)
    (fun a => ((isotropicStep faoiParams v).comp a).sum) (o t).q0 (o t).qinc
    (fun a => ((isotropicStep faoiParams v).compAbs a).sum) 100 (1 / 2) 0 (26 / 1000) 0 0 0 _ _ 0
    (fun b _ => ?_) (by norm_num) (fun b _ => by simp)
    ⟨fun b _ => by simp, by simp [hsky],
      fun b hb => (abs_eq_zero.2 (sub_eq_zero.2 (hB.arriving b hb))).le,
      fun b hb => (abs_eq_zero.2 (sub_eq_zero.2 (hB.sent b hb))).le, hM⟩ a ha le_rfl hd (by simp)
  · rw [vert_count] at this
    refine ⟨o, ho, this.trans (le_of_eq ?_)⟩
    norm_num
  · change 0 ≤ rhoOf faoiParams v b ∧ rhoOf faoiParams v b ≤ 1 / 2
    have : v.albedo = 1 / 10 := rfl
    rcases b with _ | ⟨_, _ | _, _, _⟩ <;> norm_num [rhoOf, faoiParams, demoIrrParams, this]

end PVF

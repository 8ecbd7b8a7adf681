import Verif.Spec.Bounces
import Verif.Props.EndToEnd
import Verif.Props.FastDemo
import Mathlib.Analysis.SpecificLimits.Basic
import Mathlib.Topology.Algebra.InfiniteSum.Real

/-!
# C74: full mode adds up the light of all reflections; C75: sources and receivers can be exchanged
-/

namespace PVF

variable {ι : Type*} [Fintype ι]

section
variable {p : ArrayParams} {F : ℕ → ℕ → ℝ} {e rho : SurfRef → ℝ} {sky r M : ℝ}

/-- Each reflection leaves at most the share `r` of the light. -/
theorem abs_arriving_le (hF : ViewFactorsOk p F) (hr0 : ∀ a ∈ surfaces p, 0 ≤ rho a)
    (hr : ∀ a ∈ surfaces p, rho a ≤ r) (hr' : 0 ≤ r) (hM : 0 ≤ M)
    (h0 : ∀ a ∈ surfaces p, |e a + vfToSky p F a * sky| ≤ M) (k : ℕ) :
    ∀ a ∈ surfaces p, |arriving p F e rho sky k a| ≤ r ^ k * M := by
  induction k with
  | zero => intro a ha; simpa [arriving] using h0 a ha
  | succ k ih =>
    intro a ha
    have hB : 0 ≤ r ^ k * M := by positivity
    calc |arriving p F e rho sky (k + 1) a|
        ≤ ∑ b ∈ surfaces p, |vfBetween p F a b * (rho b * arriving p F e rho sky k b)| :=
          Finset.abs_sum_le_sum_abs _ _
      _ ≤ ∑ b ∈ surfaces p, vfBetween p F a b * (r * (r ^ k * M)) := by
          refine Finset.sum_le_sum fun b hb => ?_
          rw [abs_mul, abs_mul, abs_of_nonneg (hF.nonneg a ha b hb), abs_of_nonneg (hr0 b hb)]
          exact mul_le_mul_of_nonneg_left
            (mul_le_mul (hr b hb) (ih b hb) (abs_nonneg _) hr') (hF.nonneg a ha b hb)
      _ = (∑ b ∈ surfaces p, vfBetween p F a b) * (r * (r ^ k * M)) := by rw [Finset.sum_mul]
      _ ≤ 1 * (r * (r ^ k * M)) := by
          refine mul_le_mul_of_nonneg_right ?_ (by positivity)
          have := hF.sum_le a ha
          have := hF.nonneg_sky a ha
          linarith
      _ = r ^ (k + 1) * M := by ring

/-- The sum over all reflections solves the radiosity equations. -/
theorem hasSum_arriving {q0 qinc : SurfRef → ℝ} (hb : RadiosityBalance p F e rho sky q0 qinc)
    (hF : ViewFactorsOk p F) (hr : ∀ a ∈ surfaces p, 0 < rho a ∧ rho a < 1) :
    ∀ a ∈ surfaces p, HasSum (fun k => arriving p F e rho sky k a) (qinc a) := by
  obtain ⟨m, hm, hmax⟩ := (surfaces p).exists_max_image rho (surfaces_nonempty p)
  obtain ⟨m', hm', hmax'⟩ := (surfaces p).exists_max_image
    (fun a => |e a + vfToSky p F a * sky|) (surfaces_nonempty p)
  have hbd := abs_arriving_le (M := |e m' + vfToSky p F m' * sky|) (r := rho m) hF
    (fun a ha => (hr a ha).1.le) hmax (hr m hm).1.le (abs_nonneg _) hmax'
  have hsum : ∀ a ∈ surfaces p, Summable fun k => arriving p F e rho sky k a := fun a ha =>
    Summable.of_norm_bounded
      ((summable_geometric_of_lt_one (hr m hm).1.le (hr m hm).2).mul_right _)
      (fun k => by rw [Real.norm_eq_abs]; exact hbd k a ha)
  have hbal : RadiosityBalance p F e rho sky
      (fun a => rho a * ∑' k, arriving p F e rho sky k a)
      (fun a => ∑' k, arriving p F e rho sky k a) := by
    refine ⟨fun a ha => ?_, fun a _ => rfl⟩
    rw [(hsum a ha).tsum_eq_zero_add]
    have : ∑' k, arriving p F e rho sky (k + 1) a
        = ∑ b ∈ surfaces p, vfBetween p F a b * (rho b * ∑' k, arriving p F e rho sky k b) := by
      simp only [arriving]
      rw [Summable.tsum_finsetSum fun b hb => ((hsum b hb).mul_left _).mul_left _]
      refine Finset.sum_congr rfl fun b _ => ?_
      rw [tsum_mul_left, tsum_mul_left]
    rw [this]
    simp only [arriving]
    ring
  intro a ha
  rw [← (hbal.unique hb hF hr a ha).2]
  exact (hsum a ha).hasSum

/-- What is left after `n` steps. -/
theorem arriving_rest {q0 qinc : SurfRef → ℝ} (hb : RadiosityBalance p F e rho sky q0 qinc)
    (hF : ViewFactorsOk p F) (hr : ∀ a ∈ surfaces p, 0 < rho a ∧ rho a < 1) (hrr : ∀ a ∈ surfaces p,
      rho a ≤ r) (hr1 : r < 1) (h0 : ∀ a ∈ surfaces p, |e a + vfToSky p F a * sky| ≤ M) (n : ℕ) :
    ∀ a ∈ surfaces p,
      |qinc a - ∑ k ∈ Finset.range n, arriving p F e rho sky k a| ≤ r ^ n * M / (1 - r) := by
  intro a ha
  have hr0 : 0 ≤ r := (hr a ha).1.le.trans (hrr a ha)
  have hM : 0 ≤ M := (abs_nonneg _).trans (h0 a ha)
  have hbd := abs_arriving_le (M := M) (r := r) (e := e) (sky := sky) hF
    (fun a ha => (hr a ha).1.le) hrr hr0 hM h0
  have hs := hasSum_arriving hb hF hr a ha
  have h1 := hs.summable.sum_add_tsum_nat_add n
  rw [hs.tsum_eq] at h1
  have h2 : qinc a - ∑ k ∈ Finset.range n, arriving p F e rho sky k a
      = ∑' k, arriving p F e rho sky (k + n) a := by linarith
  rw [h2]
  have hg : HasSum (fun k => r ^ k * (r ^ n * M)) ((1 - r)⁻¹ * (r ^ n * M)) :=
    (hasSum_geometric_of_lt_one hr0 hr1).mul_right _
  have h3 := tsum_of_norm_bounded hg (f := fun k => arriving p F e rho sky (k + n) a) (fun k => by
    rw [Real.norm_eq_abs]
    refine (hbd (k + n) a ha).trans (le_of_eq ?_)
    rw [pow_add]; ring)
  rw [Real.norm_eq_abs] at h3
  refine h3.trans (le_of_eq ?_)
  rw [div_eq_inv_mul]

theorem arriving_nonneg (hF : ViewFactorsOk p F) (hr : ∀ a ∈ surfaces p, 0 < rho a ∧ rho a < 1)
    (he : ∀ a ∈ surfaces p, 0 ≤ e a) (hsky : 0 ≤ sky) (k : ℕ) :
    ∀ a ∈ surfaces p, 0 ≤ arriving p F e rho sky k a := by
  induction k with
  | zero => intro a ha; exact add_nonneg (he a ha) (mul_nonneg (hF.nonneg_sky a ha) hsky)
  | succ k ih =>
    intro a ha
    exact Finset.sum_nonneg fun b hb =>
      mul_nonneg (hF.nonneg a ha b hb) (mul_nonneg (hr b hb).1.le (ih b hb))

end

/-! ## C74 -/

/-- C74: the incident irradiance that full mode returns is the sum, over all numbers of
reflections, of the light arriving after so many reflections; the part without reflection is the
direct, circumsolar, horizon and isotropic light, and the stored reflected part is the sum over one
and more reflections. -/
theorem C74_reflections (p : ArrayParams) (u : ι → StepIn) (s : ι → IrrStep)
    (aoi : ι → Option (List Asg)) (o : ι → FullOut) (h : runFullMode p u s aoi = some o)
    (hs : ∀ t, InverseOk p (s t)) (hr : ∀ t, ReflectivitiesOk p (s t)) (hp : PhysicalArray p)
    (t : ι) (hu : PhysicalStep p (u t)) :
    let A := arriving p (tsVfMatrix p u t) (fun a => ((s t).comp a).sum) (s t).rho (s t).sky
    ∀ a ∈ surfaces p,
      HasSum (fun k => A k a) ((o t).qinc a) ∧
      HasSum (fun k => A (k + 1) a) ((o t).reflection a) ∧
      A 0 a = ((s t).comp a).sum + (o t).isotropic a := by
  intro A a ha
  have hF := C02_viewFactorsOk p u t hp hu
  have hsum := hasSum_arriving (C06_radiosity p u s aoi o h hs t).1 hF (hr t) a ha
  obtain ⟨h1, h2, -⟩ := C09_components p u s aoi o h hs t a ha
  have h3 : A 0 a = ((s t).comp a).sum + (o t).isotropic a := by
    rw [h2]; rfl
  refine ⟨hsum, ?_, h3⟩
  have h4 := (hasSum_nat_add_iff' 1).2 hsum
  have h5 : (o t).qinc a - ∑ k ∈ Finset.range 1, A k a = (o t).reflection a := by
    rw [Finset.sum_range_one, h3]; linarith
  rw [← h5]
  exact h4

/-- C74: stopping after `n` steps leaves out at most the share `rⁿ / (1 - r)` of the largest light
that comes from the sky, if no reflectivity is above `r`. -/
theorem C74_rest (p : ArrayParams) (u : ι → StepIn) (s : ι → IrrStep)
    (aoi : ι → Option (List Asg)) (o : ι → FullOut) (h : runFullMode p u s aoi = some o)
    (hs : ∀ t, InverseOk p (s t)) (hr : ∀ t, ReflectivitiesOk p (s t)) (hp : PhysicalArray p)
    (t : ι) (hu : PhysicalStep p (u t)) (r M : ℝ) (hrr : ∀ a ∈ surfaces p, (s t).rho a ≤ r)
    (hr1 : r < 1) (hM : ∀ a ∈ surfaces p, |((s t).comp a).sum + (o t).isotropic a| ≤ M) (n : ℕ) :
    let A := arriving p (tsVfMatrix p u t) (fun a => ((s t).comp a).sum) (s t).rho (s t).sky
    ∀ a ∈ surfaces p, |(o t).qinc a - ∑ k ∈ Finset.range n, A k a| ≤ r ^ n * M / (1 - r) := by
  intro A
  refine arriving_rest (C06_radiosity p u s aoi o h hs t).1 (C02_viewFactorsOk p u t hp hu) (hr t)
    hrr hr1 (fun a ha => ?_) n
  rw [← (C09_components p u s aoi o h hs t a ha).2.1]
  exact hM a ha

/-- C74: without negative light from the sky, stopping early always gives too little. -/
theorem C74_from_below (p : ArrayParams) (u : ι → StepIn) (s : ι → IrrStep)
    (aoi : ι → Option (List Asg)) (o : ι → FullOut) (h : runFullMode p u s aoi = some o)
    (hs : ∀ t, InverseOk p (s t)) (hr : ∀ t, ReflectivitiesOk p (s t)) (hp : PhysicalArray p)
    (t : ι) (hu : PhysicalStep p (u t)) (he : ∀ a ∈ surfaces p, 0 ≤ ((s t).comp a).sum)
    (hsky : 0 ≤ (s t).sky) (n : ℕ) :
    let A := arriving p (tsVfMatrix p u t) (fun a => ((s t).comp a).sum) (s t).rho (s t).sky
    ∀ a ∈ surfaces p, 0 ≤ A n a ∧ ∑ k ∈ Finset.range n, A k a ≤ (o t).qinc a := by
  intro A a ha
  have hF := C02_viewFactorsOk p u t hp hu
  have hn := arriving_nonneg hF (hr t) he hsky
  exact ⟨hn n a ha, sum_le_hasSum _ (fun k _ => hn k a ha)
    (hasSum_arriving (C06_radiosity p u s aoi o h hs t).1 hF (hr t) a ha)⟩

/-! ## C75 -/

/-- C75: two kinds of light on the same array at the same time, with the same reflectivities.  The
light that surfaces send out of the first kind, weighted by their length and by the light of the
second kind that they get from the sky, is the same with the kinds exchanged.  Each surface is a
point or longer than the tolerance at that time step. -/
theorem C75_exchange (p : ArrayParams) (u : ι → StepIn) (s s' : ι → IrrStep)
    (aoi aoi' : ι → Option (List Asg)) (o o' : ι → FullOut) (h : runFullMode p u s aoi = some o)
    (h' : runFullMode p u s' aoi' = some o') (hs : ∀ t, InverseOk p (s t))
    (hs' : ∀ t, InverseOk p (s' t)) (t : ι) (hrho : ∀ a ∈ surfaces p, (s t).rho a = (s' t).rho a)
    (hlen : ∀ a ∈ surfaces p, lengthAt p (u t) a = 0 ∨ lengthAt p (u t) a > TOL) :
    ∑ a ∈ surfaces p,
        lengthAt p (u t) a * (o t).q0 a * (((s' t).comp a).sum + (o' t).isotropic a)
      = ∑ a ∈ surfaces p,
        lengthAt p (u t) a * (o' t).q0 a * (((s t).comp a).sum + (o t).isotropic a) := by
  obtain ⟨hb, -⟩ := C06_radiosity p u s aoi o h hs t
  obtain ⟨hb', -⟩ := C06_radiosity p u s' aoi' o' h' hs' t
  set F := tsVfMatrix p u t with hFdef
  set L := lengthAt p (u t) with hL
  have key : ∀ (s₁ s₂ : ι → IrrStep) (o₁ o₂ : ι → FullOut),
      (∀ a ∈ surfaces p, (o₂ t).isotropic a = vfToSky p F a * (s₂ t).sky) →
      RadiosityBalance p F (fun a => ((s₂ t).comp a).sum) (s₂ t).rho (s₂ t).sky (o₂ t).q0
        (o₂ t).qinc →
      ∑ a ∈ surfaces p, L a * (o₁ t).q0 a * (((s₂ t).comp a).sum + (o₂ t).isotropic a)
        = ∑ a ∈ surfaces p, L a * (o₁ t).q0 a * (o₂ t).qinc a
          - ∑ a ∈ surfaces p, ∑ b ∈ surfaces p,
              L a * vfBetween p F a b * ((o₁ t).q0 a * (o₂ t).q0 b) := by
    intro s₁ s₂ o₁ o₂ hi hbal
    rw [← Finset.sum_sub_distrib]
    refine Finset.sum_congr rfl fun a ha => ?_
    have h1 := hbal.arriving a ha
    rw [hi a ha]
    have h2 : ∑ b ∈ surfaces p, L a * vfBetween p F a b * ((o₁ t).q0 a * (o₂ t).q0 b)
        = L a * (o₁ t).q0 a * ∑ b ∈ surfaces p, vfBetween p F a b * (o₂ t).q0 b := by
      rw [Finset.mul_sum]; exact Finset.sum_congr rfl fun b _ => by ring
    rw [h2, h1]; ring
  have hi : ∀ a ∈ surfaces p, (o t).isotropic a = vfToSky p F a * (s t).sky := fun a ha =>
    (C09_components p u s aoi o h hs t a ha).2.1
  have hi' : ∀ a ∈ surfaces p, (o' t).isotropic a = vfToSky p F a * (s' t).sky := fun a ha =>
    (C09_components p u s' aoi' o' h' hs' t a ha).2.1
  rw [key s s' o o' hi' hb', key s' s o' o hi hb]
  congr 1
  · refine Finset.sum_congr rfl fun a ha => ?_
    rw [hb.sent a ha, hb'.sent a ha, hrho a ha]; ring
  · rw [Finset.sum_comm]
    refine Finset.sum_congr rfl fun a ha => Finset.sum_congr rfl fun b hb => ?_
    rw [reciprocity_point hb ha (hlen b hb) (hlen a ha)]; ring

/-- C75 for light that falls on one surface only: what surface `b` sends out if only `a` gets light
from the sky, and what `a` sends out if only `b` does, are in the ratio of lengths and of the light
put in. -/
theorem C75_pair (p : ArrayParams) (u : ι → StepIn) (s s' : ι → IrrStep)
    (aoi aoi' : ι → Option (List Asg)) (o o' : ι → FullOut) (h : runFullMode p u s aoi = some o)
    (h' : runFullMode p u s' aoi' = some o') (hs : ∀ t, InverseOk p (s t))
    (hs' : ∀ t, InverseOk p (s' t)) (t : ι) (hrho : ∀ c ∈ surfaces p, (s t).rho c = (s' t).rho c)
    (hlen : ∀ c ∈ surfaces p, lengthAt p (u t) c = 0 ∨ lengthAt p (u t) c > TOL) (a b : SurfRef)
    (ha : a ∈ surfaces p) (hb : b ∈ surfaces p) (hsky : (s t).sky = 0) (hsky' : (s' t).sky = 0)
    (hone : ∀ c ∈ surfaces p, c ≠ a → ((s t).comp c).sum = 0)
    (hone' : ∀ c ∈ surfaces p, c ≠ b → ((s' t).comp c).sum = 0) :
    lengthAt p (u t) b * (o t).q0 b * ((s' t).comp b).sum
      = lengthAt p (u t) a * (o' t).q0 a * ((s t).comp a).sum := by
  have hx := C75_exchange p u s s' aoi aoi' o o' h h' hs hs' t hrho hlen
  have hi : ∀ c ∈ surfaces p, (o t).isotropic c = 0 := fun c hc => by
    rw [(C09_components p u s aoi o h hs t c hc).2.1, hsky, mul_zero]
  have hi' : ∀ c ∈ surfaces p, (o' t).isotropic c = 0 := fun c hc => by
    rw [(C09_components p u s' aoi' o' h' hs' t c hc).2.1, hsky', mul_zero]
  rw [Finset.sum_eq_single_of_mem b hb, Finset.sum_eq_single_of_mem a ha, hi a ha, hi' b hb,
    add_zero, add_zero] at hx
  · exact hx
  · intro c hc hca
    rw [hone c hc hca, hi c hc]; ring
  · intro c hc hcb
    rw [hone' c hc hcb, hi' c hc]; ring

/-! ## Instances -/

theorem demo_direct_le (a : SurfRef) : |(directCats demoIrrParams demoIrrIn).get a| ≤ 1000 := by
  have hc : ∀ x : ℝ, |1000 * cosd x| ≤ 1000 := fun x => by
    rw [abs_mul, abs_of_nonneg (by norm_num : (0 : ℝ) ≤ 1000)]
    have : |cosd x| ≤ 1 := Real.abs_cos_le_one _
    linarith
  have ht : ∀ x : ℝ, |x| ≤ 1000 → |throughModules demoIrrParams x| ≤ 1000 := fun x hx => by
    rw [throughModules]
    norm_num [demoIrrParams, abs_le] at hx ⊢
    constructor <;> linarith
  have h1 : |if demoIrrIn.aoiFront ≤ 90 then demoIrrIn.dni * cosd demoIrrIn.aoiFront else 0| ≤ 1000 := by
    split_ifs
    · exact hc _
    · norm_num
  have h2 : |if ¬ demoIrrIn.aoiFront ≤ 90 then demoIrrIn.dni * cosd demoIrrIn.aoiBack else 0|
      ≤ 1000 := by
    split_ifs
    · norm_num
    · exact hc _
  match a with
  | .gnd false _ _ => exact hc _
  | .gnd true _ _ => exact ht _ (hc _)
  | .pv _ .front _ false => exact h1
  | .pv _ .front _ true => exact ht _ h1
  | .pv _ .back _ false => exact h2
  | .pv _ .back _ true => exact ht _ h2

theorem demo_light_le (t : Fin 3) (o : Fin 3 → FullOut)
    (ho : runFullMode vertArray (fun _ => vertStep) (fun _ => isotropicStep demoIrrParams demoIrrIn)
      (fun _ => none) = some o) : ∀ a ∈ surfaces vertArray,
      |((isotropicStep demoIrrParams demoIrrIn).comp a).sum + (o t).isotropic a| ≤ 1100 := by
  intro a ha
  have h1 : ((isotropicStep demoIrrParams demoIrrIn).comp a).sum
      = (directCats demoIrrParams demoIrrIn).get a := by simp [isotropicStep]
  have h2 := (C09_components vertArray (fun _ : Fin 3 => vertStep) _ _ o ho
    (fun _ => demo_losses.inverse_isotropic vertArray) t a ha).2.1
  have hF := C02_viewFactorsOk vertArray (fun _ : Fin 3 => vertStep) t vert_physicalArray
    vert_physicalStep
  have h3 : vfToSky vertArray (tsVfMatrix vertArray (fun _ : Fin 3 => vertStep) t) a ≤ 1 := by
    have := hF.sum_le a ha
    have : 0 ≤ ∑ b ∈ surfaces vertArray,
        vfBetween vertArray (tsVfMatrix vertArray (fun _ : Fin 3 => vertStep) t) a b :=
      Finset.sum_nonneg fun b hb => hF.nonneg a ha b hb
    linarith
  have h4 := hF.nonneg_sky a ha
  have h5 : (isotropicStep demoIrrParams demoIrrIn).sky = 100 := rfl
  rw [h5] at h2
  have h6 : |(o t).isotropic a| ≤ 100 := by
    rw [h2, abs_of_nonneg (by positivity)]; linarith
  rw [h1]
  have := demo_direct_le a
  exact (abs_add_le _ _).trans (by linarith)

/-- C74 on vertical rows: ten steps give the incident irradiance of all surfaces to a thousandth of
a W/m2, of up to 1100 W/m2. -/
theorem C74_demo (t : Fin 3) :
    let s := isotropicStep demoIrrParams demoIrrIn
    let A := arriving vertArray (tsVfMatrix vertArray (fun _ : Fin 3 => vertStep) t)
      (fun a => (s.comp a).sum) s.rho s.sky
    ∃ o, runFullMode vertArray (fun _ => vertStep) (fun _ => s) (fun _ => none) = some o ∧
      ∀ a ∈ surfaces vertArray, |(o t).qinc a - ∑ k ∈ Finset.range 10, A k a| ≤ 1 / 1000 := by
  intro s A
  obtain ⟨o, ho⟩ := C07_isotropic vertArray (fun _ : Fin 3 => vertStep) demoIrrParams
    (fun _ => demoIrrIn) (fun _ => none) (fun _ => demo_losses) vert_physicalArray
    (fun _ => vert_physicalStep)
  refine ⟨o, ho, fun a ha => ?_⟩
  have hrho : ∀ a ∈ surfaces vertArray, (isotropicStep demoIrrParams demoIrrIn).rho a ≤ 1 / 5 := by
    intro a _
    match a with
    | .gnd _ _ _ => exact le_refl (1 / 5 : ℝ)
    | .pv _ .front _ _ => change (1 / 100 : ℝ) ≤ 1 / 5; norm_num
    | .pv _ .back _ _ => change (3 / 100 : ℝ) ≤ 1 / 5; norm_num
  have hM := demo_light_le t o ho
  have h := C74_rest vertArray (fun _ : Fin 3 => vertStep) _ _ o ho
    (fun _ => demo_losses.inverse_isotropic vertArray)
    (fun _ => demo_losses.reflectivities_isotropic vertArray) vert_physicalArray t
    vert_physicalStep (1 / 5) 1100 hrho (by norm_num) hM 10 a ha
  exact h.trans (by norm_num)

/-- C75 on vertical rows, between the light of the two irradiance models. -/
theorem C75_demo (t : Fin 3) :
    let u := fun _ : Fin 3 => vertStep
    let s := isotropicStep demoIrrParams demoIrrIn
    let s' := hybridPerezStep demoIrrParams vertArray (fitStep vertArray vertStep) demoIrrIn
    ∃ o o', runFullMode vertArray u (fun _ => s) (fun _ => none) = some o ∧
      runFullMode vertArray u (fun _ => s') (fun _ => none) = some o' ∧
      ∑ a ∈ surfaces vertArray,
          lengthAt vertArray vertStep a * (o t).q0 a * ((s'.comp a).sum + (o' t).isotropic a)
        = ∑ a ∈ surfaces vertArray,
          lengthAt vertArray vertStep a * (o' t).q0 a * ((s.comp a).sum + (o t).isotropic a) := by
  intro u s s'
  obtain ⟨o, ho⟩ := C07_isotropic vertArray u demoIrrParams
    (fun _ => demoIrrIn) (fun _ => none) (fun _ => demo_losses) vert_physicalArray
    (fun _ => vert_physicalStep)
  obtain ⟨o', ho'⟩ := C07_hybrid vertArray u demoIrrParams
    (fun _ => demoIrrIn) (fun _ => none) (fun _ => demo_losses) vert_physicalArray
    (fun _ => vert_physicalStep)
  refine ⟨o, o', ho, ho', ?_⟩
  exact C75_exchange vertArray u _ _ _ _ o o' ho ho'
    (fun _ => demo_losses.inverse_isotropic vertArray)
    (fun _ => demo_losses.inverse_hybrid vertArray _) t (fun a _ => rfl) vert_lengths

end PVF

import Verif.Lemmas.Wedge
import Verif.Model.Engine
import Verif.Props.Structure
import Verif.Props.Radiosity
import Verif.Props.Demo

/-!
# Angle of incidence losses: C31, C32, C39, C46
-/

namespace PVF
open Finset

/-! ## C31 -/

/-- With a positive number of sections: for an fAOI function with values in [0, 1] on [0, 180] the
derived reflectivity is in [0, 1]. -/
theorem C31_bounds {f : ℝ → ℝ} {n : ℕ} (hn : 0 < n)
    (hf : ∀ x, 0 ≤ x → x ≤ 180 → 0 ≤ f x ∧ f x ≤ 1) :
    0 ≤ rhoFromFaoi f n ∧ rhoFromFaoi f n ≤ 1 := by
  unfold rhoFromFaoi
  have h1 : 0 ≤ ∑ k ∈ range n, aoiIntegrand f n k := sum_nonneg fun k hk => by
    have hm := aoiMiddle_mem (mem_range.1 hk)
    exact mul_nonneg (hf _ hm.1 hm.2).1 (vfBand_nonneg _ _)
  have h2 : ∑ k ∈ range n, aoiIntegrand f n k ≤ 1 := by
    rw [← sum_sections hn]
    refine sum_le_sum fun k hk => ?_
    have hm := aoiMiddle_mem (mem_range.1 hk)
    exact mul_le_of_le_one_left (vfBand_nonneg _ _) (hf _ hm.1 hm.2).2
  constructor <;> linarith

/-- A constant fAOI function `c` gives reflectivity `1 - c`; so 0 if nothing is ever reflected. -/
theorem C31_constant (c : ℝ) {n : ℕ} (hn : 0 < n) : rhoFromFaoi (fun _ => c) n = 1 - c := by
  unfold rhoFromFaoi aoiIntegrand
  rw [← mul_sum, sum_sections hn, mul_one]

/-- More transmission, less reflectivity. -/
theorem C31_antitone {f g : ℝ → ℝ} {n : ℕ} (h : ∀ x, 0 ≤ x → x ≤ 180 → f x ≤ g x) :
    rhoFromFaoi g n ≤ rhoFromFaoi f n := by
  unfold rhoFromFaoi
  have : ∑ k ∈ range n, aoiIntegrand f n k ≤ ∑ k ∈ range n, aoiIntegrand g n k :=
    sum_le_sum fun k hk => by
      have hm := aoiMiddle_mem (mem_range.1 hk)
      exact mul_le_mul_of_nonneg_right (h _ hm.1 hm.2) (vfBand_nonneg _ _)
  linarith

/-- A function that transmits 90% everywhere but nothing at grazing angles below 10 degrees has a
reflectivity between 0.1 and 1 (default of 300 sections). -/
theorem C31_demo : 1 / 10 ≤ rhoFromFaoi (fun x => if x < 10 then 0 else 9 / 10) 300 ∧
    rhoFromFaoi (fun x => if x < 10 then 0 else 9 / 10) 300 ≤ 1 := by
  constructor
  · have := C31_antitone (f := fun x => if x < 10 then 0 else 9 / 10) (g := fun _ => 9 / 10) (n := 300)
      (fun x _ _ => by split_ifs <;> norm_num)
    rw [C31_constant _ (by norm_num)] at this
    linarith
  · refine (C31_bounds (by norm_num) fun x _ _ => ?_).2
    split_ifs <;> norm_num

/-! ## C32 -/

/-- The view factor of the wedge between two angles with AOI losses is never negative, 0 if nothing
is transmitted, and monotone in the fAOI function. -/
theorem C32_monotone {f g : ℝ → ℝ} {n : ℕ} (lo hi : ℝ)
    (h : ∀ x, 0 ≤ x → x ≤ 180 → 0 ≤ f x ∧ f x ≤ g x) :
    0 ≤ vfAoiWedge f n lo hi ∧ vfAoiWedge f n lo hi ≤ vfAoiWedge g n lo hi ∧
      vfAoiWedge (fun _ => 0) n lo hi = 0 := by
  classical
  unfold vfAoiWedge
  refine ⟨?_, ?_, ?_⟩
  · split_ifs
    · exact le_rfl
    · refine sum_nonneg fun k hk => ?_
      have hm := aoiMiddle_mem (mem_range.1 hk)
      split_ifs
      · exact mul_nonneg (h _ hm.1 hm.2).1 (vfBand_nonneg _ _)
      · exact le_rfl
  · split_ifs
    · exact le_rfl
    · refine sum_le_sum fun k hk => ?_
      have hm := aoiMiddle_mem (mem_range.1 hk)
      split_ifs
      · exact mul_le_mul_of_nonneg_right (h _ hm.1 hm.2).2 (vfBand_nonneg _ _)
      · exact le_rfl
  · simp [aoiIntegrand]

/-- Between `c` times the exact view factor of the wedge (`0.5 |cos lo - cos hi|`) and `d` times
the view factor of the wedge enlarged by one section on both sides, if `c ≤ f ≤ d`. -/
theorem C32_bounds {f : ℝ → ℝ} {c d : ℝ} {n : ℕ} (hn : 0 < n) {lo hi : ℝ} (h0 : 0 ≤ lo)
    (h1 : hi ≤ 180) (hT : TOL ≤ hi - lo) (hc : 0 ≤ c)
    (hf : ∀ x, 0 ≤ x → x ≤ 180 → c ≤ f x ∧ f x ≤ d) :
    c * (0.5 * |cosd lo - cosd hi|) ≤ vfAoiWedge f n lo hi ∧
    vfAoiWedge f n lo hi
      ≤ d * (0.5 * |cosd (max (lo - 180 / n) 0) - cosd (min (hi + 180 / n) 180)|) := by
  have hT0 : (0 : ℝ) < TOL := by unfold TOL; norm_num
  refine ⟨wedge_lower hn h0 h1 hT hc fun x a b => (hf x a b).1, ?_⟩
  exact wedge_upper hn h0 h1 (by linarith)
    (by have := hf 0 le_rfl (by norm_num); linarith [this.1, this.2])
    fun x a b => ⟨hc.trans (hf x a b).1, (hf x a b).2⟩

/-- A wedge gets at most what its two parts get: splitting a surface loses no light. -/
theorem C32_split {f : ℝ → ℝ} {n : ℕ} {lo mid hi : ℝ}
    (h1 : TOL ≤ mid - lo) (h2 : TOL ≤ hi - mid) (hf : ∀ x, 0 ≤ x → x ≤ 180 → 0 ≤ f x) :
    vfAoiWedge f n lo hi ≤ vfAoiWedge f n lo mid + vfAoiWedge f n mid hi := by
  classical
  have hT0 : (0 : ℝ) < TOL := by unfold TOL; norm_num
  rw [wedge_eq h1, wedge_eq h2, wedge_eq (by linarith), ← sum_add_distrib]
  refine sum_le_sum fun k hk => ?_
  have hm := aoiMiddle_mem (mem_range.1 hk)
  have hpos : 0 ≤ aoiIntegrand f n k := mul_nonneg (hf _ hm.1 hm.2) (vfBand_nonneg _ _)
  have hord : aoiLow n k ≤ aoiHigh n k := by rw [aoiHigh_eq]; exact aoiLow_mono (by omega)
  by_cases ha : lo ≤ aoiHigh n k ∧ hi > aoiLow n k
  · rw [if_pos ha]
    by_cases hb : mid > aoiLow n k
    · rw [if_pos ⟨ha.1, hb⟩]; split_ifs <;> linarith
    · rw [if_pos (c := mid ≤ aoiHigh n k ∧ _) ⟨by linarith, ha.2⟩]; split_ifs <;> linarith
  · rw [if_neg ha]; split_ifs <;> linarith

/-- But the parts may get more than the whole: a section in which the dividing angle lies, or that
ends exactly at the dividing angle, is counted twice.  Here both quarter spaces, without any loss
and with two sections: 1/2 and 1 instead of 1/2 and 1/2. -/
theorem C32_double_count :
    vfAoiWedge (fun _ => 1) 2 0 90 = 1 / 2 ∧ vfAoiWedge (fun _ => 1) 2 90 180 = 1 := by
  have hT : TOL ≤ 90 := by unfold TOL; norm_num
  constructor
  · rw [wedge_eq (by linarith)]
    simp only [sum_range_succ, range_zero, sum_empty, aoiHigh, aoiLow, aoiInterval, aoiIntegrand, vfBand]
    norm_num [cosd_zero, cosd_90, cosd_180]
  · rw [wedge_eq (by linarith)]
    simp only [sum_range_succ, range_zero, sum_empty, aoiHigh, aoiLow, aoiInterval, aoiIntegrand, vfBand]
    norm_num [cosd_zero, cosd_90, cosd_180]

/-- C32_bounds on a concrete wedge with the default number of sections. -/
theorem C32_demo : 9 / 10 * (0.5 * |cosd 0 - cosd 90|) ≤ vfAoiWedge (fun _ => 9 / 10) 300 0 90 :=
  (C32_bounds (d := 1) (by norm_num) le_rfl (by norm_num) (by unfold TOL; norm_num) (by norm_num)
    (fun _ _ _ => by norm_num)).1

/-! ## C39 -/

variable {ι : Type*} [Fintype ι]

/-- Without AOI methods the stored view factor matrix is the one of the array, which was used to
solve the system; its rows sum to one for every surface longer than the tolerance. -/
theorem C39_without_aoi (p : ArrayParams) (u : ι → StepIn) (s : ι → IrrStep) (o : ι → FullOut)
    (h : runFullMode p u s (fun _ => none) = some o) (t : ι) :
    (o t).vf = tsVfMatrix p u t ∧
    ∀ a ∈ surfaces p, ((fitStep p (u t)).coords a).length > TOL →
      ∑ b ∈ surfaces p, vfBetween p (o t).vf a b + vfToSky p (o t).vf a = 1 := by
  obtain ⟨_, h2⟩ := runFullMode_some h t
  have hv : (o t).vf = tsVfMatrix p u t := by rw [h2]; rfl
  refine ⟨hv, fun a ha hl => ?_⟩
  rw [hv]
  have hm := mem_surfaces.1 ha
  have := C01_row_sum p u t (surfIndex p a) (surfIndex_lt hm) (by rwa [surfLen_eq hm])
  rw [Finset.sum_range_succ, sum_index'] at this
  exact this

/-- With AOI methods the stored view factor matrix is the AOI matrix: the same array. -/
theorem C39_overwritten (m : AOIMethods) (p : ArrayParams) (u : ι → StepIn) (s : ι → IrrStep)
    (o : ι → FullOut) (h : runFullMode p u s (fun t => some (asgAoiTs m p u t)) = some o) (t : ι) :
    (o t).vf = (o t).vfAoi := by
  obtain ⟨_, h2⟩ := runFullMode_some h t
  rw [h2]; rfl

theorem vfAoiAngles_zero (n : ℕ) (x y : ℝ) : vfAoiAngles (fun _ => 0) n x y = 0 := by
  unfold vfAoiAngles vfAoiWedge
  simp [aoiIntegrand]

theorem vfAoiSurfSurf_zero (n : ℕ) (u : Pt) (a b : Line) (e1 e2 : Prop) :
    vfAoiSurfSurf (fun _ => 0) n u a b e1 e2 = 0 := by
  unfold vfAoiSurfSurf
  simp [vfAoiAngles_zero]

theorem vfAoiPvGnd_zero (n : ℕ) (u : Pt) (a : Line) (r N : ℕ) (tl : Prop) (full : ℕ → Line)
    (b : Line) (back left : Bool) (e1 e2 : Prop) :
    vfAoiPvGnd (fun _ => 0) n u a r N tl full b back left e1 e2 = 0 := by
  unfold vfAoiPvGnd
  simp [vfAoiAngles_zero]

/-- How wrong the stored matrix can be: with an fAOI function that transmits nothing, the stored
"view factors" of every PV surface are all zero, so the row sums to 0 instead of 1, although the
system was solved with rows that sum to 1. -/
theorem C39_not_view_factors (n : ℕ) (p : ArrayParams) (u : ι → StepIn) (s : ι → IrrStep)
    (o : ι → FullOut)
    (h : runFullMode p u s (fun t => some (asgAoiTs ⟨fun _ => 0, fun _ => 0, n⟩ p u t)) = some o)
    (t : ι) (r k : ℕ) (side : RowSide) (sh : Bool) (ha : SurfRef.pv r side k sh ∈ surfaces p) :
    ∑ b ∈ surfaces p, vfBetween p (o t).vf (.pv r side k sh) b
      + vfToSky p (o t).vf (.pv r side k sh) = 0 := by
  obtain ⟨_, h2⟩ := runFullMode_some h t
  have ha' := mem_surfaces.1 ha
  have hv : (o t).vf = applyAsg (tsVfMatrix p u t)
      (asgAoiTs ⟨fun _ => 0, fun _ => 0, n⟩ p u t) := by rw [h2]; rfl
  have hf : ∀ b, AOIMethods.faoi ⟨fun _ => 0, fun _ => 0, n⟩ b = fun _ => 0 := by
    intro b; cases b <;> rfl
  have h1 : ∀ b ∈ surfaces p, vfBetween p (o t).vf (.pv r side k sh) b = 0 := by
    intro b hb
    rw [hv, vfBetween]
    refine (asgAoi_entry ha' (mem_surfaces.1 hb)).trans ?_
    match b with
    | .gnd _ _ _ => simp only [aoiEntry, aoiPvGndEntry, hf, vfAoiPvGnd_zero]
    | .pv _ _ _ _ => simp only [aoiEntry, aoiPvPvEntry, hf, vfAoiSurfSurf_zero, ite_self]
  rw [Finset.sum_eq_zero h1, hv, vfToSky]
  rw [zero_add]
  refine (asgAoi_sky ha').trans ?_
  simp only [aoiSkyEntry, hf, vfAoiSurfSurf_zero]

/-! ## C46 -/

theorem fullStep_qabs_some {p : ArrayParams} {s : IrrStep} {F : ℕ → ℕ → ℝ} {asg : List Asg}
    {a : SurfRef} (ha : a ∈ surfaces p) :
    (fullStep p s F (some asg)).qabs a
      = ∑ b ∈ surfaces p, vfBetween p (applyAsg F asg) a b * (fullStep p s F (some asg)).q0 b
        + vfToSky p (applyAsg F asg) a * (fullStep p s F (some asg)).q0Sky + (s.compAbs a).sum := by
  have hqabs : (fullStep p s F (some asg)).qabs a
      = ∑ k : Fin (nTsSurfaces p + 1), applyAsg F asg (fidx p a : ℕ) k
          * ((aMat p s F)⁻¹.mulVec (irradianceVec p s)) k
        + withSky p (fun a => sumComponents (s.compAbs a)) 0 (fidx p a) := rfl
  rw [hqabs, sum_fin_index, withSky_surf ha, sumComponents_eq, fidx_val ha]
  congr 2
  exact Finset.sum_congr rfl fun b hb => by rw [fidx_val hb]; rfl

/-- C46: with AOI methods, the absorbed irradiance of a ground surface is the incident irradiance
minus the albedo times the direct part only: the light that the ground receives from the sky and
from the rows counts as fully absorbed, although the same run reflects the fraction `albedo` of it.
(Isotropic and hybrid Perez model.) -/
theorem C46_ground_absorbed (m : AOIMethods) (p : ArrayParams) (u : ι → StepIn) (s : ι → IrrStep)
    (o : ι → FullOut) (h : runFullMode p u s (fun t => some (asgAoiTs m p u t)) = some o)
    (hs : ∀ t, InverseOk p (s t)) (t : ι) (sh : Bool) (e z : ℕ)
    (ha : SurfRef.gnd sh e z ∈ surfaces p)
    (habs : ((s t).compAbs (.gnd sh e z)).sum
      = (1 - (s t).rho (.gnd sh e z)) * ((s t).comp (.gnd sh e z)).sum) :
    (o t).qabs (.gnd sh e z) = (o t).qinc (.gnd sh e z)
      - (s t).rho (.gnd sh e z) * ((s t).comp (.gnd sh e z)).sum := by
  obtain ⟨hb, hsky⟩ := C06_radiosity p u s _ o h hs t
  obtain ⟨hdet, h2⟩ := runFullMode_some h t
  have hq := fullStep_qabs_some (p := p) (s := s t) (F := tsVfMatrix p u t)
    (asg := asgAoiTs m p u t) ha
  rw [← h2, hsky, habs] at hq
  have hrow : ∀ j, applyAsg (tsVfMatrix p u t) (asgAoiTs m p u t) (surfIndex p (.gnd sh e z)) j
      = tsVfMatrix p u t (surfIndex p (.gnd sh e z)) j := fun j =>
    asgAoi_gnd (mem_surfaces.1 ha) j
  have hsum : ∑ b ∈ surfaces p, vfBetween p (applyAsg (tsVfMatrix p u t) (asgAoiTs m p u t))
      (.gnd sh e z) b * (o t).q0 b
      = ∑ b ∈ surfaces p, vfBetween p (tsVfMatrix p u t) (.gnd sh e z) b * (o t).q0 b :=
    Finset.sum_congr rfl fun b _ => by rw [vfBetween, hrow, vfBetween]
  rw [hsum, vfToSky, hrow] at hq
  have harr := hb.arriving _ ha
  rw [hq, harr, vfToSky]
  ring

theorem isotropic_ground_compAbs (q : IrrParams) (v : IrrIn) (sh : Bool) (e z : ℕ) :
    ((isotropicStep q v).compAbs (.gnd sh e z)).sum
      = (1 - (isotropicStep q v).rho (.gnd sh e z)) * ((isotropicStep q v).comp (.gnd sh e z)).sum := by
  simp [isotropicStep, faoiDirectOf, rhoOf]

theorem hybrid_ground_compAbs (q : IrrParams) (p : ArrayParams) (g : StepGeom) (v : IrrIn)
    (sh : Bool) (e z : ℕ) :
    ((hybridPerezStep q p g v).compAbs (.gnd sh e z)).sum
      = (1 - (hybridPerezStep q p g v).rho (.gnd sh e z))
        * ((hybridPerezStep q p g v).comp (.gnd sh e z)).sum := by
  simp [hybridPerezStep, faoiDirectOf, rhoOf, horizonOf, horizonAbsOf]
  ring

/-- C46 for the isotropic model: the fraction `albedo` of the diffuse light on the ground is counted
both as absorbed and as sent out. -/
theorem C46_isotropic (m : AOIMethods) (p : ArrayParams) (u : ι → StepIn) (q : IrrParams)
    (v : ι → IrrIn) (o : ι → FullOut)
    (h : runFullMode p u (fun t => isotropicStep q (v t)) (fun t => some (asgAoiTs m p u t)) = some o)
    (hf : q.rhoFront ≠ 0) (hb : q.rhoBack ≠ 0) (hal : ∀ t, (v t).albedo ≠ 0) (t : ι) (sh : Bool)
    (e z : ℕ) (ha : SurfRef.gnd sh e z ∈ surfaces p) :
    (o t).qabs (.gnd sh e z) + (o t).q0 (.gnd sh e z) = (o t).qinc (.gnd sh e z)
      + (v t).albedo * ((o t).qinc (.gnd sh e z) - (directCats q (v t)).get (.gnd sh e z)) := by
  have hs : ∀ t, InverseOk p (isotropicStep q (v t)) := fun t =>
    isotropic_inverseOk p q (v t) hf hb (hal t)
  have h1 := C46_ground_absorbed m p u _ o h hs t sh e z ha
    (isotropic_ground_compAbs q (v t) sh e z)
  have h2 := (C06_radiosity p u _ _ o h hs t).1.sent _ ha
  rw [h1, h2]
  simp [isotropicStep, rhoOf]
  ring

end PVF

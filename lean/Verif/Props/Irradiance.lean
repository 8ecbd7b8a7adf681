import Verif.Model.AOI
import Verif.Spec.Light
import Verif.Lemmas.Trig
import Mathlib.Analysis.SpecialFunctions.Trigonometric.Bounds
import Mathlib.Algebra.BigOperators.Fin
import Mathlib.Tactic.Linarith
import Mathlib.Tactic.LinearCombination

/-!
# Irradiance models: C33, C34, C35, C36, C44, C45
-/

namespace PVF

/-! ## C33 -/

/-- Two surfaces of the same kind, one shaded, one not: the shaded one gets the fraction
`s + (1 - s) t` of the direct light, in the isotropic model. -/
theorem C33_isotropic (q : IrrParams) (v : IrrIn) (a b : SurfRef) (hk : a.kind = b.kind)
    (ha : a.isShaded = true) (hb : b.isShaded = false) :
    (isotropicStep q v).comp a
      = ((isotropicStep q v).comp b).map
        fun x => (q.moduleSpacingRatio + (1 - q.moduleSpacingRatio) * q.moduleTransparency) * x := by
  rcases a with ⟨sa, ea, za⟩ | ⟨ra, sda, ka, sha⟩ <;> rcases b with ⟨sb, eb, zb⟩ | ⟨rb, sdb, kb, shb⟩ <;>
    (try cases sda) <;> (try cases sdb) <;>
    simp [SurfRef.kind, SurfRef.isShaded] at hk ha hb <;> subst ha <;> subst hb <;>
    simp [isotropicStep, Cats.get, directCats, throughModules] <;> (try split_ifs) <;> ring

/-- The same for the direct and circumsolar components of the hybrid Perez model. -/
theorem C33_hybrid (q : IrrParams) (p : ArrayParams) (g : StepGeom) (v : IrrIn) (a b : SurfRef)
    (hk : a.kind = b.kind) (ha : a.isShaded = true) (hb : b.isShaded = false) :
    ((hybridPerezStep q p g v).comp a).take 2
      = (((hybridPerezStep q p g v).comp b).take 2).map
        fun x => (q.moduleSpacingRatio + (1 - q.moduleSpacingRatio) * q.moduleTransparency) * x := by
  rcases a with ⟨sa, ea, za⟩ | ⟨ra, sda, ka, sha⟩ <;> rcases b with ⟨sb, eb, zb⟩ | ⟨rb, sdb, kb, shb⟩ <;>
    (try cases sda) <;> (try cases sdb) <;>
    simp [SurfRef.kind, SurfRef.isShaded] at hk ha hb <;> subst ha <;> subst hb <;>
    simp [hybridPerezStep, Cats.get, directCats, circumsolarCats, throughModules] <;>
    constructor <;> (try split_ifs) <;> ring

/-- The fraction lies in [0, 1], is 0 for opaque modules without spacing and 1 for full
transparency or for spacing ratio 1, and grows with both parameters. -/
theorem C33_fraction {s t : ℝ} (hs0 : 0 ≤ s) (hs1 : s ≤ 1) (ht0 : 0 ≤ t) (ht1 : t ≤ 1) :
    0 ≤ s + (1 - s) * t ∧ s + (1 - s) * t ≤ 1 ∧ (0 : ℝ) + (1 - 0) * 0 = 0
      ∧ s + (1 - s) * 1 = 1 ∧ 1 + (1 - 1) * t = 1
      ∧ (∀ s' t', s ≤ s' → s' ≤ 1 → t ≤ t' → s + (1 - s) * t ≤ s' + (1 - s') * t') := by
  refine ⟨by nlinarith, by nlinarith, by norm_num, by ring, by ring, ?_⟩
  intro s' t' h1 h2 h3
  nlinarith [mul_nonneg (sub_nonneg.2 h1) (sub_nonneg.2 ht1),
    mul_nonneg (sub_nonneg.2 h2) (sub_nonneg.2 h3)]

/-- Direct and circumsolar light on a shaded surface lie between 0 and the light on an illuminated
one of the same kind, whenever the latter is not negative. -/
theorem C33_between (q : IrrParams) (p : ArrayParams) (g : StepGeom) (v : IrrIn) (a b : SurfRef)
    (hk : a.kind = b.kind) (ha : a.isShaded = true) (hb : b.isShaded = false)
    (hs0 : 0 ≤ q.moduleSpacingRatio) (hs1 : q.moduleSpacingRatio ≤ 1)
    (ht0 : 0 ≤ q.moduleTransparency) (ht1 : q.moduleTransparency ≤ 1) (k : ℕ) (hk2 : k < 2)
    (hpos : 0 ≤ ((hybridPerezStep q p g v).comp b).getD k 0) :
    0 ≤ ((hybridPerezStep q p g v).comp a).getD k 0 ∧
      ((hybridPerezStep q p g v).comp a).getD k 0 ≤ ((hybridPerezStep q p g v).comp b).getD k 0 := by
  have h := C33_hybrid q p g v a b hk ha hb
  have hf := C33_fraction hs0 hs1 ht0 ht1
  have e : ((hybridPerezStep q p g v).comp a).getD k 0
      = (q.moduleSpacingRatio + (1 - q.moduleSpacingRatio) * q.moduleTransparency)
        * ((hybridPerezStep q p g v).comp b).getD k 0 := by
    simp only [hybridPerezStep, List.take_succ_cons, List.take_zero, List.map_cons, List.map_nil,
      List.cons.injEq, and_true] at h
    rcases k with _ | _ | k
    · simp [hybridPerezStep, h.1]
    · simp [hybridPerezStep, h.2]
    · omega
  rw [e]
  exact ⟨mul_nonneg hf.1 hpos, mul_le_of_le_one_left hpos hf.2.1⟩

/-! ## C34 -/

theorem cosd_sub (x y : ℝ) : cosd (x - y) = cosd x * cosd y + sind x * sind y := by
  simp only [cosd, sind, deg2rad, ← Real.cos_sub]; congr 1; ring

/-- pvlib's projection is the scalar product of the surface normal and the sun vector. -/
theorem aoiProjection_eq_dot (tilt az z saz : ℝ) :
    aoiProjection tilt az z saz = cosIncidence tilt az z saz := by
  simp [aoiProjection, cosIncidence, Fin.sum_univ_three, surfaceNormal, sunVector, cosd_sub]
  ring

theorem aoiProjection_sq_le (tilt az z saz : ℝ) : aoiProjection tilt az z saz ^ 2 ≤ 1 := by
  unfold aoiProjection
  have h1 := cosd_sq_add_sind_sq tilt
  have h2 := cosd_sq_add_sind_sq z
  have h3 := cosd_sq_add_sind_sq (saz - az)
  set a := cosd tilt; set b := sind tilt; set c := cosd z; set d := sind z
  set e := cosd (saz - az); set f := sind (saz - az)
  have : 1 - (a * c + b * d * e) ^ 2 = (a * d * e - b * c) ^ 2 + (d * f) ^ 2 := by
    linear_combination -(c ^ 2 + d ^ 2 * e ^ 2) * h1 - d ^ 2 * h3 - h2
  nlinarith [sq_nonneg (a * d * e - b * c), sq_nonneg (d * f)]

theorem aoiProjection_mem (tilt az z saz : ℝ) :
    -1 ≤ aoiProjection tilt az z saz ∧ aoiProjection tilt az z saz ≤ 1 := by
  have h := abs_le_one_iff_mul_self_le_one.2 (by
    have := aoiProjection_sq_le tilt az z saz; rwa [sq] at this)
  exact abs_le.1 h

theorem cosd_rad2deg (x : ℝ) : cosd (rad2deg x) = Real.cos x := by
  unfold cosd rad2deg deg2rad; congr 1; field_simp [Real.pi_ne_zero]

theorem cosd_aoiFront (v : IrrIn) : cosd v.aoiFront
    = cosIncidence v.surfaceTilt v.surfaceAzimuth v.solarZenith v.solarAzimuth := by
  rw [← aoiProjection_eq_dot]
  unfold IrrIn.aoiFront aoiFunction
  have h := aoiProjection_mem v.surfaceTilt v.surfaceAzimuth v.solarZenith v.solarAzimuth
  rw [cosd_rad2deg, Real.cos_arccos h.1 h.2]

theorem cosd_aoiBack (v : IrrIn) : cosd v.aoiBack
    = - cosIncidence v.surfaceTilt v.surfaceAzimuth v.solarZenith v.solarAzimuth := by
  rw [← cosd_aoiFront]
  unfold IrrIn.aoiBack
  rw [show (180 : ℝ) - v.aoiFront = -v.aoiFront + 180 by ring, cosd_add_180, cosd_neg]

theorem aoiFront_le_iff (v : IrrIn) : v.aoiFront ≤ 90 ↔
    0 ≤ cosIncidence v.surfaceTilt v.surfaceAzimuth v.solarZenith v.solarAzimuth := by
  rw [← aoiProjection_eq_dot, ← Real.arccos_le_pi_div_two]
  unfold IrrIn.aoiFront aoiFunction rad2deg
  have := Real.pi_pos
  rw [div_le_iff₀ this]
  constructor <;> intro h <;> linarith

/-- Direct component of a surface, in both models. -/
theorem direct_front (q : IrrParams) (v : IrrIn) : (directCats q v).frontIllum
    = v.dni * max 0 (cosIncidence v.surfaceTilt v.surfaceAzimuth v.solarZenith v.solarAzimuth) := by
  unfold directCats
  simp only [aoiFront_le_iff, cosd_aoiFront]
  split_ifs with h
  · rw [max_eq_right h]
  · rw [max_eq_left (le_of_not_ge h), mul_zero]

theorem direct_back (q : IrrParams) (v : IrrIn) : (directCats q v).backIllum
    = v.dni * max 0 (-cosIncidence v.surfaceTilt v.surfaceAzimuth v.solarZenith v.solarAzimuth) := by
  unfold directCats
  simp only [aoiFront_le_iff, cosd_aoiBack]
  by_cases h : 0 ≤ cosIncidence v.surfaceTilt v.surfaceAzimuth v.solarZenith v.solarAzimuth
  · rw [if_neg (by simpa using h), max_eq_left (by linarith), mul_zero]
  · rw [if_pos h, max_eq_right (by linarith)]

/-- Direct light on illuminated surfaces, in both models (first published component): the positive
part of `DNI cos` on the front, the negative part on the back.  Nothing is assumed about the
angles. -/
theorem C34_direct (q : IrrParams) (p : ArrayParams) (g : StepGeom) (v : IrrIn) (r k : ℕ) :
    let c := cosIncidence v.surfaceTilt v.surfaceAzimuth v.solarZenith v.solarAzimuth
    ((isotropicStep q v).comp (.pv r .front k false)).head? = some (v.dni * max 0 c) ∧
    ((isotropicStep q v).comp (.pv r .back k false)).head? = some (v.dni * max 0 (-c)) ∧
    ((hybridPerezStep q p g v).comp (.pv r .front k false)).head? = some (v.dni * max 0 c) ∧
    ((hybridPerezStep q p g v).comp (.pv r .back k false)).head? = some (v.dni * max 0 (-c)) := by
  simp [isotropicStep, hybridPerezStep, Cats.get, direct_front, direct_back]

/-- Hence front and back direct irradiance are non-negative, not both positive, and differ by
`DNI cos`. -/
theorem C34_one_side (q : IrrParams) (v : IrrIn) (r k : ℕ) (x y : ℝ) (hd : 0 ≤ v.dni)
    (hx : ((isotropicStep q v).comp (.pv r .front k false)).head? = some x)
    (hy : ((isotropicStep q v).comp (.pv r .back k false)).head? = some y) :
    0 ≤ x ∧ 0 ≤ y ∧ (x = 0 ∨ y = 0) ∧
      x - y = v.dni * cosIncidence v.surfaceTilt v.surfaceAzimuth v.solarZenith v.solarAzimuth := by
  simp [isotropicStep, Cats.get, direct_front, direct_back] at hx hy
  subst hx; subst hy
  set c := cosIncidence v.surfaceTilt v.surfaceAzimuth v.solarZenith v.solarAzimuth
  rcases le_total 0 c with h | h
  · rw [max_eq_right h, max_eq_left (by linarith : -c ≤ 0)]
    exact ⟨mul_nonneg hd h, by simp, by simp, by ring⟩
  · rw [max_eq_left h, max_eq_right (by linarith : 0 ≤ -c)]
    exact ⟨by simp, mul_nonneg hd (by linarith), by simp, by ring⟩

/-! ## C35 -/

/-- Horizon band shading is between 0 and 100, nothing below the horizon, everything above the
band, and grows with the elevation of the obstacle. -/
theorem C35_horizon_band {band : ℝ} (hb : 0 < band) :
    (∀ x, 0 ≤ horizonBandShading x band ∧ horizonBandShading x band ≤ 100) ∧
    (∀ x ≤ 0, horizonBandShading x band = 0) ∧
    (∀ x, band ≤ x → horizonBandShading x band = 100) ∧
    (∀ x, 0 ≤ x → x ≤ band → horizonBandShading x band = 100 * x / band) ∧
    (∀ x y, x ≤ y → horizonBandShading x band ≤ horizonBandShading y band) := by
  have key : ∀ x, horizonBandShading x band = 100 * (min (max x 0) band / band) := by
    intro x
    unfold horizonBandShading
    simp only
    rcases le_or_gt band x with h | h
    · rw [if_neg (by simp; intro; exact h), if_pos h, max_eq_left (by linarith), min_eq_right h]
      field_simp
    · rcases le_or_gt 0 x with h0 | h0
      · rw [if_pos ⟨h0, h⟩, max_eq_left h0, min_eq_left h.le]; ring
      · rw [if_neg (by simp [not_le.2 h0]), if_neg (by simp [h]), max_eq_right h0.le,
          min_eq_left hb.le]; simp
  have hm : ∀ x y, x ≤ y → horizonBandShading x band ≤ horizonBandShading y band := by
    intro x y h
    rw [key, key]
    have : min (max x 0) band ≤ min (max y 0) band := min_le_min (max_le_max h le_rfl) le_rfl
    gcongr
  refine ⟨fun x => ?_, fun x h => ?_, fun x h => ?_, fun x h0 h => ?_, hm⟩
  · rw [key]
    have h1 : 0 ≤ min (max x 0) band := le_min (le_max_right _ _) hb.le
    have h2 : min (max x 0) band / band ≤ 1 := by
      rw [div_le_one hb]; exact min_le_right _ _
    exact ⟨by positivity, by linarith⟩
  · rw [key, max_eq_right h, min_eq_left hb.le]; simp
  · rw [key, max_eq_left (by linarith), min_eq_right h]; field_simp
  · rw [key, max_eq_left h0, min_eq_left h]; ring

/-- Area of a circular segment of height `c` of the unit disk, in percent of the disk. -/
noncomputable def segPct (c : ℝ) : ℝ :=
  50 / Real.pi * (2 * Real.arccos (1 - c) - Real.sin (2 * Real.arccos (1 - c)))

theorem segPct_zero : segPct 0 = 0 := by simp [segPct]

theorem segPct_one : segPct 1 = 50 := by
  have : 2 * (Real.pi / 2) = Real.pi := by ring
  simp [segPct, Real.arccos_zero, this, Real.pi_ne_zero]

theorem segPct_mono {c d : ℝ} (h : c ≤ d) : segPct c ≤ segPct d := by
  unfold segPct
  have h1 : Real.arccos (1 - c) ≤ Real.arccos (1 - d) := Real.antitone_arccos (by linarith)
  have h2 := Real.abs_sin_sub_sin_le (2 * Real.arccos (1 - d)) (2 * Real.arccos (1 - c))
  rw [abs_of_nonneg (by linarith : 0 ≤ 2 * Real.arccos (1 - d) - 2 * Real.arccos (1 - c))] at h2
  have h3 := (abs_le.1 h2).2
  have := Real.pi_pos
  have h4 : 0 ≤ 50 / Real.pi := by positivity
  apply mul_le_mul_of_nonneg_left _ h4
  linarith

theorem uniformDiskShading_closed (x : ℝ) : uniformDiskShading x =
    if x ≤ 0 then 0 else if x ≤ 50 then segPct (x / 50)
      else if x < 100 then 100 - segPct ((100 - x) / 50) else 100 := by
  unfold uniformDiskShading RADIUS_CIRCUMSOLAR
  simp only [mul_one, one_pow, div_one]
  have hpi := Real.pi_ne_zero
  by_cases h0 : x ≤ 0
  · rw [if_pos (by linarith), if_pos h0]
  rw [if_neg (by linarith), if_neg h0]
  push Not at h0
  by_cases h1 : x ≤ 50
  · rw [if_pos ⟨by linarith, by linarith⟩, if_pos h1]
    unfold segPct
    rw [show x / 100 * 2 = x / 50 by ring]
    field_simp; ring
  rw [if_neg (by intro h; linarith [h.2]), if_neg h1]
  by_cases h2 : x < 100
  · rw [if_pos ⟨by linarith, by linarith⟩, if_pos h2]
    unfold segPct
    rw [show 1 - (2 - x / 100 * 2) = 1 - (100 - x) / 50 by ring]
    field_simp; ring
  · rw [if_neg (by intro h; linarith [h.2]), if_neg h2]

/-- Uniform circumsolar disc shading lies in [0, 100], grows with the covered fraction of the
diameter, and covering the rest is complementary. -/
theorem C35_uniform_disk :
    (∀ x, 0 ≤ uniformDiskShading x ∧ uniformDiskShading x ≤ 100) ∧
    (∀ x y, x ≤ y → uniformDiskShading x ≤ uniformDiskShading y) ∧
    (∀ x, uniformDiskShading (100 - x) = 100 - uniformDiskShading x) ∧
    uniformDiskShading 0 = 0 ∧ uniformDiskShading 50 = 50 ∧ uniformDiskShading 100 = 100 := by
  have hlo : ∀ c, 0 ≤ c → 0 ≤ segPct c := fun c h => segPct_zero ▸ segPct_mono h
  have hhi : ∀ c, c ≤ 1 → segPct c ≤ 50 := fun c h => segPct_one ▸ segPct_mono h
  have hm : ∀ x y, x ≤ y → uniformDiskShading x ≤ uniformDiskShading y := by
    intro x y h
    rw [uniformDiskShading_closed, uniformDiskShading_closed]
    split_ifs <;> first
      | linarith
      | exact le_refl _
      | (apply segPct_mono; linarith)
      | (apply hlo; linarith)
      | (have h1 := hhi (x / 50) (by linarith); have h2 := hhi ((100 - y) / 50) (by linarith); linarith)
      | (have h2 := segPct_mono (show (100 - y) / 50 ≤ (100 - x) / 50 by linarith); linarith)
      | (have h2 := hlo ((100 - x) / 50) (by linarith); linarith)
  refine ⟨fun x => ?_, hm, fun x => ?_, ?_, ?_, ?_⟩
  · rw [uniformDiskShading_closed]
    split_ifs with h0 h1 h2
    · norm_num
    · exact ⟨hlo _ (by linarith), by linarith [hhi (x / 50) (by linarith)]⟩
    · exact ⟨by linarith [hhi ((100 - x) / 50) (by linarith)],
        by linarith [hlo ((100 - x) / 50) (by linarith)]⟩
    · norm_num
  · rw [uniformDiskShading_closed, uniformDiskShading_closed]
    rcases eq_or_ne x 50 with h | h
    · subst h; norm_num [segPct_one]
    · have h50 : x < 50 ∨ 50 < x := lt_or_gt_of_ne h
      split_ifs <;> first
        | linarith
        | (exfalso; rcases h50 with h | h <;> linarith)
        | (rw [show 100 - (100 - x) = x by ring])
  · rw [uniformDiskShading_closed]; simp
  · rw [uniformDiskShading_closed]; norm_num [segPct_one]
  · rw [uniformDiskShading_closed]; norm_num

/-- A surface of an edge row gets no horizon shading on the outward side: the whole horizon
component arrives; everywhere else the share that arrives is between none and all of it. -/
theorem C35_edge_rows (q : IrrParams) (p : ArrayParams) (g : StepGeom) (v : IrrIn)
    (hb : 0 < q.horizonBandAngle) (r k : ℕ) (sh : Bool) :
    (r = 0 → ¬ g.rot.deg > 0 →
      ((hybridPerezStep q p g v).comp (.pv r .back k sh)).getLast? = some |v.perez.poaHorizon|) ∧
    (r = p.nRows - 1 → g.rot.deg > 0 →
      ((hybridPerezStep q p g v).comp (.pv r .back k sh)).getLast? = some |v.perez.poaHorizon|) ∧
    (∃ h, ((hybridPerezStep q p g v).comp (.pv r .back k sh)).getLast? = some h ∧ 0 ≤ h ∧
      h ≤ |v.perez.poaHorizon|) := by
  have hbd := (C35_horizon_band hb).1
  refine ⟨?_, ?_, ?_⟩
  · intro h0 h1
    simp [hybridPerezStep, horizonOf, poaHorizonUsed, horizonShadingPct, h0, h1]
  · intro h0 h1
    simp only [hybridPerezStep, horizonOf, poaHorizonUsed, horizonShadingPct, List.getLast?_cons_cons,
      List.getLast?_singleton, Option.some.injEq]
    simp [h0, h1]
  · refine ⟨_, rfl, ?_⟩
    have hx : 0 ≤ horizonShadingPct q p g (g.coords (.pv r .back k sh)).centroid r true ∧
        horizonShadingPct q p g (g.coords (.pv r .back k sh)).centroid r true ≤ 100 := by
      unfold horizonShadingPct
      simp only [if_true]
      split_ifs <;> first | exact hbd _ | norm_num
    set x := horizonShadingPct q p g (g.coords (.pv r .back k sh)).centroid r true with hxd
    have ha := abs_nonneg v.perez.poaHorizon
    simp only [List.getLast_cons_cons, List.getLast_singleton, horizonOf, poaHorizonUsed, ← hxd]
    constructor
    · apply mul_nonneg ha; linarith [hx.2]
    · apply mul_le_of_le_one_right ha; linarith [hx.1]

/-! ## C36 -/

theorem cosd_pyMod_sub (x y : ℝ) : cosd (x - pyMod y 360) = cosd (x - y) := by
  unfold pyMod cosd deg2rad
  rw [show (x - (y - 360 * (⌊y / 360⌋ : ℝ))) * Real.pi / 180
    = (x - y) * Real.pi / 180 + (⌊y / 360⌋ : ℝ) * (2 * Real.pi) by ring]
  exact Real.cos_add_int_mul_two_pi _ _

/-- Turning a surface over reverses the cosine of incidence. -/
theorem aoiProjection_flip (r : PerezIn) :
    aoiProjection r.flip.surfaceTilt r.flip.surfaceAzimuth r.flip.solarZenith r.flip.solarAzimuth
      = - aoiProjection r.surfaceTilt r.surfaceAzimuth r.solarZenith r.solarAzimuth := by
  unfold aoiProjection PerezIn.flip
  simp only
  rw [cosd_pyMod_sub, show r.solarAzimuth - (r.surfaceAzimuth - 180)
    = r.solarAzimuth - r.surfaceAzimuth + 180 by ring, cosd_add_180]
  rw [show (180 : ℝ) - r.surfaceTilt = -r.surfaceTilt + 180 by ring, cosd_add_180, sind_add_180,
    cosd_neg, sind_neg]
  ring

theorem not_hitsBack_flip {r : PerezIn} (h : r.hitsBack) : ¬ r.flip.hitsBack := by
  intro h'
  unfold PerezIn.hitsBack at h h'
  rw [aoiProjection_flip] at h'
  linarith [h.1, h'.1]

open Classical in
/-- For every table of inputs (any angles), `perez_diffuse_luminance` calls itself at most once:
two levels of calls always suffice, and more levels give the same result. -/
theorem C36_terminates (perez : PerezIn → PerezComponents) (rows : List PerezIn) :
    ∃ out, (∀ d, perezDiffuseLuminance perez (d + 2) rows = some out) ∧
      out.length = rows.length := by
  have hnil : ((((rows.filter fun r => decide r.hitsBack).map PerezIn.flip).filter
      fun r => decide r.hitsBack).map PerezIn.flip) = [] := by
    simp only [List.map_eq_nil_iff, List.filter_eq_nil_iff, List.mem_map, List.mem_filter]
    rintro _ ⟨r, ⟨_, hr⟩, rfl⟩
    simp only [decide_eq_true_eq] at hr ⊢
    exact not_hitsBack_flip hr
  have hlen : ∀ (rs : List PerezIn) sub, (mergeBack perez rs sub).length = rs.length := by
    intro rs
    induction rs with
    | nil => intro sub; simp [mergeBack]
    | cons r rs ih =>
      intro sub
      unfold mergeBack
      split_ifs
      · cases sub <;> simp [ih]
      · simp [ih]
  by_cases hb : ((rows.filter fun r => decide r.hitsBack).map PerezIn.flip) = []
  · refine ⟨mergeBack perez rows [], fun d => ?_, hlen _ _⟩
    rw [perezDiffuseLuminance, if_pos hb]; rfl
  · refine ⟨mergeBack perez rows (mergeBack perez
      ((rows.filter fun r => decide r.hitsBack).map PerezIn.flip) []), fun d => ?_, hlen _ _⟩
    rw [perezDiffuseLuminance, if_neg hb, perezDiffuseLuminance, if_pos hnil]; rfl

open Classical in
theorem mergeBack_map (perez : PerezIn → PerezComponents) (f : PerezIn → PerezOut)
    (rows : List PerezIn) :
    mergeBack perez rows ((rows.filter fun r => decide r.hitsBack).map f)
      = rows.map fun r => if r.hitsBack then
          { r.ownOut perez with luminanceCircumsolar := (f r).luminanceCircumsolar }
        else r.ownOut perez := by
  induction rows with
  | nil => simp [mergeBack]
  | cons r rs ih =>
    by_cases h : r.hitsBack
    · rw [List.filter_cons_of_pos (by simpa using h), List.map_cons, mergeBack]
      simp [h, ih]
    · rw [List.filter_cons_of_neg (by simpa using h), mergeBack.eq_def]
      simp [h, ih]

open Classical in
theorem mergeBack_none (perez : PerezIn → PerezComponents) (rows : List PerezIn)
    (h : ∀ r ∈ rows, ¬ r.hitsBack) : mergeBack perez rows [] = rows.map (PerezIn.ownOut perez) := by
  induction rows with
  | nil => simp [mergeBack]
  | cons r rs ih =>
    rw [mergeBack]
    simp [h r (by simp), ih (fun r hr => h r (by simp [hr]))]

open Classical in
/-- What the function returns: row by row, the row's own values, except that the circumsolar
luminance of a row whose back is hit by the sun is that of the surface turned over.  In particular
no time step influences another. -/
theorem C36_rowwise (perez : PerezIn → PerezComponents) (d : ℕ) (rows : List PerezIn) :
    perezDiffuseLuminance perez (d + 2) rows = some (rows.map fun r =>
      if r.hitsBack then
        { r.ownOut perez with luminanceCircumsolar := (r.flip.ownOut perez).luminanceCircumsolar }
      else r.ownOut perez) := by
  have hnb : ∀ r ∈ (rows.filter fun r => decide r.hitsBack).map PerezIn.flip, ¬ r.hitsBack := by
    simp only [List.mem_map, List.mem_filter]
    rintro _ ⟨r, ⟨_, hr⟩, rfl⟩
    simp only [decide_eq_true_eq] at hr
    exact not_hitsBack_flip hr
  by_cases hb : ((rows.filter fun r => decide r.hitsBack).map PerezIn.flip) = []
  · rw [perezDiffuseLuminance, if_pos hb]
    have h : ∀ r ∈ rows, ¬ r.hitsBack := by
      simpa only [List.map_eq_nil_iff, List.filter_eq_nil_iff, decide_eq_true_eq] using hb
    simp only [Option.map_some, Option.some.injEq]
    rw [mergeBack_none perez rows h]
    exact List.map_congr_left fun r hr => by simp [h r hr]
  · have hnil : ((((rows.filter fun r => decide r.hitsBack).map PerezIn.flip).filter
        fun r => decide r.hitsBack).map PerezIn.flip) = [] := by
      simp only [List.map_eq_nil_iff, List.filter_eq_nil_iff, decide_eq_true_eq]
      exact hnb
    rw [perezDiffuseLuminance, if_neg hb, perezDiffuseLuminance, if_pos hnil]
    simp only [Option.map_some, Option.some.injEq]
    rw [mergeBack_none perez _ hnb, List.map_map, mergeBack_map]
    rfl

/-! ## C44 -/

/-- If the calculator has both fAOI functions: given values are kept, values that were not given
are derived from the fAOI function of that side (front from the front function, back from the back
one). -/
theorem C44_precedence (f b : ℝ → ℝ) (n : ℕ) (rhoFront rhoBack : Option ℝ) :
    rhoInitialization (calculatorAoiMethods (some f) (some b) n) rhoFront rhoBack
      = some (rhoFront.getD (rhoFromFaoi f n), rhoBack.getD (rhoFromFaoi b n)) := by
  cases rhoFront <;> cases rhoBack <;> rfl

/-- If either function is missing the call fails, whether or not reflectivities are given: the
default reflectivities are never reached. -/
theorem C44_missing_function (f b : Option (ℝ → ℝ)) (h : f = none ∨ b = none) (n : ℕ)
    (rhoFront rhoBack : Option ℝ) :
    rhoInitialization (calculatorAoiMethods f b n) rhoFront rhoBack = none := by
  rcases h with rfl | rfl
  · rfl
  · cases f <;> rfl

/-- `initialize_rho` itself: the given value, else the calculated one, else the default. -/
theorem C44_initialize_rho (given calculated : Option ℝ) (default : ℝ) :
    initializeRho given calculated default = given.getD (calculated.getD default) := by
  cases given <;> cases calculated <;> rfl

/-! ## C45 -/

/-- Hybrid Perez model: the irradiance used for a shaded front is that of an illuminated front
minus its direct and circumsolar light plus the direct and circumsolar light on a shaded front. -/
theorem C45_hybrid (q : IrrParams) (p : ArrayParams) (g : StepGeom) (v : IrrIn) (r k : ℕ)
    (d c d' c' h h' : ℝ)
    (hi : (hybridPerezStep q p g v).comp (.pv r .front k false) = [d, c, h])
    (hs : (hybridPerezStep q p g v).comp (.pv r .front k true) = [d', c', h']) :
    (hybridPerezStep q p g v).pvrowShaded
      = (hybridPerezStep q p g v).pvrowIllum - d - c + d' + c' := by
  simp only [hybridPerezStep, Cats.get, List.cons.injEq, and_true] at hi hs ⊢
  obtain ⟨rfl, rfl, _⟩ := hi
  obtain ⟨rfl, rfl, _⟩ := hs
  rfl

/-- Isotropic model: the direct light on the shaded front is left out, so the value is too small by
exactly the direct light that passes through the modules. -/
theorem C45_isotropic_deficit (q : IrrParams) (v : IrrIn) (r k : ℕ) (d d' : ℝ)
    (hi : (isotropicStep q v).comp (.pv r .front k false) = [d])
    (hs : (isotropicStep q v).comp (.pv r .front k true) = [d']) :
    (isotropicStep q v).pvrowShaded = (isotropicStep q v).pvrowIllum - d + d' - d' ∧
    d' = (q.moduleSpacingRatio + (1 - q.moduleSpacingRatio) * q.moduleTransparency) * d := by
  simp only [isotropicStep, Cats.get, List.cons.injEq, and_true] at hi hs ⊢
  subst hi; subst hs
  refine ⟨by ring, ?_⟩
  simp [directCats, throughModules]; split_ifs <;> ring

/-- Parameters of the examples below. -/
noncomputable def demoIrrParams : IrrParams where
  rhoFront := 1 / 100
  rhoBack := 3 / 100
  moduleTransparency := 1 / 10
  moduleSpacingRatio := 1 / 5
  faoiFront := none
  faoiBack := none
  horizonBandAngle := 15 / 2

/-- Flat rows, sun at zenith, 1000 W/m2 direct, 100 W/m2 diffuse. -/
noncomputable def demoIrrIn : IrrIn where
  dni := 1000
  dhi := 100
  solarZenith := 0
  solarAzimuth := 180
  surfaceTilt := 0
  surfaceAzimuth := 90
  albedo := 1 / 5
  ghi := none
  poaGlobal := 1100
  perez := ⟨60, 40, 0, 40⟩

theorem demo_cosIncidence : cosIncidence demoIrrIn.surfaceTilt demoIrrIn.surfaceAzimuth
    demoIrrIn.solarZenith demoIrrIn.solarAzimuth = 1 := by
  rw [← aoiProjection_eq_dot]
  simp [demoIrrIn, aoiProjection, cosd_zero, sind_zero]

/-- The isotropic model really violates the relation: with transparent modules the shaded front is
given 100 W/m2 though 280 W/m2 of direct light reach it. -/
theorem C45_isotropic_counterexample :
    (isotropicStep demoIrrParams demoIrrIn).comp (.pv 0 .front 0 false) = [1000] ∧
    (isotropicStep demoIrrParams demoIrrIn).comp (.pv 0 .front 0 true) = [280] ∧
    (isotropicStep demoIrrParams demoIrrIn).pvrowIllum = 1100 ∧
    (isotropicStep demoIrrParams demoIrrIn).pvrowShaded = 100 := by
  have h : (directCats demoIrrParams demoIrrIn).frontIllum = 1000 := by
    rw [direct_front, demo_cosIncidence]; norm_num [demoIrrIn]
  have h' : (directCats demoIrrParams demoIrrIn).frontShaded = 280 := by
    have : (directCats demoIrrParams demoIrrIn).frontShaded
      = throughModules demoIrrParams (directCats demoIrrParams demoIrrIn).frontIllum := rfl
    rw [this, h]; norm_num [throughModules, demoIrrParams]
  refine ⟨by simp [isotropicStep, Cats.get, h], by simp [isotropicStep, Cats.get, h'], rfl, ?_⟩
  simp only [isotropicStep, h]; norm_num [demoIrrIn]

/-- C33, C34 on the same case: 280 = 0.28 * 1000 on the shaded front, nothing on the back. -/
theorem C33_demo :
    (isotropicStep demoIrrParams demoIrrIn).comp (.gnd true 0 0) = [280] ∧
    (isotropicStep demoIrrParams demoIrrIn).comp (.gnd false 0 0) = [1000] ∧
    (isotropicStep demoIrrParams demoIrrIn).comp (.pv 0 .back 0 false) = [0] := by
  refine ⟨?_, ?_, ?_⟩
  · norm_num [isotropicStep, Cats.get, directCats, throughModules, demoIrrParams, demoIrrIn,
      cosd_zero]
  · norm_num [isotropicStep, Cats.get, directCats, demoIrrIn, cosd_zero]
  · simp [isotropicStep, Cats.get, direct_back, demo_cosIncidence]

/-- C36: a surface that faces away from the sun (tilt 180, sun at zenith) does make the second
call. -/
theorem C36_demo (perez : PerezIn → PerezComponents) :
    (⟨180, 90, 0, 0, 1000, 100, 1300, 1⟩ : PerezIn).hitsBack ∧
    perezDiffuseLuminance perez 1 [⟨180, 90, 0, 0, 1000, 100, 1300, 1⟩] = none := by
  have h : (⟨180, 90, 0, 0, 1000, 100, 1300, 1⟩ : PerezIn).hitsBack := by
    simp [PerezIn.hitsBack, aoiProjection, cosd_180, sind_180, cosd_zero, sind_zero]
  refine ⟨h, ?_⟩
  simp [perezDiffuseLuminance, h]

end PVF

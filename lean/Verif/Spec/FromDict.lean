import Verif.Model.FromDict

/-!
# What dictionaries of parameters mean
-/

namespace PVF

/-- The dictionary describes an array with these parameters. -/
structure Describes (d : PyDict) (p : ArrayParams) : Prop where
  axis : d.lookup "axis_azimuth" = some (.num p.axisAzimuth)
  gcr : d.lookup "gcr" = some (.num p.gcr)
  height : d.lookup "pvrow_height" = some (.num p.height)
  width : d.lookup "pvrow_width" = some (.num p.width)
  rows : d.lookup "n_pvrows" = some (.int p.nRows)
  /-- Without (or with an empty) entry `cut` no row is cut; otherwise row `i` is cut as its entry
  says. -/
  cut : ((d.lookup "cut" = none ∨ d.lookup "cut" = some .nothing) ∧
      ∀ i, (p.cut i).front = none ∧ (p.cut i).back = none) ∨
    ∃ c, d.lookup "cut" = some (.cut c) ∧
      ∀ i, (p.cut i).front = (c.lookup i).bind (fun e => e.lookup "front") ∧
        (p.cut i).back = (c.lookup i).bind (fun e => e.lookup "back")

/-- A number given under a name, or its default. -/
def NumGiven (d : PyDict) (k : String) (dflt x : ℝ) : Prop :=
  d.lookup k = some (.num x) ∨ d.lookup k = none ∧ x = dflt

/-- A fAOI function given under a name (as a function or as an object with a method `faoi`), or
none. -/
def FaoiGiven (d : PyDict) (k : String) (f : Option (ℝ → ℝ)) : Prop :=
  ((d.lookup k = none ∨ d.lookup k = some .nothing ∨ d.lookup k = some (.faoi .missing)) ∧ f = none) ∨
  ∃ g, (d.lookup k = some (.faoi (.function g)) ∨ d.lookup k = some (.faoi (.object g))) ∧ f = some g

/-- The keyword arguments of an irradiance model give these parameters.  (The isotropic model has no
horizon band.) -/
structure IrrGiven (k : IrrKind) (d : PyDict) (q : IrrParams) : Prop where
  known : ∀ e ∈ d, e.1 = "rho_front" ∨ e.1 = "rho_back" ∨ e.1 = "module_transparency" ∨
    e.1 = "module_spacing_ratio" ∨ e.1 = "faoi_fn_front" ∨ e.1 = "faoi_fn_back" ∨
    (k = .hybridPerez ∧ (e.1 = "horizon_band_angle" ∨ e.1 = "circumsolar_angle" ∨
      e.1 = "circumsolar_model"))
  rhoFront : NumGiven d "rho_front" 0.01 q.rhoFront
  rhoBack : NumGiven d "rho_back" 0.03 q.rhoBack
  transparency : NumGiven d "module_transparency" 0 q.moduleTransparency
  spacing : NumGiven d "module_spacing_ratio" 0 q.moduleSpacingRatio
  front : FaoiGiven d "faoi_fn_front" q.faoiFront
  back : FaoiGiven d "faoi_fn_back" q.faoiBack
  band : NumGiven d "horizon_band_angle" 6.5 q.horizonBandAngle

/-- The keyword arguments of a calculator give these AOI methods: both fAOI functions are needed. -/
structure CalculatorGiven (d : PyDict) (m : Option AOIMethods) : Prop where
  known : ∀ e ∈ d, e.1 = "faoi_fn_front" ∨ e.1 = "faoi_fn_back" ∨ e.1 = "n_aoi_integral_sections"
  given : ∃ f b n, FaoiGiven d "faoi_fn_front" f ∧ FaoiGiven d "faoi_fn_back" b ∧
    (d.lookup "n_aoi_integral_sections" = some (.int n) ∨
      d.lookup "n_aoi_integral_sections" = none ∧ n = 300) ∧
    ((∃ f' b', f = some f' ∧ b = some b' ∧ m = some ⟨f', b', n⟩) ∨ ((f = none ∨ b = none) ∧ m = none))

end PVF

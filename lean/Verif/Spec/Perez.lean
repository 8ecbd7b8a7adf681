import Verif.Model.Run
import Verif.Spec.Light

/-! # Perez' transposition model, as a specification of `pvlib.irradiance.perez`

The coefficients `F1` (circumsolar brightening) and `F2` (horizon brightening) depend on sun and sky,
not on the orientation of the surface. -/

namespace PVF

/-- Isotropic light on a surface: the share `1 - F1` of the diffuse light comes from the dome. -/
noncomputable def perezDome (F1 : PerezIn → ℝ) (r : PerezIn) : ℝ :=
  r.dhi * (1 - F1 r) * ((1 + cosd r.surfaceTilt) / 2)

/-- Circumsolar light on a surface: the share `F1` comes from the direction of the sun; the zenith
is limited to 85 degrees. -/
noncomputable def perezSun (F1 : PerezIn → ℝ) (r : PerezIn) : ℝ :=
  r.dhi * F1 r
    * (max 0 (cosIncidence r.surfaceTilt r.surfaceAzimuth r.solarZenith r.solarAzimuth)
      / max (cosd r.solarZenith) (cosd 85))

/-- Light from the horizon band. -/
noncomputable def perezBand (F2 : PerezIn → ℝ) (r : PerezIn) : ℝ :=
  r.dhi * F2 r * sind r.surfaceTilt

/-- `perez` follows Perez' formulas while the sun is not below the horizon: the total is limited to
non-negative values, and parts are zero if the total is. -/
structure PerezFormula (perez : PerezIn → PerezComponents) (F1 F2 : PerezIn → ℝ) : Prop where
  orient : ∀ r tilt az, F1 { r with surfaceTilt := tilt, surfaceAzimuth := az } = F1 r ∧
    F2 { r with surfaceTilt := tilt, surfaceAzimuth := az } = F2 r
  total : ∀ r, r.solarZenith ≤ 90 →
    (perez r).skyDiffuse = max 0 (perezDome F1 r + perezSun F1 r + perezBand F2 r)
  parts : ∀ r, r.solarZenith ≤ 90 → (perez r).skyDiffuse ≠ 0 →
    (perez r).isotropic = perezDome F1 r ∧ (perez r).circumsolar = perezSun F1 r ∧
      (perez r).horizon = perezBand F2 r
  none : ∀ r, r.solarZenith ≤ 90 → (perez r).skyDiffuse = 0 →
    (perez r).isotropic = 0 ∧ (perez r).circumsolar = 0 ∧ (perez r).horizon = 0

/-- `poa` is the transposition with an isotropic sky, the default of
`pvlib.irradiance.get_total_irradiance`: direct light, dome and light from bare ground. -/
def IsotropicTransposition (poa : ℝ → ℝ → ℝ → ℝ → ℝ → ℝ → ℝ → ℝ → ℝ) : Prop :=
  ∀ tilt az zenith sunAz dni ghi dhi albedo, poa tilt az zenith sunAz dni ghi dhi albedo
    = max 0 (dni * cosIncidence tilt az zenith sunAz) + dhi * ((1 + cosd tilt) / 2)
      + ghi * albedo * ((1 - cosd tilt) / 2)

variable {τ : Type} [Inhabited τ]

/-- Sun, sky and irradiance are the same at time step `i` of two runs. -/
structure SameSky (a a' : RunArgs τ) (i : ℕ) : Prop where
  time : a.timestamps.getD i default = a'.timestamps.getD i default
  zenith : a.solarZenith.getD i 0 = a'.solarZenith.getD i 0
  azimuth : a.solarAzimuth.getD i 0 = a'.solarAzimuth.getD i 0
  dni : a.dni.getD i 0 = a'.dni.getD i 0
  dhi : a.dhi.getD i 0 = a'.dhi.getD i 0

/-- Time step `i` of a run, with the inputs `v`: the sun is not below the horizon and not in the
plane of the modules, the modules do not face straight down, and diffuse light arrives on the front
(and on the back if the sun shines there). -/
structure SkyLit (P : Pvlib τ) (a : RunArgs τ) (i : ℕ) (v : IrrIn) : Prop where
  zenith : v.solarZenith ≤ 90
  tilt : cosd v.surfaceTilt ≠ -1
  cos : cosIncidence v.surfaceTilt v.surfaceAzimuth v.solarZenith v.solarAzimuth ≠ 0
  front : v.dhi = 0 ∨ (P.perez (a.perezIn P i)).skyDiffuse ≠ 0
  back : cosIncidence v.surfaceTilt v.surfaceAzimuth v.solarZenith v.solarAzimuth < 0 →
    v.dhi = 0 ∨ (P.perez (a.perezIn P i).flip).skyDiffuse ≠ 0

end PVF

import Verif.Spec.Scene
import Verif.Spec.Physical
import Verif.Spec.Radiosity
import Verif.Spec.Light
import Verif.Spec.Horizon

/-!
# The light on an array from first principles

Light comes straight from the sun and from a sky that is equally bright everywhere, travels along
straight lines, and is reflected equally in all directions by every surface.  Nothing here refers to
strings, to matrices, or to the computation of shadows.
-/

namespace PVF
noncomputable section

/-- A time step at which light can be traced: flat rows do not overlap, every side has a segment, and
no surface is shorter than the tolerance without being a point. -/
structure Traceable (p : ArrayParams) (u : StepIn) : Prop where
  array : PhysicalArray p
  step : PhysicalStep p u
  flat : u.surfaceTilt = 0 → p.gcr < 1
  cut : ∀ r < p.nRows, 0 < p.nFront r ∧ 0 < p.nBack r
  len : ∀ b ∈ surfaces p, ((fitStep p u).coords b).length = 0 ∨
    TOL < ((fitStep p u).coords b).length

open Classical in
/-- Light that comes straight from the sun, mean over the points of surface `a`.  `dni` is the
irradiance at right angles to the sun, `share` the share of the light that gets through a row. -/
def sunlight (p : ArrayParams) (g : StepGeom) (dni share : ℝ) (a : SurfRef) : ℝ :=
  dni * max 0 ((outward g.rot.deg a).x * g.sun.x + (outward g.rot.deg a).y * g.sun.y) *
    ∫ s in (0:ℝ)..1,
      if Escapes (g.Solid p) (lerp (g.coords a).b1 (g.coords a).b2 s) g.sun then 1 else share

open Classical in
/-- Light that comes from a band of `band` degrees above the horizon, of irradiance `horizon` on the
plane of the rows: all of it on the front, the share that rows leave open at the middle of the
surface on the back, none on the ground. -/
def bandLight (p : ArrayParams) (g : StepGeom) (horizon band : ℝ) (a : SurfRef) : ℝ :=
  match a.kind with
  | .ground => 0
  | .front => horizon
  | .back => horizon * bandOpen (g.Solid p) (g.coords a).centroid
      (decide (0 < (outward g.rot.deg a).x)) band

/-- Reflectivity of a surface. -/
def reflectivity (albedo front back : ℝ) (a : SurfRef) : ℝ :=
  match a.kind with
  | .ground => albedo
  | .front => front
  | .back => back

/-- `x` is the light that arrives at the surfaces: light `e` from the sun, light of the sky of
luminance `sky`, and light reflected by other surfaces, as far as it gets there along straight
lines.  Surfaces that are only a point do not count. -/
def ArrivingLight (p : ArrayParams) (g : StepGeom) (e rho : SurfRef → ℝ) (sky : ℝ)
    (x : SurfRef → ℝ) : Prop :=
  ∀ a ∈ surfaces p, (g.coords a).length ≠ 0 →
    x a = e a + ∑ b ∈ surfaces p, rayView p g a b * (rho b * x b) + raySky p g a * sky

end
end PVF

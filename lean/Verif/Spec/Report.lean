import Verif.Model.Run
import Verif.Spec.Perez
import Verif.Spec.Principles

/-!
# What a report of a run says about the light on a row

The values of a report are means over a side of a row.  A time step of a run is given by the
arguments of the run alone.
-/

namespace PVF
noncomputable section

variable {τ : Type} [Inhabited τ]

/-- Angles of the sun and of the modules at time step `i` of a run. -/
def RunArgs.stepAt (a : RunArgs τ) (i : ℕ) : StepIn where
  solarZenith := a.solarZenith.getD i 0
  solarAzimuth := a.solarAzimuth.getD i 0
  surfaceTilt := a.surfaceTilt.getD i 0
  surfaceAzimuth := a.surfaceAzimuth.getD i 0

/-- `m` is the mean of `x` over side `s` of row `r`: the light on the side is the sum of the light on
its surfaces. -/
def MeanOverSide (p : ArrayParams) (u : StepIn) (r : ℕ) (s : RowSide) (x : SurfRef → ℝ) (m : ℝ) :
    Prop :=
  p.width * m = ∑ k ∈ Finset.range (p.nSeg r s), ∑ sh : Bool,
    ((fitStep p u).coords (.pv r s k sh)).length * x (.pv r s k sh)

/-- Under `key` the report has, at time step `i`, the mean of `x` over a side of row 1. -/
def ReportsMean (rep : Report) (key : String) (i : ℕ) (p : ArrayParams) (u : StepIn) (s : RowSide)
    (x : SurfRef → ℝ) : Prop :=
  ∃ ws m, rep.lookup key = some ws ∧ ws[i]? = some m ∧ MeanOverSide p u 1 s x m

/-- The report has the light `x` on both sides of row 1, and the part of it that comes straight from
a sky of luminance `sky`. -/
structure ReportsLight (rep : Report) (i : ℕ) (p : ArrayParams) (u : StepIn) (x : SurfRef → ℝ)
    (sky : ℝ) : Prop where
  front : ReportsMean rep "qinc_front" i p u .front x
  back : ReportsMean rep "qinc_back" i p u .back x
  isoFront : ReportsMean rep "iso_front" i p u .front fun a => raySky p (fitStep p u) a * sky
  isoBack : ReportsMean rep "iso_back" i p u .back fun a => raySky p (fitStep p u) a * sky

/-- Time step `i` of a run: the sun is not in the plane of the modules, the modules do not face
straight down, and diffuse light arrives on the front (and on the back if the sun shines there). -/
structure SkyLitAt (P : Pvlib τ) (a : RunArgs τ) (i : ℕ) : Prop where
  tilt : cosd (a.surfaceTilt.getD i 0) ≠ -1
  cos : cosIncidence (a.surfaceTilt.getD i 0) (a.surfaceAzimuth.getD i 0)
    (a.solarZenith.getD i 0) (a.solarAzimuth.getD i 0) ≠ 0
  front : a.dhi.getD i 0 = 0 ∨ (P.perez (a.perezIn P i)).skyDiffuse ≠ 0
  back : cosIncidence (a.surfaceTilt.getD i 0) (a.surfaceAzimuth.getD i 0)
      (a.solarZenith.getD i 0) (a.solarAzimuth.getD i 0) < 0 →
    a.dhi.getD i 0 = 0 ∨ (P.perez (a.perezIn P i).flip).skyDiffuse ≠ 0

/-- Reflectivities are between 0 and 1, at every time step. -/
structure RunLosses (q : IrrParams) (a : RunArgs τ) : Prop where
  front : 0 < q.rhoFront ∧ q.rhoFront < 1
  back : 0 < q.rhoBack ∧ q.rhoBack < 1
  albedo : ∀ i < a.dni.length, 0 < a.albedoList.getD i 0 ∧ a.albedoList.getD i 0 < 1

end
end PVF

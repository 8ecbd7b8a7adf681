import Verif.Model.VF
import Verif.Lemmas.Trig

/-!
# A concrete array used to show that hypotheses of theorems can be met
-/

namespace PVF

/-- Three rows of width 1, spacing 2.5, height 1.5 m, second row with 2 front and 3 back
segments. -/
noncomputable def demoArray : ArrayParams where
  axisAzimuth := 0
  gcr := 2 / 5
  height := 3 / 2
  width := 1
  nRows := 3
  cut := fun i => if i = 1 then { front := some 2, back := some 3 } else {}

/-- Tilt 30 degrees to the east, sun at zenith. -/
noncomputable def demoStep : StepIn where
  solarZenith := 0
  solarAzimuth := 180
  surfaceTilt := 30
  surfaceAzimuth := 90

/-- A second step: flat rows. -/
noncomputable def demoStepFlat : StepIn where
  solarZenith := 0
  solarAzimuth := 180
  surfaceTilt := 0
  surfaceAzimuth := 90

end PVF

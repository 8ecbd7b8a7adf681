import Verif.Model.Irradiance

/-!
# Terms used for light that passes the rows
-/

namespace PVF

/-- The share of the direct light that passes the rows: the gaps between modules, and what the modules
let through. -/
noncomputable def openShare (q : IrrParams) : ℝ :=
  q.moduleSpacingRatio + (1 - q.moduleSpacingRatio) * q.moduleTransparency

/-- Two irradiance models that differ only in spacing and transparency of the modules. -/
def SameModules (q q' : IrrParams) : Prop :=
  q' = { q with moduleTransparency := q'.moduleTransparency,
                moduleSpacingRatio := q'.moduleSpacingRatio }

end PVF

import Verif.Model.PVArray

/-! # Small specifications for the irradiance models -/

namespace PVF

/-- Ground, front or back. -/
inductive SurfKind where
  | ground
  | front
  | back
  deriving DecidableEq

/-- What kind of surface a reference denotes. -/
def SurfRef.kind : SurfRef → SurfKind
  | .gnd _ _ _ => .ground
  | .pv _ .front _ _ => .front
  | .pv _ .back _ _ => .back

/-- Whether a reference denotes a shaded surface. -/
def SurfRef.isShaded : SurfRef → Bool
  | .gnd sh _ _ => sh
  | .pv _ _ _ sh => sh

/-- Unit vector towards the sun: east, north, up. -/
noncomputable def sunVector (zenith azimuth : ℝ) : Fin 3 → ℝ :=
  ![sind zenith * sind azimuth, sind zenith * cosd azimuth, cosd zenith]

/-- Unit normal of a surface with a tilt from the horizontal, facing an azimuth. -/
noncomputable def surfaceNormal (tilt azimuth : ℝ) : Fin 3 → ℝ :=
  ![sind tilt * sind azimuth, sind tilt * cosd azimuth, cosd tilt]

/-- Cosine of the angle between a surface normal and the sun. -/
noncomputable def cosIncidence (tilt azimuth zenith sunAzimuth : ℝ) : ℝ :=
  ∑ k, surfaceNormal tilt azimuth k * sunVector zenith sunAzimuth k

end PVF

import Verif.Spec.RayView

/-!
# The horizon band by rays

The horizon band is the strip of sky between the horizon and a given elevation, with the same
luminance everywhere.  Nothing here refers to the package's shading formulas.
-/

namespace PVF
noncomputable section

/-- Direction with elevation `e` degrees, to the right or to the left. -/
def horizonDir (right : Bool) (e : ℝ) : Pt := ⟨if right then cosd e else -cosd e, sind e⟩

open Classical in
/-- Share of the elevations between 0 and `band` degrees, on the right or on the left, at which a
ray from `X` meets no solid. -/
def bandOpen (solid : Pt → Prop) (X : Pt) (right : Bool) (band : ℝ) : ℝ :=
  (∫ e in (0:ℝ)..band, if Escapes solid X (horizonDir right e) then 1 else 0) / band

end
end PVF

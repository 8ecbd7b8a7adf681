import Verif.Model.PVArray
import Verif.Spec.RayView

/-!
# The array as a scene of solids

The rows and the ground at a time step as sets of points, and view factors of its surfaces by rays.
Refers to the geometry of the model only, not to its view factors.
-/

namespace PVF
noncomputable section

/-- Points of the rows and of the ground, which reaches from -100 m to 100 m. -/
def StepGeom.Solid (p : ArrayParams) (g : StepGeom) (Y : Pt) : Prop :=
  (∃ r < p.nRows, OnSeg Y (g.row r).full) ∨ OnSeg Y ⟨⟨MIN_X, 0⟩, ⟨MAX_X, 0⟩⟩

/-- Unit vector that points away from a surface, at right angles to it. -/
def outward (rot : ℝ) : SurfRef → Pt
  | .gnd _ _ _ => ⟨0, 1⟩
  | .pv _ .front _ _ => ⟨-sind rot, cosd rot⟩
  | .pv _ .back _ _ => ⟨sind rot, -cosd rot⟩

/-- View factor from surface `a` to surface `b` by rays. -/
def rayView (p : ArrayParams) (g : StepGeom) (a b : SurfRef) : ℝ :=
  meanShare (g.coords a) (outward g.rot.deg a)
    (Arrives (g.Solid p) (fun Y => OnSeg Y (g.coords b)) (outward g.rot.deg b))

/-- View factor from surface `a` to the sky by rays. -/
def raySky (p : ArrayParams) (g : StepGeom) (a : SurfRef) : ℝ :=
  meanShare (g.coords a) (outward g.rot.deg a) (Escapes (g.Solid p))

end
end PVF

import Verif.Spec.Radiosity
import Verif.Spec.Light
import Verif.Model.Irradiance

/-!
# Parts of the surroundings of a surface

Which surfaces make up the ground, its shadows, the rows and their shaded parts; and alignment of
points.
-/

namespace PVF

/-- Is this a ground surface? -/
def SurfRef.isGround : SurfRef → Bool
  | .gnd _ _ _ => true
  | .pv _ _ _ _ => false

/-- The view factor of a surface to a part of its surroundings, from a view factor matrix. -/
noncomputable def vfToPart (p : ArrayParams) (F : ℕ → ℕ → ℝ) (a : SurfRef) (part : SurfRef → Bool) : ℝ :=
  ∑ b ∈ surfaces p with part b, vfBetween p F a b

/-- Three points lie on a line. -/
def Aligned (P Q R : Pt) : Prop := (Q.x - P.x) * (R.y - P.y) = (Q.y - P.y) * (R.x - P.x)

/-- The light that fast mode assumes to be sent out by the ground and by the fronts of the rows:
reflected once, as if it came directly from the irradiance model. -/
noncomputable def assumedRadiosity (s : IrrStep) : SurfRef → ℝ
  | .gnd true _ _ => s.albedo * s.gndShaded
  | .gnd false _ _ => s.albedo * s.gndIllum
  | .pv _ _ _ true => s.rhoFront * s.pvrowShaded
  | .pv _ _ _ false => s.rhoFront * s.pvrowIllum

end PVF

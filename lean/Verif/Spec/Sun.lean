import Verif.Model.Num
import Verif.Spec.Geometry

/-! # Ray tracing specification -/

namespace PVF

/-- The ray from `P` towards the sun meets the line segment. -/
def SunRayHits (sun P : Pt) (l : Line) : Prop :=
  ∃ lam : ℝ, 0 < lam ∧ OnSeg ⟨P.x + lam * sun.x, P.y + lam * sun.y⟩ l

/-- The ray from `P` towards the sun meets the line segment at a point that is not one of its
ends. -/
def SunRayHitsInterior (sun P : Pt) (l : Line) : Prop :=
  ∃ lam : ℝ, 0 < lam ∧ ∃ t : ℝ, 0 < t ∧ t < 1 ∧
    (⟨P.x + lam * sun.x, P.y + lam * sun.y⟩ : Pt) = lerp l.b1 l.b2 t

/-- Scalar product of the sun vector and the front normal `(- sin rot, cos rot)` of the rows:
positive if the sun shines on the front, negative if it shines on the back. -/
noncomputable def frontDotSun (rot : ℝ) (sun : Pt) : ℝ := cosd rot * sun.y - sind rot * sun.x

end PVF

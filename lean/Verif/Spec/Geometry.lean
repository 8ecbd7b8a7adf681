import Verif.Model.Line

/-! # Elementary plane geometry used in statements -/

namespace PVF

/-- The point `a + t (b - a)`. -/
noncomputable def lerp (a b : Pt) (t : ℝ) : Pt := ⟨a.x + t * (b.x - a.x), a.y + t * (b.y - a.y)⟩

/-- The point lies on the closed line segment. -/
def OnSeg (P : Pt) (l : Line) : Prop := ∃ t : ℝ, 0 ≤ t ∧ t ≤ 1 ∧ P = lerp l.b1 l.b2 t

end PVF

import Verif.Spec.Parts

/-!
# Views to the sky by strings

The ends of a line, and the side that a side of a row looks to.
-/

namespace PVF

/-- `lo` and `hi` are the lower and the upper end of a line. -/
def Line.Ends (l : Line) (lo hi : Pt) : Prop := lo.y ≤ hi.y ∧ (l = ⟨lo, hi⟩ ∨ l = ⟨hi, lo⟩)

/-- A side of the rows looks to the left: fronts of rows that are rotated by a positive angle, and
backs of the others. -/
def LooksLeft (g : StepGeom) (s : RowSide) : Prop := s = .front ↔ 0 < g.rot.deg

/-- The cosine of the tilt of a side: the back is turned upside down. -/
noncomputable def sideCos (u : StepIn) : RowSide → ℝ
  | .front => cosd u.surfaceTilt
  | .back => - cosd u.surfaceTilt

end PVF

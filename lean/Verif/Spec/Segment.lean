import Verif.Model.Line

/-!
# Segments on a common straight line

Used to state what happens to collinear surfaces.
-/

namespace PVF
noncomputable section

/-- The point at (signed) distance `s` from the point `o` in the direction of the unit vector `e`. -/
def linePt (o e : Pt) (s : ℝ) : Pt := ⟨o.x + s * e.x, o.y + s * e.y⟩

/-- The segment from distance `a` to distance `b`. -/
def lineSeg (o e : Pt) (a b : ℝ) : Line := ⟨linePt o e a, linePt o e b⟩

/-- Length of the part that the intervals between `a`, `b` and between `c`, `d` have in common. -/
def overlapLen (a b c d : ℝ) : ℝ :=
  max 0 (min (max a b) (max c d) - max (min a b) (min c d))

/-- Strictly between `a` and `b`. -/
def Inside (a b s : ℝ) : Prop := min a b < s ∧ s < max a b

/-- Between `a` and `b` or equal to one of them. -/
def Within (a b s : ℝ) : Prop := min a b ≤ s ∧ s ≤ max a b

/-- Equal, or more than the distance tolerance apart. -/
def Apart (x y : ℝ) : Prop := x = y ∨ TOL < |x - y|

end
end PVF

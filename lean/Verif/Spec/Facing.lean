import Verif.Model.PVArray

/-!
# Which surfaces of an ordered array face each other

Rows are numbered from left to right.  The ground is divided by `n` cut points (one per row: the
point where the plane of the row meets the ground) into `n + 1` zones numbered from left to right,
so zone `z` is left of cut point `r` iff `z ≤ r`.
-/

namespace PVF

/-- The side of a PV row that looks to the left: the front if the rows are tilted to the left,
else the back. -/
def leftLooking (tiltedToLeft : Prop) (s : RowSide) : Prop :=
  (s = .front ∧ tiltedToLeft) ∨ (s = .back ∧ ¬ tiltedToLeft)

/-- `Faces tl a b`: surface `a` is on a PV row and looks towards surface `b`, which is on the
ground or on the next row to the right. -/
inductive Faces (tiltedToLeft : Prop) : SurfRef → SurfRef → Prop
  | groundLeft {r s k sh sh' e z} : leftLooking tiltedToLeft s → z ≤ r →
      Faces tiltedToLeft (.pv r s k sh) (.gnd sh' e z)
  | groundRight {r s k sh sh' e z} : ¬ leftLooking tiltedToLeft s → r < z →
      Faces tiltedToLeft (.pv r s k sh) (.gnd sh' e z)
  | nextRow {r s s' k k' sh sh'} : ¬ leftLooking tiltedToLeft s → leftLooking tiltedToLeft s' →
      Faces tiltedToLeft (.pv r s k sh) (.pv (r + 1) s' k' sh')

/-- Two surfaces can see each other. -/
def FaceEachOther (tiltedToLeft : Prop) (a b : SurfRef) : Prop :=
  Faces tiltedToLeft a b ∨ Faces tiltedToLeft b a

end PVF

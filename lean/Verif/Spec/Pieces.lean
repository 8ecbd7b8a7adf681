import Verif.Spec.Radiosity
import Verif.Spec.Light

/-!
# Parts of an array that do not depend on how sides are cut into segments

The shaded part and the illuminated part of each side of each row, and each ground surface.
-/

namespace PVF

/-- A part of the array. -/
inductive Piece where
  /-- A ground surface. -/
  | gnd (shaded : Bool) (elem zone : ℕ)
  /-- The shaded or the illuminated part of a side of a row. -/
  | side (row : ℕ) (side : RowSide) (shaded : Bool)

/-- The surfaces that make up a part. -/
def Piece.surfs (p : ArrayParams) : Piece → List SurfRef
  | .gnd sh e z => [.gnd sh e z]
  | .side r s sh => (List.range (p.nSeg r s)).map fun k => .pv r s k sh

/-- The same array with other numbers of segments. -/
def ArrayParams.withCut (p : ArrayParams) (c : ℕ → CutSpec) : ArrayParams := { p with cut := c }

/-- Light exchanged between two parts: the view factors from each surface of the first to each
surface of the second, weighted with the length of the former. -/
noncomputable def exchange (p : ArrayParams) (u : StepIn) (F : ℕ → ℕ → ℝ) (X Y : Piece) : ℝ :=
  ((X.surfs p).map fun a => ((Y.surfs p).map fun b =>
    ((fitStep p u).coords a).length * vfBetween p F a b).sum).sum

/-- The sum of a quantity over the surfaces of a part, weighted with their lengths. -/
noncomputable def pieceTotal (p : ArrayParams) (u : StepIn) (X : Piece) (f : SurfRef → ℝ) : ℝ :=
  ((X.surfs p).map fun a => ((fitStep p u).coords a).length * f a).sum

end PVF

import Verif.Model.Plot
import Verif.Spec.Scene
import Verif.Spec.Light

/-!
# What a drawing of the array shows
-/

namespace PVF
noncomputable section

/-- The place of the label of a surface: 0.2 m from its middle, on the side of the given unit vector
at right angles. -/
def labelPlace (l : Line) (n : Pt) : Pt :=
  ⟨(l.b1.x + l.b2.x) / 2 + n.x / 5, (l.b1.y + l.b2.y) / 2 + n.y / 5⟩

open Classical in
/-- A surface as drawn: both kinds of end markers, the line, and with indices its label unless this
would be 50 m or more to the left or right of the first row. -/
def shown (l : Line) (n : Pt) (color : String) (label : Option ℝ) (withIndex : Bool) : List Draw :=
  .coords l :: .bounds l :: .line l color ::
    if withIndex = true ∧ |(labelPlace l n).x| < 50 then [.text (labelPlace l n) label] else []

/-- The surfaces of a side of a row in the order in which they are drawn. -/
def sideDrawOrder (p : ArrayParams) (i : ℕ) (s : RowSide) : List SurfRef :=
  (List.range (p.nSeg i s)).flatMap fun k => [.pv i s k true, .pv i s k false]

/-- The surfaces of a row in the order in which they are drawn. -/
def drawOrder (p : ArrayParams) (i : ℕ) : List SurfRef :=
  sideDrawOrder p i .front ++ sideDrawOrder p i .back

/-- The colour of a surface of a row: red if shaded, else blue. -/
def rowColor (a : SurfRef) : String := if a.isShaded then "#ff0000" else "#6699cc"

/-- A surface of a row as it should be drawn. -/
def rowShown (p : ArrayParams) (u : StepIn) (withIndex : Bool) (a : SurfRef) : List Draw :=
  shown ((fitStep p u).coords a) (outward (fitStep p u).rot.deg a) (rowColor a)
    (some (surfIndex p a : ℝ)) withIndex

/-- The label of a ground surface: its index if cut points are used, and "None" otherwise. -/
def gLabel (withCut : Bool) (s : GSurf) : Option ℝ := if withCut then some s.param else none

end
end PVF

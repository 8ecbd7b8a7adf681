import Verif.Model.VF

/-!
# Surfaces as shapely geometries (geometry/utils.py, geometry/base.py)

At a time step the array can be turned into shapely objects.  A line string with two points is a
`Line`; a multi-part geometry, the list of surfaces of a `ShadeCollection` and an empty geometry are
lists of lines.
-/

namespace PVF
noncomputable section

/-- `linestring.distance(point)` (shapely, external) for a line string with two points: distance to
the nearest point of the segment. -/
def segDist (l : Line) (q : Pt) : ℝ :=
  let dx := l.b2.x - l.b1.x
  let dy := l.b2.y - l.b1.y
  let t := clip (((q.x - l.b1.x) * dx + (q.y - l.b1.y) * dy) / (dx ^ 2 + dy ^ 2)) 0 1
  distPt q ⟨l.b1.x + t * dx, l.b1.y + t * dy⟩

/-- `contains`: pvfactors/geometry/utils.py lines 73-75. -/
def containsPt (l : Line) (q : Pt) : Prop := segDist l q < TOL

open Classical in
/-- `difference`: pvfactors/geometry/utils.py lines 10-70.  The result is a multi line string, a line
string or an empty line string: a list of lines.  For line strings of length zero shapely has no
boundary and the code raises an error; theorems are about the others. -/
def difference (u v : Line) : List Line :=
  if containsPt u v.b1 then
    if containsPt u v.b2 then
      let lines := if containsPt ⟨u.b1, v.b1⟩ v.b2 then [⟨u.b1, v.b2⟩, ⟨v.b1, u.b2⟩]
        else [⟨u.b1, v.b1⟩, ⟨v.b2, u.b2⟩]
      lines.filter fun l => l.length > TOL
    else if containsPt v u.b1 then
      if containsPt v u.b2 then [] else [⟨v.b1, u.b2⟩]
    else if containsPt v u.b2 then [⟨u.b1, v.b1⟩]
    else [u]
  else if containsPt u v.b2 then
    if containsPt v u.b1 then
      if containsPt v u.b2 then [] else [⟨v.b2, u.b2⟩]
    else if containsPt v u.b2 then [⟨u.b1, v.b2⟩]
    else [u]
  else [u]

/-- Total length of the surfaces of a collection (shapely, external). -/
def totalLength (l : List Line) : ℝ := (l.map Line.length).sum

open Classical in
/-- `ShadeCollection.remove_linestring`: pvfactors/geometry/base.py lines 418-449.  `near` tells
whether the surface with a margin of the distance tolerance meets the line string
(`surface.buffer(DISTANCE_TOLERANCE).intersects(linestring)`, shapely, external). -/
def removeLinestring (near : Line → Line → Prop) (surfaces : List Line) (v : Line) : List Line :=
  surfaces.flatMap fun s => if near s v then difference s v else [s]

open Classical in
/-- The loop of `ShadeCollection.cut_at_point`: pvfactors/geometry/base.py lines 476-508.  The first
part is put in the place of the surface, the second part at the end of the list; `none` if no
surface is cut. -/
def cutLoop (q : Pt) : List Line → Option (List Line × Line)
  | [] => none
  | s :: rest =>
    if containsPt s q ∧ distPt s.b1 q > TOL ∧ distPt s.b2 q > TOL then
      some (⟨s.b1, q⟩ :: rest, ⟨q, s.b2⟩)
    else (cutLoop q rest).map fun r => (s :: r.1, r.2)

/-- `ShadeCollection.cut_at_point`: pvfactors/geometry/base.py lines 476-508. -/
def cutAtPoint (surfaces : List Line) (q : Pt) : List Line :=
  match cutLoop q surfaces with
  | none => surfaces
  | some (l, s) => l ++ [s]

/-- `ShadeCollection.merge_surfaces`: pvfactors/geometry/base.py lines 462-474.  `bounds` of the
merged lines (shapely, external) are the extreme coordinates of all end points. -/
def mergeSurfaces : List Line → List Line
  | [] => []
  | [s] => [s]
  | s :: t :: rest =>
    let xs := (t :: rest).flatMap fun l => [l.b1.x, l.b2.x]
    let ys := (t :: rest).flatMap fun l => [l.b1.y, l.b2.y]
    [⟨⟨xs.foldl min (min s.b1.x s.b2.x), ys.foldl min (min s.b1.y s.b2.y)⟩,
      ⟨xs.foldl max (max s.b1.x s.b2.x), ys.foldl max (max s.b1.y s.b2.y)⟩⟩]

end
end PVF

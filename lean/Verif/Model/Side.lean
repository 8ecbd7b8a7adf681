import Verif.Model.Shapely
import Verif.Model.RowAt

/-!
# Segments and sides as objects that can be changed (geometry/base.py, geometry/utils.py)

`cast_shadow` and `cut_at_point` change collections in place, so that collections are kept in a memory
and segments refer to them by number.  `all_surfaces` keeps the list that it returned first.  Surfaces
are given by their lines only.
-/

namespace PVF
noncomputable section

open Classical in
/-- `projection`: pvfactors/geometry/utils.py lines 117-170, for a line string with two points; `none`
is the empty geometry. -/
def projection (point vector : Pt) (l : Line) (mustContain : Bool) : Option Pt :=
  let a := -vector.y
  let b := vector.x
  let c := -(a * point.x + b * point.y)
  let d := -(l.b2.y - l.b1.y)
  let e := l.b2.x - l.b1.x
  let f := -(d * l.b1.x + e * l.b1.y)
  if vecsCollinear ⟨a, b⟩ ⟨d, e⟩ then none
  else
    let det := a * e - b * d
    let pt : Pt := ⟨-((e * c - b * f) / det), -((-d * c + a * f) / det)⟩
    let distance1 := distPt l.b1 pt
    let distance2 := distPt l.b2 pt
    if mustContain = false then some pt
    else if segDist l pt < TOL ∧ distance1 ≤ l.length ∧ distance2 ≤ l.length then
      if distance1 < TOL then some l.b1
      else if distance2 < TOL then some l.b2
      else some pt
    else none

/-- The points at which `BaseSide.from_linestring_coords` divides a line: pvfactors/geometry/base.py
lines 971-974 (`interpolate`, shapely, external). -/
def dividePoint (l : Line) (n k : ℕ) : Pt :=
  ⟨l.b1.x + (k : ℝ) / n * (l.b2.x - l.b1.x), l.b1.y + (k : ℝ) / n * (l.b2.y - l.b1.y)⟩

/-- The lines of the segments made by `BaseSide.from_linestring_coords`: pvfactors/geometry/base.py
lines 963-982. -/
def sideLines (l : Line) (n : ℕ) : List Line :=
  if n = 1 then [l]
  else (List.range n).map fun k => ⟨dividePoint l n k, dividePoint l n (k + 1)⟩

/-- `_coords_from_center_tilt_length`: pvfactors/geometry/base.py lines 41-95. -/
def coordsFromCenterTiltLength (center : Pt) (tilt length surfaceAzimuth axisAzimuth : ℝ) : Line :=
  let radius := length / 2
  let rotation := (rotationFromTiltAzimuth surfaceAzimuth axisAzimuth tilt).deg
  ⟨⟨radius * cosd (rotation + 180) + center.x, radius * sind (rotation + 180) + center.y⟩,
   ⟨radius * cosd rotation + center.x, radius * sind rotation + center.y⟩⟩

/-- A surface with the given line: `PVSurface.__init__`, pvfactors/geometry/base.py lines 168-203 and
297-323.  `names` are the parameter names; the values are `None`. -/
def surfFromLine (l : Line) (shaded : Bool) (normal : Option Pt) (names : List String) : PSurf :=
  ⟨l, normal.getD (calcNormal l), names.map fun x => (x, .nothing), none, shaded⟩

/-- `PVSegment.from_linestring_coords`: pvfactors/geometry/base.py lines 808-840, with
`ShadeCollection.from_linestring_coords`, lines 583-602. -/
def segFromLine (l : Line) (shaded : Bool) (normal : Option Pt) (index : Option ℕ)
    (names : List String) : Option PSeg :=
  (mkColl [surfFromLine l shaded normal names] shaded).bind fun col =>
    (mkColl [] (!shaded)).bind fun other =>
      if shaded = true then mkSeg other col index else mkSeg col other index

/-- `BaseSide.from_linestring_coords`: pvfactors/geometry/base.py lines 941-982. -/
def sideFromLine (l : Line) (shaded : Bool) (normal : Option Pt) (index : Option ℕ) (n : ℕ)
    (names : List String) : Option (List PSeg) :=
  ((sideLines l n).mapM fun k => segFromLine k shaded normal index names).bind mkSide

/-- `PVRow.from_linestring_coords`: pvfactors/geometry/pvrow.py lines 701-743.  Without a normal
vector and without front segments the negation of `None` raises an error. -/
def rowFromLine (l : Line) (shaded : Bool) (normal : Option Pt) (index : ℕ) (cut : CutSpec)
    (names : List String) : Option PRow :=
  (sideFromLine l shaded normal (some 0) (cut.front.getD 1) names).bind fun front =>
    let back := match normal with
      | some n => some n
      | none => front.head?.bind PSeg.normal
    back.bind fun n =>
      (sideFromLine l shaded (some ⟨-n.x, -n.y⟩) (some 0) (cut.back.getD 1) names).bind fun back =>
        some ⟨front, back, index, l⟩

/-- `PVRow.from_center_tilt_width`: pvfactors/geometry/pvrow.py lines 745-788. -/
def rowFromCenter (center : Pt) (tilt width surfaceAzimuth axisAzimuth : ℝ) (shaded : Bool)
    (normal : Option Pt) (index : ℕ) (cut : CutSpec) (names : List String) : Option PRow :=
  rowFromLine (coordsFromCenterTiltLength center tilt width surfaceAzimuth axisAzimuth) shaded normal
    index cut names

/-- The memory: surfaces of each collection. -/
abbrev Colls := ℕ → List Line

/-- A `PVSegment` object: its two collections and the kept list of surfaces
(pvfactors/geometry/base.py lines 612-637). -/
structure SegObj where
  illum : ℕ
  shaded : ℕ
  cache : Option (List Line)

/-- `PVSegment.__init__` with collections given or left out.  The default collections are made once,
when the class is defined, and used for all segments; they have numbers 0 and 1 here:
pvfactors/geometry/base.py lines 612-613 and 632-635. -/
def mkSegObj (illum shaded : Option ℕ) : SegObj := ⟨illum.getD 0, shaded.getD 1, none⟩

/-- What shapely computes in `cast_shadow`: `illum.buffer(DISTANCE_TOLERANCE).intersection(line)`, as a
list of parts. -/
abbrev Intersect := List Line → Line → List Line

/-- `PVSegment.cast_shadow`: pvfactors/geometry/base.py lines 688-712.  `none`: an intersection with
several parts has no coordinates, shapely raises an error.  (So does an intersection in a single
point, which is not modelled.) -/
def SegObj.castShadow (near : Line → Line → Prop) (inter : Intersect) (m : Colls) (s : SegObj)
    (v : Line) : Option Colls :=
  match inter (m s.illum) v with
  | [] => some m
  | [w] =>
    let m := Function.update m s.shaded (m s.shaded ++ [w])
    some (Function.update m s.illum (removeLinestring near (m s.illum) w))
  | _ => none

open Classical in
/-- `PVSegment.cut_at_point`: pvfactors/geometry/base.py lines 714-727.  A collection contains a point
if one of its parts does.  (shapely may still hold the lines that a geometry had when it was made; they
cover the same points, up to the tolerance, as the lines that it has now.) -/
def SegObj.cutAtPoint (m : Colls) (s : SegObj) (q : Pt) : Colls :=
  if ∃ l ∈ m s.shaded ++ m s.illum, containsPt l q then
    if ∃ l ∈ m s.illum, containsPt l q then Function.update m s.illum (PVF.cutAtPoint (m s.illum) q)
    else Function.update m s.shaded (PVF.cutAtPoint (m s.shaded) q)
  else m

/-- `PVSegment.all_surfaces`: pvfactors/geometry/base.py lines 907-920. -/
def SegObj.allSurfaces (m : Colls) (s : SegObj) : List Line × SegObj :=
  match s.cache with
  | some l => (l, s)
  | none => let l := m s.illum ++ m s.shaded; (l, { s with cache := some l })

/-- Setters of the collections: pvfactors/geometry/base.py lines 847-859 and 874-886.  The kept list of
surfaces stays as it is. -/
def SegObj.setShaded (s : SegObj) (c : ℕ) : SegObj := { s with shaded := c }

@[inherit_doc SegObj.setShaded]
def SegObj.setIllum (s : SegObj) (c : ℕ) : SegObj := { s with illum := c }

/-- `BaseSide.cast_shadow`: pvfactors/geometry/base.py lines 1046-1057. -/
def castShadowSide (near : Line → Line → Prop) (inter : Intersect) (v : Line) :
    Colls → List SegObj → Option Colls
  | m, [] => some m
  | m, s :: rest => (s.castShadow near inter m v).bind fun m' => castShadowSide near inter v m' rest

open Classical in
/-- `BaseSide.cut_at_point`: pvfactors/geometry/base.py lines 1064-1078. -/
def cutAtPointSide (m : Colls) (segs : List SegObj) (q : Pt) : Colls :=
  if ∃ s ∈ segs, ∃ l ∈ m s.shaded ++ m s.illum, containsPt l q then
    segs.foldl (fun m s => s.cutAtPoint m q) m
  else m

/-- `BaseSide.merge_shaded_areas`: pvfactors/geometry/base.py lines 1059-1062. -/
def mergeShadedSide (m : Colls) (segs : List SegObj) : Colls :=
  segs.foldl (fun m s => Function.update m s.shaded (mergeSurfaces (m s.shaded))) m

/-- `PVSegment.length` (shapely, external). -/
def SegObj.total (m : Colls) (s : SegObj) : ℝ := totalLength (m s.illum) + totalLength (m s.shaded)

end
end PVF

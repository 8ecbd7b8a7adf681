import Verif.Model.Rotation

/-!
# PV rows at one time step (geometry/pvrow.py)
-/

namespace PVF
noncomputable section

/-- One time step of a `TsSegment`: full coordinates, and the coordinates of the single surface of
its illuminated and of its shaded collection.  pvfactors/geometry/pvrow.py lines 486-514 and
328-341 (each collection is created with exactly one surface). -/
structure SegGeom where
  coords : Line
  illum : Line
  shaded : Line

instance : Inhabited SegGeom := ⟨⟨default, default, default⟩⟩

/-- `TsPVRow._calculate_full_coords`: pvfactors/geometry/pvrow.py lines 96-122. -/
def fullRowCoords (center : Pt) (width rotation : ℝ) : Line :=
  let radius := width / 2
  let x1 := radius * cosd (rotation + 180) + center.x
  let y1 := radius * sind (rotation + 180) + center.y
  let x2 := radius * cosd rotation + center.x
  let y2 := radius * sind rotation + center.y
  ⟨⟨x1, y1⟩, ⟨x2, y2⟩⟩

/-- The point of a PV row side where the shade ends (`x_sh`, `y_sh`):
pvfactors/geometry/pvrow.py lines 282-291. -/
def shadePoint (center : Pt) (width rotation shadedLength : ℝ) : Pt :=
  let radius := width / 2
  let rShade := radius - shadedLength
  ⟨if rotation ≥ 0 then rShade * cosd (rotation + 180) + center.x
    else rShade * cosd rotation + center.x,
   if rotation ≥ 0 then rShade * sind (rotation + 180) + center.y
    else rShade * sind rotation + center.y⟩

/-- Body of the loop of `TsSide.from_raw_inputs` for segment `i`:
pvfactors/geometry/pvrow.py lines 274-341. -/
def sideSegment (center : Pt) (width rotation : ℝ) (cut : ℕ) (shadedLength : ℝ) (i : ℕ) :
    SegGeom :=
  let radius := width / 2
  let segmentLength := width / cut
  let sh := shadePoint center width rotation shadedLength
  let r1 := radius - i * segmentLength
  let r2 := radius - (i + 1) * segmentLength
  let x1 := r1 * cosd (rotation + 180) + center.x
  let y1 := r1 * sind (rotation + 180) + center.y
  let x2 := r2 * cosd (rotation + 180) + center.x
  let y2 := r2 * sind (rotation + 180) + center.y
  let xHighest := if rotation ≥ 0 then x2 else x1
  let yHighest := if rotation ≥ 0 then y2 else y1
  let xLowest := if rotation ≥ 0 then x1 else x2
  let yLowest := if rotation ≥ 0 then y1 else y2
  let maskAllShaded := sh.y > yHighest ∧ rotation ≠ 0
  let maskPartialShaded := sh.y > yLowest ∧ ¬ maskAllShaded ∧ rotation ≠ 0
  let x2Shaded := if maskPartialShaded then sh.x else if maskAllShaded then xHighest else xLowest
  let y2Shaded := if maskPartialShaded then sh.y else if maskAllShaded then yHighest else yLowest
  { coords := ⟨⟨x1, y1⟩, ⟨x2, y2⟩⟩
    illum := ⟨⟨x2Shaded, y2Shaded⟩, ⟨xHighest, yHighest⟩⟩
    shaded := ⟨⟨xLowest, yLowest⟩, ⟨x2Shaded, y2Shaded⟩⟩ }

/-- `TsSide.from_raw_inputs`: pvfactors/geometry/pvrow.py lines 244-344.  The normal vectors and
parameter names are not modelled. -/
def sideSegments (center : Pt) (width rotation : ℝ) (cut : ℕ) (shadedLength : ℝ) : List SegGeom :=
  (List.range cut).map (sideSegment center width rotation cut shadedLength)

/-- `TsSegment.length`: pvfactors/geometry/pvrow.py lines 576-579. -/
def SegGeom.length (s : SegGeom) : ℝ := s.illum.length + s.shaded.length

/-- `TsSide.shaded_length`: pvfactors/geometry/pvrow.py lines 402-408. -/
def sideShadedLength (segs : List SegGeom) : ℝ := (segs.map (fun s => s.shaded.length)).sum

/-- `TsSide.length`: pvfactors/geometry/pvrow.py lines 410-416. -/
def sideLength (segs : List SegGeom) : ℝ := (segs.map SegGeom.length).sum

/-- One time step of a `TsPVRow`: pvfactors/geometry/pvrow.py lines 13-41. -/
structure RowGeom where
  center : Pt
  full : Line
  front : List SegGeom
  back : List SegGeom

instance : Inhabited RowGeom := ⟨⟨default, default, [], []⟩⟩

/-- Discretisation of one row: one value of the `cut` dictionary, e.g. `{'front': 2}`
(pvfactors/geometry/pvarray.py lines 42-46). -/
structure CutSpec where
  front : Option ℕ := none
  back : Option ℕ := none

/-- `TsPVRow.from_raw_inputs`: pvfactors/geometry/pvrow.py lines 43-94. -/
def rowFromRawInputs (center : Pt) (width rotation : ℝ) (cut : CutSpec)
    (shadedLengthFront shadedLengthBack : ℝ) : RowGeom where
  center := center
  full := fullRowCoords center width rotation
  front := sideSegments center width rotation (cut.front.getD 1) shadedLengthFront
  back := sideSegments center width rotation (cut.back.getD 1) shadedLengthBack

end
end PVF

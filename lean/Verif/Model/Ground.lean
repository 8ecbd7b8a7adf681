import Verif.Model.PVRow

/-!
# The ground at one time step (geometry/pvground.py)
-/

namespace PVF
noncomputable section

/-- `np.maximum(np.minimum(x, cut.x), MIN_X_GROUND)`:
pvfactors/geometry/pvground.py lines 982-983. -/
def leftOfCutX (x : ℝ) : XR → ℝ
  | .negInf => MIN_X
  | .fin c => max (min x c) MIN_X
  | .posInf => max x MIN_X

/-- `np.minimum(np.maximum(x, cut.x), MAX_X_GROUND)`:
pvfactors/geometry/pvground.py lines 956-957. -/
def rightOfCutX (x : ℝ) : XR → ℝ
  | .negInf => min x MAX_X
  | .fin c => min (max x c) MAX_X
  | .posInf => MAX_X

/-- `TsGroundElement._coords_left_of_cut_point`: pvfactors/geometry/pvground.py lines 962-986. -/
def coordsLeftOfCut (l : Line) (c : XR) : Line :=
  ⟨⟨leftOfCutX l.b1.x c, l.b1.y⟩, ⟨leftOfCutX l.b2.x c, l.b2.y⟩⟩

/-- `TsGroundElement._coords_right_of_cut_point`: pvfactors/geometry/pvground.py lines 936-960. -/
def coordsRightOfCut (l : Line) (c : XR) : Line :=
  ⟨⟨rightOfCutX l.b1.x c, l.b1.y⟩, ⟨rightOfCutX l.b2.x c, l.b2.y⟩⟩

/-- The list of surfaces created by `TsGroundElement._create_all_ts_surfaces`
(`surface_list`): pvfactors/geometry/pvground.py lines 914-932. -/
def cutSurfaces : Line → List XR → List Line
  | next, [] => [next]
  | next, c :: cs => coordsLeftOfCut next c :: cutSurfaces (coordsRightOfCut next c) cs

/-- `surface_dict` of a ground element: for each cut point the surfaces to its left and right.
References to surface objects are modelled by their position in `surface_list`. -/
structure SideDict where
  left : ℕ → List ℕ
  right : ℕ → List ℕ

/-- One iteration of the loop of `_create_all_ts_surfaces` for cut point `idxPt`:
pvfactors/geometry/pvground.py lines 923-926. -/
def surfaceDictStep (nCutPts : ℕ) (d : SideDict) (idxPt : ℕ) : SideDict where
  left := fun i => if idxPt ≤ i ∧ i < nCutPts then d.left i ++ [idxPt] else d.left i
  right := fun j => if j < idxPt then d.right j ++ [idxPt] else d.right j

/-- `surface_dict` after `_create_all_ts_surfaces`: pvfactors/geometry/pvground.py
lines 910-934. -/
def surfaceDict (nCutPts : ℕ) : SideDict :=
  let d := (List.range nCutPts).foldl (surfaceDictStep nCutPts) ⟨fun _ => [], fun _ => []⟩
  { d with right := fun j => if j < nCutPts then d.right j ++ [nCutPts] else d.right j }

/-- x coordinates of the shadow of one PV row, ordered left to right:
pvfactors/geometry/pvground.py lines 104-119.  `(y - y_ground) / np.tan(alpha)` is written
`(y - y_ground) * cos alpha / sin alpha`, the same real number whenever `tan alpha` is defined
and not zero, and its limit 0 at `alpha = pi/2`; theorems assume `sin alpha ≠ 0`
(numpy returns an infinity there). -/
def shadowXs (full : Line) (alpha : ℝ) : ℝ × ℝ :=
  let x1 := full.b1.x - (full.b1.y - Y_GROUND) * Real.cos alpha / Real.sin alpha
  let x2 := full.b2.x - (full.b2.y - Y_GROUND) * Real.cos alpha / Real.sin alpha
  (if x1 ≤ x2 then x1 else x2, if x1 ≤ x2 then x2 else x1)

/-- x coordinate of the cut point of one PV row: pvfactors/geometry/pvground.py lines 97, 121-123:
`x1 - (y1 - y_ground) / np.tan(rotation)`.  For a flat row `np.tan` of the signed zero is a signed
zero, so the quotient is infinite with the sign of the zero times the sign of `y1 - y_ground`; the
model covers `y1 > y_ground` (otherwise numpy gives the opposite infinity, or NaN).  For non-flat
rows the quotient by the tangent is written with cosine and sine as in `shadowXs`. -/
def cutPointX (full : Line) (rot : Rot) : XR :=
  if rot.deg = 0 then (if rot.negZero then XR.posInf else XR.negInf)
  else XR.fin (full.b1.x - (full.b1.y - Y_GROUND) * cosd rot.deg / sind rot.deg)

/-- The ground at one time step: raw data from which elements are made.
`nRows` shadows ordered from left to right, cut points, and the overlap flag. -/
structure GroundIn where
  nRows : ℕ
  /-- ordered shadow boundaries of each row -/
  shadowXs : ℕ → ℝ × ℝ
  /-- `flag_overlap` at this time step -/
  flagOverlap : Prop
  cuts : List XR

/-- Shadow boundaries after the overlap treatment of `from_ordered_shadows_coords`:
pvfactors/geometry/pvground.py lines 161-167. -/
def GroundIn.noOverlap (g : GroundIn) (i : ℕ) : ℝ × ℝ :=
  open Classical in
  ((g.shadowXs i).1,
   if i + 1 < g.nRows ∧ g.flagOverlap then (g.shadowXs (i + 1)).1 else (g.shadowXs i).2)

/-- Coordinates of shadow element `i`: pvfactors/geometry/pvground.py lines 609-617 (clipping). -/
def GroundIn.shadowEl (g : GroundIn) (i : ℕ) : Line :=
  ⟨⟨clip (g.noOverlap i).1 MIN_X MAX_X, Y_GROUND⟩, ⟨clip (g.noOverlap i).2 MIN_X MAX_X, Y_GROUND⟩⟩

/-- Coordinates of illuminated element `i` (`0 ≤ i ≤ nRows`):
pvfactors/geometry/pvground.py lines 653-675 (the loop variable `next_x` is the right end of the
previous shadow, initially `MIN_X_GROUND`; the last element ends at `MAX_X_GROUND`). -/
def GroundIn.illumEl (g : GroundIn) (i : ℕ) : Line :=
  ⟨⟨if i = 0 then MIN_X else (g.shadowEl (i - 1)).b2.x, Y_GROUND⟩,
   ⟨if i < g.nRows then (g.shadowEl i).b1.x else MAX_X, Y_GROUND⟩⟩

/-- `TsGround.length`: pvfactors/geometry/pvground.py lines 492-500. -/
def GroundIn.length (g : GroundIn) : ℝ :=
  ((List.range g.nRows).map (fun i => (g.shadowEl i).length)).sum
    + ((List.range (g.nRows + 1)).map (fun i => (g.illumEl i).length)).sum

/-- `TsGround.shaded_length`: pvfactors/geometry/pvground.py lines 502-508. -/
def GroundIn.shadedLength (g : GroundIn) : ℝ :=
  ((List.range g.nRows).map (fun i => (g.shadowEl i).length)).sum

end
end PVF

import Verif.Model.GroundAt
import Verif.Model.Indices
import Verif.Model.Side

/-!
# Ground geometries for one time step (geometry/pvground.py, class `PVGround`)
-/

namespace PVF
noncomputable section

/-- A `PVGround`: pvfactors/geometry/pvground.py lines 990-1007.  `line` is `original_linestring`. -/
structure PGround where
  segs : List PSeg
  line : Line

/-- The full extent of a ground: pvfactors/geometry/pvground.py lines 1030-1036 and 1074-1078. -/
def groundExtent (xMinMax : Option (ℝ × ℝ)) (y : ℝ) : Line :=
  let x := xMinMax.getD (MIN_X, MAX_X)
  ⟨⟨x.1, y⟩, ⟨x.2, y⟩⟩

/-- `PVGround.as_flat`: pvfactors/geometry/pvground.py lines 1009-1040. -/
def groundAsFlat (xMinMax : Option (ℝ × ℝ)) (shaded : Bool) (y : ℝ) (names : List String) :
    Option PGround :=
  (segFromLine (groundExtent xMinMax y) shaded (some ⟨0, 1⟩) none names).bind fun s =>
    (mkSide [s]).map fun l => ⟨l, groundExtent xMinMax y⟩

/-- `PVGround.from_lists_surfaces`: pvfactors/geometry/pvground.py lines 1042-1093. -/
def groundFromLists (shaded illum : List PSurf) (xMinMax : Option (ℝ × ℝ)) (y : ℝ) :
    Option PGround :=
  (mkColl shaded true).bind fun s => (mkColl illum false).bind fun i =>
    (mkSeg i s none).bind fun seg => (mkSide [seg]).map fun l => ⟨l, groundExtent xMinMax y⟩

/-- `PVGround.boundary` (shapely: the ends of the line): pvfactors/geometry/pvground.py lines
1095-1098. -/
def PGround.boundary (g : PGround) : List Pt := [g.line.b1, g.line.b2]

/-- The surface object of a ground surface: its normal vector is computed from its coordinates, as
ground surfaces are made without one (pvfactors/geometry/pvground.py lines 720-746, 914-932,
pvfactors/geometry/base.py lines 198-211).  Its parameters are those of `GSurf`. -/
def GSurf.toPSurf (shaded : Bool) (s : GSurf) : PSurf :=
  ⟨s.line, calcNormal s.line, [("param", .scalar s.param)], none, shaded⟩

/-- `TsGround.at`: pvfactors/geometry/pvground.py lines 168-270.  `q` and `qi` are the parameter of the
shaded and of the illuminated surfaces, `qAll` and `qiAll` those of the shaded and of the illuminated
ground as a whole. -/
def GroundIn.geometryAt (g : GroundIn) (xMinMax : Option (ℝ × ℝ)) (merge withCut : Bool)
    (q qi : ℕ → ℕ → ℝ) (qAll qiAll : ℝ) : Option PGround :=
  groundFromLists ((g.shadedAt merge withCut q qAll).map (GSurf.toPSurf true))
    ((g.illumAt withCut qi qiAll).map (GSurf.toPSurf false)) xMinMax Y_GROUND

end
end PVF

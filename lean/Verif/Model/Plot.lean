import Verif.Model.GroundObj

/-!
# Drawings (geometry/plot.py and the methods `plot` and `plot_at_idx`)

A drawing is the list of the commands given to the axes, in order.  Marker styles, line widths,
transparency, drawing order keys and text alignment are constants of the code and are left out.
-/

namespace PVF
noncomputable section

/-- A command given to the axes.  `coords` and `bounds` are the markers drawn at the ends of a
surface; `text` has the index of a surface, or `none` for the word "None". -/
inductive Draw where
  | coords (l : Line)
  | bounds (l : Line)
  | line (l : Line) (color : String)
  | text (at_ : Pt) (label : Option ℝ)
  | axisEqual
  | xlim (a b : ℝ)
  | ylim (a b : ℝ)
  | xlabel (s : String) (size : ℕ)
  | ylabel (s : String) (size : ℕ)

/-- `ALPHA_TEXT`: pvfactors/config.py line 29. -/
def ALPHA_TEXT : ℝ := 0.20

/-- `PLOT_FONTSIZE`: pvfactors/config.py line 28. -/
def PLOT_FONTSIZE : ℕ := 20

/-- `COLOR_DIC['pvrow_illum']`: pvfactors/config.py line 23. -/
def COLOR_ROW_ILLUM : String := "#6699cc"
/-- `COLOR_DIC['pvrow_shaded']`: pvfactors/config.py line 24. -/
def COLOR_ROW_SHADED : String := "#ff0000"
/-- `COLOR_DIC['ground_shaded']`: pvfactors/config.py line 25. -/
def COLOR_GROUND_SHADED : String := "#A7A49D"
/-- `COLOR_DIC['ground_illum']`: pvfactors/config.py line 26. -/
def COLOR_GROUND_ILLUM : String := "#FFBB33"

/-- `np.linalg.norm` of a vector in the plane. -/
def vecNorm (v : Pt) : ℝ := √(v.x ^ 2 + v.y ^ 2)

open Classical in
/-- `BaseSurface.plot`: pvfactors/geometry/base.py lines 215-243, with pvfactors/geometry/plot.py
lines 4-64 for a line of positive length.  The centroid of a line is its middle (shapely, external).
`label` reads the index of a surface. -/
def PSurf.draw (label : PSurf → Option ℝ) (color : String) (withIndex : Bool) (s : PSurf) :
    List Draw :=
  [.coords s.line, .bounds s.line, .line s.line color] ++
  (if withIndex then
    let v := s.normal
    let u : Pt := ⟨v.x / vecNorm v, v.y / vecNorm v⟩
    let x := s.line.centroid.x + ALPHA_TEXT * u.x
    let y := s.line.centroid.y + ALPHA_TEXT * u.y
    if |x| < MAX_X / 2 then [.text ⟨x, y⟩ (label s)] else []
  else [])

/-- `ShadeCollection.plot`: pvfactors/geometry/base.py lines 373-386. -/
def PColl.draw (label : PSurf → Option ℝ) (color : String) (withIndex : Bool) (c : PColl) :
    List Draw :=
  c.surfs.flatMap (PSurf.draw label color withIndex)

/-- `PVSegment.plot`: pvfactors/geometry/base.py lines 666-685. -/
def PSeg.draw (label : PSurf → Option ℝ) (colorShaded colorIllum : String) (withIndex : Bool)
    (s : PSeg) : List Draw :=
  s.shaded.draw label colorShaded withIndex ++ s.illum.draw label colorIllum withIndex

/-- `BaseSide.plot`: pvfactors/geometry/base.py lines 1025-1044. -/
def pSideDraw (label : PSurf → Option ℝ) (colorShaded colorIllum : String) (withIndex : Bool)
    (l : List PSeg) : List Draw :=
  l.flatMap (PSeg.draw label colorShaded colorIllum withIndex)

/-- The label of a surface of a row: its index. -/
def rowLabel (s : PSurf) : Option ℝ := s.index.map fun n => (n : ℝ)

/-- `PVRow.plot`: pvfactors/geometry/pvrow.py lines 790-811. -/
def PRow.draw (colorShaded colorIllum : String) (withIndex : Bool) (r : PRow) : List Draw :=
  pSideDraw rowLabel colorShaded colorIllum withIndex r.front ++
    pSideDraw rowLabel colorShaded colorIllum withIndex r.back

/-- `TsPVRow.plot_at_idx`: pvfactors/geometry/pvrow.py lines 141-163. -/
def TsRow.plotAtIdx (r : TsRow) (idx : ℕ) (colorShaded colorIllum : String) (withIndex : Bool) :
    Option (List Draw) :=
  (r.at idx).map fun g => g.draw colorShaded colorIllum withIndex

/-- `TsSide.plot_at_idx`: pvfactors/geometry/pvrow.py lines 381-400. -/
def tsSidePlotAtIdx (segs : List TsSeg) (idx : ℕ) (colorShaded colorIllum : String) :
    Option (List Draw) :=
  (tsSideAt segs idx).map fun l => pSideDraw rowLabel colorShaded colorIllum false l

/-- `TsSegment.plot_at_idx`: pvfactors/geometry/pvrow.py lines 533-551. -/
def TsSeg.plotAtIdx (s : TsSeg) (idx : ℕ) (colorShaded colorIllum : String) :
    Option (List Draw) :=
  (s.at idx).map fun g => g.draw rowLabel colorShaded colorIllum false

open Classical in
/-- `TsSurface.plot_at_idx`: pvfactors/geometry/timeseries.py lines 174-188. -/
def TsSurf.plotAtIdx (s : TsSurf) (idx : ℕ) (color : String) : List Draw :=
  if (s.coords idx).length > TOL then
    match s.at idx with
    | some g => g.draw rowLabel color false
    | none => []
  else []

/-- The label of a ground surface.  Surfaces made at cut points carry the index of their timeseries
surface (pvfactors/geometry/timeseries.py lines 166-171, pvfactors/geometry/pvground.py lines 724-728
and 740-744), which is merged just like the parameters; here it takes the place of the parameter.
Without cut points surfaces have no index (pvfactors/geometry/pvground.py lines 236-264). -/
def groundLabel (withCut : Bool) (s : PSurf) : Option ℝ :=
  if withCut then
    match s.params with
    | [(_, .scalar x)] => some x
    | _ => none
  else none

/-- `TsGround.plot_at_idx`: pvfactors/geometry/pvground.py lines 272-306. -/
def groundPlotAtIdx (p : ArrayParams) (g : GroundIn) (xMinMax : Option (ℝ × ℝ))
    (merge withCut : Bool) (colorShaded colorIllum : String) (withIndex : Bool) :
    Option (List Draw) :=
  (g.geometryAt xMinMax merge withCut (fun e z => (surfIndex p (.gnd true e z) : ℝ))
    (fun e z => (surfIndex p (.gnd false e z) : ℝ)) 0 0).map fun G =>
      pSideDraw (groundLabel withCut) colorShaded colorIllum withIndex G.segs

/-- `BasePVArray.plot_at_idx`: pvfactors/geometry/base.py lines 1177-1225, for an ordered array
(distance and height are not `None`). -/
def plotAtIdx (p : ArrayParams) (u : ℕ → StepIn) (q : SurfRef → ParamDict) (idx : ℕ)
    (merge withCut : Bool) (xMinMax : Option (ℝ × ℝ)) (withIndex : Bool) : Option (List Draw) :=
  (groundPlotAtIdx p (fitStep p (u idx)).ground xMinMax merge withCut COLOR_GROUND_SHADED
    COLOR_GROUND_ILLUM withIndex).bind fun g =>
  ((List.range p.nRows).mapM fun i =>
    (tsRow p u q i).plotAtIdx idx COLOR_ROW_SHADED COLOR_ROW_ILLUM withIndex).map fun rows =>
  g ++ rows.flatten ++
    [.axisEqual, .xlim (-0.5 * p.distance) ((p.nRows - 0.5) * p.distance),
      .ylim (-p.height) (2 * p.height), .xlabel "x [m]" PLOT_FONTSIZE, .ylabel "y [m]" PLOT_FONTSIZE]

end
end PVF

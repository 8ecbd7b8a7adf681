import Verif.Model.PVArray

/-!
# Length-weighted parameters (geometry/timeseries.py, geometry/pvrow.py, geometry/pvground.py)

Everything at one time step.  `len a` is the length of surface `a` and `val a` the value of the
parameter in question in its parameter dictionary.
-/

namespace PVF
noncomputable section

variable {α : Type*}

/-- `TsShadeCollection.length`: pvfactors/geometry/timeseries.py lines 36-41.  The same loop as
`length` of a shapely collection. -/
def collLength (len : α → ℝ) (coll : List α) : ℝ := coll.foldl (fun l a => l + len a) 0

/-- `TsShadeCollection.get_param_ww`: pvfactors/geometry/timeseries.py lines 64-81, and
`ShadeCollection.get_param_ww`: pvfactors/geometry/base.py lines 527-549. -/
def collWW (len val : α → ℝ) (coll : List α) : ℝ := coll.foldl (fun v a => v + len a * val a) 0

/-- `TsShadeCollection.get_param_weighted`: pvfactors/geometry/timeseries.py lines 48-62. -/
def collWeighted (len val : α → ℝ) (coll : List α) : ℝ := collWW len val coll / collLength len coll

/-- The surfaces of a `TsSegment`: pvfactors/geometry/pvrow.py lines 490-514. -/
structure SegColl (α : Type*) where
  illum : List α
  shaded : List α

/-- `TsSegment.all_ts_surfaces`: pvfactors/geometry/pvrow.py lines 643-646. -/
def SegColl.all (s : SegColl α) : List α := s.illum ++ s.shaded

/-- `TsSegment.length`: pvfactors/geometry/pvrow.py lines 576-579. -/
def segLength (len : α → ℝ) (s : SegColl α) : ℝ := collLength len s.illum + collLength len s.shaded

/-- `TsSegment.get_param_ww`: pvfactors/geometry/pvrow.py lines 607-621. -/
def segWW (len val : α → ℝ) (s : SegColl α) : ℝ :=
  collWW len val s.illum + collWW len val s.shaded

/-- `TsSegment.get_param_weighted`: pvfactors/geometry/pvrow.py lines 591-605. -/
def segWeighted (len val : α → ℝ) (s : SegColl α) : ℝ := segWW len val s / segLength len s

/-- `TsSide.length`: pvfactors/geometry/pvrow.py lines 410-416. -/
def sideCollLength (len : α → ℝ) (segs : List (SegColl α)) : ℝ :=
  segs.foldl (fun l s => l + segLength len s) 0

/-- `TsSide.get_param_ww`: pvfactors/geometry/pvrow.py lines 434-456. -/
def sideWW (len val : α → ℝ) (segs : List (SegColl α)) : ℝ :=
  segs.foldl (fun v s => v + segWW len val s) 0

/-- `TsSide.get_param_weighted`: pvfactors/geometry/pvrow.py lines 418-432. -/
def sideWeighted (len val : α → ℝ) (segs : List (SegColl α)) : ℝ :=
  sideWW len val segs / sideCollLength len segs

/-- The segments of a side of row `i` of an array, each with one illuminated and one shaded
surface: pvfactors/geometry/pvrow.py lines 328-344. -/
def sideColl (p : ArrayParams) (i : ℕ) (s : RowSide) : List (SegColl SurfRef) :=
  (List.range (p.nSeg i s)).map fun k => ⟨[.pv i s k false], [.pv i s k true]⟩

/-- `TsGroundElement.get_param_ww`: pvfactors/geometry/pvground.py lines 874-896. -/
def elemWW (p : ArrayParams) (len val : SurfRef → ℝ) (sh : Bool) (e : ℕ) : ℝ :=
  (List.range (p.nRows + 1)).foldl (fun v z => v + len (.gnd sh e z) * val (.gnd sh e z)) 0

/-- `TsGroundElement.get_param_weighted`: pvfactors/geometry/pvground.py lines 858-872.  The length
is the one of the coordinates of the element (lines 815-818), not a sum over its surfaces. -/
def elemWeighted (p : ArrayParams) (g : StepGeom) (val : SurfRef → ℝ) (sh : Bool) (e : ℕ) : ℝ :=
  elemWW p (fun a => (g.coords a).length) val sh e
    / (if sh then g.ground.shadowEl e else g.ground.illumEl e).length

/-- `TsGround.get_param_ww`: pvfactors/geometry/pvground.py lines 369-393. -/
def groundWW (p : ArrayParams) (len val : SurfRef → ℝ) : ℝ :=
  (List.range (p.nRows + 1)).foldl (fun v e => v + elemWW p len val false e)
    ((List.range p.nRows).foldl (fun v e => v + elemWW p len val true e) 0)

/-- `TsGround.get_param_weighted`: pvfactors/geometry/pvground.py lines 353-367. -/
def groundWeighted (p : ArrayParams) (g : StepGeom) (val : SurfRef → ℝ) : ℝ :=
  groundWW p (fun a => (g.coords a).length) val / g.ground.length

end
end PVF

import Verif.Model.RoundedIrr
import Verif.Model.Weighted

/-!
# Length-weighted parameters with rounding
(geometry/timeseries.py, geometry/pvrow.py, geometry/pvground.py, engine.py)

The loops of `Verif.Model.Weighted` for sides of rows and for the ground, written with the operations of an arithmetic that has
rounding errors, in the order in which the code uses them, and the parts of incident light that full mode
stores.
-/

namespace PVF
noncomputable section
namespace Arith

variable {α : Type*} {ε : ℝ} (A : Arith ε)

/-- `TsShadeCollection.length`: pvfactors/geometry/timeseries.py lines 36-41. -/
def collLength (len : α → ℝ) (coll : List α) : ℝ := coll.foldl (fun l a => A.add l (len a)) 0

/-- `TsShadeCollection.get_param_ww`: pvfactors/geometry/timeseries.py lines 64-81. -/
def collWW (len val : α → ℝ) (coll : List α) : ℝ :=
  coll.foldl (fun v a => A.add v (A.mul (len a) (val a))) 0

/-- `TsSegment.length`: pvfactors/geometry/pvrow.py lines 576-579. -/
def segLength (len : α → ℝ) (s : SegColl α) : ℝ :=
  A.add (A.collLength len s.illum) (A.collLength len s.shaded)

/-- `TsSegment.get_param_ww`: pvfactors/geometry/pvrow.py lines 607-621. -/
def segWW (len val : α → ℝ) (s : SegColl α) : ℝ :=
  A.add (A.collWW len val s.illum) (A.collWW len val s.shaded)

/-- `TsSide.length`: pvfactors/geometry/pvrow.py lines 410-416. -/
def sideCollLength (len : α → ℝ) (segs : List (SegColl α)) : ℝ :=
  segs.foldl (fun l s => A.add l (A.segLength len s)) 0

/-- `TsSide.get_param_ww`: pvfactors/geometry/pvrow.py lines 434-456. -/
def sideWW (len val : α → ℝ) (segs : List (SegColl α)) : ℝ :=
  segs.foldl (fun v s => A.add v (A.segWW len val s)) 0

/-- `TsSide.get_param_weighted`: pvfactors/geometry/pvrow.py lines 418-432. -/
def sideWeighted (len val : α → ℝ) (segs : List (SegColl α)) : ℝ :=
  A.div (A.sideWW len val segs) (A.sideCollLength len segs)

/-- `TsGroundElement.get_param_ww`: pvfactors/geometry/pvground.py lines 874-896. -/
def elemWW (p : ArrayParams) (len val : SurfRef → ℝ) (sh : Bool) (e : ℕ) : ℝ :=
  (List.range (p.nRows + 1)).foldl (fun v z => A.add v (A.mul (len (.gnd sh e z)) (val (.gnd sh e z)))) 0

/-- `TsGroundElement.length`: pvfactors/geometry/pvground.py lines 815-818. -/
def elemLength (g : StepGeom) (sh : Bool) (e : ℕ) : ℝ :=
  A.length (if sh then g.ground.shadowEl e else g.ground.illumEl e)

/-- `TsGroundElement.get_param_weighted`: pvfactors/geometry/pvground.py lines 858-872. -/
def elemWeighted (p : ArrayParams) (g : StepGeom) (val : SurfRef → ℝ) (sh : Bool) (e : ℕ) : ℝ :=
  A.div (A.elemWW p (fun a => A.length (g.coords a)) val sh e) (A.elemLength g sh e)

/-- `TsGround.length`: pvfactors/geometry/pvground.py lines 492-500. -/
def groundLength (p : ArrayParams) (g : StepGeom) : ℝ :=
  (List.range (p.nRows + 1)).foldl (fun l e => A.add l (A.elemLength g false e))
    ((List.range p.nRows).foldl (fun l e => A.add l (A.elemLength g true e)) 0)

/-- `TsGround.shaded_length`: pvfactors/geometry/pvground.py lines 502-508. -/
def groundShadedLength (p : ArrayParams) (g : StepGeom) : ℝ :=
  (List.range p.nRows).foldl (fun l e => A.add l (A.elemLength g true e)) 0

/-- `TsGround.get_param_ww`: pvfactors/geometry/pvground.py lines 369-393. -/
def groundWW (p : ArrayParams) (len val : SurfRef → ℝ) : ℝ :=
  (List.range (p.nRows + 1)).foldl (fun v e => A.add v (A.elemWW p len val false e))
    ((List.range p.nRows).foldl (fun v e => A.add v (A.elemWW p len val true e)) 0)

/-- `TsGround.get_param_weighted`: pvfactors/geometry/pvground.py lines 353-367. -/
def groundWeighted (p : ArrayParams) (g : StepGeom) (val : SurfRef → ℝ) : ℝ :=
  A.div (A.groundWW p (fun a => A.length (g.coords a)) val) (A.groundLength p g)

/-- `isotropic_mat` of full mode for view factors `vf` and luminance `sky` of the sky:
pvfactors/engine.py line 233. -/
def fullIsotropic (p : ArrayParams) (vf : ℕ → ℕ → ℝ) (sky : ℝ) (a : SurfRef) : ℝ :=
  A.mul (vf (surfIndex p a) (nTsSurfaces p)) sky

/-- `reflection_mat` of full mode for incident light `qinc`, sum `irr` of the components and isotropic
light `iso`: pvfactors/engine.py line 234. -/
def fullReflection (qinc irr iso : SurfRef → ℝ) (a : SurfRef) : ℝ :=
  A.sub (A.sub (qinc a) (irr a)) (iso a)

end Arith
end
end PVF

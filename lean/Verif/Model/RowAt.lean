import Verif.Model.Weighted
import Verif.Model.AOI

/-!
# PV row geometries generated for one time step (geometry/timeseries.py, pvrow.py, base.py, utils.py)

`TsPVRow.at` turns a time series PV row into shapely-like objects for one time step.  Time series
are functions of the time index.  `none` stands for an exception raised by a constructor.
-/

namespace PVF
noncomputable section

/-- A parameter value of a surface: nothing, a number, a dictionary of numbers, or a time series. -/
inductive ParamVal where
  | nothing
  | scalar (x : ℝ)
  | dict (d : List (String × ℝ))
  | series (f : ℕ → ℝ)

/-- The parameter dictionary of a surface. -/
abbrev ParamDict := List (String × ParamVal)

/-- One value of `_get_params_at_idx`: pvfactors/geometry/timeseries.py lines 409-411. -/
def ParamVal.atIdx (idx : ℕ) : ParamVal → ParamVal
  | .series f => .scalar (f idx)
  | v => v

/-- `_get_params_at_idx`: pvfactors/geometry/timeseries.py lines 391-411.  (The parameter dictionary
of a surface is never `None`: line 139.) -/
def paramsAtIdx (idx : ℕ) (d : ParamDict) : ParamDict := d.map fun kv => (kv.1, kv.2.atIdx idx)

/-- A `TsSurface`: pvfactors/geometry/timeseries.py lines 112-141. -/
structure TsSurf where
  coords : ℕ → Line
  normal : Option (ℕ → Pt)
  params : ParamDict
  index : Option ℕ
  shaded : Bool

/-- A `PVSurface` that is not empty: pvfactors/geometry/base.py lines 162-196 and 291-323. -/
structure PSurf where
  line : Line
  normal : Pt
  params : ParamDict
  index : Option ℕ
  shaded : Bool

/-- `BaseSurface._calculate_n_vector` of a line that is not empty: pvfactors/geometry/base.py lines
205-211. -/
def calcNormal (l : Line) : Pt := ⟨-(l.b2.y - l.b1.y), l.b2.x - l.b1.x⟩

open Classical in
/-- `TsSurface.at`: pvfactors/geometry/timeseries.py lines 143-173; `none` is the empty geometry. -/
def TsSurf.at (s : TsSurf) (idx : ℕ) : Option PSurf :=
  if (s.coords idx).length < TOL then none
  else
    let n := match s.normal with
      | some n => n idx
      | none => calcNormal (s.coords idx)
    some ⟨s.coords idx, n, paramsAtIdx idx s.params, s.index, s.shaded⟩

/-- `TOL_COLLINEAR`: pvfactors/config.py line 6. -/
def TOL_COLLINEAR : ℝ := 1e-5

/-- `are_2d_vecs_collinear`: pvfactors/geometry/utils.py lines 110-114. -/
def vecsCollinear (u1 u2 : Pt) : Prop := |(-u1.y) * u2.x + u1.x * u2.y| < TOL_COLLINEAR

/-- The loop of `is_collinear` with the variable `u_direction`: pvfactors/geometry/utils.py lines
84-97.  An element is given by its normal vector, or `none` if it is empty. -/
def collinearLoop : Option Pt → List (Option Pt) → Prop
  | _, [] => True
  | u, none :: rest => collinearLoop u rest
  | none, some n :: rest => collinearLoop (some ⟨-n.y, n.x⟩) rest
  | some u, some n :: rest => |u.x * n.x + u.y * n.y| < TOL_COLLINEAR ∧ collinearLoop (some u) rest

/-- `is_collinear`: pvfactors/geometry/utils.py lines 79-97. -/
def isCollinear (els : List (Option Pt)) : Prop := collinearLoop none els

/-- The loop of `_check_uniform_shading` (true if no error is raised): pvfactors/geometry/base.py
lines 29-37. -/
def uniformLoop : Option Bool → List Bool → Prop
  | _, [] => True
  | none, s :: rest => uniformLoop (some s) rest
  | some t, s :: rest => t = s ∧ uniformLoop (some t) rest

/-- A `ShadeCollection`: pvfactors/geometry/base.py lines 330-353. -/
structure PColl where
  surfs : List PSurf
  shaded : Bool
  collinear : Prop

open Classical in
/-- `ShadeCollection.__init__`: pvfactors/geometry/base.py lines 330-371 (with `_get_shading`). -/
def mkColl (l : List PSurf) (shaded : Bool) : Option PColl :=
  if uniformLoop none (l.map PSurf.shaded) then
    some ⟨l, match l with | [] => shaded | s :: _ => s.shaded,
      isCollinear (l.map fun s => some s.normal)⟩
  else none

/-- `ShadeCollection.n_vector` (of collinear surfaces; otherwise it raises an error):
pvfactors/geometry/base.py lines 562-572.  The default normal vector is `None`
(pvfactors/config.py line 5). -/
def PColl.normal (c : PColl) : Option Pt := c.surfs.head?.map PSurf.normal

/-- A `PVSegment`: pvfactors/geometry/base.py lines 612-637. -/
structure PSeg where
  illum : PColl
  shaded : PColl
  index : Option ℕ

open Classical in
/-- `PVSegment.__init__` with its assertions and `_check_collinear`: pvfactors/geometry/base.py lines
612-664. -/
def mkSeg (illum shaded : PColl) (index : Option ℕ) : Option PSeg :=
  if shaded.shaded = true ∧ illum.shaded = false ∧ illum.collinear ∧ shaded.collinear ∧
      (∀ n ∈ illum.normal, ∀ m ∈ shaded.normal, vecsCollinear n m) then
    some ⟨illum, shaded, index⟩
  else none

/-- `PVSegment.n_vector`: pvfactors/geometry/base.py lines 781-791.  `None` exactly if the segment is
empty. -/
def PSeg.normal (s : PSeg) : Option Pt :=
  match s.illum.normal with
  | some n => some n
  | none => s.shaded.normal

/-- `PVSegment.all_surfaces` of a new segment: pvfactors/geometry/base.py lines 907-920. -/
def PSeg.all (s : PSeg) : List PSurf := s.illum.surfs ++ s.shaded.surfs

open Classical in
/-- `BaseSide.__init__`: pvfactors/geometry/base.py lines 927-939. -/
def mkSide (l : List PSeg) : Option (List PSeg) :=
  if isCollinear (l.map PSeg.normal) then some l else none

/-- A `PVRow`: pvfactors/geometry/pvrow.py lines 677-699. -/
structure PRow where
  front : List PSeg
  back : List PSeg
  index : ℕ
  line : Line

/-- `front` or `back` of a row. -/
def PRow.side (r : PRow) : RowSide → List PSeg
  | .front => r.front
  | .back => r.back

/-- `PVRow.all_surfaces` of a new row, with `BaseSide.all_surfaces`: pvfactors/geometry/pvrow.py lines
832-839, pvfactors/geometry/base.py lines 1008-1015. -/
def PRow.all (r : PRow) : List PSurf := r.front.flatMap PSeg.all ++ r.back.flatMap PSeg.all

/-- `PVRow.highest_point`: pvfactors/geometry/pvrow.py lines 818-823. -/
def PRow.highest (r : PRow) : Pt := if r.line.b1.y > r.line.b2.y then r.line.b1 else r.line.b2

/-- `PVRow.lowest_point`: pvfactors/geometry/pvrow.py lines 825-830. -/
def PRow.lowest (r : PRow) : Pt := if r.line.b1.y < r.line.b2.y then r.line.b1 else r.line.b2

/-- The surfaces of segments, as used for weighted parameters. -/
def PSeg.toColl (s : PSeg) : SegColl PSurf := ⟨s.illum.surfs, s.shaded.surfs⟩

/-- `BaseSide.get_param_ww`: pvfactors/geometry/base.py lines 1096-1118, with lines 746-768 and
527-549.  `val` reads the parameter from the dictionary of a surface.  (A segment adds its shaded
surfaces first; as the sum is commutative the order is not kept.) -/
def pSideWW (val : PSurf → ℝ) (l : List PSeg) : ℝ :=
  sideWW (fun s => s.line.length) val (l.map PSeg.toColl)

/-- `BaseSide.get_param_weighted`: pvfactors/geometry/base.py lines 1079-1094; `length` is the total
length of all parts (shapely, external). -/
def pSideWeighted (val : PSurf → ℝ) (l : List PSeg) : ℝ :=
  sideWeighted (fun s => s.line.length) val (l.map PSeg.toColl)

/-- `BaseSide.shaded_length`: pvfactors/geometry/base.py lines 992-998. -/
def pSideShadedLength (l : List PSeg) : ℝ :=
  l.foldl (fun x s => x + collLength (fun a => a.line.length) s.shaded.surfs) 0

/-- A `TsShadeCollection`: pvfactors/geometry/timeseries.py lines 10-28. -/
structure TsColl where
  surfs : List TsSurf
  shaded : Bool

/-- `TsShadeCollection.at`: pvfactors/geometry/timeseries.py lines 95-109. -/
def TsColl.at (c : TsColl) (idx : ℕ) : Option PColl :=
  mkColl (c.surfs.filterMap fun s => s.at idx) c.shaded

/-- A `TsSegment`: pvfactors/geometry/pvrow.py lines 486-514. -/
structure TsSeg where
  illum : TsColl
  shaded : TsColl
  index : Option ℕ

/-- `TsSegment.at`: pvfactors/geometry/pvrow.py lines 553-574. -/
def TsSeg.at (s : TsSeg) (idx : ℕ) : Option PSeg :=
  (s.illum.at idx).bind fun i => (s.shaded.at idx).bind fun h => mkSeg i h s.index

/-- `TsSide.at`: pvfactors/geometry/pvrow.py lines 363-380. -/
def tsSideAt (segs : List TsSeg) (idx : ℕ) : Option (List PSeg) :=
  (segs.mapM fun s : TsSeg => s.at idx).bind mkSide

/-- A `TsPVRow`: pvfactors/geometry/pvrow.py lines 13-41. -/
structure TsRow where
  front : List TsSeg
  back : List TsSeg
  index : ℕ
  full : ℕ → Line

/-- `TsPVRow.at`: pvfactors/geometry/pvrow.py lines 164-183. -/
def TsRow.at (r : TsRow) (idx : ℕ) : Option PRow :=
  (tsSideAt r.front idx).bind fun f => (tsSideAt r.back idx).bind fun b =>
    some ⟨f, b, r.index, r.full idx⟩

/-- The surface objects of a fitted array with the parameters they have been given:
pvfactors/geometry/pvrow.py lines 328-341 (coordinates, normal vector, shading) and
pvfactors/geometry/base.py lines 1242-1245 (index). -/
def tsSurfOf (p : ArrayParams) (u : ℕ → StepIn) (q : SurfRef → ParamDict) (i : ℕ) (s : RowSide)
    (k : ℕ) (sh : Bool) : TsSurf where
  coords := fun t => (fitStep p (u t)).coords (.pv i s k sh)
  normal := some fun t => sideNormal ((fitStep p (u t)).row i).full s
  params := q (.pv i s k sh)
  index := some (surfIndex p (.pv i s k sh))
  shaded := sh

/-- The segments of a side of a row of a fitted array: pvfactors/geometry/pvrow.py lines 294-344. -/
def tsSegs (p : ArrayParams) (u : ℕ → StepIn) (q : SurfRef → ParamDict) (i : ℕ) (s : RowSide) :
    List TsSeg :=
  (List.range (p.nSeg i s)).map fun k =>
    ⟨⟨[tsSurfOf p u q i s k false], false⟩, ⟨[tsSurfOf p u q i s k true], true⟩, some k⟩

/-- Row `i` of a fitted array as a time series object: pvfactors/geometry/pvrow.py lines 75-94,
pvfactors/geometry/pvarray.py lines 221-226. -/
def tsRow (p : ArrayParams) (u : ℕ → StepIn) (q : SurfRef → ParamDict) (i : ℕ) : TsRow where
  front := tsSegs p u q i .front
  back := tsSegs p u q i .back
  index := i
  full := fun t => ((fitStep p (u t)).row i).full

end
end PVF

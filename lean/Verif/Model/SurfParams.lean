import Verif.Model.Side

/-!
# Parameters of surfaces of a time step when the surfaces are cut, removed or merged (geometry/base.py)

The geometry of these operations is modelled in `Verif.Model.Shapely` and `Verif.Model.Side`; here the
surfaces carry all their attributes.
-/

namespace PVF
noncomputable section

/-- A `PVSurface` object: pvfactors/geometry/base.py lines 162-203 and 291-323.  `params k` is `none` if
there is no key `k` and `some none` if its value is `None`. -/
structure OSurf where
  line : Line
  normal : Pt
  names : List String
  params : String → Option (Option ℝ)
  index : Option ℕ
  shaded : Bool

/-- `PVSurface(coords, normal_vector=..., shaded=..., param_names=...)`: pvfactors/geometry/base.py
lines 192-203 and 318-323, without index and parameter dictionary. -/
def newSurf (line : Line) (normal : Pt) (shaded : Bool) (names : List String) : OSurf :=
  ⟨line, normal, names, fun k => if k ∈ names then some none else none, none, shaded⟩

/-- The surface made from part of another one: pvfactors/geometry/base.py lines 437-440 and 494-501. -/
def OSurf.part (s : OSurf) (line : Line) : OSurf := newSurf line s.normal s.shaded s.names

/-- `BaseSurface.update_params`: pvfactors/geometry/base.py lines 280-288. -/
def OSurf.update (s : OSurf) (k : String) (x : ℝ) : OSurf :=
  { s with params := Function.update s.params k (some (some x)) }

/-- `BaseSurface.get_param`: pvfactors/geometry/base.py lines 261-278; `none` is a `KeyError`. -/
def OSurf.getParam (s : OSurf) (k : String) : Option (Option ℝ) := s.params k

open Classical in
/-- The loop of `ShadeCollection.cut_at_point`: pvfactors/geometry/base.py lines 485-508. -/
def cutLoopO (q : Pt) : List OSurf → Option (List OSurf × OSurf)
  | [] => none
  | s :: rest =>
    if containsPt s.line q ∧ distPt s.line.b1 q > TOL ∧ distPt s.line.b2 q > TOL then
      some (s.part ⟨s.line.b1, q⟩ :: rest, s.part ⟨q, s.line.b2⟩)
    else (cutLoopO q rest).map fun r => (s :: r.1, r.2)

/-- `ShadeCollection.cut_at_point`: pvfactors/geometry/base.py lines 476-508. -/
def cutAtPointO (surfaces : List OSurf) (q : Pt) : List OSurf :=
  match cutLoopO q surfaces with
  | none => surfaces
  | some (l, s) => l ++ [s]

open Classical in
/-- `ShadeCollection.remove_linestring`: pvfactors/geometry/base.py lines 418-449; `near` as in
`removeLinestring`. -/
def removeLinestringO (near : Line → Line → Prop) (surfaces : List OSurf) (v : Line) : List OSurf :=
  surfaces.flatMap fun s => if near s.line v then (difference s.line v).map s.part else [s]

/-- `ShadeCollection.merge_surfaces`: pvfactors/geometry/base.py lines 462-474.  `shaded` is the status
of the collection. -/
def mergeSurfacesO (shaded : Bool) : List OSurf → List OSurf
  | [] => []
  | [s] => [s]
  | s :: t :: rest => (mergeSurfaces ((s :: t :: rest).map OSurf.line)).map fun l =>
      newSurf l s.normal shaded s.names

/-- `ShadeCollection.add_linestring` with a normal vector: pvfactors/geometry/base.py lines 388-404.
`shaded` and `names` are those of the collection. -/
def addLinestringO (shaded : Bool) (names : List String) (surfaces : List OSurf) (l : Line)
    (normal : Pt) : List OSurf :=
  surfaces ++ [newSurf l normal shaded names]

/-- A `ShadeCollection` object: pvfactors/geometry/base.py lines 330-353. -/
structure OColl where
  surfaces : List OSurf
  shaded : Bool
  names : List String

/-- `ShadeCollection.get_param_ww`: pvfactors/geometry/base.py lines 527-549.  `none`: a missing key or
a value `None`, which cannot be multiplied, raises an error. -/
def collWWO (k : String) (surfaces : List OSurf) : Option ℝ :=
  surfaces.foldl (fun v s => v.bind fun v => (s.getParam k).bind fun x => x.map fun x =>
    v + s.line.length * x) (some 0)

open Classical in
/-- `TsSurface.at` and `TsShadeCollection.at`: pvfactors/geometry/timeseries.py lines 143-173 and 95-109.
The surfaces get parameter names and values, the collection gets no parameter names.  `values`: the
parameters of each time series surface at the time step. -/
def collAt (shaded : Bool) (ts : List (Line × Pt × List String × (String → Option (Option ℝ)) × ℕ)) :
    OColl :=
  ⟨(ts.filter fun s => ¬ s.1.length < TOL).map fun s =>
    ⟨s.1, s.2.1, s.2.2.1, s.2.2.2.1, some s.2.2.2.2, shaded⟩, shaded, []⟩

/-- `PVSegment.cast_shadow` on the collections of a segment with normal vector `n`:
pvfactors/geometry/base.py lines 688-712.  The result has the illuminated and the shaded collection;
`none` as in `SegObj.castShadow`. -/
def castShadowO (near : Line → Line → Prop) (inter : Intersect) (ill sh : OColl) (n : Pt) (v : Line) :
    Option (OColl × OColl) :=
  match inter (ill.surfaces.map OSurf.line) v with
  | [] => some (ill, sh)
  | [w] => some ({ ill with surfaces := removeLinestringO near ill.surfaces w },
      { sh with surfaces := addLinestringO sh.shaded sh.names sh.surfaces w n })
  | _ => none

end
end PVF

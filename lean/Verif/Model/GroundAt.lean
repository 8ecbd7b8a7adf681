import Verif.Model.Ground

/-!
# Ground surfaces generated for one time step (geometry/pvground.py)

`TsGround.at` turns the ground at a time step into lists of shaded and illuminated surfaces.  A
surface has coordinates and parameters; one (arbitrary) parameter is kept.
-/

namespace PVF
noncomputable section

/-- A ground surface made for a time step, with the value of one parameter. -/
structure GSurf where
  line : Line
  param : ℝ

/-- `TsGroundElement.surfaces_at`: pvfactors/geometry/pvground.py lines 825-839; `q z` is the
parameter of surface number `z`.  Without cut points an element has no surfaces (lines 795-797). -/
def elSurfaces (l : Line) (cuts : List XR) (q : ℕ → ℝ) : List GSurf :=
  if cuts = [] then [] else (cutSurfaces l cuts).zipIdx.map fun s => ⟨s.1, q s.2⟩

open Classical in
/-- `TsGroundElement.non_point_surfaces_at`: pvfactors/geometry/pvground.py lines 841-856. -/
def nonPointSurfaces (l : Line) (cuts : List XR) (q : ℕ → ℝ) : List GSurf :=
  (elSurfaces l cuts q).filter fun s => s.line.length > TOL

/-- The surface from the start of the surface to merge (if there is one) to the end of the given
surface, with the parameters of the latter: pvfactors/geometry/pvground.py lines 719-728 and
737-746. -/
def mergeWith : Option GSurf → GSurf → GSurf
  | none, s => s
  | some c, s => ⟨⟨c.line.b1, s.line.b2⟩, s.param⟩

/-- One iteration of the inner loop of `_merge_shadow_surfaces` for surface `s` with index `i` of `n`
surfaces of an element: pvfactors/geometry/pvground.py lines 717-749.  The state consists of the list
of surfaces made so far and `surface_to_merge`. -/
def mergeSurfStep (lastEl : Bool) (n : ℕ) (st : List GSurf × Option GSurf) (s : GSurf × ℕ) :
    List GSurf × Option GSurf :=
  if s.2 = n - 1 then
    let s' := if s.2 = 0 then mergeWith st.2 s.1 else s.1
    if lastEl then (st.1 ++ [s'], st.2) else (st.1, some s')
  else if s.2 = 0 then (st.1 ++ [mergeWith st.2 s.1], st.2)
  else (st.1 ++ [s.1], st.2)

/-- The inner loop for one element. -/
def mergeEl (lastEl : Bool) (st : List GSurf × Option GSurf) (surfs : List GSurf) :
    List GSurf × Option GSurf :=
  surfs.zipIdx.foldl (mergeSurfStep lastEl surfs.length) st

/-- The loops of `_merge_shadow_surfaces` over the surfaces of all elements:
pvfactors/geometry/pvground.py lines 712-749. -/
def mergeLoop (els : List (List GSurf)) : List GSurf :=
  (els.zipIdx.foldl (fun st e => mergeEl (decide (e.2 = els.length - 1)) st e.1) ([], none)).1

open Classical in
/-- Indices of the shadow elements that are not points: pvfactors/geometry/pvground.py lines
203-205. -/
def GroundIn.nonPointShadows (g : GroundIn) : List ℕ :=
  (List.range g.nRows).filter fun i => (g.shadowEl i).length > TOL

open Classical in
/-- `TsGround._merge_shadow_surfaces`: pvfactors/geometry/pvground.py lines 679-760.  An overlap flag
`None` acts as false.  `q i z` is the parameter of surface `z` of shadow element `i`. -/
def GroundIn.mergeShadowSurfaces (g : GroundIn) (q : ℕ → ℕ → ℝ) : List GSurf :=
  let surfs := g.nonPointShadows.map fun i => nonPointSurfaces (g.shadowEl i) g.cuts (q i)
  if g.flagOverlap ∧ 1 < g.nonPointShadows.length then mergeLoop surfs else surfs.flatten

open Classical in
/-- Shaded surfaces made by `TsGround.at`: pvfactors/geometry/pvground.py lines 203-257.  `qAll` is
the parameter of the shaded ground as a whole, used without cut points.  The option `x_min_max` only
sets the line string kept for the boundaries and has no effect on the surfaces. -/
def GroundIn.shadedAt (g : GroundIn) (mergeIfFlagOverlap withCutPoints : Bool) (q : ℕ → ℕ → ℝ)
    (qAll : ℝ) : List GSurf :=
  if withCutPoints then
    if mergeIfFlagOverlap then g.mergeShadowSurfaces q
    else g.nonPointShadows.flatMap fun i => nonPointSurfaces (g.shadowEl i) g.cuts (q i)
  else
    let all := g.nonPointShadows.map fun i => (⟨g.shadowEl i, qAll⟩ : GSurf)
    if mergeIfFlagOverlap then
      if g.flagOverlap ∧ 1 < g.nonPointShadows.length then
        [⟨⟨(g.shadowEl (g.nonPointShadows.headD 0)).b1,
          (g.shadowEl (g.nonPointShadows.getLastD 0)).b2⟩, qAll⟩]
      else all
    else all

open Classical in
/-- Illuminated surfaces made by `TsGround.at`: pvfactors/geometry/pvground.py lines 219-222 and
258-264. -/
def GroundIn.illumAt (g : GroundIn) (withCutPoints : Bool) (q : ℕ → ℕ → ℝ) (qAll : ℝ) :
    List GSurf :=
  if withCutPoints then
    (List.range (g.nRows + 1)).flatMap fun i => nonPointSurfaces (g.illumEl i) g.cuts (q i)
  else
    ((List.range (g.nRows + 1)).filter fun i => (g.illumEl i).length > TOL).map fun i =>
      ⟨g.illumEl i, qAll⟩

/-- `TsGround.non_point_shaded_surfaces_at`: pvfactors/geometry/pvground.py lines 510-526, for a time
series of grounds.  The index is not used: the code asks for the surfaces at index 0. -/
def nonPointShadedAt (gs : ℕ → GroundIn) (q : ℕ → ℕ → ℕ → ℝ) (_idx : ℕ) : List GSurf :=
  (List.range (gs 0).nRows).flatMap fun i =>
    nonPointSurfaces ((gs 0).shadowEl i) (gs 0).cuts (q 0 i)

/-- `TsGround.non_point_illum_surfaces_at`: pvfactors/geometry/pvground.py lines 528-544. -/
def nonPointIllumAt (gs : ℕ → GroundIn) (q : ℕ → ℕ → ℕ → ℝ) (_idx : ℕ) : List GSurf :=
  (List.range ((gs 0).nRows + 1)).flatMap fun i =>
    nonPointSurfaces ((gs 0).illumEl i) (gs 0).cuts (q 0 i)

/-- `TsGround.non_point_surfaces_at`: pvfactors/geometry/pvground.py lines 546-560. -/
def nonPointSurfacesAt (gs : ℕ → GroundIn) (qi qs : ℕ → ℕ → ℕ → ℝ) (idx : ℕ) : List GSurf :=
  nonPointIllumAt gs qi idx ++ nonPointShadedAt gs qs idx

/-- `TsGround.n_non_point_surfaces_at`: pvfactors/geometry/pvground.py lines 562-575. -/
def nNonPointSurfacesAt (gs : ℕ → GroundIn) (qi qs : ℕ → ℕ → ℕ → ℝ) (idx : ℕ) : ℕ :=
  (nonPointSurfacesAt gs qi qs idx).length

end
end PVF

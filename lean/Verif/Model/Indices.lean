import Verif.Model.RowAt

/-!
# Numbers and indices of surfaces (geometry/base.py, pvrow.py)

`n_surfaces`, `surface_indices` and `surfaces_at_idx` of the geometries of a time step, and
`ts_surface_indices` of an array.
-/

namespace PVF
noncomputable section

/-- `BasePVArray.ts_surface_indices`: pvfactors/geometry/base.py lines 1172-1175, of a fitted array. -/
def tsSurfaceIndices (p : ArrayParams) : List (Option ℕ) := (allRefs p).map (indexLoop (allRefs p))

/-- `ShadeCollection.n_surfaces`: pvfactors/geometry/base.py lines 573-576. -/
def PColl.nSurfaces (c : PColl) : ℕ := c.surfs.length

/-- `ShadeCollection.surface_indices`: pvfactors/geometry/base.py lines 578-581. -/
def PColl.surfaceIndices (c : PColl) : List (Option ℕ) := c.surfs.map PSurf.index

/-- `PVSegment.n_surfaces`: pvfactors/geometry/base.py lines 793-798. -/
def PSeg.nSurfaces (s : PSeg) : ℕ := s.illum.nSurfaces + s.shaded.nSurfaces

/-- `PVSegment.surface_indices`: pvfactors/geometry/base.py lines 800-806. -/
def PSeg.surfaceIndices (s : PSeg) : List (Option ℕ) :=
  ([] ++ s.illum.surfaceIndices) ++ s.shaded.surfaceIndices

/-- `BaseSide.n_surfaces`: pvfactors/geometry/base.py lines 1000-1006. -/
def pSideNSurfaces (l : List PSeg) : ℕ := l.foldl (fun n s => n + s.nSurfaces) 0

/-- `BaseSide.surface_indices`: pvfactors/geometry/base.py lines 1017-1023. -/
def pSideSurfaceIndices (l : List PSeg) : List (Option ℕ) :=
  l.foldl (fun x s => x ++ s.surfaceIndices) []

/-- `PVRow.surface_indices`: pvfactors/geometry/pvrow.py lines 841-847. -/
def PRow.surfaceIndices (r : PRow) : List (Option ℕ) :=
  ([] ++ pSideSurfaceIndices r.front) ++ pSideSurfaceIndices r.back

/-- `TsSegment.surfaces_at_idx`: pvfactors/geometry/pvrow.py lines 516-531. -/
def TsSeg.surfacesAtIdx (s : TsSeg) (idx : ℕ) : Option (List PSurf) := (s.at idx).map PSeg.all

/-- `TsSide.surfaces_at_idx`: pvfactors/geometry/pvrow.py lines 346-361, with `BaseSide.all_surfaces`,
pvfactors/geometry/base.py lines 1008-1015. -/
def tsSideSurfacesAtIdx (segs : List TsSeg) (idx : ℕ) : Option (List PSurf) :=
  (tsSideAt segs idx).map fun l => l.foldl (fun x s => x ++ s.all) []

/-- `TsPVRow.surfaces_at_idx`: pvfactors/geometry/pvrow.py lines 124-139. -/
def TsRow.surfacesAtIdx (r : TsRow) (idx : ℕ) : Option (List PSurf) := (r.at idx).map PRow.all

end
end PVF

import Verif.Model.Num

/-!
# Points and lines at one time step (geometry/timeseries.py)

A `TsPointCoords` / `TsLineCoords` holds numpy arrays over time; all its methods act
element by element, so one time step of it is a pair / two pairs of reals.
-/

namespace PVF
noncomputable section

/-- One time step of `TsPointCoords`: pvfactors/geometry/timeseries.py lines 343-388. -/
@[ext] structure Pt where
  x : ℝ
  y : ℝ

/-- One time step of `TsLineCoords`: pvfactors/geometry/timeseries.py lines 259-340. -/
@[ext] structure Line where
  b1 : Pt
  b2 : Pt

instance : Inhabited Pt := ⟨⟨0, 0⟩⟩
instance : Inhabited Line := ⟨⟨default, default⟩⟩

namespace Line

/-- `TsLineCoords.length`: pvfactors/geometry/timeseries.py lines 302-306. -/
def length (l : Line) : ℝ :=
  Real.sqrt ((l.b2.y - l.b1.y) ^ 2 + (l.b2.x - l.b1.x) ^ 2)

/-- `TsLineCoords.centroid`: pvfactors/geometry/timeseries.py lines 313-318. -/
def centroid (l : Line) : Pt :=
  let dy := l.b2.y - l.b1.y
  let dx := l.b2.x - l.b1.x
  ⟨l.b1.x + 0.5 * dx, l.b1.y + 0.5 * dy⟩

/-- `TsLineCoords.highest_point`: pvfactors/geometry/timeseries.py lines 320-327. -/
def highest (l : Line) : Pt :=
  ⟨if l.b1.y ≥ l.b2.y then l.b1.x else l.b2.x,
   if l.b1.y ≥ l.b2.y then l.b1.y else l.b2.y⟩

/-- `TsLineCoords.lowest_point`: pvfactors/geometry/timeseries.py lines 329-336. -/
def lowest (l : Line) : Pt :=
  ⟨if l.b1.y ≥ l.b2.y then l.b2.x else l.b1.x,
   if l.b1.y ≥ l.b2.y then l.b2.y else l.b1.y⟩

end Line

end
end PVF

import Verif.Model.Engine
import Verif.Model.AOI

/-!
# Calling the back of the modules their front

A scene is described again with the other side of the modules as the front: the tilt angle becomes 180
degrees minus the tilt angle, the azimuth is that of the opposite direction, and everything that is
given per side is exchanged.  Rows are then described from their other end, so that segments are
counted backwards.
-/

namespace PVF

/-- The other side of a row. -/
def RowSide.swap : RowSide → RowSide
  | .front => .back
  | .back => .front

/-- The numbers of segments of front and back exchanged. -/
def ArrayParams.swapSides (p : ArrayParams) : ArrayParams :=
  { p with cut := fun i => ⟨(p.cut i).back, (p.cut i).front⟩ }

/-- The name of a surface of `p` in the new description. -/
def SurfRef.swap (p : ArrayParams) : SurfRef → SurfRef
  | .gnd sh e z => .gnd sh e z
  | .pv i s k sh => .pv i s.swap (p.nSeg i s - 1 - k) sh

/-- The same modules and the same sun, with the modules described by their other side. -/
structure SwappedStep (u u' : StepIn) : Prop where
  zenith : u'.solarZenith = u.solarZenith
  sun : u'.solarAzimuth = u.solarAzimuth
  tilt : u'.surfaceTilt = 180 - u.surfaceTilt
  facing : ∃ k : ℤ, u'.surfaceAzimuth = u.surfaceAzimuth + 180 + 360 * k

/-- The modules are not flat and do not face along the axis of the rows. -/
structure Tilted (p : ArrayParams) (u : StepIn) : Prop where
  pos : 0 < u.surfaceTilt
  lt : u.surfaceTilt < 180
  across : sind (u.surfaceAzimuth - p.axisAzimuth) ≠ 0

/-- Reflectivities and fAOI functions of the sides exchanged. -/
def IrrParams.swapSides (q : IrrParams) : IrrParams :=
  { q with rhoFront := q.rhoBack, rhoBack := q.rhoFront, faoiFront := q.faoiBack,
           faoiBack := q.faoiFront }

/-- fAOI functions of the sides exchanged. -/
def AOIMethods.swapSides (m : AOIMethods) : AOIMethods :=
  { m with faoiFront := m.faoiBack, faoiBack := m.faoiFront }

/-- The same light, with the modules described by their other side. -/
structure SwappedIn (v v' : IrrIn) : Prop where
  zenith : v'.solarZenith = v.solarZenith
  sun : v'.solarAzimuth = v.solarAzimuth
  tilt : v'.surfaceTilt = 180 - v.surfaceTilt
  facing : ∃ k : ℤ, v'.surfaceAzimuth = v.surfaceAzimuth + 180 + 360 * k
  dni : v'.dni = v.dni
  dhi : v'.dhi = v.dhi
  albedo : v'.albedo = v.albedo

end PVF

import Verif.Lemmas.RowT
import Verif.Lemmas.Index

/-! # Geometry of the surfaces of a fitted array -/

namespace PVF

/-- Shaded length of a side of row `i`. -/
noncomputable def sideShade (p : ArrayParams) (alpha rot : ℝ) (i : ℕ) : RowSide → ℝ
  | .front => (rowShadedLengths p alpha rot i).1
  | .back => (rowShadedLengths p alpha rot i).2

theorem coords_pv {p : ArrayParams} {rot : Rot} {sun : Pt} {i : ℕ} {s : RowSide} {k : ℕ}
    (hk : k < p.nSeg i s) (sh : Bool) :
    (fitGeom p rot sun).coords (.pv i s k sh)
      = if sh then (sideSegment (rowCenter p i) p.width rot.deg (p.nSeg i s)
          (sideShade p (arctan2 sun.y sun.x) rot.deg i s) k).shaded
        else (sideSegment (rowCenter p i) p.width rot.deg (p.nSeg i s)
          (sideShade p (arctan2 sun.y sun.x) rot.deg i s) k).illum := by
  cases s
  · have hk' : k < (p.cut i).front.getD 1 := hk
    simp [StepGeom.coords, StepGeom.side, fitGeom, rowGeom, rowFromRawInputs, sideSegments,
      ArrayParams.nSeg, ArrayParams.nFront, sideShade, hk']
  · have hk' : k < (p.cut i).back.getD 1 := hk
    simp [StepGeom.coords, StepGeom.side, fitGeom, rowGeom, rowFromRawInputs, sideSegments,
      ArrayParams.nSeg, ArrayParams.nBack, sideShade, hk']

/-- Interval of distances from the lower end of the row covered by a PV surface. -/
noncomputable def pvIv (p : ArrayParams) (rot : Rot) (sun : Pt) (i : ℕ) (s : RowSide) (k : ℕ)
    (sh : Bool) : ℝ × ℝ :=
  tIv p.width rot.deg (p.nSeg i s) (sideShade p (arctan2 sun.y sun.x) rot.deg i s) k sh

theorem coords_pv_t {p : ArrayParams} {rot : Rot} {sun : Pt} {i : ℕ} {s : RowSide} {k : ℕ}
    (hk : k < p.nSeg i s) (sh : Bool) (hw : 0 ≤ p.width) (h0 : -180 < rot.deg)
    (h1 : rot.deg < 180) :
    (fitGeom p rot sun).coords (.pv i s k sh)
      = if rot.deg = 0 then
          ⟨tPt (rowCenter p i) p.width rot.deg (pvIv p rot sun i s k sh).2,
           tPt (rowCenter p i) p.width rot.deg (pvIv p rot sun i s k sh).1⟩
        else ⟨tPt (rowCenter p i) p.width rot.deg (pvIv p rot sun i s k sh).1,
           tPt (rowCenter p i) p.width rot.deg (pvIv p rot sun i s k sh).2⟩ := by
  rw [coords_pv hk sh]
  exact seg_surface hw h0 h1 sh

theorem length_pv {p : ArrayParams} {rot : Rot} {sun : Pt} {i : ℕ} {s : RowSide} {k : ℕ}
    (hk : k < p.nSeg i s) (sh : Bool) (hw : 0 ≤ p.width) (h0 : -180 < rot.deg)
    (h1 : rot.deg < 180) :
    ((fitGeom p rot sun).coords (.pv i s k sh)).length
      = (pvIv p rot sun i s k sh).2 - (pvIv p rot sun i s k sh).1 := by
  rw [coords_pv hk sh]
  exact seg_surface_length hw h0 h1 sh

end PVF

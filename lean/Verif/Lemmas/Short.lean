import Verif.Lemmas.Entries

/-! # View factors of short surfaces -/

namespace PVF

theorem vfSurfSurf_short {l1 l2 : Line} {w : ℝ} (h : ¬ w > TOL) : vfSurfSurf l1 l2 w = 0 := by
  simp [vfSurfSurf, h]

theorem vfHottelGnd_short {hi lo l r o : Pt} {w : ℝ} {b : Bool} (h : ¬ w > TOL) :
    vfHottelGnd hi lo l r o w b = 0 := by
  simp [vfHottelGnd, h]

theorem Line.eq_of_length_zero {l : Line} (h : l.length = 0) : l.b1 = l.b2 := by
  rw [Line.length, Real.sqrt_eq_zero (by positivity)] at h
  ext <;> nlinarith [sq_nonneg (l.b2.y - l.b1.y), sq_nonneg (l.b2.x - l.b1.x)]

theorem Line.length_nonneg (l : Line) : 0 ≤ l.length := Real.sqrt_nonneg _

theorem vfSurfSurf_point {l1 l2 : Line} {w : ℝ} (h : l2.length = 0) : vfSurfSurf l1 l2 w = 0 := by
  have := l2.eq_of_length_zero h
  simp only [vfSurfSurf, this]
  rw [show distPt l1.b1 l2.b2 + distPt l1.b2 l2.b2 - (distPt l1.b1 l2.b2 + distPt l1.b2 l2.b2) = 0
    by ring]
  simp

theorem vfHottelGnd_point {hi lo l r o : Pt} {w : ℝ} {b : Bool} (h : l = r) :
    vfHottelGnd hi lo l r o w b = 0 := by
  subst h
  simp only [vfHottelGnd]
  split_ifs
  · ring
  · ring
  · rfl

theorem entryVF_short_row (p : ArrayParams) (g : StepGeom) (emp : SurfRef → Prop)
    (a b : SurfRef) (ha : ¬ (g.coords a).length > TOL) : entryVF p g emp a b = 0 := by
  match a, b with
  | .gnd _ _ _, .gnd _ _ _ => simp [entryVF]
  | .pv r s k sh, .gnd sh' e z =>
    simp only [entryVF, pvGndVF, vfPvGnd, vfSurfSurf_short ha, vfHottelGnd_short ha]
    simp
  | .gnd sh' e z, .pv r s k sh =>
    simp only [entryVF, pvGndVF, vfPvGnd, if_neg ha]
    simp
  | .pv r s k sh, .pv r' s' k' sh' =>
    simp only [entryVF, vfPvPv, vfSurfSurf_short ha, if_neg ha]
    simp

theorem entryVF_point_col (p : ArrayParams) (g : StepGeom) (emp : SurfRef → Prop)
    (a b : SurfRef) (hb : (g.coords b).length = 0) : entryVF p g emp a b = 0 := by
  match a, b with
  | .gnd _ _ _, .gnd _ _ _ => simp [entryVF]
  | .pv r s k sh, .gnd sh' e z =>
    simp only [entryVF, pvGndVF, vfPvGnd, vfSurfSurf_point hb,
      vfHottelGnd_point ((g.coords (.gnd sh' e z)).eq_of_length_zero hb)]
    simp
  | .gnd sh' e z, .pv r s k sh =>
    simp only [entryVF, pvGndVF, vfPvGnd, hb]
    simp
  | .pv r s k sh, .pv r' s' k' sh' =>
    simp only [entryVF, vfPvPv, vfSurfSurf_point hb, hb]
    simp

end PVF

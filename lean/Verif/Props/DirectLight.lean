import Verif.Lemmas.DirectSum
import Verif.Props.Irradiance
import Verif.Props.EndToEnd

/-! # Direct light: the irradiance model and the geometry agree (C53) -/

namespace PVF

/-- C53: the cosine of the angle of incidence, computed from the azimuth and tilt of the modules
and of the sun in three dimensions, is the one of the two-dimensional geometry exactly if the
modules face at a right angle to the axis of rotation. -/
theorem C53_incidence (tilt az axis z : ℝ) (h0 : 0 < tilt) (h1 : tilt < 180) (hz0 : 0 < z)
    (hz1 : z < 180) :
    (∀ saz, cosIncidence tilt az z saz
      = frontDotSun (rotationFromTiltAzimuth az axis tilt).deg (solar2dVector z saz axis))
    ↔ cosd (az - axis) = 0 := by
  have hst := sind_pos h0 h1
  have hsz := sind_pos hz0 hz1
  have hrot := C25_orientation az axis tilt h0
  have hc : ∀ saz, cosIncidence tilt az z saz = cosd tilt * cosd z + sind tilt * sind z
      * (cosd (saz - axis) * cosd (az - axis) + sind (saz - axis) * sind (az - axis)) := by
    intro saz
    rw [← aoiProjection_eq_dot, aoiProjection,
      show saz - az = (saz - axis) - (az - axis) by ring, cosd_sub]
  have hx : ∀ saz, cosd (saz - axis - 90) = sind (saz - axis) := by
    intro saz; rw [cosd_sub, cosd_90, sind_90]; ring
  have hF : ∀ saz, frontDotSun (rotationFromTiltAzimuth az axis tilt).deg (solar2dVector z saz axis)
      = cosd tilt * cosd z - (if sind (az - axis) < 0 then sind tilt else - sind tilt)
        * (sind z * sind (saz - axis)) := by
    intro saz
    rw [hrot, frontDotSun, solar2dVector, hx]
    split_ifs
    · rfl
    · rw [cosd_neg, sind_neg]
  constructor
  · intro h
    have := h axis
    rw [hc, hF, sub_self, sind_zero, cosd_zero] at this
    have h2 : sind tilt * sind z * cosd (az - axis) = 0 := by linarith
    have : sind tilt * sind z ≠ 0 := (mul_pos hst hsz).ne'
    exact (mul_eq_zero.1 h2).resolve_left this
  · intro h saz
    rw [hc, hF, h]
    have hsq := cosd_sq_add_sind_sq (az - axis)
    rw [h] at hsq
    have hsq' : sind (az - axis) ^ 2 = 1 := by linarith
    have hcase : sind (az - axis) = 1 ∨ sind (az - axis) = -1 := by
      have : (sind (az - axis) - 1) * (sind (az - axis) + 1) = 0 := by linear_combination hsq'
      rcases mul_eq_zero.1 this with h | h
      · left; linarith
      · right; linarith
    rcases hcase with h' | h' <;> rw [h'] <;> norm_num <;> ring

/-- The irradiance inputs and the geometry inputs have the same sun and the same orientation. -/
structure SameStep (u : StepIn) (v : IrrIn) : Prop where
  zenith : v.solarZenith = u.solarZenith
  azimuth : v.solarAzimuth = u.solarAzimuth
  tilt : v.surfaceTilt = u.surfaceTilt
  surfaceAzimuth : v.surfaceAzimuth = u.surfaceAzimuth

/-- Cosine of incidence at a time step. -/
theorem incidence_step {p : ArrayParams} {u : StepIn} {v : IrrIn} (hs : PhysicalStep p u)
    (hv : SameStep u v) (hz0 : 0 ≤ u.solarZenith) (hz1 : u.solarZenith < 180)
    (haz : cosd (u.surfaceAzimuth - p.axisAzimuth) = 0) :
    cosIncidence v.surfaceTilt v.surfaceAzimuth v.solarZenith v.solarAzimuth
      = frontDotSun (fitStep p u).rot.deg (fitStep p u).sun := by
  rw [hv.zenith, hv.azimuth, hv.tilt, hv.surfaceAzimuth]
  have hrot : (fitStep p u).rot = rotationFromTiltAzimuth u.surfaceAzimuth p.axisAzimuth
    u.surfaceTilt := rfl
  have hsun : (fitStep p u).sun = solar2dVector u.solarZenith u.solarAzimuth p.axisAzimuth := rfl
  rw [hrot, hsun]
  rcases hs.tilt_nonneg.eq_or_lt with h | h
  · rw [← aoiProjection_eq_dot, aoiProjection, ← h]
    simp [rotationFromTiltAzimuth, frontDotSun, solar2dVector, cosd_zero, sind_zero]
  · rcases hz0.eq_or_lt with hz | hz
    · rw [← aoiProjection_eq_dot, aoiProjection, ← hz, C25_orientation _ _ _ h]
      split_ifs <;> simp [frontDotSun, solar2dVector, cosd_zero, sind_zero, cosd_neg]
    · exact (C53_incidence _ _ _ _ h hs.tilt_lt hz hz1).2 haz _

/-- Total direct light on illuminated surfaces, per metre along the axis. -/
noncomputable def litDirect (p : ArrayParams) (g : StepGeom) (direct : SurfRef → ℝ) : ℝ :=
  ((allRefs p).map fun a => if a.isShaded then 0 else (g.coords a).length * direct a).sum

theorem litDirect_eq (p : ArrayParams) (g : StepGeom) (d : SurfRef → ℝ) (G A B : ℝ)
    (hG : ∀ e z, d (.gnd false e z) = G) (hA : ∀ i k, d (.pv i .front k false) = A)
    (hB : ∀ i k, d (.pv i .back k false) = B) :
    litDirect p g d
      = ((List.range (p.nRows + 1)).map fun e => ((List.range (p.nRows + 1)).map
          fun z => (g.coords (.gnd false e z)).length).sum).sum * G
        + (((List.range p.nRows).map fun i => ((List.range (p.nSeg i .front)).map
            fun k => (g.coords (.pv i .front k false)).length).sum).sum * A
          + ((List.range p.nRows).map fun i => ((List.range (p.nSeg i .back)).map
            fun k => (g.coords (.pv i .back k false)).length).sum).sum * B) := by
  unfold litDirect allRefs groundRefs
  rw [List.map_append, List.sum_append, List.map_append, List.sum_append, sum_map_flatMap',
    sum_map_flatMap', sum_map_flatMap']
  have e1 : ((List.range p.nRows).map fun e => (((List.range (p.nRows + 1)).map
      fun z => SurfRef.gnd true e z).map fun a => if a.isShaded then 0
        else (g.coords a).length * d a).sum).sum = 0 := by
    apply List.sum_eq_zero
    intro x hx
    rw [List.mem_map] at hx
    obtain ⟨e, _, rfl⟩ := hx
    apply List.sum_eq_zero
    intro y hy
    rw [List.map_map, List.mem_map] at hy
    obtain ⟨z, _, rfl⟩ := hy
    simp [SurfRef.isShaded]
  have side : ∀ i s C, (∀ k, d (.pv i s k false) = C) →
      ((sideRefs p i s).map fun a => if a.isShaded then 0 else (g.coords a).length * d a).sum
      = ((List.range (p.nSeg i s)).map fun k => (g.coords (.pv i s k false)).length).sum * C := by
    intro i s C hC
    unfold sideRefs
    rw [sum_map_flatMap', ← sum_map_mul']
    congr 1
    apply List.map_congr_left
    intro k _
    simp [SurfRef.isShaded, hC]
  rw [e1, zero_add]
  congr 1
  · rw [← sum_map_mul']
    congr 1
    apply List.map_congr_left
    intro e _
    rw [List.map_map, ← sum_map_mul']
    congr 1
    apply List.map_congr_left
    intro z _
    simp [SurfRef.isShaded, hG]
  · rw [← sum_map_mul', ← sum_map_mul', ← sum_map_add']
    congr 1
    apply List.map_congr_left
    intro i _
    rw [rowRefs, List.map_append, List.sum_append, side i .front A (hA i), side i .back B (hB i)]

/-- Direct light on the illuminated part of the rows: what the shadows on the ground take away. -/
theorem lit_rows (p : ArrayParams) (rot : Rot) (sun : Pt) (hw : 0 < p.width)
    (hgcr : 0 < p.gcr) (hy : 0 < sun.y) (hF : frontDotSun rot.deg sun ≠ 0)
    (h0 : -180 < rot.deg) (h1 : rot.deg < 180) (hflat : rot.deg = 0 → p.gcr ≤ 1)
    (hseg : ∀ i < p.nRows, ∀ s, 0 < p.nSeg i s)
    (htiny : hasDirectShading p (arctan2 sun.y sun.x) rot.deg ∨
      interrowShading p (arctan2 sun.y sun.x) rot.deg = (0, 0)) :
    let g := fitGeom p rot sun
    ((List.range p.nRows).map fun i => ((List.range (p.nSeg i (sunnySide rot.deg sun))).map
      fun k => (g.coords (.pv i (sunnySide rot.deg sun) k false)).length).sum).sum
        * |frontDotSun rot.deg sun|
    = ((List.range p.nRows).map
        fun e => (g.ground.noOverlap e).2 - (g.ground.noOverlap e).1).sum * sun.y := by
  classical
  intro g
  rcases Nat.eq_zero_or_pos p.nRows with hn | hn
  · simp [hn]
  have hd : 0 < p.distance := div_pos hw hgcr
  have hss := shadow_sum p rot sun hw hy hn
  simp only at hss
  rw [hss]
  set F := frontDotSun rot.deg sun with hFd
  have hFp : 0 < |F| := abs_pos.2 hF
  by_cases hr : rot.deg = 0
  · -- flat rows
    have hFy : F = sun.y := by rw [hFd, hr]; simp [frontDotSun, cosd_zero, sind_zero]
    have hdw : p.width ≤ p.distance := by
      unfold ArrayParams.distance
      rw [le_div_iff₀ hgcr]
      nlinarith [hflat hr]
    have hno : ¬ hasDirectShading p (arctan2 sun.y sun.x) rot.deg := by
      intro h
      have hpos : 0 < (interrowShading p (arctan2 sun.y sun.x) rot.deg).1 ∨
          0 < (interrowShading p (arctan2 sun.y sun.x) rot.deg).2 :=
        h.imp (TOL_pos.trans) (TOL_pos.trans)
      rcases Nat.lt_or_ge 1 p.nRows with h1' | h1'
      · rw [shading_iff_overlap (sin_alpha_ne hy.ne') (sunFront_ne hF) hd hw h1',
          kappa_eq hy.ne', ← hFd, hFy, div_self hy.ne'] at hpos
        simp at hpos
        linarith
      · simp [interrowShading, not_lt.2 h1'] at hpos
    rw [if_neg hno]
    have hb : ∀ i s, 0 ≤ sideShade p (arctan2 sun.y sun.x) rot.deg i s ∧
        sideShade p (arctan2 sun.y sun.x) rot.deg i s ≤ p.width := by
      intro i s
      have h00 := htiny.resolve_left hno
      cases s <;> simp only [sideShade, rowShadedLengths, h00] <;> split_ifs <;>
        exact ⟨le_rfl, hw.le⟩
    rw [List.map_congr_left fun i hi => lit_side_sum (p := p) (rot := rot) (sun := sun) (i := i)
      (s := sunnySide rot.deg sun) hw h0 h1 (hseg i (List.mem_range.1 hi) _) (hb i _).1 (hb i _).2]
    simp only [hr, if_true, sub_zero, List.map_const', List.sum_replicate, List.length_range,
      nsmul_eq_mul]
    ring
  · have hE := fun i (hi : i < p.nRows) =>
      sideShade_eq (p := p) (sun := sun) (i := i) hw hd hF h0 h1 hr hy hi
    set L := max 0 (p.width - |p.distance * sun.y / F|) with hL
    have hLb : 0 ≤ L ∧ L ≤ p.width :=
      ⟨le_max_left _ _, max_le hw.le (by have := abs_nonneg (p.distance * sun.y / F); linarith)⟩
    have hterm : ∀ i ∈ List.range p.nRows,
        ((List.range (p.nSeg i (sunnySide rot.deg sun))).map
          fun k => (g.coords (.pv i (sunnySide rot.deg sun) k false)).length).sum
        = p.width + (if (if 0 < sind rot.deg / F then 0 < i else i + 1 < p.nRows) then L else 0)
          * (-1) := by
      intro i hi
      rw [List.mem_range] at hi
      have hb : 0 ≤ sideShade p (arctan2 sun.y sun.x) rot.deg i (sunnySide rot.deg sun) ∧
          sideShade p (arctan2 sun.y sun.x) rot.deg i (sunnySide rot.deg sun) ≤ p.width := by
        rw [hE i hi]; split_ifs <;> first | exact hLb | exact ⟨le_rfl, hw.le⟩
      rw [lit_side_sum hw h0 h1 (hseg i hi _) hb.1 hb.2, if_neg hr, hE i hi]
      ring
    rw [List.map_congr_left hterm, sum_map_add', sum_map_mul', sum_shade _ hn]
    simp only [List.map_const', List.sum_replicate, List.length_range, nsmul_eq_mul]
    have habs : |p.distance * sun.y / F| * |F| = p.distance * sun.y := by
      rw [abs_div, div_mul_cancel₀ _ hFp.ne', abs_of_pos (mul_pos hd hy)]
    by_cases hf : hasDirectShading p (arctan2 sun.y sun.x) rot.deg
    · rw [if_pos hf]
      have hn1 : 1 < p.nRows := by
        by_contra h
        rcases hf with hf | hf <;> simp [interrowShading, h] at hf <;> linarith [TOL_pos]
      have hov := (shading_iff_overlap (sin_alpha_ne hy.ne') (sunFront_ne hF) hd hw hn1).1
        (hf.imp (TOL_pos.trans) (TOL_pos.trans))
      rw [kappa_eq hy.ne', ← hFd, abs_div, abs_of_pos hy, ← mul_div_assoc, lt_div_iff₀ hy] at hov
      have hL' : L = p.width - |p.distance * sun.y / F| := by
        rw [hL, max_eq_right]
        have : |p.distance * sun.y / F| * |F| ≤ p.width * |F| := by rw [habs]; exact hov.le
        have := le_of_mul_le_mul_right this hFp
        linarith
      rw [hL']
      linear_combination (p.nRows - 1 : ℝ) * habs
    · rw [if_neg hf]
      have h00 := htiny.resolve_left hf
      rcases Nat.lt_or_ge 1 p.nRows with hn1 | hn1
      · have hov := (shading_iff_overlap (sin_alpha_ne hy.ne') (sunFront_ne hF) hd hw hn1)
        rw [h00] at hov
        simp only [lt_self_iff_false, or_self, false_iff, not_lt] at hov
        rw [kappa_eq hy.ne', ← hFd, abs_div, abs_of_pos hy, ← mul_div_assoc, div_le_iff₀ hy] at hov
        have hL' : L = 0 := by
          rw [hL, max_eq_left]
          have : p.width * |F| ≤ |p.distance * sun.y / F| * |F| := by rw [habs]; exact hov
          have := le_of_mul_le_mul_right this hFp
          linarith
        rw [hL']; ring
      · have : p.nRows = 1 := by omega
        rw [this]; push_cast; ring

/-- Direct light given to the illuminated surfaces by an irradiance model with the usual direct
component: total and lower bound. -/
theorem lit_total (q : IrrParams) (p : ArrayParams) (u : StepIn) (v : IrrIn) (d : SurfRef → ℝ)
    (hd : ∀ a, d a = (directCats q v).get a)
    (ha : PhysicalArray p) (hs : PhysicalStep p u) (hv : SameStep u v)
    (hz0 : 0 ≤ u.solarZenith) (hz1 : u.solarZenith < 90)
    (haz : cosd (u.surfaceAzimuth - p.axisAzimuth) = 0)
    (hflat : u.surfaceTilt = 0 → p.gcr ≤ 1) (hseg : ∀ i < p.nRows, ∀ s, 0 < p.nSeg i s) :
    let g := fitStep p u
    litDirect p g d = (200 + (((List.range p.nRows).map
        fun e => (g.ground.noOverlap e).2 - (g.ground.noOverlap e).1).sum
      - ((List.range p.nRows).map
        fun e => (g.ground.shadowEl e).b2.x - (g.ground.shadowEl e).b1.x).sum))
      * (v.dni * cosd u.solarZenith) := by
  intro g
  have hy : 0 < g.sun.y := by
    change 0 < cosd u.solarZenith
    unfold cosd deg2rad
    apply Real.cos_pos_of_mem_Ioo
    constructor <;> nlinarith [Real.pi_pos]
  have hF : frontDotSun g.rot.deg g.sun ≠ 0 := hs.sun_front
  have hrot : g.rot = rotationFromTiltAzimuth u.surfaceAzimuth p.axisAzimuth u.surfaceTilt := rfl
  have hr : -180 < g.rot.deg ∧ g.rot.deg < 180 ∧ (g.rot.deg = 0 → u.surfaceTilt = 0) := by
    rcases hs.tilt_nonneg.eq_or_lt with h | h
    · have : g.rot.deg = 0 := by rw [hrot, ← h]; simp [rotationFromTiltAzimuth]
      rw [this]; exact ⟨by norm_num, by norm_num, fun _ => h.symm⟩
    · obtain ⟨a, b, c⟩ := rotation_range (sa := u.surfaceAzimuth) (aa := p.axisAzimuth) h hs.tilt_lt
      exact ⟨a, b, fun h' => absurd h' c⟩
  have hinc := incidence_step hs hv hz0 (by linarith) haz
  have hlr := lit_rows p g.rot g.sun ha.width_pos ha.gcr_pos hy hF hr.1 hr.2.1
    (fun h => hflat (hr.2.2 h)) hseg (hs.shade ha)
  have hg : fitGeom p g.rot g.sun = g := rfl
  simp only [hg] at hlr
  have hsuny : g.sun.y = cosd u.solarZenith := rfl
  rw [litDirect_eq p g d (v.dni * cosd u.solarZenith)
    (v.dni * max 0 (frontDotSun g.rot.deg g.sun)) (v.dni * max 0 (-frontDotSun g.rot.deg g.sun))
    (fun e z => by rw [hd, ← hv.zenith]; rfl)
    (fun i k => by rw [hd, ← hinc]; exact direct_front q v)
    (fun i k => by rw [hd, ← hinc]; exact direct_back q v)]
  have hgnd : ((List.range (p.nRows + 1)).map fun e => ((List.range (p.nRows + 1)).map
      fun z => (g.coords (.gnd false e z)).length).sum).sum
      = 200 - ((List.range p.nRows).map
        fun e => (g.ground.shadowEl e).b2.x - (g.ground.shadowEl e).b1.x).sum := by
    have hk := fun e (he : e ∈ List.range (p.nRows + 1)) => gnd_kind_sum p g.rot g.sun ha.width_pos
      ha.gcr_pos hy.ne' hF (hs.shade ha) false e (by simpa using he)
    simp only [hg] at hk
    rw [List.map_congr_left hk]
    have := g.ground.sum_elements (fun x => x)
    have hM : MAX_X - MIN_X = 200 := by norm_num [MAX_X, MIN_X]
    rw [hM] at this
    change _ + ((List.range (p.nRows + 1)).map
      fun e => (g.elem false e).b2.x - (g.elem false e).b1.x).sum = 200 at this
    change ((List.range p.nRows).map
        fun e => (g.ground.shadowEl e).b2.x - (g.ground.shadowEl e).b1.x).sum + _ = _ at this
    change ((List.range (p.nRows + 1)).map
      fun e => (g.elem false e).b2.x - (g.elem false e).b1.x).sum = _
    linarith
  rw [hgnd]
  have hrows : ((List.range p.nRows).map fun i => ((List.range (p.nSeg i .front)).map
            fun k => (g.coords (.pv i .front k false)).length).sum).sum
              * (v.dni * max 0 (frontDotSun g.rot.deg g.sun))
          + ((List.range p.nRows).map fun i => ((List.range (p.nSeg i .back)).map
            fun k => (g.coords (.pv i .back k false)).length).sum).sum
              * (v.dni * max 0 (-frontDotSun g.rot.deg g.sun))
      = v.dni * (((List.range p.nRows).map
        fun e => (g.ground.noOverlap e).2 - (g.ground.noOverlap e).1).sum * g.sun.y) := by
    rcases lt_or_gt_of_ne hF with hF' | hF'
    · rw [sunnySide, if_neg (not_lt.2 hF'.le), abs_of_neg hF'] at hlr
      rw [max_eq_left hF'.le, max_eq_right (by linarith : 0 ≤ -frontDotSun g.rot.deg g.sun), ← hlr]
      ring
    · rw [sunnySide, if_pos hF', abs_of_pos hF'] at hlr
      rw [max_eq_right hF'.le, max_eq_left (by linarith : -frontDotSun g.rot.deg g.sun ≤ 0), ← hlr]
      ring
  rw [hrows, hsuny]
  ring

/-- C53: direct light is neither lost nor created.  If modules face at a right angle to the axis,
the sun is above the horizon, flat rows do not overlap, and no row casts its shadow beyond the ends
of the ground, the direct light on all illuminated surfaces (ground and rows, weighted by length)
is the direct light that falls on the ground of 200 m in absence of rows; in both irradiance
models. -/
theorem C53_conservation (q : IrrParams) (p : ArrayParams) (u : StepIn) (v : IrrIn)
    (ha : PhysicalArray p) (hs : PhysicalStep p u) (hv : SameStep u v)
    (hz0 : 0 ≤ u.solarZenith) (hz1 : u.solarZenith < 90)
    (haz : cosd (u.surfaceAzimuth - p.axisAzimuth) = 0)
    (hflat : u.surfaceTilt = 0 → p.gcr ≤ 1) (hseg : ∀ i < p.nRows, ∀ s, 0 < p.nSeg i s)
    (hin : ∀ x, (∃ i < p.nRows, SunRayHits (fitStep p u).sun ⟨x, 0⟩ ((fitStep p u).row i).full) →
      -100 ≤ x ∧ x ≤ 100) :
    let g := fitStep p u
    ((allRefs p).map fun a => if a.isShaded then 0
        else (g.coords a).length * ((isotropicStep q v).comp a).headD 0).sum
      = 200 * (v.dni * cosd u.solarZenith) ∧
    ((allRefs p).map fun a => if a.isShaded then 0
        else (g.coords a).length * ((hybridPerezStep q p g v).comp a).headD 0).sum
      = 200 * (v.dni * cosd u.solarZenith) := by
  intro g
  have hy : 0 < g.sun.y := by
    change 0 < cosd u.solarZenith
    unfold cosd deg2rad
    apply Real.cos_pos_of_mem_Ioo
    constructor <;> nlinarith [Real.pi_pos]
  have habove : p.width / 2 * |sind g.rot.deg| < p.height := (physical_of ha hs).above
  have hin' : ∀ i < p.nRows, -100 ≤ (g.ground.shadowXs i).1 ∧ (g.ground.shadowXs i).2 ≤ 100 := by
    intro i hi
    have hray := fun x => ground_ray (p := p) (rot := g.rot.deg) (sun := g.sun) (i := i) x
      ha.width_pos hy habove
    have hle : (g.ground.shadowXs i).1 ≤ (g.ground.shadowXs i).2 := by
      have hx : g.ground.shadowXs i = shadowXs (fullRowCoords (rowCenter p i) p.width g.rot.deg)
        (arctan2 g.sun.y g.sun.x) := rfl
      have hp := ha.width_pos
      have : 0 ≤ p.width / 2 * |kappa (arctan2 g.sun.y g.sun.x) g.rot.deg| := by positivity
      rw [hx, shadowXs_eq p (rot := g.rot.deg) (sin_alpha_ne (sun := g.sun) hy.ne') i hp.le]
      simp only; linarith
    exact ⟨(hin _ ⟨i, hi, (hray _).2 ⟨le_rfl, hle⟩⟩).1, (hin _ ⟨i, hi, (hray _).2 ⟨hle, le_rfl⟩⟩).2⟩
  have hg : fitGeom p g.rot g.sun = g := rfl
  have heq := shadowEl_sum_eq p g.rot g.sun ha.width_pos hy hin'
  constructor
  · have := lit_total q p u v (fun a => ((isotropicStep q v).comp a).headD 0) (fun a => rfl)
      ha hs hv hz0 hz1 haz hflat hseg
    refine this.trans ?_
    rw [hg] at heq
    rw [heq]; ring
  · have := lit_total q p u v (fun a => ((hybridPerezStep q p g v).comp a).headD 0) (fun a => rfl)
      ha hs hv hz0 hz1 haz hflat hseg
    refine this.trans ?_
    rw [hg] at heq
    rw [heq]; ring

/-- C53: if rows cast shadows beyond the ends of the ground, more direct light is counted than falls
on the ground in absence of rows, never less. -/
theorem C53_at_least (q : IrrParams) (p : ArrayParams) (u : StepIn) (v : IrrIn)
    (ha : PhysicalArray p) (hs : PhysicalStep p u) (hv : SameStep u v)
    (hz0 : 0 ≤ u.solarZenith) (hz1 : u.solarZenith < 90)
    (haz : cosd (u.surfaceAzimuth - p.axisAzimuth) = 0)
    (hflat : u.surfaceTilt = 0 → p.gcr ≤ 1) (hseg : ∀ i < p.nRows, ∀ s, 0 < p.nSeg i s)
    (hdni : 0 ≤ v.dni) :
    let g := fitStep p u
    200 * (v.dni * cosd u.solarZenith) ≤ ((allRefs p).map fun a => if a.isShaded then 0
        else (g.coords a).length * ((isotropicStep q v).comp a).headD 0).sum := by
  intro g
  have hy : 0 < g.sun.y := by
    change 0 < cosd u.solarZenith
    unfold cosd deg2rad
    apply Real.cos_pos_of_mem_Ioo
    constructor <;> nlinarith [Real.pi_pos]
  have hle := shadowEl_sum_le p g.rot g.sun ha.width_pos ha.gcr_pos hy
  have hg : fitGeom p g.rot g.sun = g := rfl
  simp only [hg] at hle
  have := lit_total q p u v (fun a => ((isotropicStep q v).comp a).headD 0) (fun a => rfl)
      ha hs hv hz0 hz1 haz hflat hseg
  refine le_trans ?_ this.ge
  have h2 : 0 ≤ v.dni * cosd u.solarZenith := mul_nonneg hdni hy.le
  nlinarith

/-! ## Instances -/

/-- Irradiance at the time step `shadeStep`: 1000 W/m2 direct, 100 W/m2 diffuse. -/
noncomputable def shadeIrr : IrrIn where
  dni := 1000
  dhi := 100
  solarZenith := 60
  solarAzimuth := 270
  surfaceTilt := 30
  surfaceAzimuth := 270
  albedo := 1 / 5
  ghi := none
  poaGlobal := 950
  perez := ⟨60, 40, 0, 40⟩

/-- The hypotheses of C53 are met in a case where rows shade each other: 100 kW per metre of axis
fall on 200 m. -/
theorem C53_demo : ((allRefs denseArray).map fun a => if a.isShaded then 0
    else ((fitStep denseArray shadeStep).coords a).length
      * ((isotropicStep demoIrrParams shadeIrr).comp a).headD 0).sum = 100000 := by
  have haz : cosd (shadeStep.surfaceAzimuth - denseArray.axisAzimuth) = 0 := by
    change cosd (270 - 0) = 0
    rw [show (270 - 0 : ℝ) = 90 + 180 by norm_num, cosd_add_180, cosd_90, neg_zero]
  have hseg : ∀ i < denseArray.nRows, ∀ s, 0 < denseArray.nSeg i s := by
    intro i hi s
    have : i = 0 ∨ i = 1 := by
      have : denseArray.nRows = 2 := rfl
      omega
    rcases this with rfl | rfl <;> cases s <;>
      simp [ArrayParams.nSeg, ArrayParams.nFront, ArrayParams.nBack, denseArray]
  have h := (C53_conservation demoIrrParams denseArray shadeStep shadeIrr dense_physicalArray
    shade_physicalStep ⟨rfl, rfl, rfl, rfl⟩ (by norm_num [shadeStep]) (by norm_num [shadeStep]) haz
    (fun h => by norm_num [denseArray]) hseg (by
      rintro x ⟨i, hi, h⟩
      have hy : 0 < (fitStep denseArray shadeStep).sun.y := by rw [dense_sun]; norm_num
      have h3 : Real.sqrt 3 < 2 := by
        rw [Real.sqrt_lt' (by norm_num)]; norm_num
      have h30 : 0 ≤ Real.sqrt 3 := Real.sqrt_nonneg _
      have h' := (ground_ray (p := denseArray) (rot := (fitStep denseArray shadeStep).rot.deg)
        (sun := (fitStep denseArray shadeStep).sun) (i := i) x (by norm_num [denseArray]) hy
        (physical_of dense_physicalArray shade_physicalStep).above).1 h
      rw [shadowXs_eq denseArray (sin_alpha_ne hy.ne') i (by norm_num [denseArray]),
        cot_alpha hy.ne', kappa_eq hy.ne', dense_front, dense_sun] at h'
      have hi' : (i : ℝ) ≤ 1 := by
        have : i < 2 := hi
        have : i ≤ 1 := by omega
        exact_mod_cast this
      have hi0 : (0 : ℝ) ≤ i := Nat.cast_nonneg i
      have hab : |Real.sqrt 3 / 2 / (1 / 2)| = Real.sqrt 3 := by
        rw [abs_of_nonneg (by positivity)]; ring
      simp only [hab] at h'
      have hd : denseArray.distance = 5 / 4 := by norm_num [ArrayParams.distance, denseArray]
      have hh : denseArray.height = 3 / 2 := rfl
      have hw : denseArray.width = 1 := rfl
      rw [hd, hh, hw] at h'
      constructor <;> nlinarith [h'.1, h'.2])).1
  rw [h]
  change 200 * (1000 * cosd 60) = 100000
  rw [cosd_60]; norm_num

end PVF

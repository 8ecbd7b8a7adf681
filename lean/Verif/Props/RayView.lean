import Verif.Lemmas.RayTile
import Verif.Props.EndToEnd
import Verif.Props.FastDemo

/-!
# C51, C52: the view factors of full mode are those of rays

The crossed strings method of the package agrees with the definition of view factors by rays
(`Spec/RayView.lean`, `Spec/Scene.lean`).
-/

namespace PVF

variable {ι : Type*} [Fintype ι]

theorem gH_pos_first {p : ArrayParams} {rot : ℝ} (h : Physical p rot) {left : Bool} {r : ℕ} {y1 y2 : ℝ}
    (hy : y1 < y2) (h2 : 0 ≤ gH p left rot r y2) (h1 : 0 ≤ gH p left rot r y1) :
    0 < gH p left rot r y1 := by
  by_cases h0 : rot = 0
  · have hl := h.lowY_pos
    have e : gH p left rot r y1 = -(upX left rot) * lowY p rot := by
      unfold gH; rw [h0, upY_zero]; ring
    rw [e] at h1 ⊢
    have : upX left rot = 1 ∨ upX left rot = -1 := by
      rw [h0, upX_zero]; cases left <;> simp
    rcases this with hc | hc <;> rw [hc] at h1 ⊢ <;> linarith
  · have hv := upY_pos h.lo h.hi h0
    have e : gH p left rot r y1 = gH p left rot r y2 + upY rot * (y2 - y1) := by unfold gH; ring
    rw [e]
    have := mul_pos hv (sub_pos.2 hy)
    linarith

theorem gH_other (p : ArrayParams) (left : Bool) (rot : ℝ) (r : ℕ) (x : ℝ) :
    gH p (!left) rot r (sx (!left) x) = - gH p left rot r (sx left x) := by
  unfold gH lowX upX sx; cases left <;> simp <;> ring

/-- Both ends of a ground surface, in the direction of a view. -/
theorem gnd_ends {p : ArrayParams} {rot : Rot} {sun : Pt} (h : Physical p rot.deg) (hf : FlatOk rot)
    {r z : ℕ} (hr : r < p.nRows) {x1 x2 : ℝ} (hlt : x1 < x2)
    (hz1 : (fitGeom p rot sun).ground.zoneLo z ≤ x1)
    (hz2 : x2 ≤ (fitGeom p rot sun).ground.zoneHi z) (left : Bool) :
    (if left then x1 else -x2) < (if left then x2 else -x1) ∧
    (decide (z ≤ r) = left → 0 < gH p left rot.deg r (if left then x1 else -x2) ∧
      0 ≤ gH p left rot.deg r (if left then x2 else -x1)) ∧
    (decide (z ≤ r) ≠ left → gH p left rot.deg r (if left then x1 else -x2) ≤ 0) := by
  obtain ⟨o1, o2⟩ := gnd_onSide (sun := sun) h hf hr hlt hz1 hz2
  rw [onSide_iff] at o1 o2
  have hlt' : (if left then x1 else -x2) < (if left then x2 else -x1) := by
    cases left <;> simp <;> linarith
  refine ⟨hlt', ?_, ?_⟩
  · rintro rfl
    set left := decide (z ≤ r)
    clear_value left
    have key : 0 ≤ gH p left rot.deg r (if left then x1 else -x2) ∧
        0 ≤ gH p left rot.deg r (if left then x2 else -x1) := by
      cases left
      · simp only [sx, Bool.false_eq_true, if_false] at o1 o2 ⊢; exact ⟨o2, o1⟩
      · simp only [sx, if_true] at o1 o2 ⊢; exact ⟨o1, o2⟩
    exact ⟨gH_pos_first h hlt' key.2 key.1, key.2⟩
  · intro hne
    have hn : decide (z ≤ r) = !left := by
      cases left <;> cases h' : decide (z ≤ r) <;> simp_all
    rw [hn, gH_other] at o1 o2
    cases left
    · simp only [sx, Bool.false_eq_true, if_false] at o1 o2 ⊢; linarith
    · simp only [sx, if_true] at o1 o2 ⊢; linarith

/-- The entries of the matrix are view factors by rays. -/
theorem entryVF_ray {p : ArrayParams} {rot : Rot} {sun : Pt} (h : Physical p rot.deg)
    (hf : FlatOk rot) (hfa : FlatApart p rot.deg) (ho : (fitGeom p rot sun).ground.Ordered)
    (emp : SurfRef → Prop) (hemp : ∀ x, emp x → ((fitGeom p rot sun).coords x).length < TOL)
    {a b : SurfRef} (ha : a ∈ allRefs p) (hb : b ∈ allRefs p)
    (hla : TOL < ((fitGeom p rot sun).coords a).length)
    (hlb : ((fitGeom p rot sun).coords b).length = 0 ∨ TOL < ((fitGeom p rot sun).coords b).length) :
    entryVF p (fitGeom p rot sun) emp a b = rayView p (fitGeom p rot sun) a b := by
  set g := fitGeom p rot sun with hg
  rcases hlb with hb0 | hlb
  · rw [entryVF_point_col p g emp a b hb0, rayView_point hb0]
  have hT := TOL_pos
  have hrot : g.rot.deg = rot.deg := rfl
  match a, ha, b, hb, hla, hlb with
  | .gnd sh e z, ha, .gnd sh' e' z', hb, hla, hlb =>
    obtain ⟨x1, x2, hc, hle, _⟩ := gnd_interval (rot := rot) (sun := sun) h.distance.le ho ha
    obtain ⟨x1', x2', hc', hle', _⟩ := gnd_interval (rot := rot) (sun := sun) h.distance.le ho hb
    change g.coords _ = _ at hc hc'
    have : entryVF p g emp (.gnd sh e z) (.gnd sh' e' z') = 0 := rfl
    rw [this]
    unfold rayView
    symm
    refine mean_zero fun s _ _ => ?_
    have eT : (fun Y => OnSeg Y (g.coords (.gnd sh' e' z'))) = gndSeg x1' x2' := by
      funext Y
      have := onSeg_gp true hle' (Y := Y)
      rw [hc', this]; simp [mirB]
    rw [eT, hc]
    simp only [lerp_gp]
    exact gnd_gnd_point_zero
  | .pv r s k sh, ha, .gnd sh' e z, hb, hla, hlb =>
    obtain ⟨hr, hk⟩ := mem_allRefs_pv.1 ha
    obtain ⟨ba, bab, bb⟩ := pv_iv_bounds (rot := rot) (sun := sun) hk sh h.width.le
    obtain ⟨x1, x2, hc, hle, hz1, hz2⟩ := gnd_interval (rot := rot) (sun := sun) h.distance.le ho hb
    change g.coords _ = _ at hc
    have hlt : x1 < x2 := by
      rw [hc, length_gp hle] at hlb; linarith
    have ex := pvGnd_exact h hf ho emp ha hb hemp hla (Or.inr hlb)
    simp only at ex
    change entryVF p g emp _ _ = _ at ex
    have hlen := length_pv (sun := sun) hk sh h.width.le h.lo h.hi
    rw [show g.coords (.pv r s k sh) = (fitGeom p rot sun).coords (.pv r s k sh) from rfl,
      hlen] at hla
    change _ = if _ then dphi p _ rot.deg r _ _ (g.coords (.gnd sh' e z)).b1.x
      (g.coords (.gnd sh' e z)).b2.x / _ else 0 at ex
    rw [ex, hlen, hc]
    set A := (pvIv p rot sun r s k sh).1
    set B := (pvIv p rot sun r s k sh).2
    unfold rayView
    rw [hrot, meanShare_pv (sun := sun) h hk (Q' := Arrives (mSolid p (faceL rot.deg s) rot.deg)
      (gndSeg (if faceL rot.deg s then x1 else -x2) (if faceL rot.deg s then x2 else -x1)) ⟨0, 1⟩)
      (fun X d => by
        have := arrives_mir (left := faceL rot.deg s) (m := outward rot.deg (.gnd sh' e z))
          (solid_mir p (faceL rot.deg s) rot sun h.width.le)
          (T := fun Y => OnSeg Y (g.coords (.gnd sh' e z)))
          (fun Y => by rw [hc]; exact onSeg_gp (faceL rot.deg s) hle) X d
        rw [outward_gnd] at this
        exact this)]
    obtain ⟨g0, g1, g2⟩ := gnd_ends (sun := sun) h hf hr hlt hz1 hz2 (faceL rot.deg s)
    by_cases hl : decide (z ≤ r) = faceL rot.deg s
    · rw [if_pos hl, hl]
      obtain ⟨p1, p2⟩ := g1 hl
      rw [mean_pv_gnd h hfa hr ba (by linarith : A < B) bb g0.le p1 p2, dphi_eq]
      rfl
    · rw [if_neg hl]
      symm
      refine mean_zero fun t _ _ => ?_
      simp only [lerp_vp]
      exact pv_gnd_point_zero h (g2 hl)
  | .gnd sh' e z, hb, .pv r s k sh, ha, hlb, hla =>
    obtain ⟨hr, hk⟩ := mem_allRefs_pv.1 ha
    obtain ⟨ba, bab, bb⟩ := pv_iv_bounds (rot := rot) (sun := sun) hk sh h.width.le
    obtain ⟨x1, x2, hc, hle, hz1, hz2⟩ := gnd_interval (rot := rot) (sun := sun) h.distance.le ho hb
    change g.coords _ = _ at hc
    have hlt : x1 < x2 := by
      rw [hc, length_gp hle] at hlb; linarith
    have hxl : TOL < x2 - x1 := by rw [hc, length_gp hle] at hlb; exact hlb
    have ex := pvGnd_exact h hf ho emp ha hb hemp hla (Or.inr hlb)
    simp only at ex
    change entryVF p g emp _ _ = _ at ex
    have hlen := length_pv (sun := sun) hk sh h.width.le h.lo h.hi
    have hla' : TOL < (pvIv p rot sun r s k sh).2 - (pvIv p rot sun r s k sh).1 := by
      rw [← hlen]; exact hla
    have na : ¬ emp (.pv r s k sh) := fun he => absurd (hemp _ he) (not_lt.2 hla.le)
    have nb' : ¬ emp (.gnd sh' e z) := fun he => absurd (hemp _ he) (not_lt.2 hlb.le)
    have e1 : entryVF p g emp (.pv r s k sh) (.gnd sh' e z)
        = (pvGndVF p g r s (g.coords (.pv r s k sh)) (g.coords (.gnd sh' e z)) z).1 := by
      simp only [entryVF]; rw [if_neg (by simp [na, nb'])]
    have e2 : entryVF p g emp (.gnd sh' e z) (.pv r s k sh)
        = (pvGndVF p g r s (g.coords (.pv r s k sh)) (g.coords (.gnd sh' e z)) z).2 := by
      simp only [entryVF]; rw [if_neg (by simp [na, nb'])]
    have hrec : entryVF p g emp (.gnd sh' e z) (.pv r s k sh)
        = entryVF p g emp (.pv r s k sh) (.gnd sh' e z)
          * ((pvIv p rot sun r s k sh).2 - (pvIv p rot sun r s k sh).1) / (x2 - x1) := by
      rw [e2, pvGnd_val2, if_pos hlb, ← e1, hc, length_gp hle]
      change _ * ((fitGeom p rot sun).coords (.pv r s k sh)).length / _ = _
      rw [hlen]
    change _ = if _ then dphi p _ rot.deg r _ _ (g.coords (.gnd sh' e z)).b1.x
      (g.coords (.gnd sh' e z)).b2.x / _ else 0 at ex
    rw [hrec, ex, hlen, hc]
    set A := (pvIv p rot sun r s k sh).1
    set B := (pvIv p rot sun r s k sh).2
    have hAB : B - A ≠ 0 := by linarith
    have hXX : x2 - x1 ≠ 0 := by linarith
    unfold rayView
    rw [hrot, hc, meanShare_gnd (faceL rot.deg s) (Q' := Arrives (mSolid p (faceL rot.deg s) rot.deg)
      (rowSeg p (faceL rot.deg s) rot.deg r A B) (nu (faceL rot.deg s) rot.deg))
      (fun X d => by
        have := arrives_mir (left := faceL rot.deg s) (m := outward rot.deg (.pv r s k sh))
          (solid_mir p (faceL rot.deg s) rot sun h.width.le)
          (T := fun Y => OnSeg Y (g.coords (.pv r s k sh)))
          (fun Y => onSeg_pv h (faceL rot.deg s) hk Y) X d
        rw [outward_pv] at this
        exact this)]
    obtain ⟨g0, g1, g2⟩ := gnd_ends (sun := sun) h hf hr hlt hz1 hz2 (faceL rot.deg s)
    by_cases hl : decide (z ≤ r) = faceL rot.deg s
    · rw [if_pos hl, hl]
      obtain ⟨p1, p2⟩ := g1 hl
      rw [mean_gnd_pv h hfa hr ba (by linarith : A < B) bb g0 p1 p2, dphi_eq]
      have : (if faceL rot.deg s then x2 else -x1) - (if faceL rot.deg s then x1 else -x2) = x2 - x1 := by
        cases faceL rot.deg s <;> simp; ring
      rw [this]
      simp only [gp]
      field_simp
    · rw [if_neg hl, zero_mul, zero_div]
      symm
      refine mean_zero fun t t0 t1 => ?_
      simp only [lerp_gp]
      apply gnd_pv_point_zero
      have := g2 hl
      have hu := h.upY_nonneg
      unfold gH at this ⊢
      have := mul_nonneg hu (mul_nonneg (sub_nonneg.2 g0.le) t0.le)
      linarith
  | .pv r s k sh, ha, .pv r' s' k' sh', hb, hla, hlb =>
    obtain ⟨hr, hk⟩ := mem_allRefs_pv.1 ha
    obtain ⟨hr', hk'⟩ := mem_allRefs_pv.1 hb
    obtain ⟨ba, bab, bb⟩ := pv_iv_bounds (rot := rot) (sun := sun) hk sh h.width.le
    obtain ⟨ba', bab', bb'⟩ := pv_iv_bounds (rot := rot) (sun := sun) hk' sh' h.width.le
    have hlen := length_pv (sun := sun) hk sh h.width.le h.lo h.hi
    have hla' : TOL < (pvIv p rot sun r s k sh).2 - (pvIv p rot sun r s k sh).1 := by
      rw [← hlen]; exact hla
    unfold rayView
    rw [hrot, meanShare_pv (sun := sun) h hk (Q' := Arrives (mSolid p (faceL rot.deg s) rot.deg)
      (rowSeg p (faceL rot.deg s) rot.deg r' (pvIv p rot sun r' s' k' sh').1
        (pvIv p rot sun r' s' k' sh').2) (mirB (faceL rot.deg s) (outward rot.deg (.pv r' s' k' sh'))))
      (fun X d => arrives_mir (left := faceL rot.deg s) (m := outward rot.deg (.pv r' s' k' sh'))
          (solid_mir p (faceL rot.deg s) rot sun h.width.le)
          (T := fun Y => OnSeg Y (g.coords (.pv r' s' k' sh')))
          (fun Y => onSeg_pv h (faceL rot.deg s) hk' Y) X d)]
    by_cases hnb : HasNb (faceL rot.deg s) p.nRows r ∧ r' = nb (faceL rot.deg s) r ∧ s' ≠ s
    · obtain ⟨hn, hrr, hs⟩ := hnb
      have ex := pvPv_exact h emp ha hb hemp hla (Or.inr hlb) hn hrr hs
      simp only at ex
      change entryVF p g emp _ _ = _ at ex
      rw [ex, hlen, outward_pv_other rot.deg r' hs]
      subst hrr
      rw [mean_pv_pv h hfa hr hn ba (by linarith) bb ba' bab' bb']
    · have hz := (pvPv_val (sun := sun) h emp ha hb).2.1 hnb
      change entryVF p g emp _ _ = 0 at hz
      rw [hz]
      symm
      refine mean_zero fun t t0 t1 => ?_
      simp only [lerp_vp]
      by_cases hs : s' = s
      · subst hs
        rw [outward_pv]
        exact pv_pv_point_same (p := p)
      · apply pv_pv_point_zero h hr hr' _ _ _ ba' bb'
        · left
          intro h1
          apply hnb
          refine ⟨hasNb_of_rowsTo hr hr' (by omega), ?_, hs⟩
          unfold rowsTo at h1
          unfold nb
          cases hL : faceL rot.deg s <;> rw [hL] at h1 <;> simp at h1 ⊢ <;> omega
        · have := mul_nonneg (sub_nonneg.2 bab) t0.le
          linarith
        · nlinarith [mul_nonneg (sub_nonneg.2 bab) (sub_nonneg.2 t1.le)]

theorem flatApart_of {p : ArrayParams} {u : StepIn} (hp : PhysicalArray p)
    (hflat : u.surfaceTilt = 0 → p.gcr < 1) :
    FlatApart p (rotationFromTiltAzimuth u.surfaceAzimuth p.axisAzimuth u.surfaceTilt).deg := by
  intro h0
  have h1 : u.surfaceTilt = 0 := by
    unfold rotationFromTiltAzimuth at h0
    simp only at h0
    split_ifs at h0 with h2 h3 <;> first | exact h2 | exact h3 | exact h0 | exact neg_eq_zero.1 h0
  have hg := hflat h1
  unfold ArrayParams.distance
  rw [lt_div_iff₀ hp.gcr_pos]
  nlinarith [hp.width_pos]

/-- C51: between surfaces of a physically placed array, the view factor that the package computes
from lengths of crossed strings is the share of the diffuse light leaving the first surface whose
straight way ends at the outer side of the second one without meeting a row or the ground before. -/
theorem C51_view_factor_by_rays (p : ArrayParams) (u : ι → StepIn) (t : ι) (hp : PhysicalArray p)
    (hu : PhysicalStep p (u t)) (hflat : (u t).surfaceTilt = 0 → p.gcr < 1) {a b : SurfRef}
    (ha : a ∈ surfaces p) (hb : b ∈ surfaces p) (hla : TOL < lengthAt p (u t) a)
    (hlb : lengthAt p (u t) b = 0 ∨ TOL < lengthAt p (u t) b) :
    vfBetween p (tsVfMatrix p u t) a b = rayView p (fitStep p (u t)) a b := by
  rw [vfBetween_eq ha hb]
  have hemp : ∀ x, isEmptyTs (fun t => fitStep p (u t)) x → ((fitStep p (u t)).coords x).length < TOL :=
    fun x hx => length_lt_of_empty hx t
  exact entryVF_ray (sun := solar2dVector (u t).solarZenith (u t).solarAzimuth p.axisAzimuth)
    (physical_of hp hu) (rotation_flatOk (u t) p) (flatApart_of hp hflat) (ordered_of hp hu) _
    hemp (mem_surfaces.1 ha) (mem_surfaces.1 hb) hla hlb

/-- C52: seen by rays, all light that leaves a surface arrives at the surfaces of the array or goes
to the sky. -/
theorem C52_rays_complete (p : ArrayParams) (u : StepIn) (hp : PhysicalArray p)
    (hu : PhysicalStep p u) (hflat : u.surfaceTilt = 0 → p.gcr < 1)
    (hcut : ∀ r < p.nRows, 0 < p.nFront r ∧ 0 < p.nBack r) {a : SurfRef} (ha : a ∈ surfaces p) :
    raySky p (fitStep p u) a + ∑ b ∈ surfaces p, rayView p (fitStep p u) a b = 1 :=
  rayView_total (physical_of hp hu) hp.gcr_pos (flatApart_of hp hflat) hu.sun_y hu.sun_front
    (hu.shade hp)
    (fun r hr s => by cases s; exacts [(hcut r hr).1, (hcut r hr).2]) ha

/-- C52: if no surface is shorter than the tolerance without being a point, the view factor to the
sky, which the package computes as what is left over, is the share of the diffuse light leaving the
surface whose straight way meets neither a row nor the ground. -/
theorem C52_sky_by_rays (p : ArrayParams) (u : ι → StepIn) (t : ι) (hp : PhysicalArray p)
    (hu : PhysicalStep p (u t)) (hflat : (u t).surfaceTilt = 0 → p.gcr < 1)
    (hcut : ∀ r < p.nRows, 0 < p.nFront r ∧ 0 < p.nBack r)
    (hlen : ∀ b ∈ surfaces p, lengthAt p (u t) b = 0 ∨ TOL < lengthAt p (u t) b)
    {a : SurfRef} (ha : a ∈ surfaces p) (hla : TOL < lengthAt p (u t) a) :
    vfToSky p (tsVfMatrix p u t) a = raySky p (fitStep p (u t)) a := by
  have h1 := row_sum_surfaces (u := u) (t := t) ha hla
  have h2 := C52_rays_complete p (u t) hp hu hflat hcut ha
  rw [Finset.sum_congr rfl fun b hb =>
    C51_view_factor_by_rays p u t hp hu hflat ha hb hla (hlen b hb)] at h1
  linarith

/-- The hypotheses of C51 and C52 can be met: vertical rows, for every surface that is not a
point. -/
theorem C51_demo (t : Fin 3) (a : SurfRef) (ha : a ∈ surfaces vertArray)
    (hla : lengthAt vertArray vertStep a ≠ 0) :
    (∀ b ∈ surfaces vertArray, vfBetween vertArray (tsVfMatrix vertArray (fun _ => vertStep) t) a b
      = rayView vertArray (fitStep vertArray vertStep) a b) ∧
    vfToSky vertArray (tsVfMatrix vertArray (fun _ => vertStep) t) a
      = raySky vertArray (fitStep vertArray vertStep) a := by
  have hflat : vertStep.surfaceTilt = 0 → vertArray.gcr < 1 := by
    intro h; norm_num [vertStep] at h
  have hl := (vert_lengths a ha).resolve_left hla
  refine ⟨fun b hb => C51_view_factor_by_rays vertArray (fun _ => vertStep) t vert_physicalArray
    vert_physicalStep hflat ha hb hl (vert_lengths b hb), ?_⟩
  refine C52_sky_by_rays vertArray (fun _ => vertStep) t vert_physicalArray
    vert_physicalStep hflat ?_ vert_lengths ha hl
  intro r hr
  unfold ArrayParams.nFront ArrayParams.nBack vertArray
  by_cases h : r = 0 <;> simp [h]

/-- There are such surfaces. -/
theorem C51_demo_surface : SurfRef.pv 0 .back 1 false ∈ surfaces vertArray ∧
    lengthAt vertArray vertStep (.pv 0 .back 1 false) ≠ 0 := by
  refine ⟨vert_mem 1 (by norm_num) false, ?_⟩
  rw [vert_len 1 (by norm_num)]; norm_num

end PVF

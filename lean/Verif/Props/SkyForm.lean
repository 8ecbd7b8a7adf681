import Verif.Lemmas.SkyForm
import Verif.Props.FastDemo
import Verif.Spec.Strings

/-!
# Closed forms of the view factors to the sky (C84)
-/

namespace PVF

variable {ι : Type} [Fintype ι]

theorem Line.Ends.eq {l : Line} {lo hi A B : Pt} (h : l.Ends lo hi)
    (hl : l = ⟨A, B⟩ ∨ l = ⟨B, A⟩) (hy : A.y < B.y) : lo = A ∧ hi = B := by
  obtain ⟨h1, h2⟩ := h
  rcases hl with hl | hl <;> rcases h2 with h2 | h2 <;> rw [hl, Line.mk.injEq] at h2 <;>
    obtain ⟨rfl, rfl⟩ := h2
  · exact ⟨rfl, rfl⟩
  · linarith
  · linarith
  · exact ⟨rfl, rfl⟩

theorem rotation_cosd (u : StepIn) (p : ArrayParams) :
    cosd (rotationFromTiltAzimuth u.surfaceAzimuth p.axisAzimuth u.surfaceTilt).deg
      = cosd u.surfaceTilt := by
  unfold rotationFromTiltAzimuth
  simp only
  split_ifs with h h'
  · rw [h]
  · rfl
  · simp only [cosd_neg]

theorem upX_side (u : StepIn) (p : ArrayParams) (s : RowSide) :
    upX (faceL (fitStep p u).rot.deg s) (fitStep p u).rot.deg = sideCos u s := by
  have hc : cosd (fitStep p u).rot.deg = cosd u.surfaceTilt := rotation_cosd u p
  unfold upX faceL sx sideCos
  cases s <;> by_cases h : 0 < (fitStep p u).rot.deg <;> simp [h, hc]

theorem full_row_t {p : ArrayParams} {rot : ℝ} (j : ℕ) :
    fullRowCoords (rowCenter p j) p.width rot
      = ⟨tPt (rowCenter p j) p.width rot 0, tPt (rowCenter p j) p.width rot p.width⟩ ∨
    fullRowCoords (rowCenter p j) p.width rot
      = ⟨tPt (rowCenter p j) p.width rot p.width, tPt (rowCenter p j) p.width rot 0⟩ := by
  rw [fullRowCoords_eq]
  unfold tPt
  split_ifs
  · left; congr 2 <;> ring
  · right; congr 2 <;> ring

theorem faceL_iff (g : StepGeom) (s : RowSide) : faceL g.rot.deg s = true ↔ LooksLeft g s := by
  simp [faceL, LooksLeft]

theorem gp_end (left : Bool) : gp (sx left (endX left)) = mirB left (gp (endX left)) :=
  gp_sx left _

section
variable (p : ArrayParams) (u : ι → StepIn) (t : ι) (hp : PhysicalArray p)
    (hu : PhysicalStep p (u t))
    (hlen : ∀ b ∈ surfaces p, lengthAt p (u t) b = 0 ∨ lengthAt p (u t) b > TOL)
    (r : ℕ) (s : RowSide) (k : ℕ) (sh : Bool) (ha : SurfRef.pv r s k sh ∈ surfaces p)
    (hl : lengthAt p (u t) (.pv r s k sh) > TOL)

include ha hl in
theorem sky_rest : vfToSky p (tsVfMatrix p u t) (.pv r s k sh)
    = 1 - vfToPart p (tsVfMatrix p u t) (.pv r s k sh) SurfRef.isGround
      - vfToPart p (tsVfMatrix p u t) (.pv r s k sh) (fun b => !b.isGround) := by
  have hrow := row_sum_surfaces (u := u) (t := t) ha hl
  have e2 : ∑ b ∈ surfaces p, vfBetween p (tsVfMatrix p u t) (.pv r s k sh) b
      = vfToPart p (tsVfMatrix p u t) (.pv r s k sh) SurfRef.isGround
      + vfToPart p (tsVfMatrix p u t) (.pv r s k sh) (fun b => !b.isGround) := by
    unfold vfToPart
    simp only [Finset.sum_filter]
    rw [← Finset.sum_add_distrib]
    refine Finset.sum_congr rfl fun b _ => ?_
    cases b.isGround <;> simp
  linarith

variable (htilt : (u t).surfaceTilt ≠ 0) (c : ℝ) (hcg : MIN_X ≤ c ∧ c ≤ MAX_X)
    (hc : Aligned ⟨c, 0⟩ ((fitStep p (u t)).row r).full.b1 ((fitStep p (u t)).row r).full.b2)
    (lo hi : Pt) (hends : ((fitStep p (u t)).coords (.pv r s k sh)).Ends lo hi)

include htilt in
theorem rot_ne : (fitStep p (u t)).rot.deg ≠ 0 := by
  change (rotationFromTiltAzimuth _ _ _).deg ≠ 0
  unfold rotationFromTiltAzimuth
  simp only
  rw [if_neg htilt]
  split_ifs
  · exact htilt
  · exact neg_ne_zero.2 htilt

include hp hu ha hl htilt hends in
theorem ends_t : let g := fitStep p (u t)
    let iv := pvIv p g.rot (solar2dVector (u t).solarZenith (u t).solarAzimuth p.axisAzimuth) r s k sh
    lo = tPt (rowCenter p r) p.width g.rot.deg iv.1 ∧
    hi = tPt (rowCenter p r) p.width g.rot.deg iv.2 ∧
    lengthAt p (u t) (.pv r s k sh) = iv.2 - iv.1 ∧ 0 ≤ iv.1 ∧ iv.1 ≤ iv.2 ∧ iv.2 ≤ p.width := by
  intro g iv
  have hph : Physical p g.rot.deg := physical_of hp hu
  have h0 : g.rot.deg ≠ 0 := rot_ne p u t htilt
  obtain ⟨hr, hk⟩ := mem_allRefs_pv.1 (mem_surfaces.1 ha)
  have hL : lengthAt p (u t) (.pv r s k sh) = iv.2 - iv.1 := by
    unfold lengthAt
    exact length_pv hk sh hph.width.le hph.lo hph.hi
  have hb := pv_iv_bounds (rot := g.rot)
    (sun := solar2dVector (u t).solarZenith (u t).solarAzimuth p.axisAzimuth) hk sh hph.width.le
  have := coords_pv_t (rot := g.rot)
    (sun := solar2dVector (u t).solarZenith (u t).solarAzimuth p.axisAzimuth) hk sh
    hph.width.le hph.lo hph.hi
  rw [if_neg h0] at this
  obtain ⟨e1, e2⟩ := hends.eq (Or.inl this) (by
    rw [tPt_y, tPt_y]
    have := upY_pos hph.lo hph.hi h0
    have hT := TOL_pos
    have : iv.1 < iv.2 := by linarith
    simp only [iv] at this
    nlinarith)
  exact ⟨e1, e2, hL, hb⟩

include hp hu hlen ha hl htilt hcg hc hends

/-- C84: a side that no row stands in front of, of a row whose line meets the ground within its
extent, sees the ground and the sky as given by the strings from its ends to the end `E` of the
ground, and no rows. -/
theorem C84_edge_exact
    (hr : (LooksLeft (fitStep p (u t)) s → r = 0) ∧ (¬ LooksLeft (fitStep p (u t)) s → r = p.nRows - 1))
    (E : Pt) (hE : (LooksLeft (fitStep p (u t)) s → E = ⟨MIN_X, 0⟩)
      ∧ (¬ LooksLeft (fitStep p (u t)) s → E = ⟨MAX_X, 0⟩)) :
    let F := tsVfMatrix p u t
    let a := SurfRef.pv r s k sh
    let l := lengthAt p (u t) a
    vfToPart p F a SurfRef.isGround = (l - (distPt E hi - distPt E lo)) / (2 * l) ∧
    vfToPart p F a (fun b => !b.isGround) = 0 ∧
    vfToSky p F a = (l + (distPt E hi - distPt E lo)) / (2 * l) := by
  intro F a l
  set g := fitStep p (u t) with hg
  have hph : Physical p g.rot.deg := physical_of hp hu
  have h0 : g.rot.deg ≠ 0 := rot_ne p u t htilt
  obtain ⟨e1, e2, hL, ia, iab, ib⟩ := ends_t p u t hp hu r s k sh ha hl htilt lo hi hends
  have hl0 : 0 < l := TOL_pos.trans hl
  have hn : ¬ HasNb (faceL g.rot.deg s) p.nRows r := by
    unfold HasNb
    by_cases hs : LooksLeft g s
    · rw [if_pos ((faceL_iff g s).2 hs)]; simp [hr.1 hs]
    · rw [if_neg (mt (faceL_iff g s).1 hs)]; simp [hr.2 hs]
  have hEx : E = gp (endX (faceL g.rot.deg s)) := by
    unfold endX gp
    by_cases hs : LooksLeft g s
    · rw [if_pos ((faceL_iff g s).2 hs)]; exact hE.1 hs
    · rw [if_neg (mt (faceL_iff g s).1 hs)]; exact hE.2 hs
  have hG := (ground_sum_cut hph (rotation_flatOk (u t) p) (ordered_of hp hu)
    (isEmptyTs fun t => fitStep p (u t)) (mem_surfaces.1 ha)
    (fun x hx => length_lt_of_empty hx t) hl (fun a ha' => hlen a (mem_surfaces.2 ha')) h0 hcg hc).1
  have hR := rows_total_edge hph (isEmptyTs fun t => fitStep p (u t)) (mem_surfaces.1 ha)
    (fun x hx => length_lt_of_empty hx t) hl (fun a ha' => hlen a (mem_surfaces.2 ha')) hn
  have hphi : phi p (faceL g.rot.deg s) g.rot.deg r
      (pvIv p g.rot (solar2dVector (u t).solarZenith (u t).solarAzimuth p.axisAzimuth) r s k sh).1
      (pvIv p g.rot (solar2dVector (u t).solarZenith (u t).solarAzimuth p.axisAzimuth) r s k sh).2
      (sx (faceL g.rot.deg s) (endX (faceL g.rot.deg s))) = distPt E hi - distPt E lo := by
    unfold phi obs
    rw [if_neg hn]
    simp only [strO]
    rw [gp_end, vp, vp, distPt_mirB, distPt_mirB, ← hEx, e1, e2]
  have h1 : vfToPart p F a SurfRef.isGround = (l - (distPt E hi - distPt E lo)) / (2 * l) := by
    rw [vfToPart_eq ha, ← hphi]; exact hG
  have h2 : vfToPart p F a (fun b => !b.isGround) = 0 := by
    rw [vfToPart_eq ha]; exact hR
  refine ⟨h1, h2, ?_⟩
  rw [sky_rest p u t r s k sh ha hl, h1, h2]
  field_simp
  ring

/-- C84: a side that no row stands in front of sees the sky nearly as a surface of this tilt over
ground without end does: up to the slope of the view from the end of the ground. -/
theorem C84_edge
    (hr : (LooksLeft (fitStep p (u t)) s → r = 0) ∧ (¬ LooksLeft (fitStep p (u t)) s → r = p.nRows - 1))
    (D : ℝ) (hD : 0 < D)
    (hDl : LooksLeft (fitStep p (u t)) s → D = r * p.distance - p.width / 2 - MIN_X)
    (hDr : ¬ LooksLeft (fitStep p (u t)) s → D = MAX_X - (r * p.distance + p.width / 2)) :
    let F := tsVfMatrix p u t
    let a := SurfRef.pv r s k sh
    let Y := p.height + p.width / 2 * sind (u t).surfaceTilt
    |vfToSky p F a - (1 + sideCos (u t) s) / 2| ≤ Y / D / 2 ∧
    |vfToPart p F a SurfRef.isGround - (1 - sideCos (u t) s) / 2| ≤ Y / D / 2 := by
  intro F a Y
  set g := fitStep p (u t) with hg
  have hph : Physical p g.rot.deg := physical_of hp hu
  have h0 : g.rot.deg ≠ 0 := rot_ne p u t htilt
  obtain ⟨e1, e2, hL, ia, iab, ib⟩ := ends_t p u t hp hu r s k sh ha hl htilt lo hi hends
  set left := faceL g.rot.deg s with hleft
  obtain ⟨x1, -, x3⟩ := C84_edge_exact p u t hp hu hlen r s k sh ha hl htilt c hcg hc lo hi hends hr
    (gp (endX left))
    ⟨fun hs => by rw [endX, if_pos ((faceL_iff g s).2 hs)]; rfl,
      fun hs => by rw [endX, if_neg (mt (faceL_iff g s).1 hs)]; rfl⟩
  set l := lengthAt p (u t) (.pv r s k sh) with hldef
  have hl0 : 0 < l := TOL_pos.trans hl
  set iv := pvIv p g.rot (solar2dVector (u t).solarZenith (u t).solarAzimuth p.axisAzimuth) r s k sh
    with hiv
  have hup : upX left g.rot.deg = sideCos (u t) s := upX_side (u t) p s
  have hupY : upY g.rot.deg = sind (u t).surfaceTilt := by
    rw [upY_eq_abs hph.lo hph.hi]
    exact rotation_sind_abs (u t) p hu.tilt_nonneg hu.tilt_lt
  have hupX1 : |upX left g.rot.deg| ≤ 1 := by
    rw [hup]
    cases s <;> simp only [sideCos, abs_neg] <;> exact Real.abs_cos_le_one _
  have hend : sx left (endX left) = lowX p left g.rot.deg r + p.width / 2 * upX left g.rot.deg
      - p.width / 2 - D := by
    unfold lowX endX
    by_cases hs : LooksLeft g s
    · have : left = true := (faceL_iff g s).2 hs
      rw [this, hDl hs]
      simp [sx]
    · have : left = false := by simpa using mt (faceL_iff g s).1 hs
      rw [this, hDr hs]
      simp [sx]
      ring
  have hw := hph.width
  have hx : ∀ τ, 0 ≤ τ → τ ≤ p.width →
      D ≤ (vp p left g.rot.deg r τ).x - sx left (endX left) := by
    intro τ t0 t1
    rw [vp_eq, hend]
    simp only
    have := abs_le.1 hupX1
    nlinarith
  have hy : ∀ τ, 0 ≤ τ → τ ≤ p.width → (vp p left g.rot.deg r τ).y ≤ Y := by
    intro τ t0 t1
    rw [vp_eq]
    simp only [lowY, Y, hupY]
    have : 0 ≤ sind (u t).surfaceTilt := by rw [← hupY]; exact hph.upY_nonneg
    nlinarith
  have key := far_view (P := vp p left g.rot.deg r iv.1) (Q := vp p left g.rot.deg r iv.2) hD
    (hx _ ia (iab.trans ib)) (hx _ (ia.trans iab) ib) (vp_y_pos hph left r ia).le
    (vp_y_pos hph left r (ia.trans iab)).le (hy _ ia (iab.trans ib)) (hy _ (ia.trans iab) ib)
  rw [dist_vp_self p left g.rot.deg r iab, ← hL] at key
  have hxx : (vp p left g.rot.deg r iv.2).x - (vp p left g.rot.deg r iv.1).x
      = l * sideCos (u t) s := by
    rw [vp_eq, vp_eq, ← hup]
    simp only
    rw [hL]; ring
  rw [hxx, gp_end, vp, vp, distPt_mirB, distPt_mirB, ← e1, ← e2] at key
  set δ := distPt (gp (endX left)) hi - distPt (gp (endX left)) lo with hδ
  have key2 : |δ / l - sideCos (u t) s| ≤ Y / D := by
    have : δ / l - sideCos (u t) s = (δ - l * sideCos (u t) s) / l := by field_simp
    rw [this, abs_div, abs_of_pos hl0, div_le_iff₀ hl0, mul_comm (Y / D)]
    exact key
  have y1 : vfToSky p F a - (1 + sideCos (u t) s) / 2 = (δ / l - sideCos (u t) s) / 2 := by
    rw [x3]; field_simp; ring
  have y2 : vfToPart p F a SurfRef.isGround - (1 - sideCos (u t) s) / 2
      = - ((δ / l - sideCos (u t) s) / 2) := by
    rw [x1]; field_simp; ring
  rw [y1, y2, abs_neg, abs_div, abs_of_pos (by norm_num : (0:ℝ) < 2)]
  exact ⟨div_le_div_of_nonneg_right key2 (by norm_num), div_le_div_of_nonneg_right key2 (by norm_num)⟩

/-- C84: a side with a row `j` in front of it sees the sky as given by the strings from its ends to
the upper end of that row, up to what its lower end sees below that row behind the end `E` of the
ground; exactly so if the line from its lower end through the lower end of that row meets the ground
within its extent. -/
theorem C84_inner (j : ℕ)
    (hj : (LooksLeft (fitStep p (u t)) s → r = j + 1) ∧
      (¬ LooksLeft (fitStep p (u t)) s → j = r + 1 ∧ j < p.nRows))
    (hcut : 0 < p.nFront j ∧ 0 < p.nBack j)
    (O T : Pt) (hOT : ((fitStep p (u t)).row j).full.Ends O T)
    (E : Pt) (hE : (LooksLeft (fitStep p (u t)) s → E = ⟨MIN_X, 0⟩)
      ∧ (¬ LooksLeft (fitStep p (u t)) s → E = ⟨MAX_X, 0⟩)) :
    let F := tsVfMatrix p u t
    let a := SurfRef.pv r s k sh
    let l := lengthAt p (u t) a
    let v := (l + (distPt T hi - distPt T lo)) / (2 * l)
    v ≤ vfToSky p F a ∧
    vfToSky p F a ≤ v + (distPt E O + distPt O lo - distPt E lo) / (2 * l) ∧
    ((∃ x : ℝ, (MIN_X ≤ x ∧ x ≤ MAX_X) ∧ Aligned ⟨x, 0⟩ O lo) → vfToSky p F a = v) := by
  intro F a l v
  set g := fitStep p (u t) with hg
  have hph : Physical p g.rot.deg := physical_of hp hu
  have h0 : g.rot.deg ≠ 0 := rot_ne p u t htilt
  obtain ⟨hr, hk⟩ := mem_allRefs_pv.1 (mem_surfaces.1 ha)
  obtain ⟨e1, e2, hL, ia, iab, ib⟩ := ends_t p u t hp hu r s k sh ha hl htilt lo hi hends
  have hl0 : 0 < l := TOL_pos.trans hl
  have hn : HasNb (faceL g.rot.deg s) p.nRows r := by
    unfold HasNb
    by_cases hs : LooksLeft g s
    · rw [if_pos ((faceL_iff g s).2 hs)]; have := hj.1 hs; omega
    · rw [if_neg (mt (faceL_iff g s).1 hs)]; have := hj.2 hs; omega
  have hnb : nb (faceL g.rot.deg s) r = j := by
    unfold nb
    by_cases hs : LooksLeft g s
    · rw [if_pos ((faceL_iff g s).2 hs)]; have := hj.1 hs; omega
    · rw [if_neg (mt (faceL_iff g s).1 hs)]; have := hj.2 hs; omega
  have hseg : 0 < p.nSeg (nb (faceL g.rot.deg s) r) s.other := by
    rw [hnb]; cases s; exacts [hcut.2, hcut.1]
  have hup0 := upY_pos hph.lo hph.hi h0
  have hw := hph.width
  obtain ⟨o1, o2⟩ := hOT.eq (A := tPt (rowCenter p j) p.width g.rot.deg 0)
    (B := tPt (rowCenter p j) p.width g.rot.deg p.width) (full_row_t j) (by
      rw [tPt_y, tPt_y]; nlinarith)
  obtain ⟨hG, hos⟩ := ground_sum_cut hph (rotation_flatOk (u t) p) (ordered_of hp hu)
    (isEmptyTs fun t => fitStep p (u t)) (mem_surfaces.1 ha)
    (fun x hx => length_lt_of_empty hx t) hl (fun a ha' => hlen a (mem_surfaces.2 ha')) h0 hcg hc
  have hR := rows_total hph (isEmptyTs fun t => fitStep p (u t)) (mem_surfaces.1 ha)
    (fun x hx => length_lt_of_empty hx t) hl (fun a ha' => hlen a (mem_surfaces.2 ha')) hseg
  simp only at hG hR
  rw [if_pos hn] at hR
  set left := faceL g.rot.deg s with hleft
  set iv := pvIv p g.rot (solar2dVector (u t).solarZenith (u t).solarAzimuth p.axisAzimuth) r s k sh
    with hiv
  have hO : 0 < O.y := by
    rw [o1]; exact vp_y_pos hph true j (le_refl 0)
  have hOP : O.y ≤ lo.y := by
    rw [o1, e1]; exact vp_y_le hph true j r ia
  have hphi : (∃ x : ℝ, (MIN_X ≤ x ∧ x ≤ MAX_X) ∧ Aligned ⟨x, 0⟩ O lo) → _ = (0:ℝ) := fun ⟨x, hx, hal⟩ => phi_end_eq hph hn ia iab hos (by
    rw [cot_le_cot (vp_y_pos hph left _ ia) (vp_y_pos hph left _ le_rfl), hnb]
    change ((mirB left (tPt (rowCenter p r) p.width g.rot.deg iv.1)).x - sx left (endX left))
        * (mirB left (tPt (rowCenter p j) p.width g.rot.deg 0)).y
      ≤ ((mirB left (tPt (rowCenter p j) p.width g.rot.deg 0)).x - sx left (endX left))
        * (mirB left (tPt (rowCenter p r) p.width g.rot.deg iv.1)).y
    rw [← e1, ← o1]
    simp only [Aligned, sub_zero] at hal
    clear_value left
    cases left
    · simp only [mirB, sx, endX, Pt.mir, Bool.false_eq_true, if_false]
      nlinarith [mul_le_mul_of_nonneg_left hOP (sub_nonneg.2 hx.2)]
    · simp only [mirB, sx, endX, if_true]
      nlinarith [mul_le_mul_of_nonneg_left hOP (sub_nonneg.2 hx.1)])
  have hK : kdist p left g.rot.deg r iv.1 iv.2 p.width = distPt T lo - distPt T hi := by
    unfold kdist
    rw [hnb, vp, vp, vp, distPt_mirB, distPt_mirB, ← e1, ← e2, ← o2, distPt_comm lo, distPt_comm hi]
  set R := phi p left g.rot.deg r iv.1 iv.2 (sx left (endX left)) + kdist p left g.rot.deg r iv.1 iv.2 0
    with hRdef
  have hEx : E = gp (endX left) := by
    unfold endX gp
    by_cases hs : LooksLeft g s
    · rw [if_pos ((faceL_iff g s).2 hs)]; exact hE.1 hs
    · rw [if_neg (mt (faceL_iff g s).1 hs)]; exact hE.2 hs
  have hR1 : R ≤ distPt E O + distPt O lo - distPt E lo := by
    have := phi_end_le (p := p) (rot := g.rot.deg) hn (a := iv.1) (b := iv.2) (x := endX left)
    refine this.trans (le_of_eq ?_)
    rw [hnb, gp_end, vp, vp, distPt_mirB, distPt_mirB, distPt_mirB, ← hEx, ← e1, ← o1]
  have hR0 : 0 ≤ R := by
    have := zone_phi_le (sun := solar2dVector (u t).solarZenith (u t).solarAzimuth p.axisAzimuth)
      hph (rotation_flatOk (u t) p) hr hn ia iab
    have hG2 := ground_sum hph (rotation_flatOk (u t) p) (ordered_of hp hu)
      (isEmptyTs fun t => fitStep p (u t)) (mem_surfaces.1 ha)
      (fun x hx => length_lt_of_empty hx t) hl (fun a ha' => hlen a (mem_surfaces.2 ha'))
    have hG3 := hG.symm.trans hG2
    rw [div_left_inj' (by
      have : (2 : ℝ) * l ≠ 0 := by positivity
      exact this)] at hG3
    have hl' : ((fitGeom p g.rot (solar2dVector (u t).solarZenith (u t).solarAzimuth
      p.axisAzimuth)).coords (.pv r s k sh)).length = l := rfl
    rw [hRdef]
    linarith
  have hv : vfToSky p F a = v + R / (2 * l) := by
    have hG' : partSum p (entryVF p g (isEmptyTs fun t => fitStep p (u t)) (.pv r s k sh))
        SurfRef.isGround = (l - phi p left g.rot.deg r iv.1 iv.2 (sx left (endX left))) / (2 * l) := hG
    have hR' : partSum p (entryVF p g (isEmptyTs fun t => fitStep p (u t)) (.pv r s k sh))
        (fun b => !b.isGround) = ((distPt T lo - distPt T hi)
          - kdist p left g.rot.deg r iv.1 iv.2 0) / (2 * l) := by
      rw [← hK]; exact hR
    rw [sky_rest p u t r s k sh ha hl, vfToPart_eq ha, vfToPart_eq ha, hG', hR', hRdef]
    simp only [v]
    field_simp
    ring
  rw [hv]
  refine ⟨?_, ?_, fun hx => ?_⟩
  · have : 0 ≤ R / (2 * l) := by positivity
    linarith
  · have : R / (2 * l) ≤ (distPt E O + distPt O lo - distPt E lo) / (2 * l) := by gcongr
    linarith
  · rw [hphi hx, zero_div, add_zero]

omit hl hends lo hi in
/-- C84: a side that is neither cut nor shaded, with a row `j` in front of it, sees the sky by the
textbook formula for rows at a given distance, up to what it sees below that row behind the end of
the ground; `X` is the distance from there to the lower end of that row. -/
theorem C84_row (hwhole : lengthAt p (u t) (.pv r s k sh) = p.width) (hw : p.width > TOL) (j : ℕ)
    (hj : (LooksLeft (fitStep p (u t)) s → r = j + 1) ∧
      (¬ LooksLeft (fitStep p (u t)) s → j = r + 1 ∧ j < p.nRows))
    (hcut : 0 < p.nFront j ∧ 0 < p.nBack j)
    (O T : Pt) (hOT : ((fitStep p (u t)).row j).full.Ends O T) (X : ℝ) (hX : 0 < X)
    (hXl : LooksLeft (fitStep p (u t)) s → X = O.x - MIN_X)
    (hXr : ¬ LooksLeft (fitStep p (u t)) s → X = MAX_X - O.x) :
    let w := p.width
    let d := p.width / p.gcr
    let v := (w + d - Real.sqrt (d ^ 2 + w ^ 2 - 2 * d * w * sideCos (u t) s)) / (2 * w)
    let sky := vfToSky p (tsVfMatrix p u t) (.pv r s k sh)
    v ≤ sky ∧ sky ≤ v + O.y ^ 2 / (4 * X * w) := by
  intro w d v sky
  set g := fitStep p (u t) with hg
  have hph : Physical p g.rot.deg := physical_of hp hu
  have h0 : g.rot.deg ≠ 0 := rot_ne p u t htilt
  have hl : lengthAt p (u t) (.pv r s k sh) > TOL := by rw [hwhole]; exact hw
  have hw0 : 0 < w := hph.width
  set left := faceL g.rot.deg s with hleft
  obtain ⟨hr, hk⟩ := mem_allRefs_pv.1 (mem_surfaces.1 ha)
  set iv := pvIv p g.rot (solar2dVector (u t).solarZenith (u t).solarAzimuth p.axisAzimuth) r s k sh
    with hiv
  have hends : (g.coords (.pv r s k sh)).Ends (tPt (rowCenter p r) p.width g.rot.deg iv.1)
      (tPt (rowCenter p r) p.width g.rot.deg iv.2) := by
    have hb := pv_iv_bounds (rot := g.rot)
      (sun := solar2dVector (u t).solarZenith (u t).solarAzimuth p.axisAzimuth) hk sh hph.width.le
    refine ⟨?_, Or.inl ?_⟩
    · rw [tPt_y, tPt_y]
      have := hph.upY_nonneg
      nlinarith [mul_le_mul_of_nonneg_right hb.2.1 this]
    · have := coords_pv_t (rot := g.rot)
        (sun := solar2dVector (u t).solarZenith (u t).solarAzimuth p.axisAzimuth) hk sh
        hph.width.le hph.lo hph.hi
      rw [if_neg h0] at this
      exact this
  obtain ⟨-, -, hL, ia, iab, ib⟩ := ends_t p u t hp hu r s k sh ha hl htilt _ _ hends
  change lengthAt p (u t) (.pv r s k sh) = iv.2 - iv.1 at hL
  change 0 ≤ iv.1 at ia
  change iv.2 ≤ p.width at ib
  have hiv1 : iv.1 = 0 := by rw [hwhole] at hL; linarith
  have hiv2 : iv.2 = w := by rw [hwhole] at hL; simp only [w]; linarith
  rw [hiv1, hiv2] at hends
  have hn : HasNb left p.nRows r := by
    unfold HasNb
    by_cases hs : LooksLeft g s
    · rw [if_pos ((faceL_iff g s).2 hs)]; have := hj.1 hs; omega
    · rw [if_neg (mt (faceL_iff g s).1 hs)]; have := hj.2 hs; omega
  have hnb : nb left r = j := by
    unfold nb
    by_cases hs : LooksLeft g s
    · rw [if_pos ((faceL_iff g s).2 hs)]; have := hj.1 hs; omega
    · rw [if_neg (mt (faceL_iff g s).1 hs)]; have := hj.2 hs; omega
  obtain ⟨o1, o2⟩ := hOT.eq (A := tPt (rowCenter p j) p.width g.rot.deg 0)
    (B := tPt (rowCenter p j) p.width g.rot.deg p.width) (full_row_t j) (by
      rw [tPt_y, tPt_y]
      have := upY_pos hph.lo hph.hi h0
      nlinarith)
  obtain ⟨z1, z2, -⟩ := C84_inner p u t hp hu hlen r s k sh ha hl htilt c hcg hc _ _ hends j hj hcut
    O T hOT (gp (endX left))
    ⟨fun hs => by rw [endX, if_pos ((faceL_iff g s).2 hs)]; rfl,
      fun hs => by rw [endX, if_neg (mt (faceL_iff g s).1 hs)]; rfl⟩
  rw [hwhole] at z1 z2
  have hdd : p.distance = d := rfl
  have hunit : upX left g.rot.deg ^ 2 + upY g.rot.deg ^ 2 = 1 := by
    have := cosd_sq_add_sind_sq g.rot.deg
    unfold upX upY sx
    split_ifs <;> linarith
  have hup : upX left g.rot.deg = sideCos (u t) s := upX_side (u t) p s
  have hd0 : 0 < d := by rw [← hdd]; exact hph.distance
  have dist_m : ∀ A B : Pt, distPt A B = distPt (mirB left A) (mirB left B) :=
    fun A B => (distPt_mirB left A B).symm
  have hT : mirB left T = ⟨lowX p left g.rot.deg r - p.distance + w * upX left g.rot.deg,
      lowY p g.rot.deg + w * upY g.rot.deg⟩ := by
    rw [o2, ← vp_nb hn w, hnb]; rfl
  have hO : mirB left O = ⟨lowX p left g.rot.deg r - p.distance, lowY p g.rot.deg⟩ := by
    have := vp_nb (p := p) (rot := g.rot.deg) hn 0
    rw [hnb] at this
    rw [o1]
    simpa [vp] using this
  have hlo : mirB left (tPt (rowCenter p r) p.width g.rot.deg 0)
      = ⟨lowX p left g.rot.deg r, lowY p g.rot.deg⟩ := by
    have := vp_eq p left g.rot.deg r 0
    simpa [vp] using this
  have hhi : mirB left (tPt (rowCenter p r) p.width g.rot.deg w)
      = ⟨lowX p left g.rot.deg r + w * upX left g.rot.deg,
        lowY p g.rot.deg + w * upY g.rot.deg⟩ := vp_eq p left g.rot.deg r w
  have q1 : distPt T (tPt (rowCenter p r) p.width g.rot.deg w) = d := by
    rw [dist_m, hT, hhi, distPt, ← hdd]
    simp only
    rw [← Real.sqrt_sq (show 0 ≤ p.distance by rw [hdd]; exact hd0.le)]
    congr 1
    rw [Real.sqrt_sq (show 0 ≤ p.distance by rw [hdd]; exact hd0.le)]
    ring
  have q2 : distPt T (tPt (rowCenter p r) p.width g.rot.deg 0)
      = Real.sqrt (d ^ 2 + w ^ 2 - 2 * d * w * sideCos (u t) s) := by
    rw [dist_m, hT, hlo, distPt, ← hdd, ← hup]
    simp only
    congr 1
    linear_combination w ^ 2 * hunit
  have q3 : distPt O (tPt (rowCenter p r) p.width g.rot.deg 0) = d := by
    rw [dist_m, hO, hlo, distPt, ← hdd]
    simp only
    rw [← Real.sqrt_sq (show 0 ≤ p.distance by rw [hdd]; exact hd0.le)]
    congr 1
    rw [Real.sqrt_sq (show 0 ≤ p.distance by rw [hdd]; exact hd0.le)]
    ring
  -- what is seen below the row
  have hXm : (mirB left O).x - sx left (endX left) = X := by
    unfold endX
    by_cases hs : LooksLeft g s
    · have : left = true := (faceL_iff g s).2 hs
      rw [this, hXl hs]
      simp [sx, mirB]
    · have : left = false := by simpa using mt (faceL_iff g s).1 hs
      rw [this, hXr hs]
      simp [sx, mirB, Pt.mir]
      ring
  have hOy : O.y = lowY p g.rot.deg := by rw [← mirB_y left, hO]
  have q4 : distPt (gp (endX left)) O ≤ X + O.y ^ 2 / (2 * X) := by
    rw [dist_m, ← gp_end, distPt]
    apply Real.sqrt_le_iff.2
    refine ⟨by positivity, ?_⟩
    have : (gp (sx left (endX left))).x - (mirB left O).x = -X := by rw [← hXm]; simp [gp]
    have hsq : (X + O.y ^ 2 / (2 * X)) ^ 2 = X ^ 2 + O.y ^ 2 + (O.y ^ 2 / (2 * X)) ^ 2 := by
      field_simp; ring
    rw [hsq]
    have h2 : (mirB left O).x - (gp (sx left (endX left))).x = X := by rw [← hXm]; simp [gp]
    simp only [mirB_y, gp] at this h2 ⊢
    nlinarith [sq_nonneg (O.y ^ 2 / (2 * X))]
  have q5 : X + d ≤ distPt (gp (endX left)) (tPt (rowCenter p r) p.width g.rot.deg 0) := by
    rw [dist_m, ← gp_end, hlo, distPt]
    apply Real.le_sqrt_of_sq_le
    have h2 : lowX p left g.rot.deg r - sx left (endX left) = X + d := by
      rw [hO] at hXm
      simp only at hXm
      linarith
    simp only [gp]
    nlinarith [sq_nonneg (lowY p g.rot.deg)]
  rw [q1, q2] at z1 z2
  rw [q3] at z2
  have hvv : v = (p.width + (d - Real.sqrt (d ^ 2 + w ^ 2 - 2 * d * w * sideCos (u t) s)))
      / (2 * p.width) := by simp only [v, w]; ring
  rw [hvv]
  refine ⟨z1, z2.trans ?_⟩
  have : (distPt (gp (endX left)) O + d
      - distPt (gp (endX left)) (tPt (rowCenter p r) p.width g.rot.deg 0)) / (2 * p.width)
      ≤ O.y ^ 2 / (4 * X * w) := by
    have e : O.y ^ 2 / (4 * X * w) = (O.y ^ 2 / (2 * X)) / (2 * p.width) := by
      simp only [w]; field_simp; ring
    rw [e]
    apply div_le_div_of_nonneg_right _ (by positivity)
    linarith
  linarith

end

/-- C84: in fast mode, where the ground has no end below a neighbouring row, the view factors to the
sky and to the ground of a surface on the back of a row with a row `j` behind it are exactly the ones
given by the strings to the upper and to the lower end of that row; that row may be cut and shaded in
any way. -/
theorem C84_fast (p : ArrayParams) (u : StepIn) (hp : PhysicalArray p) (hu : PhysicalStep p u)
    (r k : ℕ) (sh : Bool) (ha : SurfRef.pv r .back k sh ∈ surfaces p)
    (hl : lengthAt p u (.pv r .back k sh) > TOL) (htilt : u.surfaceTilt ≠ 0)
    (lo hi : Pt) (hends : ((fitStep p u).coords (.pv r .back k sh)).Ends lo hi) (j : ℕ)
    (hj : (LooksLeft (fitStep p u) .back → r = j + 1) ∧
      (¬ LooksLeft (fitStep p u) .back → j = r + 1 ∧ j < p.nRows))
    (O T : Pt) (hOT : ((fitStep p u).row j).full.Ends O T) :
    let g := fitStep p u
    let a := SurfRef.pv r .back k sh
    let l := lengthAt p u a
    (fastVF p g r (g.coords a)).toSky = (l + (distPt T hi - distPt T lo)) / (2 * l) ∧
    (fastVF p g r (g.coords a)).toGndTotal = (l - (distPt O hi - distPt O lo)) / (2 * l) := by
  intro g a l
  have hph : Physical p g.rot.deg := physical_of hp hu
  have h0 : g.rot.deg ≠ 0 := rot_ne p (fun _ : Unit => u) () htilt
  obtain ⟨e1, e2, hL, ia, iab, ib⟩ := ends_t p (fun _ : Unit => u) () hp hu r .back k sh ha hl htilt
    lo hi hends
  have hl0 : 0 < l := TOL_pos.trans hl
  have hn : HasNb (faceL g.rot.deg .back) p.nRows r := by
    obtain ⟨hr, -⟩ := mem_allRefs_pv.1 (mem_surfaces.1 ha)
    unfold HasNb
    by_cases hs : LooksLeft g .back
    · rw [if_pos ((faceL_iff g _).2 hs)]; have := hj.1 hs; omega
    · rw [if_neg (mt (faceL_iff g _).1 hs)]; have := hj.2 hs; omega
  have hnb : nb (faceL g.rot.deg .back) r = j := by
    unfold nb
    by_cases hs : LooksLeft g .back
    · rw [if_pos ((faceL_iff g _).2 hs)]; have := hj.1 hs; omega
    · rw [if_neg (mt (faceL_iff g _).1 hs)]; have := hj.2 hs; omega
  have hw := hph.width
  obtain ⟨o1, o2⟩ := hOT.eq (A := tPt (rowCenter p j) p.width g.rot.deg 0)
    (B := tPt (rowCenter p j) p.width g.rot.deg p.width) (full_row_t j) (by
      rw [tPt_y, tPt_y]
      have := upY_pos hph.lo hph.hi h0
      nlinarith)
  have hG := fast_gnd_nb (sun := solar2dVector u.solarZenith u.solarAzimuth p.axisAzimuth) hph
    (mem_surfaces.1 ha) hn
  have hR := (fast_row (sun := solar2dVector u.solarZenith u.solarAzimuth p.axisAzimuth) hph
    (mem_surfaces.1 ha)).1
  simp only at hG hR
  have hl' : ((fitGeom p g.rot (solar2dVector u.solarZenith u.solarAzimuth p.axisAzimuth)).coords
      (.pv r .back k sh)).length > TOL := hl
  rw [if_pos hl'] at hG
  rw [if_pos ⟨hn, hl'⟩] at hR
  have hK : kdist p (faceL g.rot.deg .back) g.rot.deg r
      (pvIv p g.rot (solar2dVector u.solarZenith u.solarAzimuth p.axisAzimuth) r .back k sh).1
      (pvIv p g.rot (solar2dVector u.solarZenith u.solarAzimuth p.axisAzimuth) r .back k sh).2 p.width
      = distPt T lo - distPt T hi := by
    unfold kdist
    rw [hnb, vp, vp, vp, distPt_mirB, distPt_mirB, ← e1, ← e2, ← o2, distPt_comm lo, distPt_comm hi]
  rw [hK] at hR
  change lengthAt p u (.pv r .back k sh)
    = (pvIv p g.rot (solar2dVector u.solarZenith u.solarAzimuth p.axisAzimuth) r .back k sh).2
      - (pvIv p g.rot (solar2dVector u.solarZenith u.solarAzimuth p.axisAzimuth) r .back k sh).1 at hL
  rw [← hL] at hG
  have c1 := (C28_complete p g r (g.coords a)).1
  have hG' : (fastVF p g r (g.coords a)).toGndTotal = (l + kdist p (faceL g.rot.deg .back) g.rot.deg r
      (pvIv p g.rot (solar2dVector u.solarZenith u.solarAzimuth p.axisAzimuth) r .back k sh).1
      (pvIv p g.rot (solar2dVector u.solarZenith u.solarAzimuth p.axisAzimuth) r .back k sh).2 0)
      / (2 * l) := hG
  have hR' : (fastVF p g r (g.coords a)).toPvrowTotal = (distPt T lo - distPt T hi
      - kdist p (faceL g.rot.deg .back) g.rot.deg r
      (pvIv p g.rot (solar2dVector u.solarZenith u.solarAzimuth p.axisAzimuth) r .back k sh).1
      (pvIv p g.rot (solar2dVector u.solarZenith u.solarAzimuth p.axisAzimuth) r .back k sh).2 0)
      / (2 * l) := hR
  rw [hG', hR'] at c1
  have : (fastVF p g r (g.coords a)).toSky = 1 - (l + kdist p (faceL g.rot.deg .back) g.rot.deg r
      (pvIv p g.rot (solar2dVector u.solarZenith u.solarAzimuth p.axisAzimuth) r .back k sh).1
      (pvIv p g.rot (solar2dVector u.solarZenith u.solarAzimuth p.axisAzimuth) r .back k sh).2 0)
      / (2 * l) - (distPt T lo - distPt T hi - kdist p (faceL g.rot.deg .back) g.rot.deg r
      (pvIv p g.rot (solar2dVector u.solarZenith u.solarAzimuth p.axisAzimuth) r .back k sh).1
      (pvIv p g.rot (solar2dVector u.solarZenith u.solarAzimuth p.axisAzimuth) r .back k sh).2 0)
      / (2 * l) := by linarith
  refine ⟨by rw [this]; field_simp; ring, ?_⟩
  have hK0 : kdist p (faceL g.rot.deg .back) g.rot.deg r
      (pvIv p g.rot (solar2dVector u.solarZenith u.solarAzimuth p.axisAzimuth) r .back k sh).1
      (pvIv p g.rot (solar2dVector u.solarZenith u.solarAzimuth p.axisAzimuth) r .back k sh).2 0
      = distPt O lo - distPt O hi := by
    unfold kdist
    rw [hnb, vp, vp, vp, distPt_mirB, distPt_mirB, ← e1, ← e2, ← o1, distPt_comm lo, distPt_comm hi]
  rw [hG', hK0]
  congr 1
  ring

theorem vert_front_len (r : ℕ) : lengthAt vertArray vertStep (.pv r .front 0 false) = 2 := by
  unfold lengthAt
  have hn : vertArray.nSeg r .front = 1 := by
    simp only [vertArray, ArrayParams.nSeg, ArrayParams.nFront]
    split_ifs <;> rfl
  rw [vert_fit, length_pv (by rw [hn]; norm_num) false (by norm_num [vertArray]) (by norm_num)
    (by norm_num)]
  have hsh : sideShade vertArray (arctan2 (Real.sqrt 2 / 2) (-(Real.sqrt 2 / 2))) 90 r .front = 0 := by
    unfold sideShade rowShadedLengths
    rw [vert_alpha, vert_interrow]
    simp
  unfold pvIv
  rw [hsh, hn]
  norm_num [tIv, tSeg, vertArray]

theorem vert_full (j : ℕ) : ((fitStep vertArray vertStep).row j).full
    = ⟨⟨5 * j, 1 / 2⟩, ⟨5 * j, 5 / 2⟩⟩ := by
  have h2 : ((fitStep vertArray vertStep).row j).full
      = fullRowCoords (rowCenter vertArray j) vertArray.width 90 := by rw [vert_fit]; rfl
  rw [h2, fullRowCoords_eq]
  simp only [rowPt, cosd_90, sind_90, rowCenter]
  norm_num [vertArray, ArrayParams.distance, X_ORIGIN, Y_GROUND]
  ring

theorem vert_front_mem (r : ℕ) (hr : r < 2) : SurfRef.pv r .front 0 false ∈ surfaces vertArray :=
  mem_surfaces.2 (mem_allRefs_pv.2 (by
    interval_cases r <;> simp [vertArray, ArrayParams.nSeg, ArrayParams.nFront]))

theorem vert_looks : LooksLeft (fitStep vertArray vertStep) .front := by
  simp [LooksLeft, vert_deg]

theorem vert_cos : sideCos vertStep .front = 0 := by
  simp [sideCos, vertStep, cosd_90]

/-- The hypotheses of C84 can be met: the front of the first of two vertical rows sees half of its
surroundings as sky, up to 2.5 m in 99 m; the front of the second one sees the sky over the first. -/
theorem C84_demo (t : Fin 3) :
    let F := tsVfMatrix vertArray (fun _ => vertStep) t
    |vfToSky vertArray F (.pv 0 .front 0 false) - 1 / 2| ≤ 5 / 2 / 99 / 2 ∧
    (7 - Real.sqrt 29) / 4 ≤ vfToSky vertArray F (.pv 1 .front 0 false) ∧
    vfToSky vertArray F (.pv 1 .front 0 false) ≤ (7 - Real.sqrt 29) / 4 + 1 / 3200 := by
  intro F
  constructor
  · have hend : ∃ lo hi, ((fitStep vertArray vertStep).coords (.pv 0 .front 0 false)).Ends lo hi := by
      generalize (fitStep vertArray vertStep).coords (.pv 0 .front 0 false) = l
      rcases le_total l.b1.y l.b2.y with h | h
      · exact ⟨l.b1, l.b2, h, Or.inl rfl⟩
      · exact ⟨l.b2, l.b1, h, Or.inr rfl⟩
    obtain ⟨lo, hi, he⟩ := hend
    have := (C84_edge vertArray (fun _ => vertStep) t vert_physicalArray vert_physicalStep
      vert_lengths 0 .front 0 false (vert_front_mem 0 (by norm_num))
      (by simp only [vert_front_len]; norm_num [TOL]) (by norm_num [vertStep]) 0
      (by norm_num [MIN_X, MAX_X]) (by simpa using vert_cut_aligned 0) lo hi he
      ⟨fun _ => rfl, fun h => absurd vert_looks h⟩ 99 (by norm_num)
      (fun _ => by norm_num [vertArray, MIN_X]) (fun h => absurd vert_looks h)).1
    have hY : vertArray.height + vertArray.width / 2 * sind vertStep.surfaceTilt = 5 / 2 := by
      have : sind vertStep.surfaceTilt = 1 := sind_90
      rw [this]; norm_num [vertArray]
    simp only [vert_cos, hY, add_zero] at this
    exact this
  · have := C84_row vertArray (fun _ => vertStep) t vert_physicalArray vert_physicalStep
      vert_lengths 1 .front 0 false (vert_front_mem 1 (by norm_num)) (by norm_num [vertStep]) 5
      (by norm_num [MIN_X, MAX_X]) (by simpa using vert_cut_aligned 1)
      (by simp only [vert_front_len]; norm_num [vertArray]) (by norm_num [vertArray, TOL]) 0
      ⟨fun _ => rfl, fun h => absurd vert_looks h⟩
      (by norm_num [vertArray, ArrayParams.nFront, ArrayParams.nBack])
      ⟨0, 1 / 2⟩ ⟨0, 5 / 2⟩ ⟨by norm_num, Or.inl (by simpa using vert_full 0)⟩ 100 (by norm_num)
      (fun _ => by norm_num [MIN_X]) (fun h => absurd vert_looks h)
    simp only [vert_cos] at this
    norm_num [vertArray] at this
    norm_num
    exact this

end PVF

import Verif.Lemmas.MovedMatrix
import Verif.Lemmas.RoundedRow
import Verif.Props.Rounded

/-!
# C97: small errors of coordinates change view factors little, unless the tilt is lost
-/

namespace PVF

/-- C97: the length of a string past an obstruction changes by at most as much as its ends and (twice)
the obstruction move, even if it goes straight in one case and over the obstruction in the other. -/
theorem C97_string (P G O P' G' O' : Pt) (left : Bool) (c σ D : ℝ) (hσ : 0 ≤ σ) (hc : σ < c)
    (ho : G.y + c ≤ O.y) (hq : O.y ≤ P.y + σ) (hD : distPt G O ≤ D)
    (ho' : G'.y + c ≤ O'.y) (hq' : O'.y ≤ P'.y + σ) (hD' : distPt G' O' ≤ D) :
    |hottelString P' G' O' left - hottelString P G O left|
      ≤ distPt P P' + distPt G G' + 2 * distPt O O' + 2 * (σ * D / c) :=
  hottelString_lip left hσ hc ho hq hD ho' hq' hD'

/-- C97: view factors for slightly different coordinates differ little. -/
theorem C97_matrix {D w c σ τ : ℝ} (p : ArrayParams) (g g' : StepGeom) (emp : SurfRef → Prop)
    (hs : SceneSize p g emp D w) (hr : RowsAbove p g c σ) (hs' : SceneSize p g' emp D w)
    (hr' : RowsAbove p g' c σ) (hn : CoordsNear p g g' τ) (hτ : 0 ≤ τ) (hτw : 2 * τ + TOL < w)
    (a : SurfRef) (ha : a ∈ surfaces p) :
    (∀ b ∈ surfaces p,
      |vfBetween p (vfMatrix p g' emp) a b - vfBetween p (vfMatrix p g emp) a b|
        ≤ entryMove D w c σ τ) ∧
    |vfToSky p (vfMatrix p g' emp) a - vfToSky p (vfMatrix p g emp) a|
      ≤ nTsSurfaces p * entryMove D w c σ τ :=
  ⟨fun _ hb => between_move ⟨hs, hr⟩ ⟨hs', hr'⟩ hn hτ hτw hb,
    sky_move ⟨hs, hr⟩ ⟨hs', hr'⟩ hn hτ hτw ha⟩

/-- C97: surfaces that have no length at any time step are the same for both coordinates. -/
theorem C97_empty {ι : Type*} [Fintype ι] {w τ : ℝ} (p : ArrayParams) (g g' : ι → StepGeom)
    (hw : 2 * TOL ≤ w) (hτw : 2 * τ < w)
    (hl : ∀ t, ∀ a ∈ surfaces p, ((g t).coords a).length = 0 ∨ w ≤ ((g t).coords a).length)
    (hl' : ∀ t, ∀ a ∈ surfaces p, ((g' t).coords a).length = 0 ∨ w ≤ ((g' t).coords a).length)
    (hn : ∀ t, CoordsNear p (g t) (g' t) τ) (a : SurfRef) (ha : a ∈ surfaces p) :
    isEmptyTs g' a ↔ isEmptyTs g a := by
  have T := TOL_pos
  have zero : ∀ h : ι → StepGeom,
      (∀ t, ((h t).coords a).length = 0 ∨ w ≤ ((h t).coords a).length) →
      (isEmptyTs h a ↔ ∀ t, ((h t).coords a).length = 0) := by
    intro h hh
    have nn : ∀ t ∈ Finset.univ, 0 ≤ ((h t).coords a).length := fun _ _ => Real.sqrt_nonneg _
    unfold isEmptyTs
    constructor
    · intro hlt t
      rcases hh t with h1 | h1
      · exact h1
      · have := Finset.single_le_sum nn (Finset.mem_univ t)
        linarith
    · intro hz
      rw [Finset.sum_eq_zero fun t _ => hz t]
      exact T
  rw [zero g' fun t => hl' t a ha, zero g fun t => hl t a ha]
  refine forall_congr' fun t => ?_
  have hd := distPt_lip ((g t).coords a).b1 ((g t).coords a).b2 ((g' t).coords a).b1
    ((g' t).coords a).b2
  obtain ⟨e1, e2⟩ := (hn t).ends a ha
  have h : |((g' t).coords a).length - ((g t).coords a).length| ≤ 2 * τ := by
    have e : ((g' t).coords a).length - ((g t).coords a).length
      = distPt ((g' t).coords a).b1 ((g' t).coords a).b2
        - distPt ((g t).coords a).b1 ((g t).coords a).b2 := rfl
    rw [e]; linarith
  rw [abs_le] at h
  constructor <;> intro h0
  · rcases hl t a ha with h1 | h1
    · exact h1
    · linarith [h.1]
  · rcases hl' t a ha with h1 | h1
    · exact h1
    · linarith [h.2]

/-- C97: the computed ends of rows and segments are close to the exact ones, if the computed sines and
cosines have errors of at most `η`. -/
theorem C97_rows {ε η : ℝ} (h0 : 0 ≤ ε) (h1 : ε < 1) (A : Arith ε) (center : Pt)
    (width rotation : ℝ) (hw : 0 ≤ width) (cs sn cs180 sn180 : ℝ) (hcs : |cs - cosd rotation| ≤ η)
    (hsn : |sn - sind rotation| ≤ η) (hcs180 : |cs180 - cosd (rotation + 180)| ≤ η)
    (hsn180 : |sn180 - sind (rotation + 180)| ≤ η) :
    let R := fullRowCoords center width rotation
    let R' := A.fullRowCoords center width cs sn cs180 sn180
    let E := (grow ε ^ 5 - 1) * (3 * width * (1 + η) + |center.x| + |center.y|) + 3 * width * η
    (distPt R.b1 R'.b1 ≤ E ∧ distPt R.b2 R'.b2 ≤ E) ∧
    ∀ (cut i : ℕ) (shaded : ℝ), i < cut →
      let S := (sideSegment center width rotation cut shaded i).coords
      let S' := A.segmentCoords center width cut i cs180 sn180
      distPt S.b1 S'.b1 ≤ E ∧ distPt S.b2 S'.b2 ≤ E := by
  intro R R' E
  have c1 : ∀ x, |cosd x| ≤ 1 := fun x => Real.abs_cos_le_one _
  have s1 : ∀ x, |sind x| ≤ 1 := fun x => Real.abs_sin_le_one _
  have hη : 0 ≤ η := (abs_nonneg _).trans hcs
  have hx := abs_nonneg center.x
  have hy := abs_nonneg center.y
  have nr := A.radius_near h0 h1 hw
  have small : (grow ε ^ 3 - 1) * (2 * (width / 2) * (1 + η) + |center.x| + |center.y|)
      + 2 * (width / 2) * η ≤ E := by
    have g1 := grow_pow_one h0 h1 3
    have g2 := grow_mono h0 h1 (show 3 ≤ 5 by norm_num)
    have w1 : 0 ≤ width * (1 + η) := by positivity
    have w2 : 0 ≤ width * η := by positivity
    refine add_le_add (mul_le_mul (by linarith) ?_ (by positivity) (by linarith)) ?_
    · nlinarith
    · nlinarith
  refine ⟨⟨(A.end_err h0 h1 nr hcs180 (c1 _) hsn180 (s1 _)).trans small,
    (A.end_err h0 h1 nr hcs (c1 _) hsn (s1 _)).trans small⟩, ?_⟩
  intro cut i shaded hi S S'
  have i1 : (i : ℝ) ≤ cut := by exact_mod_cast hi.le
  have i2 : (i : ℝ) + 1 ≤ cut := by exact_mod_cast hi
  have e : ∀ {x y : ℝ}, (grow ε ^ (3 + 2) - 1) * (2 * (3 / 2 * width) * (1 + η) + x + y)
      + 2 * (3 / 2 * width) * η = (grow ε ^ 5 - 1) * (3 * width * (1 + η) + x + y) + 3 * width * η := by
    intro x y; ring
  exact ⟨(A.end_err h0 h1 (A.segRadius_near h0 h1 hw cut (Nat.cast_nonneg i) i1) hcs180 (c1 _) hsn180
      (s1 _)).trans e.le,
    (A.end_err h0 h1 (A.segRadius_near h0 h1 hw cut (by positivity) i2) hcs180 (c1 _) hsn180
      (s1 _)).trans e.le⟩

theorem RowsAbove.weaken {p : ArrayParams} {g : StepGeom} {c σ c' σ' : ℝ} (h : RowsAbove p g c σ)
    (hc : c' ≤ c) (hσ : σ ≤ σ') (h' : σ' < c') : RowsAbove p g c' σ' :=
  ⟨h.slack.trans hσ, h', fun r s k sh hm x hx r' hr' => (h.low r s k sh hm x hx r' hr').trans
    (by linarith), fun sh e z hm x hx r hr => le_trans (by linarith) (h.above sh e z hm x hx r hr)⟩

/-- Bound of the sum of all errors in a row of the matrix if no single error is above `E`. -/
noncomputable def rowErrors (n : ℕ) (ε E : ℝ) : ℝ :=
  2 * n * E + (grow ε ^ (n + 1) - 1) * (2 + n * E)

/-- C97: view factors that are computed with rounding errors from stored coordinates with errors are
close to those of the exact scene. -/
theorem C97_computed {ι : Type*} [Fintype ι] {ε D w c σ τ : ℝ} (h0 : 0 ≤ ε) (h1 : ε ≤ 1 / 8)
    (A : Arith ε) (T : SumTree) (p : ArrayParams) (u : ι → StepIn) (t : ι) (g' : StepGeom)
    (hp : PhysicalArray p) (hu : PhysicalStep p (u t))
    (hT : T.leaves = Multiset.range (nTsSurfaces p))
    (hs : SceneSize p (fitStep p (u t)) (isEmptyTs fun t => fitStep p (u t)) D w)
    (hs' : SceneSize p g' (isEmptyTs fun t => fitStep p (u t)) D w)
    (hc : c ≤ p.height - p.width / 2 * sind (u t).surfaceTilt)
    (hr' : RowsAbove p g' c σ) (hn : CoordsNear p (fitStep p (u t)) g' τ) (hτ : 0 ≤ τ)
    (hτw : 2 * τ + TOL < w) (a : SurfRef) (ha : a ∈ surfaces p) :
    (∀ b ∈ surfaces p,
      |vfBetween p (A.vfMatrix T p g' (isEmptyTs fun t => fitStep p (u t))) a b
        - vfBetween p (tsVfMatrix p u t) a b| ≤ entryBound ε D w c σ + entryMove D w c σ τ) ∧
    ∑ b ∈ surfaces p, |vfBetween p (A.vfMatrix T p g' (isEmptyTs fun t => fitStep p (u t))) a b
        - vfBetween p (tsVfMatrix p u t) a b|
      + |vfToSky p (A.vfMatrix T p g' (isEmptyTs fun t => fitStep p (u t))) a
        - vfToSky p (tsVfMatrix p u t) a|
      ≤ rowErrors (nTsSurfaces p) ε (entryBound ε D w c σ + entryMove D w c σ τ) := by
  have hF := C02_viewFactorsOk p u t hp hu
  have hab := (C96_above p (u t) hp hu).weaken hc hr'.slack hr'.clear
  set emp := isEmptyTs fun t => fitStep p (u t) with hemp
  obtain ⟨b1, b2⟩ := C96_matrix h0 h1 A T p g' emp hT hs' hr' a ha
  obtain ⟨m1, m2⟩ := C97_matrix p (fitStep p (u t)) g' emp hs hab hs' hr' hn hτ hτw a ha
  have hm : vfMatrix p (fitStep p (u t)) emp = tsVfMatrix p u t := rfl
  rw [hm] at m1 m2
  set eB := entryBound ε D w c σ with heB
  set eM := entryMove D w c σ τ with heM
  have gn := grow_pow_one h0 (show ε < 1 by linarith) (nTsSurfaces p + 1)
  have hcard : ((surfaces p).card : ℝ) = nTsSurfaces p := by
    unfold surfaces
    rw [List.toFinset_card_of_nodup (nodup_allRefs p), length_allRefs]
  have one : ∀ b ∈ surfaces p, |vfBetween p (A.vfMatrix T p g' emp) a b
      - vfBetween p (tsVfMatrix p u t) a b| ≤ eB + eM := fun b hb =>
    (abs_sub_le _ _ _).trans (add_le_add (b1 b hb) (m1 b hb))
  refine ⟨one, ?_⟩
  have s1 := Finset.sum_le_sum one
  rw [Finset.sum_const, nsmul_eq_mul, hcard] at s1
  have s2 : ∑ b ∈ surfaces p, |vfBetween p (vfMatrix p g' emp) a b| ≤ 1 + nTsSurfaces p * eM := by
    have e1 : ∀ b ∈ surfaces p, |vfBetween p (vfMatrix p g' emp) a b|
        ≤ vfBetween p (tsVfMatrix p u t) a b + eM := fun b hb => by
      have x1 := m1 b hb
      have x2 := abs_sub_abs_le_abs_sub (vfBetween p (vfMatrix p g' emp) a b)
        (vfBetween p (tsVfMatrix p u t) a b)
      rw [abs_of_nonneg (hF.nonneg a ha b hb)] at x2
      linarith
    refine (Finset.sum_le_sum e1).trans ?_
    rw [Finset.sum_add_distrib, Finset.sum_const, nsmul_eq_mul, hcard]
    linarith [hF.sum_le a ha, hF.nonneg_sky a ha]
  have s3 := mul_le_mul_of_nonneg_left (show 1 + ∑ b ∈ surfaces p,
      |vfBetween p (vfMatrix p g' emp) a b| + nTsSurfaces p * eB
      ≤ 2 + nTsSurfaces p * (eB + eM) by linarith)
    (show 0 ≤ grow ε ^ (nTsSurfaces p + 1) - 1 by linarith)
  have s4 := (abs_sub_le (vfToSky p (A.vfMatrix T p g' emp) a) (vfToSky p (vfMatrix p g' emp) a)
    (vfToSky p (tsVfMatrix p u t) a)).trans (add_le_add b2 m2)
  unfold rowErrors
  linarith

/-- C97: the light that full mode returns for stored coordinates with errors, with rounding errors of
view factors and small residuals of the linear system, is close to that of exact full mode. -/
theorem C97_full_mode {ι : Type*} [Fintype ι] {ε D w c σ τ : ℝ} (h0 : 0 ≤ ε) (h1 : ε ≤ 1 / 8)
    (A : Arith ε) (T : SumTree) (p : ArrayParams) (u : ι → StepIn) (s : ι → IrrStep)
    (aoi : ι → Option (List Asg)) (o : ι → FullOut) (hrun : runFullMode p u s aoi = some o)
    (hinv : ∀ t, InverseOk p (s t)) (t : ι) (g' : StepGeom)
    (hp : PhysicalArray p) (hu : PhysicalStep p (u t))
    (hT : T.leaves = Multiset.range (nTsSurfaces p))
    (hs : SceneSize p (fitStep p (u t)) (isEmptyTs fun t => fitStep p (u t)) D w)
    (hs' : SceneSize p g' (isEmptyTs fun t => fitStep p (u t)) D w)
    (hc : c ≤ p.height - p.width / 2 * sind (u t).surfaceTilt)
    (hr' : RowsAbove p g' c σ) (hn : CoordsNear p (fitStep p (u t)) g' τ) (hτ : 0 ≤ τ)
    (hτw : 2 * τ + TOL < w)
    (r : ℝ) (hr : ∀ a ∈ surfaces p, 0 ≤ (s t).rho a ∧ (s t).rho a ≤ r) (hr1 : r < 1)
    (e' q0' qinc' : SurfRef → ℝ) (sky' η₁ η₂ η₃ M : ℝ)
    (hsol : NearlySolved p (A.vfMatrix T p g' (isEmptyTs fun t => fitStep p (u t)))
      (fun a => ((s t).comp a).sum) (s t).rho (s t).sky e' q0' qinc' sky' η₁ η₂ η₃ M) :
    ∀ a ∈ surfaces p, |qinc' a - (o t).qinc a| ≤ (η₁ + η₂ + η₃
      + rowErrors (nTsSurfaces p) ε (entryBound ε D w c σ + entryMove D w c σ τ) * M)
        / (1 - r) := fun a ha =>
  (C96_system p (tsVfMatrix p u t) _ _ e' _ _ _ q0' qinc' _ sky' r _ η₁ η₂ η₃ M
    (C06_radiosity p u s aoi o hrun hinv t).1 (C02_viewFactorsOk p u t hp hu) hr hr1
    (fun a ha => (C97_computed h0 h1 A T p u t g' hp hu hT hs hs' hc hr' hn hτ hτw a ha).2)
    hsol a ha).1

/-! ## Tilt that is lost -/

/-- C97: if the two ends of a surface are taken for each other, view factors past an obstruction get the
wrong sign. -/
theorem C97_exchanged (high low left right obstr : Pt) (width : ℝ) (shadowIsLeft : Bool) :
    vfHottelGnd low high left right obstr width shadowIsLeft
      = - vfHottelGnd high low left right obstr width shadowIsLeft := by
  unfold vfHottelGnd
  by_cases hw : width > TOL
  · simp only [if_pos hw]
    cases shadowIsLeft
    · simp only [Bool.false_eq_true, if_false]; ring
    · simp only [if_true]; ring
  · simp only [if_neg hw, neg_zero]

/-- C97: for a row tilted to the left (positive rotation) the second end is the higher one.  If the
stored coordinates of a surface are horizontal the first end is used as the higher one, and the view
factor of the back side to the ground past the next row gets the wrong sign. -/
theorem C97_horizontal (pvSurf gndSurf : Line) (r n : ℕ) (full : ℕ → Line) (len : ℝ)
    (hr : r + 1 < n) (h : pvSurf.b1.y = pvSurf.b2.y) :
    (vfPvGnd pvSurf r n True full gndSurf len true false).1
      = - vfHottelGnd pvSurf.b2 pvSurf.b1 gndSurf.b1 gndSurf.b2 (full (r + 1)).lowest len false := by
  have e1 : pvSurf.highest = pvSurf.b1 := by
    unfold Line.highest; rw [if_pos h.ge, if_pos h.ge]
  have e2 : pvSurf.lowest = pvSurf.b2 := by
    unfold Line.lowest; rw [if_pos h.ge, if_pos h.ge]
  rw [← C97_exchanged]
  unfold vfPvGnd
  simp [e1, e2, show ¬ r = n - 1 by omega]

/-- An arithmetic that is exact, except that very small numbers are lost when they are added to a much
larger one (as with floating point numbers). -/
noncomputable def swallow (ε : ℝ) (h : 0 ≤ ε) : Arith ε :=
  have exact' : ∀ z : ℝ, |z - z| ≤ ε * |z| := fun z => by
    rw [sub_self, abs_zero]; positivity
  { add := fun x y => if |x| ≤ ε * |x + y| then y else x + y
    sub := fun x y => x - y
    mul := fun x y => x * y
    div := fun x y => x / y
    sqrt := fun x => Real.sqrt x
    atan2 := fun y x => arctan2 y x
    add_err := fun x y => by
      split_ifs with hx
      · rw [show y - (x + y) = -x by ring, abs_neg]; exact hx
      · exact exact' _
    sub_err := fun _ _ => exact' _
    mul_err := fun _ _ => exact' _
    div_err := fun _ _ => exact' _
    sqrt_err := fun x _ => by
      rw [sub_self, abs_zero]; exact mul_nonneg h (Real.sqrt_nonneg _)
    atan2_err := fun _ _ => exact' _ }

/-- A rotation by a very small angle. -/
theorem tiny_sind : 0 < sind (1 / 10 ^ 15) ∧ sind (1 / 10 ^ 15) ≤ 1 / 10 ^ 16 := by
  refine ⟨sind_pos (by norm_num) (by norm_num), ?_⟩
  have h : 0 ≤ deg2rad (1 / 10 ^ 15) := by
    unfold deg2rad; have := Real.pi_pos; positivity
  refine (Real.sin_le h).trans ?_
  unfold deg2rad
  have := Real.pi_le_four
  norm_num
  linarith

theorem tiny_cosd : cosd (1 / 10 ^ 15) ≤ 1 ∧ 1 - 1 / 10 ^ 16 ≤ cosd (1 / 10 ^ 15) := by
  refine ⟨Real.cos_le_one _, ?_⟩
  have h := cosd_sq_add_sind_sq (1 / 10 ^ 15)
  obtain ⟨s0, s1⟩ := tiny_sind
  have c1 : cosd (1 / 10 ^ 15) ≤ 1 := Real.cos_le_one _
  have c0 : 0 ≤ cosd (1 / 10 ^ 15) := by
    apply Real.cos_nonneg_of_neg_pi_div_two_le_of_le <;> unfold deg2rad <;>
      have := Real.pi_pos <;> norm_num <;> linarith
  nlinarith

/-- The stored coordinates of rows that are rotated by 1e-15 degrees are horizontal. -/
theorem swallow_row (x : ℝ) (hx : 0 ≤ x) (hx' : x ≤ 5) :
    (swallow (1 / 2 ^ 53) (by norm_num)).fullRowCoords ⟨x, 3 / 2⟩ 2 1 (sind (1 / 10 ^ 15)) (-1)
      (-sind (1 / 10 ^ 15)) = ⟨⟨x - 1, 3 / 2⟩, ⟨x + 1, 3 / 2⟩⟩ := by
  obtain ⟨s0, s1⟩ := tiny_sind
  set s := sind (1 / 10 ^ 15) with hs
  unfold Arith.fullRowCoords Arith.rowLine swallow
  dsimp only
  have e1 : ¬ |(2 : ℝ) / 2 * -1| ≤ 1 / 2 ^ 53 * |(2 : ℝ) / 2 * -1 + x| := by
    have : |(2 : ℝ) / 2 * -1 + x| ≤ 4 := by rw [abs_le]; constructor <;> linarith
    have e : |(2 : ℝ) / 2 * -1| = 1 := by norm_num
    rw [e]
    norm_num at this ⊢
    linarith
  have e2 : |(2 : ℝ) / 2 * -s| ≤ 1 / 2 ^ 53 * |(2 : ℝ) / 2 * -s + 3 / 2| := by
    have h1 : |(2 : ℝ) / 2 * -s| = s := by
      rw [show (2 : ℝ) / 2 * -s = -s by ring, abs_neg, abs_of_pos s0]
    have h2 : |(2 : ℝ) / 2 * -s + 3 / 2| = 3 / 2 - s := by
      rw [abs_of_nonneg (by linarith)]; ring
    rw [h1, h2]
    norm_num at s1 ⊢
    linarith
  have e3 : ¬ |(2 : ℝ) / 2 * 1| ≤ 1 / 2 ^ 53 * |(2 : ℝ) / 2 * 1 + x| := by
    have : |(2 : ℝ) / 2 * 1 + x| ≤ 6 := by rw [abs_le]; constructor <;> linarith
    have e : |(2 : ℝ) / 2 * 1| = 1 := by norm_num
    rw [e]
    norm_num at this ⊢
    linarith
  have e4 : |(2 : ℝ) / 2 * s| ≤ 1 / 2 ^ 53 * |(2 : ℝ) / 2 * s + 3 / 2| := by
    have h1 : |(2 : ℝ) / 2 * s| = s := by
      rw [show (2 : ℝ) / 2 * s = s by ring, abs_of_pos s0]
    have h2 : |(2 : ℝ) / 2 * s + 3 / 2| = 3 / 2 + s := by
      rw [abs_of_nonneg (by linarith)]; ring
    rw [h1, h2]
    norm_num at s1 ⊢
    linarith
  rw [if_neg e1, if_pos e2, if_neg e3, if_pos e4]
  congr 2 <;> ring

/-- Strings that do not touch the next row. -/
theorem free_string {P G O : Pt} (hO : G.y < O.y) (hP : G.y < P.y)
    (h : (O.y - G.y) * (P.x - G.x) ≤ (O.x - G.x) * (P.y - G.y)) :
    hottelString P G O false = distPt P G := by
  unfold hottelString
  simp only [Bool.false_eq_true, if_false]
  rw [if_neg]
  rw [angle_lt_iff hP hO]
  linarith

/-- A horizontal row and its shadow under it. -/
theorem flat_vf (x : ℝ) (hx : 4 ≤ x) :
    vfHottelGnd ⟨1, 3 / 2⟩ ⟨-1, 3 / 2⟩ ⟨-1, 0⟩ ⟨1, 0⟩ ⟨x, 3 / 2⟩ 2 false = 1 / 2 := by
  have h1 : Real.sqrt (25 / 4) = 5 / 2 := by
    rw [show (25 / 4 : ℝ) = (5 / 2) ^ 2 by norm_num, Real.sqrt_sq (by norm_num)]
  have h2 : Real.sqrt (9 / 4) = 3 / 2 := by
    rw [show (9 / 4 : ℝ) = (3 / 2) ^ 2 by norm_num, Real.sqrt_sq (by norm_num)]
  unfold vfHottelGnd
  simp only [Bool.false_eq_true, if_false]
  rw [free_string (by norm_num) (by norm_num) (by norm_num; linarith),
    free_string (by norm_num) (by norm_num) (by norm_num; linarith),
    free_string (by norm_num) (by norm_num) (by norm_num; linarith),
    free_string (by norm_num) (by norm_num) (by norm_num; linarith),
    if_pos (by norm_num [TOL])]
  norm_num [distPt, h1, h2]

/-- C97: two rows that are rotated by 1e-15 degrees to the left, with operations that have relative
errors of at most 2 ^ (-53): the stored coordinates of the rows are horizontal.  The computed view
factor of the back of the first row to its shadow is -1/2, but the exact one is almost 1/2. -/
theorem C97_lost_tilt :
    let ε : ℝ := 1 / 2 ^ 53
    let A := swallow ε (by norm_num)
    let rot : ℝ := 1 / 10 ^ 15
    let exact' (r : ℕ) := fullRowCoords ⟨5 * r, 3 / 2⟩ 2 rot
    let stored (r : ℕ) := A.fullRowCoords ⟨5 * r, 3 / 2⟩ 2 1 (sind rot) (-1) (sind (rot + 180))
    let shadow : Line := ⟨⟨-1, 0⟩, ⟨1, 0⟩⟩
    |1 - cosd rot| ≤ ε ∧ |-1 - cosd (rot + 180)| ≤ ε ∧
    (exact' 0).b1.y < (exact' 0).b2.y ∧ (stored 0).b1.y = (stored 0).b2.y ∧
    (A.vfPvGnd (stored 0) 0 2 (0 < rot) stored shadow (A.length (stored 0)) true false).1 = -1 / 2 ∧
    49 / 100 ≤ (vfPvGnd (exact' 0) 0 2 (0 < rot) exact' shadow (exact' 0).length true false).1 := by
  intro ε A rot exact' stored shadow
  obtain ⟨s0, s1⟩ := tiny_sind
  obtain ⟨c1, c0⟩ := tiny_cosd
  have hrot : 0 < rot := by norm_num [rot]
  have hst : ∀ r : ℕ, r ≤ 1 → stored r = ⟨⟨5 * r - 1, 3 / 2⟩, ⟨5 * r + 1, 3 / 2⟩⟩ := by
    intro r hr
    have hr' : (r : ℝ) ≤ 1 := by exact_mod_cast hr
    have := swallow_row (5 * r) (by positivity) (by linarith)
    rw [← this, ← sind_add_180]
  have st0 : stored 0 = ⟨⟨-1, 3 / 2⟩, ⟨1, 3 / 2⟩⟩ := by rw [hst 0 (by norm_num)]; norm_num
  have st1 : stored 1 = ⟨⟨4, 3 / 2⟩, ⟨6, 3 / 2⟩⟩ := by rw [hst 1 le_rfl]; norm_num
  have ex : ∀ r : ℕ, exact' r = ⟨⟨-cosd rot + 5 * r, -sind rot + 3 / 2⟩,
      ⟨cosd rot + 5 * r, sind rot + 3 / 2⟩⟩ := by
    intro r
    simp only [exact', fullRowCoords, cosd_add_180, sind_add_180]
    norm_num
  refine ⟨?_, ?_, ?_, ?_, ?_, ?_⟩
  · rw [abs_le]; constructor <;> norm_num [ε, rot] at c0 c1 ⊢ <;> linarith
  · rw [cosd_add_180, abs_le]; constructor <;> norm_num [ε, rot] at c0 c1 ⊢ <;> linarith
  · rw [ex]; simp only [rot] at s0 ⊢; linarith
  · rw [st0]
  · have hi : (⟨⟨-1, 3 / 2⟩, ⟨1, 3 / 2⟩⟩ : Line).highest = ⟨-1, 3 / 2⟩ := by norm_num [Line.highest]
    have lo : (⟨⟨-1, 3 / 2⟩, ⟨1, 3 / 2⟩⟩ : Line).lowest = ⟨1, 3 / 2⟩ := by norm_num [Line.lowest]
    have lo1 : (⟨⟨4, 3 / 2⟩, ⟨6, 3 / 2⟩⟩ : Line).lowest = ⟨6, 3 / 2⟩ := by norm_num [Line.lowest]
    have h1 : Real.sqrt (25 / 4) = 5 / 2 := by
      rw [show (25 / 4 : ℝ) = (5 / 2) ^ 2 by norm_num, Real.sqrt_sq (by norm_num)]
    have h2 : Real.sqrt (9 / 4) = 3 / 2 := by
      rw [show (9 / 4 : ℝ) = (3 / 2) ^ 2 by norm_num, Real.sqrt_sq (by norm_num)]
    have h3 : Real.sqrt 4 = 2 := by
      rw [show (4 : ℝ) = 2 ^ 2 by norm_num, Real.sqrt_sq (by norm_num)]
    have str : ∀ {P G O : Pt}, G.y < O.y → G.y < P.y →
        (O.y - G.y) * (P.x - G.x) ≤ (O.x - G.x) * (P.y - G.y) →
        A.string P G O false = A.dist P G := by
      intro P G O hO hP h
      unfold Arith.string
      simp only [Bool.false_eq_true, if_false]
      rw [if_neg]
      change ¬ angleX G P < angleX G O
      rw [angle_lt_iff hP hO]
      linarith
    have d1 : A.dist ⟨-1, 3 / 2⟩ ⟨-1, 0⟩ = 3 / 2 := by
      norm_num [Arith.dist, A, swallow, ε, h2]
    have d2 : A.dist ⟨1, 3 / 2⟩ ⟨1, 0⟩ = 3 / 2 := by
      norm_num [Arith.dist, A, swallow, ε, h2]
    have d3 : A.dist ⟨-1, 3 / 2⟩ ⟨1, 0⟩ = 5 / 2 := by
      norm_num [Arith.dist, A, swallow, ε, h1]
    have d4 : A.dist ⟨1, 3 / 2⟩ ⟨-1, 0⟩ = 5 / 2 := by
      norm_num [Arith.dist, A, swallow, ε, h1]
    have d5 : A.dist ⟨-1, 3 / 2⟩ ⟨1, 3 / 2⟩ = 2 := by
      norm_num [Arith.dist, A, swallow, ε, h3]
    unfold Arith.vfPvGnd Arith.hottelGnd
    simp only [st0, st1, hi, lo, lo1, hrot, if_true, Bool.false_eq_true, if_false, false_and,
      not_false_eq_true, true_and, false_or, Nat.reduceSub, zero_ne_one, zero_add, Arith.length,
      shadow]
    rw [str (by norm_num) (by norm_num) (by norm_num), str (by norm_num) (by norm_num) (by norm_num),
      str (by norm_num) (by norm_num) (by norm_num), str (by norm_num) (by norm_num) (by norm_num),
      d1, d2, d3, d4, d5, if_pos (by norm_num [TOL])]
    norm_num [A, swallow, ε]
  · have hy : -sind rot + 3 / 2 < sind rot + 3 / 2 := by
      simp only [rot] at s0 ⊢; linarith
    have hlow : ∀ r, (exact' r).lowest = (exact' r).b1 := by
      intro r
      rw [ex]
      unfold Line.lowest
      dsimp only
      rw [if_neg (by linarith), if_neg (by linarith)]
    have hhigh : (exact' 0).highest = (exact' 0).b2 := by
      rw [ex]
      unfold Line.highest
      dsimp only
      rw [if_neg (by linarith), if_neg (by linarith)]
    unfold vfPvGnd
    simp only [hlow, hhigh, hrot, if_true, Bool.false_eq_true, if_false, false_and,
      not_false_eq_true, true_and, false_or, Nat.reduceSub, zero_ne_one, zero_add, shadow]
    have flat := flat_vf 4 le_rfl
    set a := exact' 0 with ha
    set a' : Line := ⟨⟨-1, 3 / 2⟩, ⟨1, 3 / 2⟩⟩ with ha'
    have h4 : Real.sqrt 4 = 2 := by
      rw [show (4 : ℝ) = 2 ^ 2 by norm_num, Real.sqrt_sq (by norm_num)]
    have la' : a'.length = 2 := by norm_num [ha', Line.length, h4]
    have la : a.length = 2 := by
      rw [ha, ex]
      unfold Line.length
      dsimp only
      have := cosd_sq_add_sind_sq rot
      rw [show (sind rot + 3 / 2 - (-sind rot + 3 / 2)) ^ 2
        + (cosd rot + 5 * ((0 : ℕ) : ℝ) - (-cosd rot + 5 * ((0 : ℕ) : ℝ))) ^ 2
        = 4 * (cosd rot ^ 2 + sind rot ^ 2) by ring, this]
      norm_num [h4]
    have near : ∀ {x y : Pt}, |y.x - x.x| ≤ 1 / 10 ^ 16 → |y.y - x.y| ≤ 1 / 10 ^ 16 →
        distPt x y ≤ 1 / 10 ^ 15 := fun h1 h2 => (Arith.dist_le_of h1 h2).trans (by norm_num)
    have hc : |cosd rot - 1| ≤ 1 / 10 ^ 16 := by
      rw [abs_le]; constructor <;> simp only [rot] <;> linarith
    have hs : |sind rot| ≤ 1 / 10 ^ 16 := by
      rw [abs_le]; constructor <;> simp only [rot] <;> linarith
    have eb1 : distPt a.b1 a'.b1 ≤ 1 / 10 ^ 15 := by
      rw [ha, ex]
      apply near <;> dsimp only [ha']
      · rw [show -1 - (-cosd rot + 5 * ((0 : ℕ) : ℝ)) = cosd rot - 1 by push_cast; ring]; exact hc
      · rw [show 3 / 2 - (-sind rot + 3 / 2) = sind rot by ring]; exact hs
    have eb2 : distPt a.b2 a'.b2 ≤ 1 / 10 ^ 15 := by
      rw [ha, ex]
      apply near <;> dsimp only [ha']
      · rw [show 1 - (cosd rot + 5 * ((0 : ℕ) : ℝ)) = -(cosd rot - 1) by push_cast; ring, abs_neg]
        exact hc
      · rw [show 3 / 2 - (sind rot + 3 / 2) = -sind rot by ring, abs_neg]; exact hs
    have eo : distPt (exact' 1).b1 ⟨4, 3 / 2⟩ ≤ 1 / 10 ^ 15 := by
      rw [ex]
      apply near <;> dsimp only
      · rw [show 4 - (-cosd rot + 5 * ((1 : ℕ) : ℝ)) = cosd rot - 1 by push_cast; ring]; exact hc
      · rw [show 3 / 2 - (-sind rot + 3 / 2) = sind rot by ring]; exact hs
    have size : ∀ {x y : Pt} {E F : ℝ}, |y.x - x.x| ≤ E → |y.y - x.y| ≤ F → E + F ≤ 10 →
        distPt x y ≤ 10 := fun h1 h2 h3 => (Arith.dist_le_of h1 h2).trans h3
    have hcr := abs_le.1 hc
    have hsr := abs_le.1 hs
    have m := (hottelGnd_move (D := 10) (w := 2) (c := 1) (σ := 0) (τ := 1 / 10 ^ 15) (a := a)
      (a' := a') (s := false)
      (H := a.b2) (L := a.b1) (G1 := ⟨-1, 0⟩) (G2 := ⟨1, 0⟩) (O := (exact' 1).b1)
      (H' := a'.b2) (L' := a'.b1) (G1' := ⟨-1, 0⟩) (G2' := ⟨1, 0⟩) (O' := ⟨4, 3 / 2⟩)
      (by norm_num) (by norm_num [TOL]) le_rfl (by norm_num) (by norm_num) (Or.inr la.ge)
      (Or.inr la'.ge) (by norm_num [TOL]) ⟨eb1, eb2⟩ eb2 eb1 (by norm_num [distPt]) (by norm_num [distPt])
      eo (by rw [ex]; dsimp only; norm_num at hsr ⊢; linarith [hsr.2])
      (by rw [ex]; dsimp only; norm_num at hsr ⊢; linarith [hsr.2])
      (by rw [ha, ex, ex]; dsimp only; linarith) (by rw [ha, ex, ex]; dsimp only; linarith)
      (by rw [ex]; refine size (E := 6) (F := 3) ?_ ?_ (by norm_num) <;> dsimp only <;> rw [abs_le] <;>
            constructor <;> push_cast <;> norm_num at hcr hsr ⊢ <;>
            linarith [hcr.1, hcr.2, hsr.1, hsr.2])
      (by rw [ex]; refine size (E := 6) (F := 3) ?_ ?_ (by norm_num) <;> dsimp only <;> rw [abs_le] <;>
            constructor <;> push_cast <;> norm_num at hcr hsr ⊢ <;>
            linarith [hcr.1, hcr.2, hsr.1, hsr.2])
      (by rw [ha, ex, ex]; refine size (E := 6) (F := 3) ?_ ?_ (by norm_num) <;> dsimp only <;>
            rw [abs_le] <;> constructor <;> push_cast <;> norm_num at hcr hsr ⊢ <;>
            linarith [hcr.1, hcr.2, hsr.1, hsr.2])
      (by rw [ha, ex, ex]; refine size (E := 6) (F := 3) ?_ ?_ (by norm_num) <;> dsimp only <;>
            rw [abs_le] <;> constructor <;> push_cast <;> norm_num at hcr hsr ⊢ <;>
            linarith [hcr.1, hcr.2, hsr.1, hsr.2])
      (by norm_num) (by norm_num) (by norm_num [ha']) (by norm_num [ha'])
      (size (E := 5) (F := 3) (by norm_num) (by norm_num) (by norm_num))
      (size (E := 5) (F := 3) (by norm_num) (by norm_num) (by norm_num))).1
    rw [la', show a'.b2 = ⟨1, 3 / 2⟩ from rfl, show a'.b1 = ⟨-1, 3 / 2⟩ from rfl, flat] at m
    have hm := (abs_le.1 m).2
    have : rowMove 10 2 1 0 (1 / 10 ^ 15) ≤ 1 / 100 := by norm_num [rowMove]
    linarith

/-- A line moved down. -/
def Line.lower (δ : ℝ) (l : Line) : Line := ⟨⟨l.b1.x, l.b1.y - δ⟩, ⟨l.b2.x, l.b2.y - δ⟩⟩

/-- A segment moved down. -/
def SegGeom.lower (δ : ℝ) (s : SegGeom) : SegGeom :=
  { s with illum := s.illum.lower δ, shaded := s.shaded.lower δ }

/-- All surfaces of rows moved down, but not the coordinates of the whole rows. -/
def StepGeom.lower (δ : ℝ) (g : StepGeom) : StepGeom :=
  { g with row := fun r => { g.row r with
      front := (g.row r).front.map (SegGeom.lower δ), back := (g.row r).back.map (SegGeom.lower δ) } }

theorem Line.lower_length (δ : ℝ) (l : Line) : (l.lower δ).length = l.length := by
  unfold Line.length Line.lower
  dsimp only
  rw [sub_sub_sub_cancel_right]

theorem Line.lower_highest (δ : ℝ) (l : Line) :
    (l.lower δ).highest = ⟨l.highest.x, l.highest.y - δ⟩ := by
  unfold Line.lower Line.highest
  by_cases h : l.b1.y ≥ l.b2.y
  · have h' : l.b1.y - δ ≥ l.b2.y - δ := by linarith
    simp only [if_pos h, if_pos h']
  · have h' : ¬ l.b1.y - δ ≥ l.b2.y - δ := by linarith
    simp only [if_neg h, if_neg h']

theorem Line.lower_lowest (δ : ℝ) (l : Line) :
    (l.lower δ).lowest = ⟨l.lowest.x, l.lowest.y - δ⟩ := by
  unfold Line.lower Line.lowest
  by_cases h : l.b1.y ≥ l.b2.y
  · have h' : l.b1.y - δ ≥ l.b2.y - δ := by linarith
    simp only [if_pos h, if_pos h']
  · have h' : ¬ l.b1.y - δ ≥ l.b2.y - δ := by linarith
    simp only [if_neg h, if_neg h']

theorem seg_lower (δ : ℝ) (l : List SegGeom) (k : ℕ) :
    (l.map (SegGeom.lower δ)).getD k default = l.getD k default ∨
    (l.map (SegGeom.lower δ)).getD k default = (l.getD k default).lower δ := by
  simp only [List.getD_eq_getElem?_getD, List.getElem?_map]
  cases l[k]? <;> simp

theorem coords_lower (δ : ℝ) (g : StepGeom) (a : SurfRef) :
    (g.lower δ).coords a = g.coords a ∨ (g.lower δ).coords a = (g.coords a).lower δ := by
  match a with
  | .gnd true e z => exact Or.inl rfl
  | .gnd false e z => exact Or.inl rfl
  | .pv r s k sh =>
    have key : (g.lower δ).side r s |>.getD k default |> fun x =>
        x = (g.side r s).getD k default ∨ x = ((g.side r s).getD k default).lower δ := by
      cases s
      · exact seg_lower δ (g.row r).front k
      · exact seg_lower δ (g.row r).back k
    unfold StepGeom.coords
    dsimp only at key ⊢
    rcases key with h | h <;> rw [h] <;> cases sh <;> simp [SegGeom.lower]

theorem ends_lower {δ : ℝ} (hδ : 0 ≤ δ) (g : StepGeom) (a : SurfRef) (x : Pt)
    (hx : x = ((g.lower δ).coords a).b1 ∨ x = ((g.lower δ).coords a).b2) :
    ∃ y, (y = (g.coords a).b1 ∨ y = (g.coords a).b2) ∧ x.x = y.x ∧ y.y - δ ≤ x.y ∧ x.y ≤ y.y := by
  rcases coords_lower δ g a with h | h <;> rw [h] at hx
  · exact ⟨x, hx, rfl, by linarith, le_rfl⟩
  · rcases hx with rfl | rfl
    · exact ⟨_, Or.inl rfl, rfl, le_rfl, by unfold Line.lower; dsimp only; linarith⟩
    · exact ⟨_, Or.inr rfl, rfl, le_rfl, by unfold Line.lower; dsimp only; linarith⟩

theorem near_lower {δ : ℝ} (hδ : 0 ≤ δ) (x : Pt) : distPt x ⟨x.x, x.y - δ⟩ ≤ δ := by
  unfold distPt
  dsimp only
  rw [show (x.y - δ - x.y) ^ 2 + (x.x - x.x) ^ 2 = δ ^ 2 by ring, Real.sqrt_sq hδ]

/-- Moving surfaces down changes coordinates little. -/
theorem coordsNear_lower (p : ArrayParams) (g : StepGeom) {δ : ℝ} (hδ : 0 ≤ δ) :
    CoordsNear p g (g.lower δ) δ := by
  have z : ∀ x : Pt, distPt x x ≤ δ := fun x => by simp [distPt, hδ]
  refine ⟨Iff.rfl, fun a _ => ?_, fun r s k sh _ => ?_, fun r _ => z _⟩
  · rcases coords_lower δ g a with h | h <;> rw [h]
    · exact ⟨z _, z _⟩
    · exact ⟨near_lower hδ _, near_lower hδ _⟩
  · rcases coords_lower δ g (.pv r s k sh) with h | h <;> rw [h]
    · exact ⟨z _, z _⟩
    · rw [Line.lower_highest, Line.lower_lowest]
      exact ⟨near_lower hδ _, near_lower hδ _⟩

/-- Two vertical rows whose surfaces are stored by 2 ^ (-52) lower than they are (even lower than the
lower edges of the rows), with operations that give numbers that are too large by 2 ^ (-53): some
coordinates differ, and no view factor is wrong by more than 2e-6. -/
theorem C97_demo (t : Fin 3) :
    let δ : ℝ := 1 / 2 ^ 52
    let A := tooLarge (1 / 2 ^ 53) (by norm_num)
    let g := fitStep vertArray vertStep
    let emp := isEmptyTs fun _ : Fin 3 => fitStep vertArray vertStep
    (g.lower δ).coords (.pv 0 .back 1 false) ≠ g.coords (.pv 0 .back 1 false) ∧
    CoordsNear vertArray g (g.lower δ) δ ∧
    (∀ a ∈ surfaces vertArray, ∀ b ∈ surfaces vertArray,
      |vfBetween vertArray (A.vfMatrix (inOrder 24) vertArray (g.lower δ) emp) a b
        - vfBetween vertArray (tsVfMatrix vertArray (fun _ : Fin 3 => vertStep) t) a b|
        ≤ 2 / 10 ^ 6) := by
  intro δ A g emp
  have hδ : 0 ≤ δ := by norm_num [δ]
  have hδ1 : δ ≤ 1 / 4 := by norm_num [δ]
  have hT : (inOrder 24).leaves = Multiset.range (nTsSurfaces vertArray) := by
    rw [inOrder_leaves, vert_count]
  have hc : vertArray.height - vertArray.width / 2 * sind vertStep.surfaceTilt = 1 / 2 := by
    norm_num [vertArray, vertStep, sind_90]
  have hab := C96_above vertArray vertStep vert_physicalArray vert_physicalStep
  rw [hc] at hab
  have hn := coordsNear_lower vertArray g hδ
  have hS := vert_sceneSize emp
  have hr' : RowsAbove vertArray (g.lower δ) (1 / 2) δ := by
    refine ⟨hδ, by linarith, fun r s k sh ha x hx r' hr' => ?_, fun sh e z ha x hx r hr => ?_⟩
    · obtain ⟨y, hy, -, h2, -⟩ := ends_lower hδ g _ x hx
      have := hab.low r s k sh ha y hy r' hr'
      change (g.row r').full.lowest.y ≤ _
      linarith
    · exact hab.above sh e z ha x (by cases sh <;> exact hx) r hr
  have box : ∀ a ∈ surfaces vertArray, ∀ x, x = ((g.lower δ).coords a).b1 ∨
      x = ((g.lower δ).coords a).b2 → -100 ≤ x.x ∧ x.x ≤ 100 ∧ -1 / 4 ≤ x.y ∧ x.y ≤ 5 / 2 := by
    intro a ha x hx
    obtain ⟨y, hy, h1, h2, h3⟩ := ends_lower hδ g a x hx
    have := vert_box a ha y hy
    obtain ⟨b1, b2, b3, b4⟩ := this
    refine ⟨by rw [h1]; exact b1, by rw [h1]; exact b2, ?_, h3.trans b4⟩
    have : y.y - 1 / 4 ≤ x.y := le_trans (by linarith) h2
    linarith
  have key : ∀ x y : Pt, (-100 ≤ x.x ∧ x.x ≤ 100 ∧ -1 / 4 ≤ x.y ∧ x.y ≤ 5 / 2) →
      (-100 ≤ y.x ∧ y.x ≤ 100 ∧ -1 / 4 ≤ y.y ∧ y.y ≤ 5 / 2) → distPt x y ≤ 203 := by
    intro x y hx hy
    unfold distPt
    rw [Real.sqrt_le_left (by norm_num)]
    have e1 : (y.y - x.y) ^ 2 ≤ 3 ^ 2 := sq_le_sq' (by linarith [hx.2.2.2, hy.2.2.1])
      (by linarith [hy.2.2.2, hx.2.2.1])
    have e2 : (y.x - x.x) ^ 2 ≤ 200 ^ 2 := sq_le_sq' (by linarith [hx.2.1, hy.1])
      (by linarith [hy.2.1, hx.1])
    norm_num at e1 e2 ⊢
    linarith
  have hS' : SceneSize vertArray (g.lower δ) emp 203 (1 / 2) := by
    refine ⟨hS.tol, hS.size, fun a ha => ?_, fun a ha b hb _ _ x hx y hy =>
      key x y (box a ha x hx) (box b hb y hy), fun a ha _ x hx r hr => ?_⟩
    · have := hS.long a ha
      rcases coords_lower δ g a with h | h <;> rw [h]
      · exact this
      · rw [Line.lower_length]; exact this
    · refine key x _ (box a ha x hx) ?_
      change -100 ≤ (g.row r).full.lowest.x ∧ (g.row r).full.lowest.x ≤ 100 ∧
        -1 / 4 ≤ (g.row r).full.lowest.y ∧ (g.row r).full.lowest.y ≤ 5 / 2
      rw [vert_low]
      have hr : r < 2 := hr
      have hr' : (r : ℝ) ≤ 1 := by exact_mod_cast Nat.lt_succ_iff.1 hr
      have hr0 : (0 : ℝ) ≤ r := by positivity
      refine ⟨?_, ?_, ?_, ?_⟩ <;> norm_num <;> linarith
  refine ⟨?_, hn, fun a ha b hb => ?_⟩
  · have h0 := vert_coords_left
    intro h
    have hk : ∃ x, (g.row 0).back[1]? = some x := by
      cases hx : (g.row 0).back[1]? with
      | some x => exact ⟨x, rfl⟩
      | none =>
        have e : g.coords (.pv 0 .back 1 false) = (default : SegGeom).illum := by
          unfold StepGeom.coords StepGeom.side
          simp only [List.getD_eq_getElem?_getD, hx, Option.getD_none, Bool.false_eq_true, if_false]
        rw [show g.coords (.pv 0 .back 1 false) = _ from h0] at e
        have := congrArg (fun l : Line => l.b2.y) e
        norm_num [default, instInhabitedSegGeom, instInhabitedLine, instInhabitedPt] at this
    obtain ⟨x, hx⟩ := hk
    have e1 : g.coords (.pv 0 .back 1 false) = x.illum := by
      unfold StepGeom.coords StepGeom.side
      simp only [List.getD_eq_getElem?_getD, hx, Option.getD_some, Bool.false_eq_true, if_false]
    have e2 : (g.lower δ).coords (.pv 0 .back 1 false) = x.illum.lower δ := by
      unfold StepGeom.coords StepGeom.side StepGeom.lower
      simp only [List.getD_eq_getElem?_getD, List.getElem?_map, hx, Option.map_some,
        Option.getD_some, Bool.false_eq_true, if_false, SegGeom.lower]
    rw [e1, e2] at h
    have := congrArg (fun l : Line => l.b2.y) h
    unfold Line.lower at this
    dsimp only at this
    have : δ = 0 := by linarith
    norm_num [δ] at this
  · refine ((C97_computed (by norm_num) (by norm_num) A (inOrder 24) vertArray
      (fun _ : Fin 3 => vertStep) t (g.lower δ) vert_physicalArray vert_physicalStep hT hS hS' hc.ge
      hr' hn hδ (by norm_num [δ, TOL]) a ha).1 b hb).trans ?_
    norm_num [entryBound, rowBound, grow, entryMove, δ]

end PVF

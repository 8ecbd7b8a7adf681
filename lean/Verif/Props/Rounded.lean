import Verif.Lemmas.RoundedMatrix
import Verif.Props.ViewFactors
import Verif.Props.Radiosity
import Verif.Props.Principles
import Verif.Props.Shape

/-!
# C96: rounding errors stay small

The other properties are about exact real numbers.  Here the operations on numbers have relative
errors of at most `ε` (`2 ^ (-53)` for the basic operations on numbers of 64 bits).
-/

namespace PVF

/-- C96: computed distances (and lengths of surfaces) have relative errors of about `3 * ε`. -/
theorem C96_distance {ε : ℝ} (h0 : 0 ≤ ε) (h1 : ε < 1) (A : Arith ε) (x y : Pt) :
    |A.dist x y - distPt x y| ≤ (grow ε ^ 3 - 1) * distPt x y :=
  ((A.dist_rel h0 h1 x y).near h0 h1 (distPt_nonneg _ _)).1

/-- C96: a wrong decision about whether the edge of the next row is in the way happens only if the
way around it is hardly longer; so computed string lengths are close to the exact ones. -/
theorem C96_string {ε : ℝ} (h0 : 0 ≤ ε) (h1 : ε < 1) (A : Arith ε) (P G O : Pt) (left : Bool)
    (σ : ℝ) (hσ : 0 ≤ σ) (ho : G.y < O.y) (hP : G.y < P.y) (hO : O.y ≤ P.y + σ) :
    |A.string P G O left - hottelString P G O left|
      ≤ (grow ε ^ 4 - 1) * (distPt G O + distPt O P)
        + (20 * (grow ε - 1) * (distPt G O * distPt G P / (P.y - G.y))
          + 2 * (σ * distPt G O / (O.y - G.y))) := by
  obtain ⟨m, n, b⟩ := A.string_mid h0 h1 P G O left hσ ho hP hO
  exact (abs_sub_le _ _ _).trans (add_le_add n.1 b)

/-- C96: every entry of the computed view factor matrix is close to the exact view factor for the
same coordinates. -/
theorem C96_matrix {ε D w c σ : ℝ} (h0 : 0 ≤ ε) (h1 : ε ≤ 1 / 8) (A : Arith ε) (T : SumTree)
    (p : ArrayParams) (g : StepGeom) (emp : SurfRef → Prop)
    (hT : T.leaves = Multiset.range (nTsSurfaces p)) (hs : SceneSize p g emp D w)
    (hr : RowsAbove p g c σ) (a : SurfRef) (ha : a ∈ surfaces p) :
    (∀ b ∈ surfaces p,
      |vfBetween p (A.vfMatrix T p g emp) a b - vfBetween p (vfMatrix p g emp) a b|
        ≤ entryBound ε D w c σ) ∧
    |vfToSky p (A.vfMatrix T p g emp) a - vfToSky p (vfMatrix p g emp) a|
      ≤ nTsSurfaces p * entryBound ε D w c σ + (grow ε ^ (nTsSurfaces p + 1) - 1)
        * (1 + ∑ b ∈ surfaces p, |vfBetween p (vfMatrix p g emp) a b|
          + nTsSurfaces p * entryBound ε D w c σ) :=
  ⟨fun _ hb => A.between_near h0 h1 ⟨hs, hr⟩ T hb, A.sky_near h0 h1 ⟨hs, hr⟩ hT ha⟩

/-- C96: rows of a fitted array are above the ground by the height of their lower edges. -/
theorem C96_above (p : ArrayParams) (u : StepIn) (hp : PhysicalArray p) (hu : PhysicalStep p u) :
    RowsAbove p (fitStep p u) (p.height - p.width / 2 * sind u.surfaceTilt) 0 := by
  have h := physical_of hp hu
  set rot := rotationFromTiltAzimuth u.surfaceAzimuth p.axisAzimuth u.surfaceTilt with hrot
  have hlow : lowY p rot.deg = p.height - p.width / 2 * sind u.surfaceTilt := by
    unfold lowY
    rw [upY_eq_abs h.lo h.hi, hrot, rotation_sind_abs u p hu.tilt_nonneg hu.tilt_lt]
  have hfl : ∀ r, ((fitStep p u).row r).full.lowest.y = lowY p rot.deg := by
    intro r
    have := congrArg Pt.y (full_lowest h r)
    rw [tPt_y, zero_mul, add_zero] at this
    exact this
  have hup := upY_nonneg h.lo h.hi
  refine ⟨le_rfl, by linarith [hu.above], ?_, ?_⟩
  · intro r s k sh hm x hx r' _
    have hk := (mem_allRefs_pv.1 (mem_surfaces.1 hm)).2
    have hc : (fitStep p u).coords (.pv r s k sh) = _ :=
      coords_pv_t (rot := rot) (sun := solar2dVector u.solarZenith u.solarAzimuth p.axisAzimuth)
        hk sh h.width.le h.lo h.hi
    obtain ⟨b1, b2, _⟩ := pv_iv_bounds (rot := rot)
      (sun := solar2dVector u.solarZenith u.solarAzimuth p.axisAzimuth) hk sh h.width.le
    rw [hfl, add_zero]
    have key : ∀ t, 0 ≤ t → lowY p rot.deg ≤ (tPt (rowCenter p r) p.width rot.deg t).y := by
      intro t ht
      rw [tPt_y]
      have := mul_nonneg ht hup
      linarith
    rw [hc] at hx
    split_ifs at hx with hz <;> rcases hx with rfl | rfl
    · exact key _ (b1.trans b2)
    · exact key _ b1
    · exact key _ b1
    · exact key _ (b1.trans b2)
  · intro sh e z hm x hx r _
    have hz := (mem_allRefs_gnd.1 (mem_surfaces.1 hm)).2
    have hc : (fitStep p u).coords (.gnd sh e z) = _ :=
      coords_gnd (rot := rot) (sun := solar2dVector u.solarZenith u.solarAzimuth p.axisAzimuth)
        h.distance.le sh e (show z ≤ p.nRows by omega)
    rw [hfl, hlow]
    rw [hc] at hx
    rcases hx with rfl | rfl <;> simp [Y_GROUND]

/-- C96: small errors in view factors, in the light from the sky and in the solution of the linear
system change the incident light only little, because less light is sent out than arrives. -/
theorem C96_system (p : ArrayParams) (F F' : ℕ → ℕ → ℝ) (e e' rho q0 qinc q0' qinc' : SurfRef → ℝ)
    (sky sky' r δ η₁ η₂ η₃ M : ℝ) (hb : RadiosityBalance p F e rho sky q0 qinc)
    (hF : ViewFactorsOk p F) (hr : ∀ a ∈ surfaces p, 0 ≤ rho a ∧ rho a ≤ r) (hr1 : r < 1)
    (hd : ∀ a ∈ surfaces p, ∑ b ∈ surfaces p, |vfBetween p F' a b - vfBetween p F a b|
      + |vfToSky p F' a - vfToSky p F a| ≤ δ)
    (hn : NearlySolved p F' e rho sky e' q0' qinc' sky' η₁ η₂ η₃ M) :
    ∀ a ∈ surfaces p, |qinc' a - qinc a| ≤ (η₁ + η₂ + η₃ + δ * M) / (1 - r) ∧
      |q0' a - q0 a| ≤ r * ((η₁ + η₂ + η₃ + δ * M) / (1 - r)) + η₂ := by
  obtain ⟨he, hsky, harr, hsent, hM⟩ := hn
  have hne : (surfaces p).Nonempty :=
    ⟨.gnd false 0 0, mem_surfaces.2 (mem_allRefs_gnd.2 (by simp))⟩
  obtain ⟨m, hm, hmax⟩ := Finset.exists_max_image (surfaces p) (fun a => |qinc' a - qinc a|) hne
  have hη₂ : 0 ≤ η₂ := (abs_nonneg _).trans hsky
  have hM0 : 0 ≤ M := (abs_nonneg _).trans hM.2
  have hr0 : 0 ≤ r := (hr m hm).1.trans (hr m hm).2
  set X := |qinc' m - qinc m| with hX
  have hX0 : 0 ≤ X := abs_nonneg _
  have sent : ∀ a ∈ surfaces p, |q0' a - q0 a| ≤ r * |qinc' a - qinc a| + η₂ := by
    intro a ha
    have e1 : q0' a - q0 a = (q0' a - rho a * qinc' a) + rho a * (qinc' a - qinc a) := by
      rw [hb.sent a ha]; ring
    rw [e1]
    refine (abs_add_le _ _).trans ?_
    rw [abs_mul, abs_of_nonneg (hr a ha).1]
    have := mul_le_mul_of_nonneg_right (hr a ha).2 (abs_nonneg (qinc' a - qinc a))
    linarith [hsent a ha]
  have step : X ≤ η₁ + η₂ + η₃ + δ * M + r * X := by
    have e1 : qinc' m - qinc m
        = (qinc' m - (e' m + ∑ b ∈ surfaces p, vfBetween p F' m b * q0' b + vfToSky p F' m * sky'))
          + (e' m - e m)
          + (∑ b ∈ surfaces p, (vfBetween p F' m b - vfBetween p F m b) * q0' b)
          + (∑ b ∈ surfaces p, vfBetween p F m b * (q0' b - q0 b))
          + (vfToSky p F' m - vfToSky p F m) * sky' + vfToSky p F m * (sky' - sky) := by
      rw [hb.arriving m hm]
      simp only [sub_mul, mul_sub, Finset.sum_sub_distrib]
      ring
    have t1 := harr m hm
    have t2 := he m hm
    have t3 : |∑ b ∈ surfaces p, (vfBetween p F' m b - vfBetween p F m b) * q0' b|
        ≤ (∑ b ∈ surfaces p, |vfBetween p F' m b - vfBetween p F m b|) * M := by
      refine (Finset.abs_sum_le_sum_abs _ _).trans ?_
      rw [Finset.sum_mul]
      refine Finset.sum_le_sum fun b hb' => ?_
      rw [abs_mul]
      exact mul_le_mul_of_nonneg_left (hM.1 b hb') (abs_nonneg _)
    have t4 : |∑ b ∈ surfaces p, vfBetween p F m b * (q0' b - q0 b)|
        ≤ (∑ b ∈ surfaces p, vfBetween p F m b) * (r * X + η₂) := by
      refine (Finset.abs_sum_le_sum_abs _ _).trans ?_
      rw [Finset.sum_mul]
      refine Finset.sum_le_sum fun b hb' => ?_
      rw [abs_mul, abs_of_nonneg (hF.nonneg m hm b hb')]
      refine mul_le_mul_of_nonneg_left ((sent b hb').trans ?_) (hF.nonneg m hm b hb')
      have := mul_le_mul_of_nonneg_left (hmax b hb') hr0
      linarith
    have t5 : |(vfToSky p F' m - vfToSky p F m) * sky'| ≤ |vfToSky p F' m - vfToSky p F m| * M := by
      rw [abs_mul]
      exact mul_le_mul_of_nonneg_left hM.2 (abs_nonneg _)
    have t6 : |vfToSky p F m * (sky' - sky)| ≤ vfToSky p F m * (r * X + η₂) := by
      rw [abs_mul, abs_of_nonneg (hF.nonneg_sky m hm)]
      refine mul_le_mul_of_nonneg_left ?_ (hF.nonneg_sky m hm)
      have := mul_nonneg hr0 hX0
      linarith
    have t7 := mul_le_mul_of_nonneg_right (hd m hm) hM0
    have t8 := mul_le_mul_of_nonneg_right (hF.sum_le m hm)
      (show 0 ≤ r * X + η₂ from add_nonneg (mul_nonneg hr0 hX0) hη₂)
    refine le_trans (le_of_eq (hX.trans (congrArg abs e1))) ?_
    refine (abs_add_le _ _).trans ?_
    refine (add_le_add_left ((abs_add_le _ _).trans (add_le_add_left ((abs_add_le _ _).trans
      (add_le_add_left ((abs_add_le _ _).trans (add_le_add_left (abs_add_le _ _) _)) _)) _)) _).trans
      ?_
    rw [add_mul] at t7 t8
    linarith
  have hle : X ≤ (η₁ + η₂ + η₃ + δ * M) / (1 - r) := by
    rw [le_div_iff₀ (by linarith)]
    linarith
  intro a ha
  have h := (hmax a ha).trans hle
  refine ⟨h, (sent a ha).trans ?_⟩
  have := mul_le_mul_of_nonneg_left h hr0
  linarith

/-- The sum of the errors of all view factors of a surface. -/
theorem rounded_rows {ι : Type*} [Fintype ι] {ε D w : ℝ} (h0 : 0 ≤ ε) (h1 : ε ≤ 1 / 8)
    (A : Arith ε) (T : SumTree) (p : ArrayParams) (u : ι → StepIn) (t : ι) (hp : PhysicalArray p)
    (hu : PhysicalStep p (u t)) (hT : T.leaves = Multiset.range (nTsSurfaces p))
    (hs : SceneSize p (fitStep p (u t)) (isEmptyTs fun t => fitStep p (u t)) D w) :
    ∀ a ∈ surfaces p, ∑ b ∈ surfaces p,
      |vfBetween p (A.vfMatrix T p (fitStep p (u t)) (isEmptyTs fun t => fitStep p (u t))) a b
        - vfBetween p (tsVfMatrix p u t) a b|
      + |vfToSky p (A.vfMatrix T p (fitStep p (u t)) (isEmptyTs fun t => fitStep p (u t))) a
        - vfToSky p (tsVfMatrix p u t) a| ≤ matrixBound (nTsSurfaces p) ε D w
          (p.height - p.width / 2 * sind (u t).surfaceTilt) 0 := by
  have hF := C02_viewFactorsOk p u t hp hu
  have hab := C96_above p (u t) hp hu
  have gn := grow_pow_one h0 (show ε < 1 by linarith) (nTsSurfaces p + 1)
  set c := p.height - p.width / 2 * sind (u t).surfaceTilt with hc
  intro a ha
  obtain ⟨m1, m2⟩ := C96_matrix h0 h1 A T p (fitStep p (u t)) (isEmptyTs fun t => fitStep p (u t))
    hT hs hab a ha
  have hcard : ((surfaces p).card : ℝ) = nTsSurfaces p := by
    unfold surfaces
    rw [List.toFinset_card_of_nodup (nodup_allRefs p), length_allRefs]
  have s1 := Finset.sum_le_sum m1
  rw [Finset.sum_const, nsmul_eq_mul, hcard] at s1
  have s2 : ∑ b ∈ surfaces p, |vfBetween p (tsVfMatrix p u t) a b| ≤ 1 := by
    rw [Finset.sum_congr rfl fun b hb => abs_of_nonneg (hF.nonneg a ha b hb)]
    linarith [hF.sum_le a ha, hF.nonneg_sky a ha]
  have s3 := mul_le_mul_of_nonneg_left (add_le_add_left (add_le_add_right s2 1)
    (nTsSurfaces p * entryBound ε D w c 0)) (show 0 ≤ grow ε ^ (nTsSurfaces p + 1) - 1 by linarith)
  unfold matrixBound
  refine (add_le_add s1 (m2.trans (add_le_add_right s3 _))).trans (le_of_eq ?_)
  ring

/-- C96: the light that full mode returns when its view factors are computed with rounding errors and
its linear system is solved up to small residuals is close to that of exact full mode. -/
theorem C96_full_mode {ι : Type*} [Fintype ι] {ε D w : ℝ} (h0 : 0 ≤ ε) (h1 : ε ≤ 1 / 8)
    (A : Arith ε) (T : SumTree) (p : ArrayParams) (u : ι → StepIn) (s : ι → IrrStep)
    (aoi : ι → Option (List Asg)) (o : ι → FullOut) (hrun : runFullMode p u s aoi = some o)
    (hinv : ∀ t, InverseOk p (s t)) (t : ι) (hp : PhysicalArray p) (hu : PhysicalStep p (u t))
    (hT : T.leaves = Multiset.range (nTsSurfaces p))
    (hs : SceneSize p (fitStep p (u t)) (isEmptyTs fun t => fitStep p (u t)) D w)
    (r : ℝ) (hr : ∀ a ∈ surfaces p, 0 ≤ (s t).rho a ∧ (s t).rho a ≤ r) (hr1 : r < 1)
    (e' q0' qinc' : SurfRef → ℝ) (sky' η₁ η₂ η₃ M : ℝ)
    (hn : NearlySolved p
      (A.vfMatrix T p (fitStep p (u t)) (isEmptyTs fun t => fitStep p (u t)))
      (fun a => ((s t).comp a).sum) (s t).rho (s t).sky e' q0' qinc' sky' η₁ η₂ η₃ M) :
    ∀ a ∈ surfaces p, |qinc' a - (o t).qinc a| ≤ (η₁ + η₂ + η₃
      + matrixBound (nTsSurfaces p) ε D w (p.height - p.width / 2 * sind (u t).surfaceTilt) 0 * M)
        / (1 - r) := fun a ha =>
  (C96_system p (tsVfMatrix p u t) _ _ e' _ _ _ q0' qinc' _ sky' r _ η₁ η₂ η₃ M
    (C06_radiosity p u s aoi o hrun hinv t).1 (C02_viewFactorsOk p u t hp hu) hr hr1
    (rounded_rows h0 h1 A T p u t hp hu hT hs) hn a ha).1

/-! ## Instances -/

/-- An arithmetic in which every operation gives a result that is too large. -/
noncomputable def tooLarge (ε : ℝ) (h : 0 ≤ ε) : Arith ε :=
  have err : ∀ z : ℝ, |(1 + ε) * z - z| ≤ ε * |z| := fun z => by
    rw [show (1 + ε) * z - z = ε * z by ring, abs_mul, abs_of_nonneg h]
  { add := fun x y => (1 + ε) * (x + y)
    sub := fun x y => (1 + ε) * (x - y)
    mul := fun x y => (1 + ε) * (x * y)
    div := fun x y => (1 + ε) * (x / y)
    sqrt := fun x => (1 + ε) * Real.sqrt x
    atan2 := fun y x => (1 + ε) * arctan2 y x
    add_err := fun _ _ => err _
    sub_err := fun _ _ => err _
    mul_err := fun _ _ => err _
    div_err := fun _ _ => err _
    sqrt_err := fun x _ => by
      have := err (Real.sqrt x)
      rwa [abs_of_nonneg (Real.sqrt_nonneg x)] at this
    atan2_err := fun _ _ => err _ }

theorem tooLarge_dist {ε : ℝ} (h : 0 ≤ ε) (x y : Pt) :
    (tooLarge ε h).dist x y = (1 + ε) ^ 3 * distPt x y := by
  unfold Arith.dist distPt
  change (1 + ε) * Real.sqrt ((1 + ε) * ((1 + ε) * (((1 + ε) * (y.y - x.y)) * ((1 + ε) * (y.y - x.y)))
    + (1 + ε) * (((1 + ε) * (y.x - x.x)) * ((1 + ε) * (y.x - x.x))))) = _
  rw [show (1 + ε) * ((1 + ε) * (((1 + ε) * (y.y - x.y)) * ((1 + ε) * (y.y - x.y)))
    + (1 + ε) * (((1 + ε) * (y.x - x.x)) * ((1 + ε) * (y.x - x.x))))
    = ((1 + ε) ^ 2) ^ 2 * ((y.y - x.y) ^ 2 + (y.x - x.x) ^ 2) by ring,
    Real.sqrt_mul (by positivity), Real.sqrt_sq (by positivity)]
  ring

theorem tooLarge_surfSurf {ε : ℝ} (h : 0 ≤ ε) (a b : Line) (ha : a.length > TOL) :
    (tooLarge ε h).surfSurf a b ((tooLarge ε h).length a) = (1 + ε) ^ 2 * vfSurfSurf a b a.length := by
  have T := TOL_pos
  have hl : (tooLarge ε h).length a = (1 + ε) ^ 3 * a.length := tooLarge_dist h a.b1 a.b2
  have h1 : 1 ≤ (1 + ε) ^ 3 := one_le_pow₀ (by linarith)
  have hl' : (tooLarge ε h).length a > TOL := by rw [hl]; nlinarith
  unfold Arith.surfSurf vfSurfSurf
  simp only [if_pos ha, if_pos hl', tooLarge_dist]
  rw [hl]
  change (1 + ε) * (|(1 + ε) * ((1 + ε) * ((1 + ε) ^ 3 * distPt a.b1 b.b2
    + (1 + ε) ^ 3 * distPt a.b2 b.b1) - (1 + ε) * ((1 + ε) ^ 3 * distPt a.b1 b.b1
    + (1 + ε) ^ 3 * distPt a.b2 b.b2))| / ((1 + ε) * (2 * ((1 + ε) ^ 3 * a.length)))) = _
  rw [show (1 + ε) * ((1 + ε) * ((1 + ε) ^ 3 * distPt a.b1 b.b2
    + (1 + ε) ^ 3 * distPt a.b2 b.b1) - (1 + ε) * ((1 + ε) ^ 3 * distPt a.b1 b.b1
    + (1 + ε) ^ 3 * distPt a.b2 b.b2)) = (1 + ε) ^ 5 * (distPt a.b1 b.b2 + distPt a.b2 b.b1
      - (distPt a.b1 b.b1 + distPt a.b2 b.b2)) by ring, abs_mul,
    abs_of_nonneg (show (0 : ℝ) ≤ (1 + ε) ^ 5 by positivity)]
  have : a.length ≠ 0 := by linarith
  have : 1 + ε ≠ 0 := by linarith
  field_simp

/-- Adding up numbers one after the other. -/
def inOrder : ℕ → SumTree
  | 0 => .leaf 0
  | n + 1 => .node (inOrder n) (.leaf (n + 1))

theorem inOrder_leaves (n : ℕ) : (inOrder n).leaves = Multiset.range (n + 1) := by
  induction n with
  | zero => rfl
  | succ n ih =>
    rw [inOrder, SumTree.leaves, ih, SumTree.leaves, Multiset.range_succ (n + 1), add_comm]
    rfl

theorem vert_count : nTsSurfaces vertArray = 25 := by
  simp [nTsSurfaces, vertArray, ArrayParams.nFront, ArrayParams.nBack, List.range_succ]

set_option maxHeartbeats 1600000 in
/-- Ends of surfaces of the example. -/
theorem vert_box : ∀ a ∈ surfaces vertArray,
    ∀ x, x = ((fitStep vertArray vertStep).coords a).b1 ∨
      x = ((fitStep vertArray vertStep).coords a).b2 →
    -100 ≤ x.x ∧ x.x ≤ 100 ∧ 0 ≤ x.y ∧ x.y ≤ 5 / 2 := by
  have hn : (fitStep vertArray vertStep).ground.nRows = 2 := rfl
  have x0 := vert_xs 0 (by norm_num)
  have x1 := vert_xs 1 (by norm_num)
  intro a hm x hx
  rw [mem_surfaces] at hm
  match a with
  | .gnd false e z =>
    have hm := mem_allRefs_gnd.1 hm
    simp only [Bool.false_eq_true, if_false, vertArray] at hm
    obtain ⟨he, hz⟩ := hm
    rcases hx with rfl | rfl <;> interval_cases e <;> interval_cases z <;>
    simp [StepGeom.coords, GroundIn.illumEl, GroundIn.shadowEl, x0, x1, hn, vert_cuts,
      cutSurfaces, coordsLeftOfCut, leftOfCutX, coordsRightOfCut, rightOfCutX,
      clip, MIN_X, MAX_X, Y_GROUND] <;> norm_num
  | .gnd true e z =>
    have hm := mem_allRefs_gnd.1 hm
    simp only [if_true, vertArray] at hm
    obtain ⟨he, hz⟩ := hm
    rcases hx with rfl | rfl <;> interval_cases e <;> interval_cases z <;>
    simp [StepGeom.coords, GroundIn.illumEl, GroundIn.shadowEl, x0, x1, hn, vert_cuts,
      cutSurfaces, coordsLeftOfCut, leftOfCutX, coordsRightOfCut, rightOfCutX,
      clip, MIN_X, MAX_X, Y_GROUND] <;> norm_num
  | .pv i s k sh =>
    obtain ⟨hi, hk⟩ := mem_allRefs_pv.1 hm
    have hi : i < 2 := hi
    have hc := coords_pv_t (rot := ⟨90, false⟩) (sun := ⟨-(Real.sqrt 2 / 2), Real.sqrt 2 / 2⟩) hk sh
      (show (0 : ℝ) ≤ vertArray.width by norm_num [vertArray]) (by norm_num) (by norm_num)
    obtain ⟨b1, b2, b3⟩ := pv_iv_bounds (rot := ⟨90, false⟩)
      (sun := ⟨-(Real.sqrt 2 / 2), Real.sqrt 2 / 2⟩) hk sh
      (show (0 : ℝ) ≤ vertArray.width by norm_num [vertArray])
    rw [if_neg (by norm_num), ← vert_fit] at hc
    rw [hc] at hx
    have key : ∀ t, 0 ≤ t → t ≤ vertArray.width →
        -100 ≤ (tPt (rowCenter vertArray i) vertArray.width 90 t).x ∧
        (tPt (rowCenter vertArray i) vertArray.width 90 t).x ≤ 100 ∧
        0 ≤ (tPt (rowCenter vertArray i) vertArray.width 90 t).y ∧
        (tPt (rowCenter vertArray i) vertArray.width 90 t).y ≤ 5 / 2 := by
      intro t h0 h1
      have h1 : t ≤ 2 := h1
      have hi' : (i : ℝ) ≤ 1 := by exact_mod_cast Nat.lt_succ_iff.1 hi
      have hi0 : (0 : ℝ) ≤ i := by positivity
      norm_num [tPt, rowPt, cosd_90, sind_90, rowCenter, vertArray, ArrayParams.distance, X_ORIGIN,
        Y_GROUND]
      refine ⟨?_, ?_, ?_, ?_⟩ <;> linarith
    rcases hx with rfl | rfl
    · exact key _ b1 (b2.trans b3)
    · exact key _ (b1.trans b2) b3

theorem vert_half : ∀ a ∈ surfaces vertArray,
    lengthAt vertArray vertStep a = 0 ∨ 1 / 2 ≤ lengthAt vertArray vertStep a := by
  have horiz : ∀ (x y h : ℝ), Line.length ⟨⟨x, h⟩, ⟨y, h⟩⟩ = |y - x| := by
    intro x y h
    simp [Line.length, Real.sqrt_sq_eq_abs]
  have hn : (fitStep vertArray vertStep).ground.nRows = 2 := rfl
  have x0 := vert_xs 0 (by norm_num)
  have x1 := vert_xs 1 (by norm_num)
  intro a hm
  rw [mem_surfaces] at hm
  unfold lengthAt
  match a with
  | .gnd false e z =>
    have hm := mem_allRefs_gnd.1 hm
    simp only [Bool.false_eq_true, if_false, vertArray] at hm
    obtain ⟨he, hz⟩ := hm
    interval_cases e <;> interval_cases z <;>
    simp [StepGeom.coords, GroundIn.illumEl, GroundIn.shadowEl, x0, x1, hn, vert_cuts,
      cutSurfaces, coordsLeftOfCut, leftOfCutX, coordsRightOfCut, rightOfCutX,
      clip, MIN_X, MAX_X, TOL, Y_GROUND, horiz] <;> norm_num
  | .gnd true e z =>
    have hm := mem_allRefs_gnd.1 hm
    simp only [if_true, vertArray] at hm
    obtain ⟨he, hz⟩ := hm
    interval_cases e <;> interval_cases z <;>
    simp [StepGeom.coords, GroundIn.illumEl, GroundIn.shadowEl, x0, x1, hn, vert_cuts,
      cutSurfaces, coordsLeftOfCut, leftOfCutX, coordsRightOfCut, rightOfCutX,
      clip, MIN_X, MAX_X, TOL, Y_GROUND, horiz] <;> norm_num
  | .pv i s k sh =>
    obtain ⟨hi, hk⟩ := mem_allRefs_pv.1 hm
    rw [vert_fit, length_pv hk sh (by norm_num [vertArray]) (by norm_num) (by norm_num)]
    have hsh : sideShade vertArray (arctan2 (Real.sqrt 2 / 2) (-(Real.sqrt 2 / 2))) 90 i s = 0 := by
      unfold sideShade rowShadedLengths
      rw [vert_alpha, vert_interrow]
      cases s <;> simp
    unfold pvIv
    simp only [hsh]
    have hi : i < 2 := hi
    interval_cases i <;> cases s <;>
      simp [vertArray, ArrayParams.nSeg, ArrayParams.nBack, ArrayParams.nFront] at hk <;>
      first | subst hk | interval_cases k
    all_goals cases sh <;>
      simp [tIv, tSeg, TOL, vertArray, ArrayParams.nSeg, ArrayParams.nBack,
        ArrayParams.nFront] <;> norm_num

theorem vert_sceneSize (emp : SurfRef → Prop) :
    SceneSize vertArray (fitStep vertArray vertStep) emp 203 (1 / 2) := by
  have key : ∀ x y : Pt, (-100 ≤ x.x ∧ x.x ≤ 100 ∧ 0 ≤ x.y ∧ x.y ≤ 5 / 2) →
      (-100 ≤ y.x ∧ y.x ≤ 100 ∧ 0 ≤ y.y ∧ y.y ≤ 5 / 2) → distPt x y ≤ 203 := by
    intro x y hx hy
    unfold distPt
    rw [Real.sqrt_le_left (by norm_num)]
    have e1 : (y.y - x.y) ^ 2 ≤ 3 ^ 2 := sq_le_sq' (by linarith [hx.2.2.2, hy.2.2.1])
      (by linarith [hy.2.2.2, hx.2.2.1])
    have e2 : (y.x - x.x) ^ 2 ≤ 200 ^ 2 := sq_le_sq' (by linarith [hx.2.1, hy.1])
      (by linarith [hy.2.1, hx.1])
    norm_num at e1 e2 ⊢
    linarith
  refine ⟨by norm_num [TOL], by norm_num, fun a ha => (vert_half a ha).imp_left fun h => ?_,
    ?_, ?_⟩
  · have h : ((fitStep vertArray vertStep).coords a).length = 0 := h
    rw [h, mul_zero]; exact TOL_pos.le
  · intro a ha b hb _ _ x hx y hy
    exact key x y (vert_box a ha x hx) (vert_box b hb y hy)
  · intro a ha _ x hx r hr
    refine key x _ (vert_box a ha x hx) ?_
    rw [vert_low]
    have hr : r < 2 := hr
    have hr' : (r : ℝ) ≤ 1 := by exact_mod_cast Nat.lt_succ_iff.1 hr
    have hr0 : (0 : ℝ) ≤ r := by positivity
    refine ⟨?_, ?_, ?_, ?_⟩ <;> norm_num <;> linarith

theorem vert_bounds : entryBound (1 / 2 ^ 53) 203 (1 / 2) (1 / 2) 0 ≤ 1 / 10 ^ 6 ∧
    matrixBound 25 (1 / 2 ^ 53) 203 (1 / 2) (1 / 2) 0 ≤ 1 / 10 ^ 4 := by
  constructor <;> norm_num [matrixBound, entryBound, rowBound, grow]

/-- Two vertical rows, with an arithmetic that gives numbers that are too large in the last of 53
binary digits: the view factor between the two rows is not exact, no entry of the view factor matrix
is wrong by more than 1e-6, and the incident light is not wrong by more than 3e-4 times the largest
luminance. -/
theorem C96_demo (t : Fin 3) :
    let A := tooLarge (1 / 2 ^ 53) (by norm_num)
    let g := fitStep vertArray vertStep
    let emp := isEmptyTs fun _ : Fin 3 => fitStep vertArray vertStep
    let F' := A.vfMatrix (inOrder 24) vertArray g emp
    let F := tsVfMatrix vertArray (fun _ : Fin 3 => vertStep) t
    let v := inputAt halfPvlib (oneStep 90 270 45 270) 0
    (A.vfPvPv (g.coords (.pv 0 .back 1 false)) (g.coords (.pv 1 .front 0 false)) True false).1
      ≠ (vfPvPv (g.coords (.pv 0 .back 1 false)) (g.coords (.pv 1 .front 0 false)) True false).1 ∧
    (∀ a ∈ surfaces vertArray, ∀ b ∈ surfaces vertArray,
      |vfBetween vertArray F' a b - vfBetween vertArray F a b| ≤ 1 / 10 ^ 6) ∧
    ∃ (o : Fin 3 → FullOut) (q0 qinc : SurfRef → ℝ) (M η : ℝ),
      runFullMode vertArray (fun _ => vertStep) (fun _ => isotropicStep demoIrrParams v)
        (fun _ => none) = some o ∧
      NearlySolved vertArray F' (fun a => ((isotropicStep demoIrrParams v).comp a).sum)
        (isotropicStep demoIrrParams v).rho (isotropicStep demoIrrParams v).sky
        (fun a => ((isotropicStep demoIrrParams v).comp a).sum) q0 qinc
        (isotropicStep demoIrrParams v).sky 0 η 0 M ∧
      ∀ a ∈ surfaces vertArray, |qinc a - (o t).qinc a| ≤ 3 / 10 ^ 4 * M := by
  intro A g emp F' F v
  have hε0 : (0 : ℝ) ≤ 1 / 2 ^ 53 := by norm_num
  have hε1 : (1 : ℝ) / 2 ^ 53 ≤ 1 / 8 := by norm_num
  have hT : (inOrder 24).leaves = Multiset.range (nTsSurfaces vertArray) := by
    rw [inOrder_leaves, vert_count]
  have hS : SceneSize vertArray g emp 203 (1 / 2) := vert_sceneSize emp
  have hc : vertArray.height - vertArray.width / 2 * sind vertStep.surfaceTilt = 1 / 2 := by
    norm_num [vertArray, vertStep, sind_90]
  have hab := C96_above vertArray vertStep vert_physicalArray vert_physicalStep
  rw [hc] at hab
  have hloss : LossesOk demoIrrParams v := by
    refine ⟨by norm_num [demoIrrParams], by norm_num [demoIrrParams], ?_⟩
    have : v.albedo = 1 / 10 := rfl
    rw [this]; norm_num
  obtain ⟨o, ho⟩ := C07_isotropic vertArray (fun _ : Fin 3 => vertStep) demoIrrParams
    (fun _ => v) (fun _ => none) (fun _ => hloss) vert_physicalArray (fun _ => vert_physicalStep)
  refine ⟨?_, ?_, o, ?_⟩
  · have hl : (⟨⟨0, 3 / 2⟩, ⟨0, 5 / 2⟩⟩ : Line).length = 1 := by norm_num [Line.length]
    have hs : vfSurfSurf ⟨⟨0, 3 / 2⟩, ⟨0, 5 / 2⟩⟩ ⟨⟨5, 1 / 2⟩, ⟨5, 5 / 2⟩⟩ 1 ≠ 0 := by
      have h29 : (5 : ℝ) < Real.sqrt 29 := Real.lt_sqrt_of_sq_lt (by norm_num)
      have h25 : Real.sqrt 25 = 5 := by
        rw [show (25 : ℝ) = 5 ^ 2 by norm_num, Real.sqrt_sq (by norm_num)]
      unfold vfSurfSurf
      norm_num [distPt, TOL, h25]
      intro h
      linarith
    simp only [Arith.vfPvPv, vfPvPv, Bool.false_eq_true, if_false, if_true, g, vert_coords_left,
      vert_coords_right]
    rw [tooLarge_surfSurf _ _ _ (by rw [hl]; norm_num [TOL]), hl]
    intro h
    have := mul_right_cancel₀ hs (h.trans (one_mul _).symm)
    norm_num at this
  · intro a ha b hb
    exact ((C96_matrix hε0 hε1 A (inOrder 24) vertArray g emp hT hS hab a ha).1 b hb).trans
      vert_bounds.1
  · have hrow := rounded_rows hε0 hε1 A (inOrder 24) vertArray (fun _ : Fin 3 => vertStep) t
      vert_physicalArray vert_physicalStep hT hS
    set s := isotropicStep demoIrrParams v with hs
    have hinv : InverseOk vertArray s := isotropic_inverseOk vertArray demoIrrParams v
      (by norm_num [demoIrrParams]) (by norm_num [demoIrrParams])
      (by have : v.albedo = 1 / 10 := rfl
          rw [this]; norm_num)
    have hbal := (C06_radiosity vertArray (fun _ : Fin 3 => vertStep) (fun _ => s) (fun _ => none) o
      ho (fun _ => hinv) t).1
    have hr : ∀ a ∈ surfaces vertArray, 0 ≤ s.rho a ∧ s.rho a ≤ 1 / 10 := by
      have : v.albedo = 1 / 10 := rfl
      intro a _
      match a with
      | .gnd _ _ _ => simp only [hs, isotropicStep, rhoOf, this]; norm_num
      | .pv _ .front _ _ => simp only [hs, isotropicStep, rhoOf]; norm_num [demoIrrParams]
      | .pv _ .back _ _ => simp only [hs, isotropicStep, rhoOf]; norm_num [demoIrrParams]
    have hb := vert_bounds.2
    rw [hc, vert_count] at hrow
    set δ := matrixBound 25 (1 / 2 ^ 53) 203 (1 / 2) (1 / 2) 0 with hδ
    set M := ∑ a ∈ surfaces vertArray, |(o t).q0 a| + |s.sky| with hM
    have hM1 : ∀ a ∈ surfaces vertArray, |(o t).q0 a| ≤ M := fun a ha => by
      have := Finset.single_le_sum (fun b _ => abs_nonneg ((o t).q0 b)) ha
      have := abs_nonneg s.sky
      linarith
    have hM2 : |s.sky| ≤ M := by
      have := Finset.sum_nonneg fun b (_ : b ∈ surfaces vertArray) => abs_nonneg ((o t).q0 b)
      linarith
    have hM0 : 0 ≤ M := (abs_nonneg _).trans hM2
    have hn : NearlySolved vertArray F' (fun a => (s.comp a).sum) s.rho s.sky
        (fun a => (s.comp a).sum) (o t).q0 (fun a => (s.comp a).sum
          + ∑ b ∈ surfaces vertArray, vfBetween vertArray F' a b * (o t).q0 b
          + vfToSky vertArray F' a * s.sky) s.sky 0 (δ * M) 0 M := by
      have hδ0 : 0 ≤ δ := by
        refine le_trans ?_ (hrow (.gnd false 0 0) (mem_surfaces.2 (mem_allRefs_gnd.2 (by simp))))
        exact add_nonneg (Finset.sum_nonneg fun _ _ => abs_nonneg _) (abs_nonneg _)
      refine ⟨fun a _ => by simp, by simpa using mul_nonneg hδ0 hM0, fun a _ => by simp,
        fun a ha => ?_, hM1, hM2⟩
      have e1 : (o t).q0 a - s.rho a * ((s.comp a).sum
          + ∑ b ∈ surfaces vertArray, vfBetween vertArray F' a b * (o t).q0 b
          + vfToSky vertArray F' a * s.sky)
          = - s.rho a * (∑ b ∈ surfaces vertArray,
              (vfBetween vertArray F' a b - vfBetween vertArray F a b) * (o t).q0 b
            + (vfToSky vertArray F' a - vfToSky vertArray F a) * s.sky) := by
        rw [hbal.sent a ha, hbal.arriving a ha]
        simp only [sub_mul, Finset.sum_sub_distrib]
        ring
      have e2 : |∑ b ∈ surfaces vertArray,
              (vfBetween vertArray F' a b - vfBetween vertArray F a b) * (o t).q0 b
            + (vfToSky vertArray F' a - vfToSky vertArray F a) * s.sky| ≤ δ * M := by
        refine (abs_add_le _ _).trans (le_trans ?_ (mul_le_mul_of_nonneg_right (hrow a ha) hM0))
        rw [add_mul, Finset.sum_mul]
        refine add_le_add ((Finset.abs_sum_le_sum_abs _ _).trans (Finset.sum_le_sum fun b hb' => ?_))
          ?_
        · rw [abs_mul]; exact mul_le_mul_of_nonneg_left (hM1 b hb') (abs_nonneg _)
        · rw [abs_mul]; exact mul_le_mul_of_nonneg_left hM2 (abs_nonneg _)
      rw [e1, abs_mul, abs_neg, abs_of_nonneg (hr a ha).1]
      have := mul_le_mul (hr a ha).2 e2 (abs_nonneg _) (by norm_num)
      nlinarith [mul_nonneg hδ0 hM0]
    refine ⟨(o t).q0, _, M, δ * M, ho, hn, fun a ha => ?_⟩
    have h := C96_full_mode hε0 hε1 A (inOrder 24) vertArray (fun _ : Fin 3 => vertStep)
      (fun _ => s) (fun _ => none) o ho (fun _ => hinv) t vert_physicalArray vert_physicalStep hT hS
      (1 / 10) hr (by norm_num) _ _ _ _ _ _ _ M hn a ha
    rw [hc, vert_count, ← hδ] at h
    refine h.trans ?_
    have := mul_le_mul_of_nonneg_right hb hM0
    rw [div_le_iff₀ (by norm_num)]
    linarith

end PVF

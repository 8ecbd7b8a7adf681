import Verif.Lemmas.RoundedHorizon
import Verif.Props.Horizon
import Verif.Props.Defined
import Verif.Props.RoundedFast

/-!
# Accuracy of irradiance models
-/

namespace PVF

theorem cats_near {c' c : Cats} {E : ℝ} (h1 : |c'.groundIllum - c.groundIllum| ≤ E)
    (h2 : |c'.groundShaded - c.groundShaded| ≤ E) (h3 : |c'.frontIllum - c.frontIllum| ≤ E)
    (h4 : |c'.frontShaded - c.frontShaded| ≤ E) (h5 : |c'.backIllum - c.backIllum| ≤ E)
    (h6 : |c'.backShaded - c.backShaded| ≤ E) (a : SurfRef) : |c'.get a - c.get a| ≤ E := by
  match a with
  | .gnd true _ _ => exact h2
  | .gnd false _ _ => exact h1
  | .pv _ .front _ true => exact h4
  | .pv _ .front _ false => exact h3
  | .pv _ .back _ true => exact h6
  | .pv _ .back _ false => exact h5

/-- C101: all terms of the isotropic irradiance model are close to the exact ones, for all surfaces. -/
theorem C101_isotropic {ε G : ℝ} (h0 : 0 ≤ ε) (A : LightArith ε) (q : IrrParams) (v : IrrIn)
    (hv : LightInput A q v G) (hS : sineErr ε G ≤ 1 / 20) (surf : Finset SurfRef) :
    TermsNear surf (13 * sineErr ε G * (|v.dni| + |v.dhi| + |v.poaGlobal|)) (A.isotropicLight q v)
      (isotropicStep q v).light := by
  obtain ⟨⟨a1, -⟩, ⟨b1, b2⟩, ⟨c1, c2⟩, ⟨d1, -⟩, ⟨e1, -⟩, f1, -⟩ := LightArith.direct_near h0 A hv hS
  have g := LightArith.ghi_near h0 A hv hS
  have h14 := LightArith.eps_le h0 A hv
  set S := sineErr ε G
  have N0 : 0 ≤ |v.dni| := abs_nonneg _
  have D0 : 0 ≤ |v.dhi| := abs_nonneg _
  have P0 : 0 ≤ |v.poaGlobal| := abs_nonneg _
  have S0 : 0 ≤ S := by linarith
  have SN := mul_nonneg S0 N0
  have SD := mul_nonneg S0 D0
  have SP := mul_nonneg S0 P0
  have eN := mul_le_mul_of_nonneg_right h14 N0
  have eD := mul_le_mul_of_nonneg_right h14 D0
  have eP := mul_le_mul_of_nonneg_right h14 P0
  have eS : ε * (S * |v.dni|) ≤ 1 / 280 * (S * |v.dni|) :=
    mul_le_mul_of_nonneg_right (by linarith) SN
  have E : 13 * S * (|v.dni| + |v.dhi| + |v.poaGlobal|)
      = 13 * (S * |v.dni|) + 13 * (S * |v.dhi|) + 13 * (S * |v.poaGlobal|) := by ring
  refine ⟨fun a _ => List.Forall₂.cons ?_ List.Forall₂.nil, ?_, ?_, ?_, rfl⟩
  · rw [E]
    exact cats_near (by linarith) (by linarith) (by linarith) (by linarith) (by linarith) (by linarith) a
  · have := A.toArith.add_abs h0 (x' := v.dhi) (x := v.dhi) (a := 0) (by simp) b1 (le_refl _) b2
    refine LE.le.trans this ?_
    linarith
  · refine LE.le.trans g ?_
    linarith
  · have := A.toArith.sub_abs h0 (x' := v.poaGlobal) (x := v.poaGlobal) (a := 0) (by simp) c1 (le_refl _)
      c2
    refine LE.le.trans this ?_
    linarith

theorem distPt_x {x y : Pt} {τ : ℝ} (h : distPt x y ≤ τ) : |x.x - y.x| ≤ τ := by
  refine le_trans ?_ h
  unfold distPt
  rw [abs_sub_comm]
  exact Real.abs_le_sqrt (by nlinarith [sq_nonneg (y.y - x.y)])

/-- The light of the horizon band on surfaces whose coordinates have errors. -/
theorem horizon_near {ε B τ δ m : ℝ} (h0 : 0 ≤ ε) (hε : ε ≤ 1 / 280) (A : LightArith ε) (q : IrrParams)
    (v : IrrIn) (p : ArrayParams) (u : StepIn) (hp : PhysicalArray p) (hst : PhysicalStep p u)
    (hB : ArraySize p B) (g' : StepGeom) (hn : CoordsNear p (fitStep p u) g' τ) (hτ0 : 0 ≤ τ)
    (htop : ∀ r < p.nRows, distPt ((fitStep p u).row r).full.highest (g'.row r).full.highest ≤ τ)
    (hm : 0 < m) (hm1 : m ≤ p.distance - p.width * |cosd u.surfaceTilt|) (hb : 0 < q.horizonBandAngle)
    (hδ : δ = 3 * τ + 15 / 2 * (ε * B)) (hδm : 4 * δ ≤ m) (a : SurfRef) (ha : a ∈ surfaces p) :
    |A.horizonOf q p g' v a - horizonOf q p (fitStep p u) v a|
      ≤ |v.perez.poaHorizon| * horizonErr ε δ p.width m q.horizonBandAngle := by
  have B0 : 0 < B := hB.width_pos.trans_le hB.width
  have εB : 0 ≤ ε * B := by positivity
  have δ0 : 0 ≤ δ := by rw [hδ]; linarith
  have hw := hB.width_pos
  have E0 : 0 ≤ horizonErr ε δ p.width m q.horizonBandAngle := by unfold horizonErr; positivity
  match a, ha with
  | .gnd _ _ _, _ =>
    simp only [LightArith.horizonOf, horizonOf, sub_self, abs_zero]
    positivity
  | .pv _ .front _ _, _ =>
    simp only [LightArith.horizonOf, horizonOf, sub_self, abs_zero]
    positivity
  | .pv r .back k sh, ha =>
    have hph := physical_of hp hst
    set rot := rotationFromTiltAzimuth u.surfaceAzimuth p.axisAzimuth u.surfaceTilt with hrot
    have hcos : |cosd rot.deg| = |cosd u.surfaceTilt| := by rw [hrot, rotation_cosd_abs]
    set sun := solar2dVector u.solarZenith u.solarAzimuth p.axisAzimuth with hsun
    obtain ⟨hr, hk⟩ := mem_allRefs_pv.1 (mem_surfaces.1 ha)
    obtain ⟨ρ, r0, r1, hX⟩ := middle_on_row (sun := sun) hph hk sh
    have hX' : ((fitStep p u).coords (.pv r .back k sh)).centroid = rowPt (rowCenter p r) rot.deg ρ := hX
    obtain ⟨d1, d2⟩ := hn.ends _ ha
    obtain ⟨p1, p2⟩ : InBox (3 / 2 * B) ((fitStep p u).coords (.pv r .back k sh)).b1 ∧
        InBox (3 / 2 * B) ((fitStep p u).coords (.pv r .back k sh)).b2 := by
      obtain ⟨ba, bab, bb⟩ := pv_iv_bounds (rot := rot) (sun := sun) hk sh hw.le
      have e : (fitStep p u).coords (.pv r .back k sh) = (fitGeom p rot sun).coords (.pv r .back k sh) :=
        rfl
      rw [e, coords_pv_t hk sh hph.width.le hph.lo hph.hi]
      have i1 := inside_tPt hB hr rot.deg ba (by linarith)
      have i2 := inside_tPt hB hr rot.deg (by linarith) bb
      split_ifs
      · exact ⟨i2, i1⟩
      · exact ⟨i1, i2⟩
    have cen := A.centroid_near h0 hε (l := (fitStep p u).coords (.pv r .back k sh))
      (l' := g'.coords (.pv r .back k sh)) (τ := τ) (X := 3 / 2 * B)
      (by rw [abs_sub_comm]; exact distPt_x d1) (by rw [abs_sub_comm]; exact distPt_y d1)
      (by rw [abs_sub_comm]; exact distPt_x d2) (by rw [abs_sub_comm]; exact distPt_y d2)
      p1.1 p1.2 p2.1 p2.2
    rw [show 3 * τ + 5 * (ε * (3 / 2 * B)) = δ by rw [hδ]; ring] at cen
    set X := ((fitStep p u).coords (.pv r .back k sh)).centroid with hXd
    set X' := A.centroid (g'.coords (.pv r .back k sh)) with hXd'
    set b := q.horizonBandAngle
    set D := 240 * (1 + p.width / m) * (δ / m + 4 * ε) with hD
    have pct : |A.horizonShadingPct q p g' X' r - horizonShadingPct q p (fitStep p u) X r true|
        ≤ 100 * (D / b + 3 * ε) := by
      have D0 : 0 ≤ D := by positivity
      have z : |(0 : ℝ) - 0| ≤ 100 * (D / b + 3 * ε) := by simp; positivity
      have one : ∀ j < p.nRows, (j = r + 1 ∨ r = j + 1) →
          |A.horizonBandShading (A.shadingAngleTo (g'.row j).full X') b
            - horizonBandShading (shadingAngleTo ((fitStep p u).row j).full X) b|
            ≤ 100 * (D / b + 3 * ε) := by
        intro j hj hjr
        have t := htop j hj
        have hfull : ((fitStep p u).row j).full.highest
            = rowPt (rowCenter p j) rot.deg (topPos p.width rot.deg) := by
          have : ((fitStep p u).row j).full = fullRowCoords (rowCenter p j) p.width rot.deg := rfl
          rw [this, highest_full _ hw]
        obtain ⟨t0, t1⟩ := topPos_bounds hw rot.deg
        obtain ⟨c1, c2⟩ := rowCenter_sub p j r
        have hle : |topPos p.width rot.deg - ρ| ≤ p.width := by
          rw [abs_le]
          constructor <;> linarith
        have ex : ((fitStep p u).row j).full.highest.x - X.x
            = ((j : ℝ) - r) * p.distance + (topPos p.width rot.deg - ρ) * cosd rot.deg := by
          rw [hfull, hX']
          simp only [rowPt]
          linear_combination c1
        have ey : ((fitStep p u).row j).full.highest.y - X.y
            = (topPos p.width rot.deg - ρ) * sind rot.deg := by
          rw [hfull, hX']
          simp only [rowPt, c2]
          ring
        have δτ : τ ≤ δ := by rw [hδ]; linarith
        refine A.band_near h0 hε hb (A.angle_near h0 hε
          ((by rw [abs_sub_comm]; exact distPt_x t : _ ≤ τ).trans δτ)
          ((by rw [abs_sub_comm]; exact distPt_y t : _ ≤ τ).trans δτ) cen.1 cen.2 hm hδm ?_ ?_)
        · rw [ex]
          have i1 : |(topPos p.width rot.deg - ρ) * cosd rot.deg| ≤ p.width * |cosd u.surfaceTilt| := by
            rw [abs_mul, hcos]
            exact mul_le_mul_of_nonneg_right hle (abs_nonneg _)
          have i2 : p.distance ≤ |((j : ℝ) - r) * p.distance| := by
            rw [abs_mul]
            have : |(j : ℝ) - r| = 1 := by
              rcases hjr with h | h
              · rw [h]; push_cast; simp
              · rw [h]; push_cast; simp
            rw [this, one_mul]
            exact le_abs_self _
          have i3 := abs_sub_abs_le_abs_add (((j : ℝ) - r) * p.distance)
            ((topPos p.width rot.deg - ρ) * cosd rot.deg)
          linarith
        · rw [ey, abs_mul]
          have := mul_le_mul hle (Real.abs_sin_le_one (deg2rad rot.deg)) (abs_nonneg _) hw.le
          rw [mul_one] at this
          exact this
      unfold LightArith.horizonShadingPct horizonShadingPct
      simp only [if_true]
      have ht := hn.tilt
      by_cases c : 0 < (fitStep p u).rot.deg
      · rw [if_pos (show g'.rot.deg > 0 from ht.2 c), if_pos (show (fitStep p u).rot.deg > 0 from c)]
        by_cases e : r = p.nRows - 1
        · rw [if_pos e, if_pos e]; exact z
        · rw [if_neg e, if_neg e]
          exact one (r + 1) (by omega) (Or.inl rfl)
      · rw [if_neg (show ¬ g'.rot.deg > 0 from fun h => c (ht.1 h)),
          if_neg (show ¬ (fitStep p u).rot.deg > 0 from c)]
        by_cases e : r = 0
        · rw [if_pos e, if_pos e]; exact z
        · rw [if_neg e, if_neg e]
          exact one (r - 1) (by omega) (Or.inr (by omega))
    have small : |horizonShadingPct q p (fitStep p u) X r true| ≤ 100 := by
      have hbd := (C35_horizon_band hb).1
      have : 0 ≤ horizonShadingPct q p (fitStep p u) X r true ∧
          horizonShadingPct q p (fitStep p u) X r true ≤ 100 := by
        unfold horizonShadingPct
        simp only
        split_ifs <;> first | exact hbd _ | norm_num
      rw [abs_of_nonneg this.1]
      exact this.2
    have fin := A.open_near h0 hε (h := poaHorizonUsed v) pct small
    change |A.mul (poaHorizonUsed v) (A.sub 1 (A.div (A.horizonShadingPct q p g' X' r) 100))
      - poaHorizonUsed v * (1 - horizonShadingPct q p (fitStep p u) X r true / 100)| ≤ _
    refine LE.le.trans fin (le_of_eq ?_)
    unfold poaHorizonUsed horizonErr
    rw [abs_abs, hD]
    ring

theorem sceneErr_nonneg {ε B K G : ℝ} (h0 : 0 ≤ ε) (h1 : ε < 1) (hB : 0 ≤ B) (hK : 0 < K) (hG : 0 ≤ G) :
    0 ≤ sceneErr ε (trigErr ε K G) B K (1 / K) := by
  have hη : 0 ≤ trigErr ε K G := by unfold trigErr sineErr; positivity
  set η := trigErr ε K G
  have g3 := grow_pow_one h0 h1 3
  have g5 := grow_pow_one h0 h1 5
  have e0 : 0 ≤ endErr ε η B := by
    unfold endErr
    exact add_nonneg (mul_nonneg (by linarith) (by positivity)) (by positivity)
  have s0 : 0 ≤ shadeErr ε η B K := by
    unfold shadeErr
    exact add_nonneg (mul_nonneg (by linarith) (by positivity)) (by positivity)
  have q0 : 0 ≤ groundErr ε η B K := by
    unfold groundErr
    exact add_nonneg (add_nonneg (mul_nonneg (by linarith) (by positivity)) (by positivity))
      (by positivity)
  unfold sceneErr
  positivity

/-- The upper edges of the rows. -/
theorem top_near {ε B K G w : ℝ} (h0 : 0 ≤ ε) (A : TrigArith ε) (p : ArrayParams) (u : StepIn)
    (hst : PhysicalStep p u) (hB : ArraySize p B) (hu : StepMargin p u ε K G)
    (hS : 20 * sineErr ε G * K ^ 3 ≤ 1) (hw : w ≤ p.width)
    (hτ : 2 * K * sceneErr ε (trigErr ε K G) B K (1 / K) < w) {r : ℕ} (hr : r < p.nRows) :
    distPt ((fitStep p u).row r).full.highest ((A.fitStep p u).row r).full.highest
      ≤ sceneErr ε (trigErr ε K G) B K (1 / K) := by
  have htr := C99_trig h0 A p u hst hu hS
  obtain ⟨hK, hG, -⟩ := hu.facts
  dsimp only at htr
  have eg : A.fitStep p u = A.fitGeom p
      (rotationFromTiltAzimuth u.surfaceAzimuth p.axisAzimuth u.surfaceTilt)
      (A.sun u.solarZenith u.solarAzimuth p.axisAzimuth)
      (A.trig (rotationFromTiltAzimuth u.surfaceAzimuth p.axisAzimuth u.surfaceTilt).deg
        (A.atan2 (A.sun u.solarZenith u.solarAzimuth p.axisAzimuth).y
          (A.sun u.solarZenith u.solarAzimuth p.axisAzimuth).x)) := by
    unfold TrigArith.fitStep
    rw [C99_rotation h0 A p u hu]
  rw [eg]
  set rot := rotationFromTiltAzimuth u.surfaceAzimuth p.axisAzimuth u.surfaceTilt with hrot
  set sun' := A.sun u.solarZenith u.solarAzimuth p.axisAzimuth with hsun'
  set T := A.trig rot.deg (A.atan2 sun'.y sun'.x) with hTd
  set η := trigErr ε K G with hη
  have hS0 : 14 * ε ≤ sineErr ε G := by
    unfold sineErr
    have : 0 ≤ ε * (G / 16) := by positivity
    linarith
  have hK0 : 0 < K := by linarith
  have h1 : ε < 1 := by
    have : sineErr ε G * 1 ≤ sineErr ε G * K ^ 3 :=
      mul_le_mul_of_nonneg_left (one_le_pow₀ hK) (by linarith)
    linarith
  have hη0 : 0 ≤ η := (abs_nonneg _).trans htr.cs
  have hB0 : 0 < B := hB.width_pos.trans_le hB.width
  have ge5 := grow_pow_one h0 h1 5
  have e0 : 0 ≤ endErr ε η B := by
    unfold endErr
    exact add_nonneg (mul_nonneg (by linarith) (by positivity)) (by positivity)
  have s0 : 0 ≤ shadeErr ε η B K := by
    unfold shadeErr
    exact add_nonneg (mul_nonneg (by linarith) (by positivity)) (by positivity)
  have g0 : 0 ≤ groundErr ε η B K := by
    have := grow_pow_one h0 h1 3
    unfold groundErr
    exact add_nonneg (add_nonneg (mul_nonneg (by linarith) (by positivity)) (by positivity))
      (by positivity)
  set τ := sceneErr ε η B K (1 / K) with hτd
  have te : endErr ε η B + endErr ε η B ≤ τ := by
    have : 0 ≤ 2 * (endErr ε η B + shadeErr ε η B K) * (1 / (1 / K)) := by positivity
    rw [hτd]; unfold sceneErr; linarith
  obtain ⟨⟨x1, y1⟩, x2, y2⟩ := A.toArith.full_near h0 h1 hB htr hr
  refine (highest_near (l := fullRowCoords (rowCenter p r) p.width rot.deg)
    (l' := A.fullRowCoords (A.rowCenter p r) p.width T.cs T.sn T.cs180 T.sn180)
    ⟨(Arith.dist_le_of x1 y1).trans te, (Arith.dist_le_of x2 y2).trans te⟩ (Or.inr ?_)).1
  have hs : 1 ≤ K * |sind rot.deg| := by
    have h2 := hu.tilt
    have h3 : |sind rot.deg| = sind u.surfaceTilt := rotation_sind_abs u p hst.tilt_nonneg hst.tilt_lt
    rw [h3]
    refine h2.trans (mul_le_mul_of_nonneg_left (le_of_eq ?_) hK0.le)
    rw [← h3, abs_abs]
  have hw0 := hB.width_pos
  have : 2 * τ < p.width * |sind rot.deg| := by
    have k1 : K * (2 * τ) < K * (p.width * |sind rot.deg|) := by
      have := mul_le_mul_of_nonneg_left hs hw0.le
      linarith
    exact lt_of_mul_lt_mul_left k1 hK0.le
  refine this.trans_le (le_of_eq ?_)
  unfold fullRowCoords
  dsimp only
  rw [sind_half_turn, show p.width / 2 * -sind rot.deg + (rowCenter p r).y
    - (p.width / 2 * sind rot.deg + (rowCenter p r).y) = -(p.width * sind rot.deg) by ring,
    abs_neg, abs_mul, abs_of_pos hw0]

set_option maxHeartbeats 1600000 in
/-- The terms of the hybrid Perez model, for coordinates with errors. -/
theorem hybrid_near {ε G K Kc E H : ℝ} (h0 : 0 ≤ ε) (A : LightArith ε) (q : IrrParams) (v : IrrIn)
    (p : ArrayParams) (g g' : StepGeom) (hv : LightInput A q v G) (hK : 1 ≤ K)
    (hz : 1 ≤ K * cosd v.solarZenith) (hSK : sineErr ε G * K ≤ 1 / 20) (Kc0 : 0 ≤ Kc)
    (hKc : |v.perez.poaCircumsolar| ≤ Kc
      * |aoiProjection v.surfaceTilt v.surfaceAzimuth v.solarZenith v.solarAzimuth|)
    (hE : E = sineErr ε G * (K ^ 2 * (|v.dni| + |v.dhi| + |v.poaGlobal|
      + |v.perez.luminanceCircumsolar| + Kc))) (surf : Finset SurfRef) (H0 : 0 ≤ H)
    (hH : ∀ a ∈ surf, |A.horizonOf q p g' v a - horizonOf q p g v a| ≤ H) :
    TermsNear surf (50 * E + H) (A.hybridLight q p g' v) (hybridPerezStep q p g v).light := by
  have h14 := LightArith.eps_le h0 A hv
  have hS : sineErr ε G ≤ 1 / 20 := by
    have := mul_le_mul_of_nonneg_left hK (show 0 ≤ sineErr ε G by linarith)
    linarith
  obtain ⟨⟨a1, a2⟩, ⟨b1, b2⟩, ⟨c1, c2⟩, ⟨d1, d2⟩, ⟨e1, -⟩, f1, -⟩ := LightArith.direct_near h0 A hv hS
  obtain ⟨a1', a2', ⟨b1', b2'⟩, ⟨c1', c2'⟩, ⟨d1', d2'⟩, ⟨e1', -⟩, f1', -⟩ :=
    LightArith.circumsolar_near h0 A hv hS Kc0 hK hz hSK hKc
  have g := LightArith.ghi_near h0 A hv hS
  set S := sineErr ε G
  have S0 : 0 ≤ S := by linarith
  have N0 : 0 ≤ |v.dni| := abs_nonneg _
  have D0 : 0 ≤ |v.dhi| := abs_nonneg _
  have P0 : 0 ≤ |v.poaGlobal| := abs_nonneg _
  have L0 : 0 ≤ |v.perez.luminanceCircumsolar| := abs_nonneg _
  set Q := |v.dni| + |v.dhi| + |v.poaGlobal| + |v.perez.luminanceCircumsolar| + Kc with hQ
  set W := K ^ 2 * Q with hW
  have Q0 : 0 ≤ Q := by positivity
  have KK : 1 ≤ K ^ 2 := one_le_pow₀ hK
  have K1 : K ≤ K ^ 2 := by nlinarith
  have QW : Q ≤ W := by
    have := mul_le_mul_of_nonneg_right KK Q0
    linarith
  have LW : K * (|v.perez.luminanceCircumsolar| + Kc) ≤ W :=
    mul_le_mul K1 (by linarith) (by positivity) (by positivity)
  have LW2 : K ^ 2 * (|v.perez.luminanceCircumsolar| + Kc) ≤ W :=
    mul_le_mul_of_nonneg_left (by linarith) (by positivity)
  have W0 : 0 ≤ W := Q0.trans QW
  have E0 : 0 ≤ E := by rw [hE]; positivity
  have hN : S * |v.dni| ≤ E := by
    rw [hE]; exact mul_le_mul_of_nonneg_left (by linarith) S0
  have hL : S * (K ^ 2 * (|v.perez.luminanceCircumsolar| + Kc)) ≤ E := by
    rw [hE]; exact mul_le_mul_of_nonneg_left LW2 S0
  have hND : S * (|v.dni| + |v.dhi|) ≤ E := by
    rw [hE]; exact mul_le_mul_of_nonneg_left (by linarith) S0
  have eW : ε * W ≤ E / 14 := by
    have := mul_le_mul_of_nonneg_right h14 W0
    linarith
  have eE : ε * E ≤ E / 280 := by
    have := mul_le_mul_of_nonneg_right (show ε ≤ 1 / 280 by linarith) E0
    linarith
  have nW : |v.dni| ≤ W := by linarith
  have pW : |v.poaGlobal| ≤ W := by linarith
  have dW : |v.dhi| ≤ W := by linarith
  have cW : K * (|v.perez.luminanceCircumsolar| + Kc) ≤ W := LW
  refine ⟨fun a ha => ?_, ?_, ?_, ?_, rfl⟩
  · refine List.Forall₂.cons ?_ (List.Forall₂.cons ?_ (List.Forall₂.cons ?_ List.Forall₂.nil))
    · exact cats_near (by linarith) (by linarith) (by linarith) (by linarith) (by linarith) (by linarith) a
    · exact cats_near (by rw [a1', sub_self, abs_zero]; linarith) (by linarith) (by linarith)
        (by linarith) (by linarith) (by linarith) a
    · exact (hH a ha).trans (by linarith)
  · have s1 := A.toArith.sub_abs h0 (x' := v.dhi) (x := v.dhi) (a := 0) (by simp)
      (y' := (A.circumsolarCats q v).groundIllum) (y := (circumsolarCats q v).groundIllum) (b := 0)
      (by rw [a1', sub_self, abs_zero]) dW (a2'.trans cW)
    have m1 : |v.dhi - (circumsolarCats q v).groundIllum| ≤ 2 * W :=
      (abs_sub _ _).trans (by linarith)
    have s2 := A.toArith.add_abs h0 (s1.trans (show _ ≤ 1 * E by linarith))
      (LE.le.trans b1' (show _ ≤ 13 * E by linarith)) m1 (b2'.trans cW)
    have m2 := (abs_add_le (v.dhi - (circumsolarCats q v).groundIllum)
      (circumsolarCats q v).groundShaded).trans
      (show _ ≤ 3 * W by have := LE.le.trans b2' cW; linarith)
    have s3 := A.toArith.add_abs h0 (s2.trans (show _ ≤ 15 * E by linarith))
      (LE.le.trans b1 (show _ ≤ 12 * E by linarith)) m2 (b2.trans nW)
    exact LE.le.trans s3 (by linarith)
  · exact LE.le.trans g (by linarith)
  · have s1 := A.toArith.sub_abs h0 (x' := v.poaGlobal) (x := v.poaGlobal) (a := 0) (by simp)
      (LE.le.trans c1 (show _ ≤ 11 * E by linarith)) pW (c2.trans nW)
    have m1 := (abs_sub v.poaGlobal (directCats q v).frontIllum).trans
      (show _ ≤ 2 * W by have := LE.le.trans c2 nW; linarith)
    have s2 := A.toArith.sub_abs h0 (s1.trans (show _ ≤ 56 / 5 * E by linarith))
      (LE.le.trans c1' (show _ ≤ 12 * E by linarith)) m1 (c2'.trans cW)
    have m2 := (abs_sub (v.poaGlobal - (directCats q v).frontIllum)
      (circumsolarCats q v).frontIllum).trans
      (show _ ≤ 3 * W by have := LE.le.trans c2' cW; linarith)
    have s3 := A.toArith.add_abs h0 (s2.trans (show _ ≤ 47 / 2 * E by linarith))
      (LE.le.trans d1 (show _ ≤ 12 * E by linarith)) m2 (d2.trans nW)
    have m3 := (abs_add_le (v.poaGlobal - (directCats q v).frontIllum
      - (circumsolarCats q v).frontIllum) (directCats q v).frontShaded).trans
      (show _ ≤ 4 * W by have := LE.le.trans d2 nW; linarith)
    have s4 := A.toArith.add_abs h0 (s3.trans (show _ ≤ 36 * E by linarith))
      (LE.le.trans d1' (show _ ≤ 13 * E by linarith)) m3 (d2'.trans cW)
    exact LE.le.trans s4 (by linarith)

/-- The terms of the hybrid Perez model, for computed coordinates that are close to the exact ones. -/
theorem hybrid_step {ε B K G Kc m : ℝ} (h0 : 0 ≤ ε) (A : LightArith ε) (q : IrrParams) (v : IrrIn)
    (p : ArrayParams) (hp : PhysicalArray p) (hst : PhysicalStep p v.step) (hB : ArraySize p B)
    (hu : SunMargin p v.step K G) (hS : 20 * sineErr ε G * K ^ 3 ≤ 1)
    (hv : LightInput A q v G) (Kc0 : 0 ≤ Kc)
    (hKc : |v.perez.poaCircumsolar| ≤ Kc
      * |aoiProjection v.surfaceTilt v.surfaceAzimuth v.solarZenith v.solarAzimuth|)
    (τ : ℝ) (hτd : τ = sceneErr ε (trigErr ε K G) B K (1 / K))
    (hn : CoordsNear p (fitStep p v.step) (A.fitStep p v.step) τ)
    (htop : ∀ r < p.nRows, distPt ((fitStep p v.step).row r).full.highest
      ((A.fitStep p v.step).row r).full.highest ≤ τ)
    (hm : 0 < m) (hm1 : m ≤ p.distance - p.width * |cosd v.surfaceTilt|)
    (hb : 0 < q.horizonBandAngle)
    (δ : ℝ) (hδ : δ = 3 * τ + 15 / 2 * (ε * B)) (hδm : 4 * δ ≤ m) :
    TermsNear (surfaces p)
      (50 * (sineErr ε G * (K ^ 2 * (|v.dni| + |v.dhi| + |v.poaGlobal|
        + |v.perez.luminanceCircumsolar| + Kc)))
        + |v.perez.poaHorizon| * horizonErr ε δ p.width m q.horizonBandAngle)
      (A.hybridLight q p (A.fitStep p v.step) v)
      (hybridPerezStep q p (fitStep p v.step) v).light := by
  obtain ⟨hK, hG, -⟩ := hu.facts
  have h14 := LightArith.eps_le h0 A hv
  have S0 : 0 ≤ sineErr ε G := by linarith
  have hSK : sineErr ε G * K ≤ 1 / 20 := by
    have : sineErr ε G * K ≤ sineErr ε G * K ^ 3 :=
      mul_le_mul_of_nonneg_left (le_self_pow₀ hK (by norm_num)) S0
    linarith
  have hε : ε ≤ 1 / 280 := by
    have := mul_le_mul_of_nonneg_left hK S0
    linarith
  have hB0 : 0 < B := hB.width_pos.trans_le hB.width
  have hτ0 : 0 ≤ τ := hτd ▸ sceneErr_nonneg h0 (by linarith) hB0.le (by linarith) hG
  have δ0 : 0 ≤ δ := by rw [hδ]; positivity
  have := hB.width_pos
  have H0 : 0 ≤ horizonErr ε δ p.width m q.horizonBandAngle := by unfold horizonErr; positivity
  exact hybrid_near h0 A q v p _ _ hv hK hu.high hSK Kc0 hKc rfl (surfaces p) (by positivity)
    fun a ha => horizon_near h0 hε A q v p v.step hp hst hB _ hn hτ0 htop hm hm1 hb hδ hδm a ha

/-- C101: all terms of the hybrid Perez model, computed from the inputs of a time step with rounding
errors in the geometry and in the model itself, are close to the exact ones.  Circumsolar light on the
front must vanish at grazing incidence. -/
theorem C101_hybrid {ε B K G Kc w m : ℝ} (h0 : 0 ≤ ε) (A : LightArith ε) (q : IrrParams) (v : IrrIn)
    (p : ArrayParams) (hp : PhysicalArray p) (hst : PhysicalStep p v.step) (hB : ArraySize p B)
    (hu : StepMargin p v.step ε K G) (hS : 20 * sineErr ε G * K ^ 3 ≤ 1)
    (hd : shadeErr ε (trigErr ε K G) B K * K < p.distance)
    (hT : shadeErr ε (trigErr ε K G) B K < TOL)
    (hf : ∀ x, x = (interrowShading p (fitStep p v.step).alpha (fitStep p v.step).rot.deg).1 ∨
      x = (interrowShading p (fitStep p v.step).alpha (fitStep p v.step).rot.deg).2 →
        x = 0 ∨ 2 * TOL ≤ x)
    (hw : w ≤ p.width)
    (hlong : ∀ a ∈ surfaces p, ((fitStep p v.step).coords a).length = 0 ∨
      w ≤ ((fitStep p v.step).coords a).length)
    (hv : LightInput A q v G) (Kc0 : 0 ≤ Kc)
    (hKc : |v.perez.poaCircumsolar| ≤ Kc
      * |aoiProjection v.surfaceTilt v.surfaceAzimuth v.solarZenith v.solarAzimuth|)
    (τ : ℝ) (hτd : τ = sceneErr ε (trigErr ε K G) B K (1 / K)) (hτ : 2 * K * τ < w)
    (hm : 0 < m) (hm1 : m ≤ p.distance - p.width * |cosd v.surfaceTilt|)
    (hb : 0 < q.horizonBandAngle)
    (δ : ℝ) (hδ : δ = 3 * τ + 15 / 2 * (ε * B)) (hδm : 4 * δ ≤ m) :
    TermsNear (surfaces p)
      (50 * (sineErr ε G * (K ^ 2 * (|v.dni| + |v.dhi| + |v.poaGlobal|
        + |v.perez.luminanceCircumsolar| + Kc)))
        + |v.perez.poaHorizon| * horizonErr ε δ p.width m q.horizonBandAngle)
      (A.hybridLight q p (A.fitStep p v.step) v)
      (hybridPerezStep q p (fitStep p v.step) v).light := by
  subst hτd
  exact hybrid_step h0 A q v p hp hst hB hu.sun hS hv Kc0 hKc _ rfl
    (C99_step h0 A.toTrigArith p v.step hp hst hB hu hS hd hT hf hw hlong hτ)
    (fun r hr => top_near h0 A.toTrigArith p v.step hst hB hu hS hw hτ hr) hm hm1 hb δ hδ hδm

/-- C101: computed sums of sky components are close to the exact ones if all terms are. -/
theorem C101_sky_term {ε E : ℝ} (h0 : 0 ≤ ε) (h1 : ε < 1) (A : Arith ε) (surf : Finset SurfRef)
    (t' t : LightTerms) (ht : TermsNear surf E t' t) (a : SurfRef) (ha : a ∈ surf) :
    |A.sumComponents (t'.comp a) - (t.comp a).sum|
      ≤ termSumErr (t.comp a).length ε E ((t.comp a).map fun x => |x|).sum := by
  have hl := ht.comp a ha
  have key : ∀ {l' l : List ℝ}, List.Forall₂ (fun x' x => |x' - x| ≤ E) l' l →
      |l'.sum - l.sum| ≤ l.length * E ∧
      (l'.map fun x => |x|).sum ≤ (l.map fun x => |x|).sum + l.length * E := by
    intro l' l h
    induction h with
    | nil => simp
    | @cons x' x m' m hx _ ih =>
      obtain ⟨i1, i2⟩ := ih
      simp only [List.sum_cons, List.map_cons, List.length_cons]
      push_cast
      constructor
      · rw [show x' + m'.sum - (x + m.sum) = (x' - x) + (m'.sum - m.sum) by ring]
        refine (abs_add_le _ _).trans ?_
        linarith
      · have := abs_sub_abs_le_abs_sub x' x
        linarith
  obtain ⟨k1, k2⟩ := key hl
  have t6 := A.fold_near h0 h1 (t'.comp a) (near_self (ε := ε) (x := 0) (m := 0) (by simp))
  rw [zero_add, zero_add, zero_add, hl.length_eq] at t6
  have g := grow_pow_one h0 h1 (t.comp a).length
  have k3 := mul_le_mul_of_nonneg_left k2 (show 0 ≤ grow ε ^ (t.comp a).length - 1 by linarith)
  have k4 := t6.1
  unfold termSumErr
  have := abs_sub_le (A.sumComponents (t'.comp a)) (t'.comp a).sum (t.comp a).sum
  have e : |A.sumComponents (t'.comp a) - (t'.comp a).sum| ≤ _ := k4
  linarith

/-- Light of fast mode for terms with errors, if its view factors are close to the exact ones. -/
theorem fast_light {ε V₀ K G E : ℝ} (h0 : 0 ≤ ε) (A : TrigArith ε) (Z : SumTree)
    (p : ArrayParams) (u : StepIn) (s : IrrStep) (t' : LightTerms)
    (ht : TermsNear (surfaces p) E t' s.light)
    (hp : PhysicalArray p) (hst : PhysicalStep p u)
    (hu : SunMargin p u K G) (hS : 20 * sineErr ε G * K ^ 3 ≤ 1)
    (r k : ℕ) (sh : Bool) (ha : SurfRef.pv r .back k sh ∈ surfaces p)
    (hv : FastNear p.nRows ε V₀ (A.fastVF Z p u r (.pv r .back k sh))
      (fastVF p (fitStep p u) r ((fitStep p u).coords (.pv r .back k sh)))) :
    let a := SurfRef.pv r .back k sh
    let n := (s.comp a).length
    let F := fastErr p.nRows ε V₀
    let L := fastLight s + (2 * |s.albedo| + |s.rhoFront|) * E
    |(A.fastStep Z p u (s.withLight t') r a).qinc - (fastSurface p (fitStep p u) s r a).qinc|
      ≤ (grow ε ^ (n + 7) - 1) * ((1 + F) * L + (((s.comp a).map fun x => |x|).sum + n * E)) + F * L
        + (2 * |s.albedo| + |s.rhoFront| + n) * E := by
  intro a n F L
  have hq := (fast_stored h0 A Z p u (s.withLight t') hp hst hu hS r k sh ha hv).qinc
  have hr := (mem_allRefs_pv.1 (mem_surfaces.1 ha)).1
  obtain ⟨hK, hG, -⟩ := hu.facts
  have h1 : ε < 1 := by
    have hS0 : 14 * ε ≤ sineErr ε G := by
      unfold sineErr
      have : 0 ≤ ε * (G / 16) := by positivity
      linarith
    have : sineErr ε G * 1 ≤ sineErr ε G * K ^ 3 :=
      mul_le_mul_of_nonneg_left (one_le_pow₀ hK) (by linarith)
    linarith
  have range := C28_range p u hp hst r k sh ha
  dsimp only at range
  set V := fastVF p (fitStep p u) r ((fitStep p u).coords (.pv r .back k sh)) with hV
  have E0 : 0 ≤ E := (abs_nonneg _).trans ht.gndIllum
  have F0 : 0 ≤ F := by
    have e0 := (abs_nonneg _).trans hv.gndTotal
    have := grow_pow_one h0 h1 p.nRows
    have s0 : 0 ≤ vfSumErr p.nRows ε V₀ := by
      unfold vfSumErr
      exact add_nonneg (by positivity) (mul_nonneg (by linarith) (by positivity))
    change 0 ≤ fastErr p.nRows ε _
    unfold fastErr diffErr
    positivity
  -- the components
  have key : ∀ {l' l : List ℝ}, List.Forall₂ (fun x' x => |x' - x| ≤ E) l' l →
      |l'.sum - l.sum| ≤ l.length * E ∧
      (l'.map fun x => |x|).sum ≤ (l.map fun x => |x|).sum + l.length * E := by
    intro l' l h
    induction h with
    | nil => simp
    | @cons x' x m' m hx _ ih =>
      obtain ⟨i1, i2⟩ := ih
      simp only [List.sum_cons, List.map_cons, List.length_cons]
      push_cast
      constructor
      · rw [show x' + m'.sum - (x + m.sum) = (x' - x) + (m'.sum - m.sum) by ring]
        refine (abs_add_le _ _).trans ?_
        linarith
      · have := abs_sub_abs_le_abs_sub x' x
        linarith
  have hcomp := ht.comp a ha
  obtain ⟨k1, k2⟩ := key hcomp
  have hlen : (t'.comp a).length = n := hcomp.length_eq
  have g1 := ht.gndShaded
  have g2 := ht.gndIllum
  have g3 := ht.pvrowShaded
  have g4 := ht.pvrowIllum
  change |t'.gndShaded - s.gndShaded| ≤ E at g1
  change |t'.gndIllum - s.gndIllum| ≤ E at g2
  change |t'.pvrowShaded - s.pvrowShaded| ≤ E at g3
  change t'.pvrowIllum = s.pvrowIllum at g4
  change |(t'.comp a).sum - (s.comp a).sum| ≤ n * E at k1
  change ((t'.comp a).map fun x => |x|).sum ≤ ((s.comp a).map fun x => |x|).sum + n * E at k2
  -- light of the computed terms
  have al0 : 0 ≤ |s.albedo| := abs_nonneg _
  have rf0 : 0 ≤ |s.rhoFront| := abs_nonneg _
  have hL : fastLight (s.withLight t') ≤ L := by
    change |s.albedo| * (|t'.gndShaded| + |t'.gndIllum|)
      + |s.rhoFront| * (|t'.pvrowShaded| + |t'.pvrowIllum|) + |s.sky|
      ≤ |s.albedo| * (|s.gndShaded| + |s.gndIllum|)
      + |s.rhoFront| * (|s.pvrowShaded| + |s.pvrowIllum|) + |s.sky| + (2 * |s.albedo| + |s.rhoFront|) * E
    have j1 := abs_sub_abs_le_abs_sub t'.gndShaded s.gndShaded
    have j2 := abs_sub_abs_le_abs_sub t'.gndIllum s.gndIllum
    have j3 := abs_sub_abs_le_abs_sub t'.pvrowShaded s.pvrowShaded
    rw [g4]
    have m1 := mul_le_mul_of_nonneg_left (show |t'.gndShaded| + |t'.gndIllum|
      ≤ |s.gndShaded| + |s.gndIllum| + 2 * E by linarith) al0
    have m2 := mul_le_mul_of_nonneg_left (show |t'.pvrowShaded| + |s.pvrowIllum|
      ≤ |s.pvrowShaded| + |s.pvrowIllum| + E by linarith) rf0
    linarith
  have gp := grow_pow_one h0 h1 (n + 7)
  have hb1 : (grow ε ^ (n + 7) - 1) * ((1 + F) * fastLight (s.withLight t')
        + ((t'.comp a).map fun x => |x|).sum) + F * fastLight (s.withLight t')
      ≤ (grow ε ^ (n + 7) - 1) * ((1 + F) * L + (((s.comp a).map fun x => |x|).sum + n * E)) + F * L := by
    have m1 := mul_le_mul_of_nonneg_left hL F0
    have m2 := mul_le_mul_of_nonneg_left (show (1 + F) * fastLight (s.withLight t')
      + ((t'.comp a).map fun x => |x|).sum ≤ (1 + F) * L + (((s.comp a).map fun x => |x|).sum + n * E) by
        linarith) (show 0 ≤ grow ε ^ (n + 7) - 1 by linarith)
    linarith
  have hq' : |(A.fastStep Z p u (s.withLight t') r a).qinc
      - (fastSurface p (fitStep p u) (s.withLight t') r a).qinc|
      ≤ (grow ε ^ (n + 7) - 1) * ((1 + F) * fastLight (s.withLight t')
        + ((t'.comp a).map fun x => |x|).sum) + F * fastLight (s.withLight t') := by
    have := hq
    change _ ≤ (grow ε ^ ((t'.comp a).length + 7) - 1) * ((1 + F) * fastLight (s.withLight t')
        + ((t'.comp a).map fun x => |x|).sum) + F * fastLight (s.withLight t') at this
    rw [hlen] at this
    exact this
  -- exact fast mode
  have hx : |(fastSurface p (fitStep p u) (s.withLight t') r a).qinc
      - (fastSurface p (fitStep p u) s r a).qinc| ≤ (2 * |s.albedo| + |s.rhoFront| + n) * E := by
    have e : (fastSurface p (fitStep p u) (s.withLight t') r a).qinc
        - (fastSurface p (fitStep p u) s r a).qinc
        = V.toGndShaded * s.albedo * (t'.gndShaded - s.gndShaded)
          + V.toGndIllum * s.albedo * (t'.gndIllum - s.gndIllum)
          + V.toPvrowShaded * s.rhoFront * (t'.pvrowShaded - s.pvrowShaded)
          + ((t'.comp a).sum - (s.comp a).sum) := by
      change V.toGndShaded * s.albedo * t'.gndShaded + V.toGndIllum * s.albedo * t'.gndIllum
          + V.toPvrowShaded * s.rhoFront * t'.pvrowShaded + V.toPvrowIllum * s.rhoFront * t'.pvrowIllum
          + V.toSky * s.sky + sumComponents (t'.comp a)
        - (V.toGndShaded * s.albedo * s.gndShaded + V.toGndIllum * s.albedo * s.gndIllum
          + V.toPvrowShaded * s.rhoFront * s.pvrowShaded + V.toPvrowIllum * s.rhoFront * s.pvrowIllum
          + V.toSky * s.sky + sumComponents (s.comp a)) = _
      rw [sumComponents_eq, sumComponents_eq, g4]
      ring
    have term : ∀ {x y z : ℝ}, 0 ≤ x ∧ x ≤ 1 → |z| ≤ E → |x * y * z| ≤ |y| * E := by
      intro x y z h h'
      rw [abs_mul, abs_mul, abs_of_nonneg h.1]
      have := mul_le_mul_of_nonneg_right h.2 (abs_nonneg y)
      exact mul_le_mul (by linarith) h' (abs_nonneg _) (abs_nonneg _)
    have u1 := term (y := s.albedo) (range V.toGndShaded (by simp)) g1
    have u2 := term (y := s.albedo) (range V.toGndIllum (by simp)) g2
    have u3 := term (y := s.rhoFront) (range V.toPvrowShaded (by simp)) g3
    rw [e]
    obtain ⟨l1, r1⟩ := abs_le.1 u1
    obtain ⟨l2, r2⟩ := abs_le.1 u2
    obtain ⟨l3, r3⟩ := abs_le.1 u3
    obtain ⟨l4, r4⟩ := abs_le.1 k1
    rw [abs_le]
    constructor <;> linarith
  have := abs_sub_le (A.fastStep Z p u (s.withLight t') r a).qinc
    (fastSurface p (fitStep p u) (s.withLight t') r a).qinc (fastSurface p (fitStep p u) s r a).qinc
  linarith

/-- C101: incident light of fast mode, if the irradiance terms have errors of `E` and all other
computations have rounding errors. -/
theorem C101_fast_mode {ε B K G w c E : ℝ} (h0 : 0 ≤ ε) (A : TrigArith ε) (Z : SumTree)
    (p : ArrayParams) (u : StepIn) (s : IrrStep) (t' : LightTerms)
    (ht : TermsNear (surfaces p) E t' s.light)
    (hp : PhysicalArray p) (hst : PhysicalStep p u) (hB : ArraySize p B)
    (hu : StepMargin p u ε K G) (hS : 20 * sineErr ε G * K ^ 3 ≤ 1)
    (hd : shadeErr ε (trigErr ε K G) B K * K < p.distance)
    (hTOL : shadeErr ε (trigErr ε K G) B K < TOL)
    (hf : ∀ x, x = (interrowShading p (fitStep p u).alpha (fitStep p u).rot.deg).1 ∨
      x = (interrowShading p (fitStep p u).alpha (fitStep p u).rot.deg).2 → x = 0 ∨ 2 * TOL ≤ x)
    (hw : w ≤ p.width)
    (hlong : ∀ a ∈ surfaces p, ((fitStep p u).coords a).length = 0 ∨
      w ≤ ((fitStep p u).coords a).length)
    (hZ : Z.leaves = Multiset.range p.nRows)
    (hc : c ≤ p.height - p.width / 2 * sind u.surfaceTilt)
    (N : ℕ) (hN : ∀ j < p.nRows, p.nFront j ≤ N)
    (τ : ℝ) (hτd : τ = fastPointErr N ε (trigErr ε K G) B K) (hτ : 2 * K * τ < w)
    (hτT : 4 * τ ≤ TOL) (hτc : 4 * τ < c) (hw2 : 2 * TOL ≤ w - 2 * τ)
    (r k : ℕ) (sh : Bool) (ha : SurfRef.pv r .back k sh ∈ surfaces p) :
    let a := SurfRef.pv r .back k sh
    let n := (s.comp a).length
    let F := fastErr p.nRows ε (stringErr ε (fastSize B K τ) w c τ)
    let L := fastLight s + (2 * |s.albedo| + |s.rhoFront|) * E
    |(A.fastStep Z p u (s.withLight t') r a).qinc - (fastSurface p (fitStep p u) s r a).qinc|
      ≤ (grow ε ^ (n + 7) - 1) * ((1 + F) * L + (((s.comp a).map fun x => |x|).sum + n * E)) + F * L
        + (2 * |s.albedo| + |s.rhoFront| + n) * E := by
  exact fast_light h0 A Z p u s t' ht hp hst hu.sun hS r k sh ha
    (C100_view_factors h0 A Z p u hp hst hB hu hS hd hTOL hf hw hlong hZ hc N hN τ hτd hτ hτT hτc hw2 r k
      sh ha)

/-- C101: incident light of full mode at every surface, if the irradiance terms have errors of `E`, are
summed with rounding, and the solver is accurate up to residuals of `η₁` and `η₂`. -/
theorem C101_full_mode {ι : Type*} [Fintype ι] {ε B K G D w c E : ℝ} (h0 : 0 ≤ ε)
    (A : TrigArith ε) (T : SumTree) (p : ArrayParams) (u : ι → StepIn) (s : ι → IrrStep)
    (aoi : ι → Option (List Asg)) (o : ι → FullOut) (hrun : runFullMode p u s aoi = some o)
    (hinv : ∀ t, InverseOk p (s t)) (t : ι)
    (t' : LightTerms) (ht : TermsNear (surfaces p) E t' (s t).light)
    (hp : PhysicalArray p) (hst : ∀ t, PhysicalStep p (u t)) (hB : ArraySize p B)
    (hu : ∀ t, StepMargin p (u t) ε K G) (hS : 20 * sineErr ε G * K ^ 3 ≤ 1)
    (hd : shadeErr ε (trigErr ε K G) B K * K < p.distance)
    (hTOL : shadeErr ε (trigErr ε K G) B K < TOL)
    (hf : ∀ t x, x = (interrowShading p (fitStep p (u t)).alpha (fitStep p (u t)).rot.deg).1 ∨
      x = (interrowShading p (fitStep p (u t)).alpha (fitStep p (u t)).rot.deg).2 →
        x = 0 ∨ 2 * TOL ≤ x)
    (hw : w ≤ p.width)
    (hlong : ∀ t, ∀ a ∈ surfaces p, ((fitStep p (u t)).coords a).length = 0 ∨
      w ≤ ((fitStep p (u t)).coords a).length)
    (hT : T.leaves = Multiset.range (nTsSurfaces p))
    (hs : SceneSize p (fitStep p (u t)) (isEmptyTs fun t => fitStep p (u t)) D w)
    (hc : c ≤ p.height - p.width / 2 * sind (u t).surfaceTilt)
    (τ : ℝ) (hτd : τ = sceneErr ε (trigErr ε K G) B K (1 / K)) (hτ : 2 * K * τ < w)
    (hτT : 4 * τ ≤ TOL) (hτn : Fintype.card ι * (2 * τ) < TOL) (hτc : 4 * τ < c)
    (hw2 : 2 * TOL ≤ w - 2 * τ)
    (r : ℝ) (hr : ∀ a ∈ surfaces p, 0 ≤ (s t).rho a ∧ (s t).rho a ≤ r) (hr1 : r < 1)
    (q0' qinc' : SurfRef → ℝ) (sky' η₁ η₂ M H : ℝ)
    (hH : ∀ a ∈ surfaces p, termSumErr ((s t).comp a).length ε E (((s t).comp a).map fun x => |x|).sum ≤ H)
    (hsol : NearlySolved p (A.vfMatrix T p (A.fitStep p (u t)) (isEmptyTs fun t => A.fitStep p (u t)))
      (fun a => A.sumComponents (t'.comp a)) (s t).rho (s t).sky
      (fun a => A.sumComponents (t'.comp a)) q0' qinc' sky' η₁ η₂ 0 M) :
    let E := entryBound ε (D + 2 * τ) (w - 2 * τ) (c - 2 * τ) (2 * τ)
      + entryMove (D + 2 * τ) (w - 2 * τ) (c - 2 * τ) (2 * τ) τ
    ∀ a ∈ surfaces p, |qinc' a - (o t).qinc a|
      ≤ (η₁ + η₂ + H + rowErrors (nTsSurfaces p) ε E * M) / (1 - r) := by
  obtain ⟨hK, hG, -⟩ := (hu t).facts
  have h1 : ε < 1 := by
    have hS0 : 14 * ε ≤ sineErr ε G := by
      unfold sineErr
      have : 0 ≤ ε * (G / 16) := by positivity
      linarith
    have : sineErr ε G * 1 ≤ sineErr ε G * K ^ 3 :=
      mul_le_mul_of_nonneg_left (one_le_pow₀ hK) (by linarith)
    linarith
  exact C99_full_mode h0 A T p u s aoi o hrun hinv t hp hst hB hu hS hd hTOL hf hw hlong hT hs hc τ hτd hτ
    hτT hτn hτc hw2 r hr hr1 (fun a => A.sumComponents (t'.comp a)) q0' qinc' sky' η₁ η₂ H M
    ⟨fun a ha => (C101_sky_term h0 h1 A.toArith (surfaces p) t' (s t).light ht a ha).trans (hH a ha),
      hsol.sky, hsol.arriving, hsol.sent, hsol.size⟩

/-! ## Witness -/

/-- Operations and functions that give numbers that are too large by a factor of `1 + ε`. -/
noncomputable def tooLargeLight (ε : ℝ) (h : 0 < ε) : LightArith ε :=
  have err : ∀ z : ℝ, |(1 + ε) * z - z| ≤ ε * |z| := fun z => by
    rw [show (1 + ε) * z - z = ε * z by ring, abs_mul, abs_of_pos h]
  { tooLargeTrig ε h with
    acos := fun x => (1 + ε) * Real.arccos x
    atan := fun x => (1 + ε) * Real.arctan x
    acos_err := fun _ _ => err _
    atan_err := fun _ => err _ }

/-- The inputs of `vertStep` with light. -/
noncomputable def vertIrr : IrrIn where
  dni := 800
  dhi := 100
  solarZenith := 45
  solarAzimuth := 270
  surfaceTilt := 90
  surfaceAzimuth := 270
  albedo := 1 / 4
  ghi := none
  poaGlobal := 700
  perez := ⟨60, 40, 10, 40⟩

theorem vert_projection : aoiProjection 90 270 45 270 = Real.sqrt 2 / 2 := by
  unfold aoiProjection
  rw [cosd_90, sind_90, sind_45, sub_self]
  simp [cosd, deg2rad]

theorem sqrt2_bounds : 1.41 < Real.sqrt 2 ∧ Real.sqrt 2 < 1.42 := by
  constructor
  · exact Real.lt_sqrt_of_sq_lt (by norm_num)
  · exact (Real.sqrt_lt' (by norm_num)).2 (by norm_num)

theorem vert_lightInput :
    LightInput (tooLargeLight (1 / 2 ^ 53) (by norm_num)) demoIrrParams vertIrr 270 := by
  have hS : sineErr (1 / 2 ^ 53) 270 ≤ 1 / 10 ^ 13 := by norm_num [sineErr]
  have hS0 : 0 ≤ sineErr (1 / 2 ^ 53) 270 := by norm_num [sineErr]
  obtain ⟨r1, r2⟩ := sqrt2_bounds
  have hz : |vertIrr.solarZenith| ≤ 180 := by norm_num [vertIrr, abs_of_pos]
  have ht : |vertIrr.surfaceTilt| ≤ 180 := by norm_num [vertIrr, abs_of_pos]
  have ha : |vertIrr.solarAzimuth - vertIrr.surfaceAzimuth| ≤ 270 := by norm_num [vertIrr]
  refine ⟨hz, ht, ha, ?_, by norm_num [demoIrrParams], by norm_num [demoIrrParams]⟩
  have := LightArith.projection_near (by norm_num) (tooLargeLight (1 / 2 ^ 53) (by norm_num)) (v := vertIrr)
    (by linarith) hz ht ha
  have e : PVF.aoiProjection vertIrr.surfaceTilt vertIrr.surfaceAzimuth vertIrr.solarZenith
    vertIrr.solarAzimuth = Real.sqrt 2 / 2 := vert_projection
  rw [e] at this
  obtain ⟨l, r⟩ := abs_le.1 this
  rw [abs_le]
  constructor <;> norm_num at hS <;> linarith

/-- Both models at a time step with sun on vertical rows: in double precision the terms
differ from the exact ones, by less than a millionth of a watt per square metre. -/
theorem C101_demo :
    let A := tooLargeLight (1 / 2 ^ 53) (by norm_num)
    let t' := A.hybridLight demoIrrParams vertArray (A.fitStep vertArray vertStep) vertIrr
    let s := hybridPerezStep demoIrrParams vertArray (fitStep vertArray vertStep) vertIrr
    TermsNear (surfaces vertArray) (1 / 10 ^ 6) (A.isotropicLight demoIrrParams vertIrr)
      (isotropicStep demoIrrParams vertIrr).light ∧
    TermsNear (surfaces vertArray) (1 / 10 ^ 6) t' s.light ∧
    (A.circumsolarCats demoIrrParams vertIrr).groundShaded
      ≠ (circumsolarCats demoIrrParams vertIrr).groundShaded := by
  intro A t' s
  have hstep : vertIrr.step = vertStep := rfl
  have hS : sineErr (1 / 2 ^ 53) 270 ≤ 1 / 10 ^ 13 := by norm_num [sineErr]
  have hS0 : 0 ≤ sineErr (1 / 2 ^ 53) 270 := by norm_num [sineErr]
  obtain ⟨r1, r2⟩ := sqrt2_bounds
  have hv : LightInput A demoIrrParams vertIrr 270 := vert_lightInput
  refine ⟨?_, ?_, ?_⟩
  · have h := C101_isotropic (by norm_num) A demoIrrParams vertIrr hv (by linarith) (surfaces vertArray)
    have le : 13 * sineErr (1 / 2 ^ 53) 270 * (|vertIrr.dni| + |vertIrr.dhi| + |vertIrr.poaGlobal|)
        ≤ 1 / 10 ^ 6 := by norm_num [sineErr, vertIrr, abs_of_pos]
    exact ⟨fun a ha => (h.comp a ha).imp fun _ _ x => x.trans le, h.gndShaded.trans le,
      h.gndIllum.trans le, h.pvrowShaded.trans le, h.pvrowIllum⟩
  · have hdeg : (fitStep vertArray vertStep).rot.deg = 90 := by
      have : (fitStep vertArray vertStep).rot = ⟨90, false⟩ := vert_rot
      rw [this]
    have hal : (fitStep vertArray vertStep).alpha = 3 * Real.pi / 4 := by
      have : fitStep vertArray vertStep = _ := vert_fit
      rw [this]; exact vert_alpha
    have hf : ∀ x, x = (interrowShading vertArray (fitStep vertArray vertStep).alpha
          (fitStep vertArray vertStep).rot.deg).1 ∨
        x = (interrowShading vertArray (fitStep vertArray vertStep).alpha
          (fitStep vertArray vertStep).rot.deg).2 → x = 0 ∨ 2 * TOL ≤ x := by
      rw [hdeg, hal, vert_interrow]
      rintro x (rfl | rfl) <;> exact Or.inl rfl
    have b1 : 20 * sineErr (1 / 2 ^ 53) 270 * (3 / 2) ^ 3 ≤ 1 := by norm_num [sineErr]
    have b2 : shadeErr (1 / 2 ^ 53) (trigErr (1 / 2 ^ 53) (3 / 2) 270) 5 (3 / 2) < 1 / 10 ^ 9 := by
      norm_num [shadeErr, grow, trigErr, sineErr]
    set τ := sceneErr (1 / 2 ^ 53) (trigErr (1 / 2 ^ 53) (3 / 2) 270) 5 (3 / 2) (1 / (3 / 2)) with hτ
    have b3 : τ ≤ 1 / 10 ^ 9 ∧ 0 ≤ τ := by
      rw [hτ]
      norm_num [sceneErr, shadeErr, endErr, groundErr, grow, trigErr, sineErr]
    have hdist : vertArray.distance = 5 := by norm_num [vertArray, ArrayParams.distance]
    have hd : shadeErr (1 / 2 ^ 53) (trigErr (1 / 2 ^ 53) (3 / 2) 270) 5 (3 / 2) * (3 / 2)
        < vertArray.distance := by
      rw [hdist]
      norm_num at b2 ⊢
      linarith
    have hT : shadeErr (1 / 2 ^ 53) (trigErr (1 / 2 ^ 53) (3 / 2) 270) 5 (3 / 2) < TOL :=
      b2.trans (by norm_num [TOL])
    norm_num at b3
    have h := C101_hybrid (ε := 1 / 2 ^ 53) (w := 1 / 2) (m := 5) (Kc := 60) (by norm_num) A demoIrrParams
      vertIrr vertArray vert_physicalArray vert_physicalStep vert_size vert_margin b1 hd hT hf
      (by norm_num [vertArray]) vert_half hv (by norm_num) (by
        have e : PVF.aoiProjection vertIrr.surfaceTilt vertIrr.surfaceAzimuth vertIrr.solarZenith
          vertIrr.solarAzimuth = Real.sqrt 2 / 2 := vert_projection
        have : |vertIrr.perez.poaCircumsolar| = 40 := by norm_num [vertIrr, abs_of_pos]
        rw [e, this, abs_of_pos (by linarith)]
        linarith) τ hτ (by linarith [b3.1]) (by norm_num)
      (by
        have : vertIrr.surfaceTilt = 90 := rfl
        rw [hdist, this, cosd_90]; norm_num) (by norm_num [demoIrrParams]) _ rfl (by linarith [b3.1])
    have le : 50 * (sineErr (1 / 2 ^ 53) 270 * ((3 / 2) ^ 2 * (|vertIrr.dni| + |vertIrr.dhi|
        + |vertIrr.poaGlobal| + |vertIrr.perez.luminanceCircumsolar| + 60)))
        + |vertIrr.perez.poaHorizon| * horizonErr (1 / 2 ^ 53) (3 * τ + 15 / 2 * (1 / 2 ^ 53 * 5))
          vertArray.width 5 demoIrrParams.horizonBandAngle ≤ 1 / 10 ^ 6 := by
      norm_num [sineErr, vertIrr, abs_of_pos, horizonErr, vertArray, demoIrrParams]
      linarith [b3.1]
    exact ⟨fun a ha => (h.comp a ha).imp fun _ _ x => x.trans le, h.gndShaded.trans le,
      h.gndIllum.trans le, h.pvrowShaded.trans le, h.pvrowIllum⟩
  · change (1 + 1 / 2 ^ 53 : ℝ) * ((1 + 1 / 2 ^ 53) * (40 * demoIrrParams.moduleSpacingRatio)
      + (1 + 1 / 2 ^ 53) * ((1 + 1 / 2 ^ 53) * (40 * ((1 + 1 / 2 ^ 53)
        * (1 - demoIrrParams.moduleSpacingRatio))) * demoIrrParams.moduleTransparency))
      ≠ throughModules demoIrrParams 40
    norm_num [throughModules, demoIrrParams]

/-- Fast mode with the isotropic model, everything computed with errors of double precision. -/
theorem C101_demo_fast :
    let A := tooLargeLight (1 / 2 ^ 53) (by norm_num)
    let s := isotropicStep demoIrrParams vertIrr
    let a := SurfRef.pv 0 .back 1 false
    |(A.fastStep (inOrder 1) vertArray vertStep (s.withLight (A.isotropicLight demoIrrParams vertIrr)) 0
        a).qinc - (fastSurface vertArray (fitStep vertArray vertStep) s 0 a).qinc| ≤ 1 / 10 := by
  intro A s a
  have ha : a ∈ surfaces vertArray := mem_surfaces.2 (mem_allRefs_pv.2 ⟨by simp [vertArray], by
    simp [ArrayParams.nSeg, ArrayParams.nBack, vertArray]⟩)
  have hdeg : (fitStep vertArray vertStep).rot.deg = 90 := by
    have : (fitStep vertArray vertStep).rot = ⟨90, false⟩ := vert_rot
    rw [this]
  have hal : (fitStep vertArray vertStep).alpha = 3 * Real.pi / 4 := by
    have : fitStep vertArray vertStep = _ := vert_fit
    rw [this]; exact vert_alpha
  have hf : ∀ x, x = (interrowShading vertArray (fitStep vertArray vertStep).alpha
        (fitStep vertArray vertStep).rot.deg).1 ∨
      x = (interrowShading vertArray (fitStep vertArray vertStep).alpha
        (fitStep vertArray vertStep).rot.deg).2 → x = 0 ∨ 2 * TOL ≤ x := by
    rw [hdeg, hal, vert_interrow]
    rintro x (rfl | rfl) <;> exact Or.inl rfl
  have b1 : 20 * sineErr (1 / 2 ^ 53) 270 * (3 / 2) ^ 3 ≤ 1 := by norm_num [sineErr]
  have b2 : shadeErr (1 / 2 ^ 53) (trigErr (1 / 2 ^ 53) (3 / 2) 270) 5 (3 / 2) < 1 / 10 ^ 9 := by
    norm_num [shadeErr, grow, trigErr, sineErr]
  set τ := fastPointErr 1 (1 / 2 ^ 53) (trigErr (1 / 2 ^ 53) (3 / 2) 270) 5 (3 / 2) with hτ
  have b3 : τ ≤ 1 / 10 ^ 9 ∧ 0 ≤ τ := by
    rw [hτ]
    norm_num [fastPointErr, shadeEndErr, lengthErr, sceneErr, shadeErr, endErr, groundErr, grow, trigErr,
      sineErr]
  have hd : shadeErr (1 / 2 ^ 53) (trigErr (1 / 2 ^ 53) (3 / 2) 270) 5 (3 / 2) * (3 / 2)
      < vertArray.distance := by
    have : vertArray.distance = 5 := by norm_num [vertArray, ArrayParams.distance]
    rw [this]
    norm_num at b2 ⊢
    linarith
  have hT : shadeErr (1 / 2 ^ 53) (trigErr (1 / 2 ^ 53) (3 / 2) 270) 5 (3 / 2) < TOL :=
    b2.trans (by norm_num [TOL])
  have hc : vertArray.height - vertArray.width / 2 * sind vertStep.surfaceTilt = 1 / 2 := by
    norm_num [vertArray, vertStep, sind_90]
  have hE : fastErr 2 (1 / 2 ^ 53) (stringErr (1 / 2 ^ 53) (fastSize 5 (3 / 2) τ) (1 / 2) (1 / 2) τ)
      ≤ 1 / 10000 := by
    rw [hτ]
    norm_num [fastErr, diffErr, vfSumErr, stringErr, fastSize, rowBound, rowMove, grow, fastPointErr,
      shadeEndErr, lengthErr, sceneErr, shadeErr, endErr, groundErr, trigErr, sineErr]
  have hE0 : 0 ≤ fastErr 2 (1 / 2 ^ 53) (stringErr (1 / 2 ^ 53) (fastSize 5 (3 / 2) τ) (1 / 2) (1 / 2) τ) := by
    rw [hτ]
    norm_num [fastErr, diffErr, vfSumErr, stringErr, fastSize, rowBound, rowMove, grow, fastPointErr,
      shadeEndErr, lengthErr, sceneErr, shadeErr, endErr, groundErr, trigErr, sineErr]
  have hn : ∀ j < vertArray.nRows, vertArray.nFront j ≤ 1 := by
    intro j _
    simp only [ArrayParams.nFront, vertArray]
    split_ifs <;> simp
  norm_num at b3
  have q := C101_fast_mode (ε := 1 / 2 ^ 53) (w := 1 / 2) (by norm_num) A.toTrigArith (inOrder 1) vertArray
    vertStep s _ C101_demo.1
    vert_physicalArray vert_physicalStep vert_size vert_margin b1 hd hT hf (by norm_num [vertArray])
    vert_half (by rw [inOrder_leaves]; rfl) hc.ge 1 hn τ hτ (by linarith [b3.1])
    (by norm_num [TOL]; linarith [b3.1]) (by linarith [b3.1]) (by norm_num [TOL]; linarith [b3.1]) 0 1
    false ha
  have nr : vertArray.nRows = 2 := rfl
  dsimp only at q
  rw [nr] at q
  refine q.trans ?_
  set F := fastErr 2 (1 / 2 ^ 53) (stringErr (1 / 2 ^ 53) (fastSize 5 (3 / 2) τ) (1 / 2) (1 / 2) τ)
  have hS : sineErr (1 / 2 ^ 53) 270 ≤ 1 / 20 := by norm_num [sineErr]
  obtain ⟨⟨-, a2⟩, ⟨-, b2⟩, ⟨-, c2⟩, -, ⟨-, e2⟩, -⟩ := LightArith.direct_near (by norm_num) A vert_lightInput hS
  have n8 : |vertIrr.dni| = 800 := by norm_num [vertIrr, abs_of_pos]
  rw [n8] at a2 b2 c2 e2
  have l1 : ((s.comp (.pv 0 .back 1 false)).map fun x => |x|).sum ≤ 800 := by
    have : ((s.comp (.pv 0 .back 1 false)).map fun x => |x|).sum
        = |(directCats demoIrrParams vertIrr).backIllum| + 0 := rfl
    rw [this, add_zero]
    exact e2
  have l2 : fastLight s ≤ 600 := by
    have g1 : |s.gndShaded| ≤ 900 := by
      have : s.gndShaded = 100 + (directCats demoIrrParams vertIrr).groundShaded := rfl
      rw [this]
      refine (abs_add_le _ _).trans ?_
      norm_num
      linarith
    have g2 : |s.gndIllum| ≤ 900 := by
      have : s.gndIllum = (directCats demoIrrParams vertIrr).groundIllum + 100 := rfl
      rw [this]
      refine (abs_add_le _ _).trans ?_
      norm_num
      linarith
    have g3 : |s.pvrowShaded| ≤ 1500 := by
      have : s.pvrowShaded = 700 - (directCats demoIrrParams vertIrr).frontIllum := rfl
      rw [this]
      refine (abs_sub _ _).trans ?_
      norm_num
      linarith
    have g4 : |s.pvrowIllum| = 700 := by
      have : s.pvrowIllum = 700 := rfl
      rw [this]; norm_num
    have g5 : s.albedo = 1 / 4 := rfl
    have g6 : s.rhoFront = 1 / 100 := rfl
    have g7 : s.sky = 100 := rfl
    unfold fastLight
    rw [g4, g5, g6, g7]
    norm_num [abs_of_pos]
    linarith
  have l3 : (s.comp (.pv 0 .back 1 false)).length = 1 := rfl
  have g5 : |s.albedo| = 1 / 4 := by
    have : s.albedo = 1 / 4 := rfl
    rw [this]; norm_num [abs_of_pos]
  have g6 : |s.rhoFront| = 1 / 100 := by
    have : s.rhoFront = 1 / 100 := rfl
    rw [this]; norm_num [abs_of_pos]
  have l0 : 0 ≤ fastLight s := by unfold fastLight; positivity
  have l4 : 0 ≤ ((s.comp (.pv 0 .back 1 false)).map fun x => |x|).sum := by
    have : ((s.comp (.pv 0 .back 1 false)).map fun x => |x|).sum
        = |(directCats demoIrrParams vertIrr).backIllum| + 0 := rfl
    rw [this]; positivity
  rw [l3, g5, g6]
  have g : grow (1 / 2 ^ 53) ^ (1 + 7) - 1 ≤ 1 / 10 ^ 10 := by norm_num [grow]
  have g0 : 0 ≤ grow (1 / 2 ^ 53) ^ (1 + 7) - 1 := by norm_num [grow]
  set L := fastLight s + (2 * (1 / 4) + 1 / 100) * (1 / 10 ^ 6) with hL
  have L1 : L ≤ 601 := by rw [hL]; norm_num; linarith
  have L0 : 0 ≤ L := by rw [hL]; norm_num; linarith
  have m1 := mul_le_mul hE L1 L0 (by norm_num)
  have m2 := mul_le_mul g (show (1 + F) * L + (((s.comp (.pv 0 .back 1 false)).map fun x => |x|).sum
    + (1 : ℕ) * (1 / 10 ^ 6)) ≤ 2000 by norm_num at m1 ⊢; linarith) (by positivity) (by norm_num)
  norm_num at m1 m2 ⊢
  linarith

end PVF

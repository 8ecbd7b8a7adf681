import Verif.Props.RoundedFlat
import Verif.Props.RoundedIrr

/-!
# Fast mode and irradiance models for horizontal rows, with rounding
-/

namespace PVF

/-- The upper edges of horizontal rows. -/
theorem flat_top_near {ε B K G : ℝ} (h0 : 0 < ε) (A : TrigArith ε) (hA : A.toArith.Ordered)
    (hπ : 0 ≤ A.sind (A.add 0 180)) (p : ArrayParams) (u : StepIn)
    (hst : PhysicalStep p u) (hB : ArraySize p B) (hK : 0 ≤ K) (hu : FlatMargin p u K G)
    (hS : 20 * sineErr ε G * K ^ 3 ≤ 1) {r : ℕ} (hr : r < p.nRows) :
    distPt ((fitStep p u).row r).full.highest ((A.fitStep p u).row r).full.highest
      ≤ sceneErr ε (trigErr ε K G) B K (1 / K) := by
  obtain ⟨htr, eg, -, hrot, hη0, h1⟩ := flat_setup h0 A p u hst hK hu hS
  obtain ⟨hK1, hG, -⟩ := (hu.sun hK).facts
  have hB0 : 0 < B := hB.width_pos.trans_le hB.width
  have ge5 := grow_pow_one h0.le h1 5
  have e0 : 0 ≤ endErr ε (trigErr ε K G) B := by
    unfold endErr
    exact add_nonneg (mul_nonneg (by linarith) (by positivity)) (by positivity)
  have s0 : 0 ≤ shadeErr ε (trigErr ε K G) B K := by
    unfold shadeErr
    exact add_nonneg (mul_nonneg (by linarith) (by positivity)) (by positivity)
  have g0 : 0 ≤ groundErr ε (trigErr ε K G) B K := by
    have := grow_pow_one h0.le h1 3
    unfold groundErr
    exact add_nonneg (add_nonneg (mul_nonneg (by linarith) (by positivity)) (by positivity))
      (by positivity)
  have te : endErr ε (trigErr ε K G) B + endErr ε (trigErr ε K G) B
      ≤ sceneErr ε (trigErr ε K G) B K (1 / K) := by
    have : 0 ≤ 2 * (endErr ε (trigErr ε K G) B + shadeErr ε (trigErr ε K G) B K) * (1 / (1 / K)) := by
      positivity
    unfold sceneErr; linarith
  have hr0 : 0 ≤ A.div p.width 2 := by
    have hx : 0 ≤ p.width / 2 := by linarith [hB.width_pos]
    have := A.div_err p.width 2
    rw [abs_of_nonneg hx] at this
    have h := (abs_le.1 this).1
    nlinarith
  rw [hrot] at htr eg
  obtain ⟨⟨x1, y1⟩, x2, y2⟩ := A.toArith.full_near h0.le h1 hB htr hr
  have ef : ((fitStep p u).row r).full = fullRowCoords (rowCenter p r) p.width 0 := by
    have : ((fitStep p u).row r).full = fullRowCoords (rowCenter p r) p.width (fitStep p u).rot.deg := rfl
    rw [this, hrot]
  rw [eg, ef]
  refine (highest_near_of_le ((Arith.dist_le_of x1 y1).trans te) ((Arith.dist_le_of x2 y2).trans te)
    ?_ ?_).1
  · simp [fullRowCoords, sind_180, PVF.sind_zero]
  · exact hA.add _ _ _ (hA.mul_right _ _ _ hr0 (by
      change A.sind 0 ≤ _
      rw [A.sind_zero]; exact hπ))

/-- C103: view factors of fast mode that are computed from the inputs, for tilted and horizontal rows. -/
theorem C103_view_factors {ε B K G w c : ℝ} (h0 : 0 < ε) (A : TrigArith ε) (hA : A.toArith.Ordered)
    (hπ : 0 ≤ A.sind (A.add 0 180)) (Z : SumTree)
    (p : ArrayParams) (u : StepIn) (hp : PhysicalArray p) (hst : PhysicalStep p u) (hB : ArraySize p B)
    (hK : 0 ≤ K) (hu : StepMargin p u ε K G ∨ FlatMargin p u K G)
    (hS : 20 * sineErr ε G * K ^ 3 ≤ 1)
    (hd : shadeErr ε (trigErr ε K G) B K * K < p.distance)
    (hTOL : shadeErr ε (trigErr ε K G) B K < TOL)
    (hf : ∀ x, x = (interrowShading p (fitStep p u).alpha (fitStep p u).rot.deg).1 ∨
      x = (interrowShading p (fitStep p u).alpha (fitStep p u).rot.deg).2 → x = 0 ∨ 2 * TOL ≤ x)
    (hw : w ≤ p.width)
    (hlong : ∀ a ∈ surfaces p, ((fitStep p u).coords a).length = 0 ∨
      w ≤ ((fitStep p u).coords a).length)
    (hZ : Z.leaves = Multiset.range p.nRows)
    (hc : c ≤ p.height - p.width / 2 * sind u.surfaceTilt)
    (N : ℕ) (hN : ∀ j < p.nRows, p.nFront j ≤ N)
    (τ : ℝ) (hτd : τ = fastPointErr N ε (trigErr ε K G) B K) (hτ : 2 * K * τ < w)
    (hτT : 4 * τ ≤ TOL) (hτc : 4 * τ < c) (hw2 : 2 * TOL ≤ w - 2 * τ)
    (r k : ℕ) (sh : Bool) (ha : SurfRef.pv r .back k sh ∈ surfaces p) :
    FastNear p.nRows ε (stringErr ε (fastSize B K τ) w c τ)
      (A.fastVF Z p u r (.pv r .back k sh))
      (fastVF p (fitStep p u) r ((fitStep p u).coords (.pv r .back k sh))) := by
  rcases hu with hu | hu
  · exact C100_view_factors h0.le A Z p u hp hst hB hu hS hd hTOL hf hw hlong hZ hc N hN τ hτd hτ hτT hτc
      hw2 r k sh ha
  · obtain ⟨htr, eg, eT, hrot, -⟩ := flat_setup h0 A p u hst hK hu hS
    exact fast_view_factors h0.le A Z p u hp hst hB (hu.sun hK) _ _ htr eg eT
      (C102_step h0 A hA hπ p u hp hst hB hK hu hS hd hTOL hf) (fun _ => by rw [hrot]) hS hd hTOL hf hw hlong
      hZ hc N hN τ hτd hτ hτT hτc hw2 r k sh ha

/-- C103: everything that fast mode stores, for tilted and horizontal rows. -/
theorem C103_fast_mode {ε B K G w c : ℝ} (h0 : 0 < ε) (A : TrigArith ε) (hA : A.toArith.Ordered)
    (hπ : 0 ≤ A.sind (A.add 0 180)) (Z : SumTree)
    (p : ArrayParams) (u : StepIn) (s : IrrStep) (hp : PhysicalArray p) (hst : PhysicalStep p u)
    (hB : ArraySize p B)
    (hK : 0 ≤ K) (hu : StepMargin p u ε K G ∨ FlatMargin p u K G)
    (hS : 20 * sineErr ε G * K ^ 3 ≤ 1)
    (hd : shadeErr ε (trigErr ε K G) B K * K < p.distance)
    (hTOL : shadeErr ε (trigErr ε K G) B K < TOL)
    (hf : ∀ x, x = (interrowShading p (fitStep p u).alpha (fitStep p u).rot.deg).1 ∨
      x = (interrowShading p (fitStep p u).alpha (fitStep p u).rot.deg).2 → x = 0 ∨ 2 * TOL ≤ x)
    (hw : w ≤ p.width)
    (hlong : ∀ a ∈ surfaces p, ((fitStep p u).coords a).length = 0 ∨
      w ≤ ((fitStep p u).coords a).length)
    (hZ : Z.leaves = Multiset.range p.nRows)
    (hc : c ≤ p.height - p.width / 2 * sind u.surfaceTilt)
    (N : ℕ) (hN : ∀ j < p.nRows, p.nFront j ≤ N)
    (τ : ℝ) (hτd : τ = fastPointErr N ε (trigErr ε K G) B K) (hτ : 2 * K * τ < w)
    (hτT : 4 * τ ≤ TOL) (hτc : 4 * τ < c) (hw2 : 2 * TOL ≤ w - 2 * τ)
    (r k : ℕ) (sh : Bool) (ha : SurfRef.pv r .back k sh ∈ surfaces p) :
    let a := SurfRef.pv r .back k sh
    FastOutNear ε (fastErr p.nRows ε (stringErr ε (fastSize B K τ) w c τ)) s a
      (A.fastStep Z p u s r a) (fastSurface p (fitStep p u) s r a) := by
  exact fast_stored h0.le A Z p u s hp hst (hu.elim (fun h => h.sun) fun h => h.sun hK) hS r k sh ha
    (C103_view_factors h0 A hA hπ Z p u hp hst hB hK hu hS hd hTOL hf hw hlong hZ hc N hN τ hτd hτ hτT hτc hw2
      r k sh ha)

/-- C103: incident light of fast mode for irradiance terms with errors, for tilted and horizontal rows. -/
theorem C103_fast_light {ε B K G w c E : ℝ} (h0 : 0 < ε) (A : TrigArith ε) (hA : A.toArith.Ordered)
    (hπ : 0 ≤ A.sind (A.add 0 180)) (Z : SumTree)
    (p : ArrayParams) (u : StepIn) (s : IrrStep) (t' : LightTerms)
    (ht : TermsNear (surfaces p) E t' s.light)
    (hp : PhysicalArray p) (hst : PhysicalStep p u) (hB : ArraySize p B)
    (hK : 0 ≤ K) (hu : StepMargin p u ε K G ∨ FlatMargin p u K G)
    (hS : 20 * sineErr ε G * K ^ 3 ≤ 1)
    (hd : shadeErr ε (trigErr ε K G) B K * K < p.distance)
    (hTOL : shadeErr ε (trigErr ε K G) B K < TOL)
    (hf : ∀ x, x = (interrowShading p (fitStep p u).alpha (fitStep p u).rot.deg).1 ∨
      x = (interrowShading p (fitStep p u).alpha (fitStep p u).rot.deg).2 → x = 0 ∨ 2 * TOL ≤ x)
    (hw : w ≤ p.width)
    (hlong : ∀ a ∈ surfaces p, ((fitStep p u).coords a).length = 0 ∨
      w ≤ ((fitStep p u).coords a).length)
    (hZ : Z.leaves = Multiset.range p.nRows)
    (hc : c ≤ p.height - p.width / 2 * sind u.surfaceTilt)
    (N : ℕ) (hN : ∀ j < p.nRows, p.nFront j ≤ N)
    (τ : ℝ) (hτd : τ = fastPointErr N ε (trigErr ε K G) B K) (hτ : 2 * K * τ < w)
    (hτT : 4 * τ ≤ TOL) (hτc : 4 * τ < c) (hw2 : 2 * TOL ≤ w - 2 * τ)
    (r k : ℕ) (sh : Bool) (ha : SurfRef.pv r .back k sh ∈ surfaces p) :
    let a := SurfRef.pv r .back k sh
    let n := (s.comp a).length
    let F := fastErr p.nRows ε (stringErr ε (fastSize B K τ) w c τ)
    let L := fastLight s + (2 * |s.albedo| + |s.rhoFront|) * E
    |(A.fastStep Z p u (s.withLight t') r a).qinc - (fastSurface p (fitStep p u) s r a).qinc|
      ≤ (grow ε ^ (n + 7) - 1) * ((1 + F) * L + (((s.comp a).map fun x => |x|).sum + n * E)) + F * L
        + (2 * |s.albedo| + |s.rhoFront| + n) * E := by
  exact fast_light h0.le A Z p u s t' ht hp hst (hu.elim (fun h => h.sun) fun h => h.sun hK) hS r k sh ha
    (C103_view_factors h0 A hA hπ Z p u hp hst hB hK hu hS hd hTOL hf hw hlong hZ hc N hN τ hτd hτ hτT hτc hw2
      r k sh ha)

/-- C103: terms of the hybrid Perez model, for tilted and horizontal rows. -/
theorem C103_hybrid {ε B K G Kc w m : ℝ} (h0 : 0 < ε) (A : LightArith ε) (hA : A.toArith.Ordered)
    (hπ : 0 ≤ A.sind (A.add 0 180)) (q : IrrParams) (v : IrrIn)
    (p : ArrayParams) (hp : PhysicalArray p) (hst : PhysicalStep p v.step) (hB : ArraySize p B)
    (hK : 0 ≤ K) (hu : StepMargin p v.step ε K G ∨ FlatMargin p v.step K G)
    (hS : 20 * sineErr ε G * K ^ 3 ≤ 1)
    (hd : shadeErr ε (trigErr ε K G) B K * K < p.distance)
    (hT : shadeErr ε (trigErr ε K G) B K < TOL)
    (hf : ∀ x, x = (interrowShading p (fitStep p v.step).alpha (fitStep p v.step).rot.deg).1 ∨
      x = (interrowShading p (fitStep p v.step).alpha (fitStep p v.step).rot.deg).2 →
        x = 0 ∨ 2 * TOL ≤ x)
    (hw : w ≤ p.width)
    (hlong : ∀ a ∈ surfaces p, ((fitStep p v.step).coords a).length = 0 ∨
      w ≤ ((fitStep p v.step).coords a).length)
    (hv : LightInput A q v G) (Kc0 : 0 ≤ Kc)
    (hKc : |v.perez.poaCircumsolar| ≤ Kc
      * |aoiProjection v.surfaceTilt v.surfaceAzimuth v.solarZenith v.solarAzimuth|)
    (τ : ℝ) (hτd : τ = sceneErr ε (trigErr ε K G) B K (1 / K)) (hτ : 2 * K * τ < w)
    (hm : 0 < m) (hm1 : m ≤ p.distance - p.width * |cosd v.surfaceTilt|)
    (hb : 0 < q.horizonBandAngle)
    (δ : ℝ) (hδ : δ = 3 * τ + 15 / 2 * (ε * B)) (hδm : 4 * δ ≤ m) :
    TermsNear (surfaces p)
      (50 * (sineErr ε G * (K ^ 2 * (|v.dni| + |v.dhi| + |v.poaGlobal|
        + |v.perez.luminanceCircumsolar| + Kc)))
        + |v.perez.poaHorizon| * horizonErr ε δ p.width m q.horizonBandAngle)
      (A.hybridLight q p (A.fitStep p v.step) v)
      (hybridPerezStep q p (fitStep p v.step) v).light := by
  rcases hu with hu | hu
  · exact C101_hybrid h0.le A q v p hp hst hB hu hS hd hT hf hw hlong hv Kc0 hKc τ hτd hτ hm hm1 hb δ hδ hδm
  · subst hτd
    exact hybrid_step h0.le A q v p hp hst hB (hu.sun hK) hS hv Kc0 hKc _ rfl
      (C102_step h0 A.toTrigArith hA hπ p v.step hp hst hB hK hu hS hd hT hf)
      (fun r hr => flat_top_near h0 A.toTrigArith hA hπ p v.step hst hB hK hu hS hr) hm hm1 hb δ hδ hδm

/-- C103: incident light of full mode for irradiance terms with errors; the rows may be horizontal at some or
all time steps. -/
theorem C103_full_light {ι : Type*} [Fintype ι] {ε B K G D w c E : ℝ} (h0 : 0 < ε)
    (A : TrigArith ε) (hA : A.toArith.Ordered)
    (hπ : 0 ≤ A.sind (A.add 0 180)) (T : SumTree) (p : ArrayParams) (u : ι → StepIn) (s : ι → IrrStep)
    (aoi : ι → Option (List Asg)) (o : ι → FullOut) (hrun : runFullMode p u s aoi = some o)
    (hinv : ∀ t, InverseOk p (s t)) (t : ι)
    (t' : LightTerms) (ht : TermsNear (surfaces p) E t' (s t).light)
    (hp : PhysicalArray p) (hst : ∀ t, PhysicalStep p (u t)) (hB : ArraySize p B)
    (hK : 0 ≤ K) (hu : ∀ t, StepMargin p (u t) ε K G ∨ FlatMargin p (u t) K G)
    (hS : 20 * sineErr ε G * K ^ 3 ≤ 1)
    (hd : shadeErr ε (trigErr ε K G) B K * K < p.distance)
    (hTOL : shadeErr ε (trigErr ε K G) B K < TOL)
    (hf : ∀ t x, x = (interrowShading p (fitStep p (u t)).alpha (fitStep p (u t)).rot.deg).1 ∨
      x = (interrowShading p (fitStep p (u t)).alpha (fitStep p (u t)).rot.deg).2 →
        x = 0 ∨ 2 * TOL ≤ x)
    (hw : w ≤ p.width)
    (hlong : ∀ t, ∀ a ∈ surfaces p, ((fitStep p (u t)).coords a).length = 0 ∨
      w ≤ ((fitStep p (u t)).coords a).length)
    (hT : T.leaves = Multiset.range (nTsSurfaces p))
    (hs : SceneSize p (fitStep p (u t)) (isEmptyTs fun t => fitStep p (u t)) D w)
    (hc : c ≤ p.height - p.width / 2 * sind (u t).surfaceTilt)
    (τ : ℝ) (hτd : τ = sceneErr ε (trigErr ε K G) B K (1 / K)) (hτ : 2 * K * τ < w)
    (hτT : 4 * τ ≤ TOL) (hτn : Fintype.card ι * (2 * τ) < TOL) (hτc : 4 * τ < c)
    (hw2 : 2 * TOL ≤ w - 2 * τ)
    (r : ℝ) (hr : ∀ a ∈ surfaces p, 0 ≤ (s t).rho a ∧ (s t).rho a ≤ r) (hr1 : r < 1)
    (q0' qinc' : SurfRef → ℝ) (sky' η₁ η₂ M H : ℝ)
    (hH : ∀ a ∈ surfaces p, termSumErr ((s t).comp a).length ε E (((s t).comp a).map fun x => |x|).sum ≤ H)
    (hsol : NearlySolved p (A.vfMatrix T p (A.fitStep p (u t)) (isEmptyTs fun t => A.fitStep p (u t)))
      (fun a => A.sumComponents (t'.comp a)) (s t).rho (s t).sky
      (fun a => A.sumComponents (t'.comp a)) q0' qinc' sky' η₁ η₂ 0 M) :
    let E := entryBound ε (D + 2 * τ) (w - 2 * τ) (c - 2 * τ) (2 * τ)
      + entryMove (D + 2 * τ) (w - 2 * τ) (c - 2 * τ) (2 * τ) τ
    ∀ a ∈ surfaces p, |qinc' a - (o t).qinc a|
      ≤ (η₁ + η₂ + H + rowErrors (nTsSurfaces p) ε E * M) / (1 - r) := by
  have hm : SunMargin p (u t) K G := (hu t).elim (fun h => h.sun) fun h => h.sun hK
  obtain ⟨hK1, hG, -⟩ := hm.facts
  have h1 : ε < 1 := by
    have hS0 : 14 * ε ≤ sineErr ε G := by
      unfold sineErr
      have : 0 ≤ ε * (G / 16) := by positivity
      linarith
    have : sineErr ε G * 1 ≤ sineErr ε G * K ^ 3 :=
      mul_le_mul_of_nonneg_left (one_le_pow₀ hK1) (by linarith)
    linarith
  exact C102_full_mode h0 A hA hπ T p u s aoi o hrun hinv t hp hst hB hK hu hS hd hTOL hf hw hlong hT hs hc τ
    hτd hτ hτT hτn hτc hw2 r hr hr1 (fun a => A.sumComponents (t'.comp a)) q0' qinc' sky' η₁ η₂ H M
    ⟨fun a ha => (C101_sky_term h0.le h1 A.toArith (surfaces p) t' (s t).light ht a ha).trans (hH a ha),
      hsol.sky, hsol.arriving, hsol.sent, hsol.size⟩

/-! ## Witness -/

/-- Operations and functions that give numbers that are too large by a factor of `1 + ε`, angles in radians
are too small. -/
noncomputable def smallPiLight (ε : ℝ) (h : 0 < ε) : LightArith ε :=
  { smallPi ε h with
    acos := (tooLargeLight ε h).acos
    atan := (tooLargeLight ε h).atan
    acos_err := (tooLargeLight ε h).acos_err
    atan_err := (tooLargeLight ε h).atan_err }

/-- The inputs of `flatStep` with light. -/
noncomputable def flatIrr : IrrIn where
  dni := 800
  dhi := 100
  solarZenith := 45
  solarAzimuth := 270
  surfaceTilt := 0
  surfaceAzimuth := 270
  albedo := 1 / 4
  ghi := none
  poaGlobal := 700
  perez := ⟨60, 40, 10, 40⟩

theorem flat_projection : aoiProjection 0 270 45 270 = Real.sqrt 2 / 2 := by
  unfold aoiProjection
  rw [cosd_zero, PVF.sind_zero, cosd_45]
  ring

theorem flat_lightInput :
    LightInput (smallPiLight (1 / 2 ^ 53) (by norm_num)) demoIrrParams flatIrr 270 := by
  have hS : sineErr (1 / 2 ^ 53) 270 ≤ 1 / 10 ^ 13 := by norm_num [sineErr]
  have hS0 : 0 ≤ sineErr (1 / 2 ^ 53) 270 := by norm_num [sineErr]
  obtain ⟨r1, r2⟩ := sqrt2_bounds
  have hz : |flatIrr.solarZenith| ≤ 180 := by norm_num [flatIrr, abs_of_pos]
  have ht : |flatIrr.surfaceTilt| ≤ 180 := by norm_num [flatIrr]
  have ha : |flatIrr.solarAzimuth - flatIrr.surfaceAzimuth| ≤ 270 := by norm_num [flatIrr]
  refine ⟨hz, ht, ha, ?_, by norm_num [demoIrrParams], by norm_num [demoIrrParams]⟩
  have := LightArith.projection_near (by norm_num) (smallPiLight (1 / 2 ^ 53) (by norm_num)) (v := flatIrr)
    (by linarith) hz ht ha
  have e : PVF.aoiProjection flatIrr.surfaceTilt flatIrr.surfaceAzimuth flatIrr.solarZenith
    flatIrr.solarAzimuth = Real.sqrt 2 / 2 := flat_projection
  rw [e] at this
  obtain ⟨l, r⟩ := abs_le.1 this
  rw [abs_le]
  constructor <;> norm_num at hS <;> linarith

theorem vertFlat_lengths (t : Fin 2) : ∀ x,
    x = (interrowShading vertArray (fitStep vertArray (vertFlat t)).alpha
      (fitStep vertArray (vertFlat t)).rot.deg).1 ∨
    x = (interrowShading vertArray (fitStep vertArray (vertFlat t)).alpha
      (fitStep vertArray (vertFlat t)).rot.deg).2 → x = 0 ∨ 2 * TOL ≤ x := by
  unfold vertFlat; split_ifs
  · have e : interrowShading vertArray (fitStep vertArray vertStep).alpha
        (fitStep vertArray vertStep).rot.deg = (0, 0) := by
      rw [vert_fit]
      change interrowShading vertArray (arctan2 _ _) 90 = _
      rw [vert_alpha, vert_interrow]
    rw [e]
    rintro x (rfl | rfl) <;> exact Or.inl rfl
  · have e : interrowShading vertArray (fitStep vertArray flatStep).alpha
        (fitStep vertArray flatStep).rot.deg = (0, 0) := by
      rw [flat_fit]
      change interrowShading vertArray (arctan2 _ _) 0 = _
      rw [vert_alpha, flat_interrow]
    rw [e]
    rintro x (rfl | rfl) <;> exact Or.inl rfl

/-- A run in double precision where the rows are vertical at one time step and horizontal at the other: the
view factors of fast mode are exact up to 1/50000. -/
theorem C103_demo (t : Fin 2) :
    let A := smallPi (1 / 2 ^ 53) (by norm_num)
    let a := SurfRef.pv 0 .back 1 false
    FastNear 2 (1 / 2 ^ 53) (1 / 50000) (A.fastVF (inOrder 1) vertArray (vertFlat t) 0 a)
      (fastVF vertArray (fitStep vertArray (vertFlat t)) 0
        ((fitStep vertArray (vertFlat t)).coords a)) ∧
    (A.fastStep (inOrder 1) vertArray (vertFlat t) vertLight 0 a).skyTerm
      ≠ (fastSurface vertArray (fitStep vertArray (vertFlat t)) vertLight 0 a).skyTerm := by
  intro A a
  have ha : a ∈ surfaces vertArray := mem_surfaces.2 (mem_allRefs_pv.2 ⟨by simp [vertArray], by
    simp [ArrayParams.nSeg, ArrayParams.nBack, vertArray]⟩)
  have hst : PhysicalStep vertArray (vertFlat t) := by
    unfold vertFlat; split_ifs
    · exact vert_physicalStep
    · exact flat_physicalStep
  have hmar : StepMargin vertArray (vertFlat t) (1 / 2 ^ 53) (3 / 2) 270 ∨
      FlatMargin vertArray (vertFlat t) (3 / 2) 270 := by
    unfold vertFlat; split_ifs
    · exact Or.inl vert_margin
    · exact Or.inr flat_margin
  have hlong : ∀ a ∈ surfaces vertArray, ((fitStep vertArray (vertFlat t)).coords a).length = 0 ∨
      1 / 2 ≤ ((fitStep vertArray (vertFlat t)).coords a).length := by
    unfold vertFlat; split_ifs
    · exact vert_half
    · exact flat_half
  have hc : (1 / 2 : ℝ) ≤ vertArray.height - vertArray.width / 2 * sind (vertFlat t).surfaceTilt := by
    have : sind (vertFlat t).surfaceTilt ≤ 1 := Real.sin_le_one _
    norm_num [vertArray]
    linarith
  have b1 : 20 * sineErr (1 / 2 ^ 53) 270 * (3 / 2) ^ 3 ≤ 1 := by norm_num [sineErr]
  have b2 : shadeErr (1 / 2 ^ 53) (trigErr (1 / 2 ^ 53) (3 / 2) 270) 5 (3 / 2) < 1 / 10 ^ 9 := by
    norm_num [shadeErr, grow, trigErr, sineErr]
  set τ := fastPointErr 1 (1 / 2 ^ 53) (trigErr (1 / 2 ^ 53) (3 / 2) 270) 5 (3 / 2) with hτ
  have b3 : τ ≤ 1 / 10 ^ 9 ∧ 0 ≤ τ := by
    rw [hτ]
    norm_num [fastPointErr, shadeEndErr, lengthErr, sceneErr, shadeErr, endErr, groundErr, grow, trigErr,
      sineErr]
  have hd : shadeErr (1 / 2 ^ 53) (trigErr (1 / 2 ^ 53) (3 / 2) 270) 5 (3 / 2) * (3 / 2)
      < vertArray.distance := by
    have : vertArray.distance = 5 := by norm_num [vertArray, ArrayParams.distance]
    rw [this]
    norm_num at b2 ⊢
    linarith
  have hT : shadeErr (1 / 2 ^ 53) (trigErr (1 / 2 ^ 53) (3 / 2) 270) 5 (3 / 2) < TOL :=
    b2.trans (by norm_num [TOL])
  have hE : stringErr (1 / 2 ^ 53) (fastSize 5 (3 / 2) τ) (1 / 2) (1 / 2) τ ≤ 1 / 50000 := by
    rw [hτ]
    norm_num [stringErr, fastSize, rowBound, rowMove, grow, fastPointErr, shadeEndErr, lengthErr, sceneErr,
      shadeErr, endErr, groundErr, trigErr, sineErr]
  have hn : ∀ j < vertArray.nRows, vertArray.nFront j ≤ 1 := by
    intro j _
    simp only [ArrayParams.nFront, vertArray]
    split_ifs <;> simp
  norm_num at b3
  have v := C103_view_factors (ε := 1 / 2 ^ 53) (w := 1 / 2) (by norm_num) A (smallPi_ordered _)
    smallPi_sine.le (inOrder 1) vertArray (vertFlat t)
    vert_physicalArray hst vert_size (by norm_num) hmar b1 hd hT (vertFlat_lengths t) (by norm_num [vertArray])
    hlong (by rw [inOrder_leaves]; rfl) hc 1 hn τ hτ (by linarith [b3.1])
    (by norm_num [TOL]; linarith [b3.1]) (by linarith [b3.1]) (by norm_num [TOL]; linarith [b3.1]) 0 1
    false ha
  have nr : vertArray.nRows = 2 := rfl
  have gp : (0 : ℝ) < grow (1 / 2 ^ 53) ^ 2 - 1 := by norm_num [grow]
  have vm : vfSumErr 2 (1 / 2 ^ 53) (stringErr (1 / 2 ^ 53) (fastSize 5 (3 / 2) τ) (1 / 2) (1 / 2) τ)
      ≤ vfSumErr 2 (1 / 2 ^ 53) (1 / 50000) := by
    unfold vfSumErr
    have := mul_le_mul_of_nonneg_left (show (2 : ℕ) * (1 + stringErr (1 / 2 ^ 53) (fastSize 5 (3 / 2) τ)
      (1 / 2) (1 / 2) τ) ≤ (2 : ℕ) * (1 + (1 / 50000 : ℝ)) by push_cast; linarith) gp.le
    push_cast at this ⊢
    linarith
  have dm : ∀ {d e : ℝ}, d ≤ e → diffErr (1 / 2 ^ 53) d ≤ diffErr (1 / 2 ^ 53) e := fun {d e} h => by
    unfold diffErr
    have := mul_le_mul_of_nonneg_left h (show (0 : ℝ) ≤ 1 / 2 ^ 53 by norm_num)
    linarith
  rw [nr] at v
  refine ⟨⟨v.each.imp fun _ _ h => h.trans hE, v.gndShaded.trans vm, v.gndTotal.trans hE,
    v.gndIllum.trans (dm (add_le_add vm hE)), v.pvrowTotal.trans hE, v.pvrowShaded.trans hE,
    v.pvrowIllum.trans (dm (add_le_add hE hE)), v.sky.trans (dm (add_le_add hE (dm hE)))⟩, ?_⟩
  change (1 + 1 / 2 ^ 53 : ℝ) * ((1 + 1 / 2 ^ 53) * ((1 + 1 / 2 ^ 53) * (0 + 100) + 20) + 5)
    ≠ 0 + 100 + 20 + 5
  norm_num

/-- The hybrid Perez model at a time step with horizontal rows: in double precision the terms differ from the
exact ones, by less than a millionth of a watt per square metre. -/
theorem C103_demo_hybrid :
    let A := smallPiLight (1 / 2 ^ 53) (by norm_num)
    TermsNear (surfaces vertArray) (1 / 10 ^ 6)
      (A.hybridLight demoIrrParams vertArray (A.fitStep vertArray flatStep) flatIrr)
      (hybridPerezStep demoIrrParams vertArray (fitStep vertArray flatStep) flatIrr).light ∧
    (A.circumsolarCats demoIrrParams flatIrr).groundShaded
      ≠ (circumsolarCats demoIrrParams flatIrr).groundShaded := by
  intro A
  obtain ⟨r1, r2⟩ := sqrt2_bounds
  have hS : sineErr (1 / 2 ^ 53) 270 ≤ 1 / 10 ^ 13 := by norm_num [sineErr]
  constructor
  · have b1 : 20 * sineErr (1 / 2 ^ 53) 270 * (3 / 2) ^ 3 ≤ 1 := by norm_num [sineErr]
    have b2 : shadeErr (1 / 2 ^ 53) (trigErr (1 / 2 ^ 53) (3 / 2) 270) 5 (3 / 2) < 1 / 10 ^ 9 := by
      norm_num [shadeErr, grow, trigErr, sineErr]
    set τ := sceneErr (1 / 2 ^ 53) (trigErr (1 / 2 ^ 53) (3 / 2) 270) 5 (3 / 2) (1 / (3 / 2)) with hτ
    have b3 : τ ≤ 1 / 10 ^ 9 ∧ 0 ≤ τ := by
      rw [hτ]
      norm_num [sceneErr, shadeErr, endErr, groundErr, grow, trigErr, sineErr]
    have hdist : vertArray.distance = 5 := by norm_num [vertArray, ArrayParams.distance]
    have hd : shadeErr (1 / 2 ^ 53) (trigErr (1 / 2 ^ 53) (3 / 2) 270) 5 (3 / 2) * (3 / 2)
        < vertArray.distance := by
      rw [hdist]
      norm_num at b2 ⊢
      linarith
    have hT : shadeErr (1 / 2 ^ 53) (trigErr (1 / 2 ^ 53) (3 / 2) 270) 5 (3 / 2) < TOL :=
      b2.trans (by norm_num [TOL])
    norm_num at b3
    have h := C103_hybrid (ε := 1 / 2 ^ 53) (w := 1 / 2) (m := 3) (Kc := 60) (by norm_num) A
      (smallPi_ordered _) smallPi_sine.le demoIrrParams
      flatIrr vertArray vert_physicalArray flat_physicalStep vert_size (by norm_num) (Or.inr flat_margin)
      b1 hd hT (vertFlat_lengths 1)
      (by norm_num [vertArray]) flat_half flat_lightInput (by norm_num) (by
        have e : PVF.aoiProjection flatIrr.surfaceTilt flatIrr.surfaceAzimuth flatIrr.solarZenith
          flatIrr.solarAzimuth = Real.sqrt 2 / 2 := flat_projection
        have : |flatIrr.perez.poaCircumsolar| = 40 := by norm_num [flatIrr, abs_of_pos]
        rw [e, this, abs_of_pos (by linarith)]
        linarith) τ hτ (by linarith [b3.1]) (by norm_num)
      (by
        have : flatIrr.surfaceTilt = 0 := rfl
        rw [hdist, this, cosd_zero]; norm_num [vertArray]) (by norm_num [demoIrrParams]) _ rfl
        (by linarith [b3.1])
    have le : 50 * (sineErr (1 / 2 ^ 53) 270 * ((3 / 2) ^ 2 * (|flatIrr.dni| + |flatIrr.dhi|
        + |flatIrr.poaGlobal| + |flatIrr.perez.luminanceCircumsolar| + 60)))
        + |flatIrr.perez.poaHorizon| * horizonErr (1 / 2 ^ 53) (3 * τ + 15 / 2 * (1 / 2 ^ 53 * 5))
          vertArray.width 3 demoIrrParams.horizonBandAngle ≤ 1 / 10 ^ 6 := by
      norm_num [sineErr, flatIrr, abs_of_pos, horizonErr, vertArray, demoIrrParams]
      linarith [b3.1]
    exact ⟨fun a ha => (h.comp a ha).imp fun _ _ x => x.trans le, h.gndShaded.trans le,
      h.gndIllum.trans le, h.pvrowShaded.trans le, h.pvrowIllum⟩
  · change (1 + 1 / 2 ^ 53 : ℝ) * ((1 + 1 / 2 ^ 53) * (40 * demoIrrParams.moduleSpacingRatio)
      + (1 + 1 / 2 ^ 53) * ((1 + 1 / 2 ^ 53) * (40 * ((1 + 1 / 2 ^ 53)
        * (1 - demoIrrParams.moduleSpacingRatio))) * demoIrrParams.moduleTransparency))
      ≠ throughModules demoIrrParams 40
    norm_num [throughModules, demoIrrParams]

end PVF

import Verif.Lemmas.RoundedWeighted
import Verif.Props.RoundedFlatLight
import Verif.Props.Run

/-!
# Averages over the sides of rows with rounding

The weighted values of the sides of rows, which make up the report, when lengths, values and averages are
computed with rounding errors.
-/

namespace PVF

/-- C104: weighted value of a side, for any surfaces whose lengths and values have errors. -/
theorem C104_side {α : Type*} {ε σ V e : ℝ} (h0 : 0 ≤ ε) (h1 : ε < 1) (A : Arith ε)
    (segs : List (SegColl α)) (l' l : α → Line) (v' v : α → ℝ) {c n : ℕ}
    (hc : ∀ s ∈ segs, s.illum.length ≤ c ∧ s.shaded.length ≤ c)
    (hn : (segs.flatMap fun s => s.illum ++ s.shaded).length = n)
    (hσ : ∀ s ∈ segs, ∀ a ∈ s.illum ++ s.shaded, |(l' a).length - (l a).length| ≤ σ)
    (he : ∀ s ∈ segs, ∀ a ∈ s.illum ++ s.shaded, |v' a - v a| ≤ e)
    (hV : ∀ s ∈ segs, ∀ a ∈ s.illum ++ s.shaded, |v a| ≤ V) (V0 : 0 ≤ V) (L : ℝ)
    (hL : ((segs.flatMap fun s => s.illum ++ s.shaded).map fun a => (l a).length).sum = L)
    (hnL : n * σ < L) :
    |A.sideWeighted (fun a => A.length (l' a)) v' segs - sideWeighted (fun a => (l a).length) v segs|
      ≤ averageErr (10 + 2 * (c + segs.length)) n ε L σ V e := by
  have mem : ∀ {P : α → Prop}, (∀ s ∈ segs, ∀ a ∈ s.illum ++ s.shaded, P a) →
      ∀ a ∈ segs.flatMap SegColl.all, P a := fun h a ha => by
    obtain ⟨s, hs, ha⟩ := List.mem_flatMap.1 ha
    exact h s hs a ha
  change (segs.flatMap SegColl.all).length = n at hn
  change ((segs.flatMap SegColl.all).map fun a => (l a).length).sum = L at hL
  subst hn hL
  obtain ⟨p', b, m⟩ := average_near (segs.flatMap SegColl.all) (fun a => (l' a).length)
    (fun a => (l a).length) v' v (fun a _ => Line.length_nonneg _) (fun a _ => Line.length_nonneg _)
    (mem hσ) (mem he) (mem hV) V0 hnL
  have hl : ∀ a, Rel ε 3 (A.length (l' a)) (l' a).length := fun a => A.dist_rel h0 h1 _ _
  have q := ((A.sideWW_near h0 h1 _ _ v' segs hc hl fun a => Line.length_nonneg _).div h0 h1
    (A.sideLength_rel h0 h1 _ _ segs hc hl fun a => Line.length_nonneg _) p').round h0 h1 (A.div_err _ _)
  have q1 := q.1
  have g := grow_pow_one h0 h1 (10 + 2 * (c + segs.length))
  rw [show 5 + c + segs.length + (4 + c + segs.length) + 1 = 10 + 2 * (c + segs.length) by omega] at q1
  have q2 := q1.trans (mul_le_mul_of_nonneg_left ((div_le_iff₀ p').2 m) (by linarith))
  rw [sideWeighted, sideWW_sum, sideCollLength_sum]
  refine (abs_sub_le _ _ _).trans ((add_le_add q2 b).trans ?_)
  unfold averageErr
  linarith

/-- C104: weighted value of a side of a row, for any coordinates and values with errors. -/
theorem C104_row_side {ε τ V e : ℝ} (h0 : 0 ≤ ε) (h1 : ε < 1) (A : Arith ε) (p : ArrayParams) (u : StepIn)
    (hp : PhysicalArray p) (hst : PhysicalStep p u) (g' : StepGeom) (hn : CoordsNear p (fitStep p u) g' τ)
    (i : ℕ) (hi : i < p.nRows) (s : RowSide) (hseg : 0 < p.nSeg i s) (v' v : SurfRef → ℝ)
    (he : ∀ k < p.nSeg i s, ∀ sh, |v' (.pv i s k sh) - v (.pv i s k sh)| ≤ e)
    (hV : ∀ k < p.nSeg i s, ∀ sh, |v (.pv i s k sh)| ≤ V)
    (hτ : 4 * p.nSeg i s * τ < p.width) :
    |A.sideWeighted (fun a => A.length (g'.coords a)) v' (sideColl p i s)
        - sideWeighted (lengthAt p u) v (sideColl p i s)|
      ≤ averageErr (12 + 2 * p.nSeg i s) (2 * p.nSeg i s) ε p.width (2 * τ) V e := by
  have mem : ∀ {P : SurfRef → Prop}, (∀ k < p.nSeg i s, ∀ sh, P (.pv i s k sh)) →
      ∀ c ∈ sideColl p i s, ∀ a ∈ c.illum ++ c.shaded, P a := by
    intro P hP c hc a ha
    obtain ⟨k, hk, rfl⟩ := List.mem_map.1 hc
    have hk := List.mem_range.1 hk
    simp only [List.cons_append, List.nil_append, List.mem_cons, List.not_mem_nil, or_false] at ha
    rcases ha with rfl | rfl <;> exact hP k hk _
  have hrefs : ((sideColl p i s).flatMap fun s => s.illum ++ s.shaded) = sideRefs p i s := by
    simp [sideRefs, sideColl, List.flatMap_map]
  have hw := (C37_row_side p u i s (fun _ => 1) hp hst hseg).2 1 1 fun _ _ _ => ⟨le_rfl, le_rfl⟩
  have hL := (C37_row_side p u i s (fun _ => 1) hp hst hseg).1
  rw [le_antisymm hw.2 hw.1] at hL
  simp only [mul_one] at hL
  have V0 : 0 ≤ V := (abs_nonneg _).trans (hV 0 hseg false)
  have := C104_side h0 h1 A (sideColl p i s) g'.coords (fitStep p u).coords v' v (c := 1) (n := 2 * p.nSeg i s)
    (by
      intro c hc
      obtain ⟨k, -, rfl⟩ := List.mem_map.1 hc
      simp)
    (by rw [hrefs]; simp [sideRefs, mul_comm])
    (mem fun k hk sh => hn.length (mem_surfaces.2 (mem_allRefs_pv.2 ⟨hi, hk⟩))) (mem he) (mem hV) V0 p.width
    (by rw [hrefs, hL]; rfl) (by push_cast; linarith)
  rw [show 10 + 2 * (1 + (sideColl p i s).length) = 12 + 2 * p.nSeg i s by
    simp [sideColl]; omega] at this
  exact this

theorem small_eps {ε K G : ℝ} {p : ArrayParams} {u : StepIn} (h0 : 0 < ε) (hK : 0 ≤ K)
    (hu : StepMargin p u ε K G ∨ FlatMargin p u K G) (hS : 20 * sineErr ε G * K ^ 3 ≤ 1) : ε < 1 := by
  have hm : SunMargin p u K G := hu.elim (fun h => h.sun) fun h => h.sun hK
  obtain ⟨hK1, hG, -⟩ := hm.facts
  have hS0 : 14 * ε ≤ sineErr ε G := by
    unfold sineErr
    have : 0 ≤ ε * (G / 16) := by positivity
    linarith
  have : sineErr ε G * 1 ≤ sineErr ε G * K ^ 3 :=
    mul_le_mul_of_nonneg_left (one_le_pow₀ hK1) (by linarith)
  linarith

/-- C104: average incident light of a side of a row in full mode, computed from the inputs with rounding
errors; the rows may be horizontal at some or all time steps. -/
theorem C104_full_mode {ι : Type*} [Fintype ι] {ε B K G D w c E : ℝ} (h0 : 0 < ε)
    (A : TrigArith ε) (hA : A.toArith.Ordered)
    (hπ : 0 ≤ A.sind (A.add 0 180)) (T : SumTree) (p : ArrayParams) (u : ι → StepIn) (s : ι → IrrStep)
    (aoi : ι → Option (List Asg)) (o : ι → FullOut) (hrun : runFullMode p u s aoi = some o)
    (hinv : ∀ t, InverseOk p (s t)) (t : ι)
    (t' : LightTerms) (ht : TermsNear (surfaces p) E t' (s t).light)
    (hp : PhysicalArray p) (hst : ∀ t, PhysicalStep p (u t)) (hB : ArraySize p B)
    (hK : 0 ≤ K) (hu : ∀ t, StepMargin p (u t) ε K G ∨ FlatMargin p (u t) K G)
    (hS : 20 * sineErr ε G * K ^ 3 ≤ 1)
    (hd : shadeErr ε (trigErr ε K G) B K * K < p.distance)
    (hTOL : shadeErr ε (trigErr ε K G) B K < TOL)
    (hf : ∀ t x, x = (interrowShading p (fitStep p (u t)).alpha (fitStep p (u t)).rot.deg).1 ∨
      x = (interrowShading p (fitStep p (u t)).alpha (fitStep p (u t)).rot.deg).2 →
        x = 0 ∨ 2 * TOL ≤ x)
    (hw : w ≤ p.width)
    (hlong : ∀ t, ∀ a ∈ surfaces p, ((fitStep p (u t)).coords a).length = 0 ∨
      w ≤ ((fitStep p (u t)).coords a).length)
    (hT : T.leaves = Multiset.range (nTsSurfaces p))
    (hs : SceneSize p (fitStep p (u t)) (isEmptyTs fun t => fitStep p (u t)) D w)
    (hc : c ≤ p.height - p.width / 2 * sind (u t).surfaceTilt)
    (τ : ℝ) (hτd : τ = sceneErr ε (trigErr ε K G) B K (1 / K)) (hτ : 2 * K * τ < w)
    (hτT : 4 * τ ≤ TOL) (hτn : Fintype.card ι * (2 * τ) < TOL) (hτc : 4 * τ < c)
    (hw2 : 2 * TOL ≤ w - 2 * τ)
    (r : ℝ) (hr : ∀ a ∈ surfaces p, 0 ≤ (s t).rho a ∧ (s t).rho a ≤ r) (hr1 : r < 1)
    (q0' qinc' : SurfRef → ℝ) (sky' η₁ η₂ M H V : ℝ)
    (hH : ∀ a ∈ surfaces p, termSumErr ((s t).comp a).length ε E (((s t).comp a).map fun x => |x|).sum ≤ H)
    (hsol : NearlySolved p (A.vfMatrix T p (A.fitStep p (u t)) (isEmptyTs fun t => A.fitStep p (u t)))
      (fun a => A.sumComponents (t'.comp a)) (s t).rho (s t).sky
      (fun a => A.sumComponents (t'.comp a)) q0' qinc' sky' η₁ η₂ 0 M)
    (i : ℕ) (hi : i < p.nRows) (side : RowSide) (hseg : 0 < p.nSeg i side)
    (hV : ∀ k < p.nSeg i side, ∀ sh, |(o t).qinc (.pv i side k sh)| ≤ V)
    (hτw : 4 * p.nSeg i side * τ < p.width) :
    let E := entryBound ε (D + 2 * τ) (w - 2 * τ) (c - 2 * τ) (2 * τ)
      + entryMove (D + 2 * τ) (w - 2 * τ) (c - 2 * τ) (2 * τ) τ
    |A.sideWeighted (fun a => A.length ((A.fitStep p (u t)).coords a)) qinc' (sideColl p i side)
        - sideWeighted (lengthAt p (u t)) (o t).qinc (sideColl p i side)|
      ≤ averageErr (12 + 2 * p.nSeg i side) (2 * p.nSeg i side) ε p.width (2 * τ) V
        ((η₁ + η₂ + H + rowErrors (nTsSurfaces p) ε E * M) / (1 - r)) := by
  intro E'
  refine C104_row_side h0.le (small_eps h0 hK (hu t) hS) A.toArith p (u t) hp (hst t) _ ?_ i hi side hseg
    qinc' (o t).qinc
    (fun k hk sh => C103_full_light h0 A hA hπ T p u s aoi o hrun hinv t t' ht hp hst hB hK hu hS hd hTOL hf hw hlong hT hs
      hc τ hτd hτ hτT hτn hτc hw2 r hr hr1 q0' qinc' sky' η₁ η₂ M H hH hsol _
      (mem_surfaces.2 (mem_allRefs_pv.2 ⟨hi, hk⟩))) hV hτw
  rw [hτd]
  exact C102_any_step h0 A hA hπ p (u t) hp (hst t) hB hK (hu t) hS hd hTOL (hf t) hw (hlong t) (hτd ▸ hτ)

/-- C104: isotropic light of full mode. -/
theorem C104_isotropic {ι : Type*} [Fintype ι] {ε B K G D w c : ℝ} (h0 : 0 < ε)
    (A : TrigArith ε) (hA : A.toArith.Ordered)
    (hπ : 0 ≤ A.sind (A.add 0 180)) (T : SumTree) (p : ArrayParams) (u : ι → StepIn) (s : ι → IrrStep)
    (aoi : ι → Option (List Asg)) (o : ι → FullOut) (hrun : runFullMode p u s aoi = some o)
    (hinv : ∀ t, InverseOk p (s t)) (t : ι)
    (hp : PhysicalArray p) (hst : ∀ t, PhysicalStep p (u t)) (hB : ArraySize p B)
    (hK : 0 ≤ K) (hu : ∀ t, StepMargin p (u t) ε K G ∨ FlatMargin p (u t) K G)
    (hS : 20 * sineErr ε G * K ^ 3 ≤ 1)
    (hd : shadeErr ε (trigErr ε K G) B K * K < p.distance)
    (hTOL : shadeErr ε (trigErr ε K G) B K < TOL)
    (hf : ∀ t x, x = (interrowShading p (fitStep p (u t)).alpha (fitStep p (u t)).rot.deg).1 ∨
      x = (interrowShading p (fitStep p (u t)).alpha (fitStep p (u t)).rot.deg).2 →
        x = 0 ∨ 2 * TOL ≤ x)
    (hw : w ≤ p.width)
    (hlong : ∀ t, ∀ a ∈ surfaces p, ((fitStep p (u t)).coords a).length = 0 ∨
      w ≤ ((fitStep p (u t)).coords a).length)
    (hT : T.leaves = Multiset.range (nTsSurfaces p))
    (hs : SceneSize p (fitStep p (u t)) (isEmptyTs fun t => fitStep p (u t)) D w)
    (hc : c ≤ p.height - p.width / 2 * sind (u t).surfaceTilt)
    (τ : ℝ) (hτd : τ = sceneErr ε (trigErr ε K G) B K (1 / K)) (hτ : 2 * K * τ < w)
    (hτT : 4 * τ ≤ TOL) (hτn : Fintype.card ι * (2 * τ) < TOL) (hτc : 4 * τ < c)
    (hw2 : 2 * TOL ≤ w - 2 * τ)
    (a : SurfRef) (ha : a ∈ surfaces p) :
    let E := entryBound ε (D + 2 * τ) (w - 2 * τ) (c - 2 * τ) (2 * τ)
      + entryMove (D + 2 * τ) (w - 2 * τ) (c - 2 * τ) (2 * τ) τ
    let R := rowErrors (nTsSurfaces p) ε E
    let F := A.vfMatrix T p (A.fitStep p (u t)) (isEmptyTs fun t => A.fitStep p (u t))
    |A.fullIsotropic p F (s t).sky a - (o t).isotropic a| ≤ (R + ε * (1 + R)) * |(s t).sky| ∧
    |(o t).isotropic a| ≤ |(s t).sky| := by
  intro E R F
  have hF := C02_viewFactorsOk p u t hp (hst t)
  have x0 := hF.nonneg_sky a ha
  have x1 : vfToSky p (tsVfMatrix p u t) a ≤ 1 := by
    have := Finset.sum_nonneg (hF.nonneg a ha)
    linarith [hF.sum_le a ha]
  have hv : |vfToSky p F a - vfToSky p (tsVfMatrix p u t) a| ≤ R := by
    have h := (C102_view_factors h0 A hA hπ T p u t hp hst hB hK hu hS hd hTOL hf hw hlong hT hs hc
      τ hτd hτ hτT hτn hτc hw2 a ha).2
    have := Finset.sum_nonneg fun b (_ : b ∈ surfaces p) =>
      abs_nonneg (vfBetween p F a b - vfBetween p (tsVfMatrix p u t) a b)
    exact (le_add_of_nonneg_left this).trans h
  rw [(C09_components p u s aoi o hrun hinv t a ha).2.1]
  have e1 := A.mul_err (vfToSky p F a) (s t).sky
  have m1 : |vfToSky p F a| ≤ 1 + R := by
    have := abs_add_le (vfToSky p (tsVfMatrix p u t) a) (vfToSky p F a - vfToSky p (tsVfMatrix p u t) a)
    rw [add_sub_cancel, abs_of_nonneg x0] at this
    linarith
  constructor
  · have e2 : |vfToSky p F a * (s t).sky - vfToSky p (tsVfMatrix p u t) a * (s t).sky|
        ≤ R * |(s t).sky| := by
      rw [← sub_mul, abs_mul]
      exact mul_le_mul_of_nonneg_right hv (abs_nonneg _)
    have e3 : ε * |vfToSky p F a * (s t).sky| ≤ ε * ((1 + R) * |(s t).sky|) := by
      rw [abs_mul]
      exact mul_le_mul_of_nonneg_left (mul_le_mul_of_nonneg_right m1 (abs_nonneg _)) h0.le
    refine (abs_sub_le _ (vfToSky p F a * (s t).sky) _).trans ?_
    change |A.mul (vfToSky p F a) (s t).sky - _| + _ ≤ _
    linarith
  · rw [abs_mul, abs_of_nonneg x0]
    exact mul_le_of_le_one_left (abs_nonneg _) x1

/-- C104: average isotropic light of a side of a row in full mode. -/
theorem C104_isotropic_side {ι : Type*} [Fintype ι] {ε B K G D w c : ℝ} (h0 : 0 < ε)
    (A : TrigArith ε) (hA : A.toArith.Ordered)
    (hπ : 0 ≤ A.sind (A.add 0 180)) (T : SumTree) (p : ArrayParams) (u : ι → StepIn) (s : ι → IrrStep)
    (aoi : ι → Option (List Asg)) (o : ι → FullOut) (hrun : runFullMode p u s aoi = some o)
    (hinv : ∀ t, InverseOk p (s t)) (t : ι)
    (hp : PhysicalArray p) (hst : ∀ t, PhysicalStep p (u t)) (hB : ArraySize p B)
    (hK : 0 ≤ K) (hu : ∀ t, StepMargin p (u t) ε K G ∨ FlatMargin p (u t) K G)
    (hS : 20 * sineErr ε G * K ^ 3 ≤ 1)
    (hd : shadeErr ε (trigErr ε K G) B K * K < p.distance)
    (hTOL : shadeErr ε (trigErr ε K G) B K < TOL)
    (hf : ∀ t x, x = (interrowShading p (fitStep p (u t)).alpha (fitStep p (u t)).rot.deg).1 ∨
      x = (interrowShading p (fitStep p (u t)).alpha (fitStep p (u t)).rot.deg).2 →
        x = 0 ∨ 2 * TOL ≤ x)
    (hw : w ≤ p.width)
    (hlong : ∀ t, ∀ a ∈ surfaces p, ((fitStep p (u t)).coords a).length = 0 ∨
      w ≤ ((fitStep p (u t)).coords a).length)
    (hT : T.leaves = Multiset.range (nTsSurfaces p))
    (hs : SceneSize p (fitStep p (u t)) (isEmptyTs fun t => fitStep p (u t)) D w)
    (hc : c ≤ p.height - p.width / 2 * sind (u t).surfaceTilt)
    (τ : ℝ) (hτd : τ = sceneErr ε (trigErr ε K G) B K (1 / K)) (hτ : 2 * K * τ < w)
    (hτT : 4 * τ ≤ TOL) (hτn : Fintype.card ι * (2 * τ) < TOL) (hτc : 4 * τ < c)
    (hw2 : 2 * TOL ≤ w - 2 * τ)
    (i : ℕ) (hi : i < p.nRows) (side : RowSide) (hseg : 0 < p.nSeg i side)
    (hτw : 4 * p.nSeg i side * τ < p.width) :
    let E := entryBound ε (D + 2 * τ) (w - 2 * τ) (c - 2 * τ) (2 * τ)
      + entryMove (D + 2 * τ) (w - 2 * τ) (c - 2 * τ) (2 * τ) τ
    let R := rowErrors (nTsSurfaces p) ε E
    let F := A.vfMatrix T p (A.fitStep p (u t)) (isEmptyTs fun t => A.fitStep p (u t))
    |A.sideWeighted (fun a => A.length ((A.fitStep p (u t)).coords a)) (A.fullIsotropic p F (s t).sky)
          (sideColl p i side)
        - sideWeighted (lengthAt p (u t)) (o t).isotropic (sideColl p i side)|
      ≤ averageErr (12 + 2 * p.nSeg i side) (2 * p.nSeg i side) ε p.width (2 * τ) |(s t).sky|
        ((R + ε * (1 + R)) * |(s t).sky|) := by
  intro E R F
  have iso := fun k (hk : k < p.nSeg i side) sh => C104_isotropic h0 A hA hπ T p u s aoi o hrun hinv t hp hst hB
    hK hu hS hd hTOL hf hw hlong hT hs hc τ hτd hτ hτT hτn hτc hw2 (.pv i side k sh)
    (mem_surfaces.2 (mem_allRefs_pv.2 ⟨hi, hk⟩))
  refine C104_row_side h0.le (small_eps h0 hK (hu t) hS) A.toArith p (u t) hp (hst t) _ ?_ i hi side hseg
    _ _ (fun k hk sh => (iso k hk sh).1) (fun k hk sh => (iso k hk sh).2) hτw
  rw [hτd]
  exact C102_any_step h0 A hA hπ p (u t) hp (hst t) hB hK (hu t) hS hd hTOL (hf t) hw (hlong t) (hτd ▸ hτ)

/-- C104: reflected light of full mode, for incident light, sky light and isotropic light with errors. -/
theorem C104_reflection {ε e₁ e₂ e₃ Q : ℝ} (h0 : 0 ≤ ε) (h1 : ε < 1) (A : Arith ε) (qinc' irr' iso' : SurfRef → ℝ)
    (a : SurfRef) (qinc irr iso refl : ℝ) (hrefl : qinc = irr + iso + refl)
    (hq : |qinc' a - qinc| ≤ e₁) (hi : |irr' a - irr| ≤ e₂) (hs : |iso' a - iso| ≤ e₃)
    (hQ : |qinc| + |irr| + |iso| ≤ Q) :
    |A.fullReflection qinc' irr' iso' a - refl|
      ≤ (grow ε ^ 2 - 1) * (Q + e₁ + e₂ + e₃) + (e₁ + e₂ + e₃) := by
  have n1 := ((near_self (ε := ε) (le_refl |qinc' a|)).sub h0 h1 (near_self (ε := ε) (le_refl |irr' a|))).round
    h0 h1 (A.sub_err _ _)
  have n2 := (n1.sub h0 h1 ((near_self (ε := ε) (le_refl |iso' a|)).mono h0 h1 (Nat.zero_le _))).round
    h0 h1 (A.sub_err _ _)
  have b := n2.1
  have tri : ∀ {x' x e : ℝ}, |x' - x| ≤ e → |x'| ≤ |x| + e := fun {x' x e} h => by
    have := abs_add_le (x' - x) x
    rw [sub_add_cancel] at this
    linarith
  have g := grow_pow_one h0 h1 2
  have b2 := b.trans (mul_le_mul_of_nonneg_left (show |qinc' a| + |irr' a| + |iso' a| ≤ Q + e₁ + e₂ + e₃ by
    linarith [tri hq, tri hi, tri hs]) (by linarith [g] : (0 : ℝ) ≤ grow ε ^ 2 - 1))
  have e : qinc' a - irr' a - iso' a - refl = (qinc' a - qinc) - (irr' a - irr) - (iso' a - iso) := by
    rw [hrefl]; ring
  have b3 : |qinc' a - irr' a - iso' a - refl| ≤ e₁ + e₂ + e₃ := by
    rw [e]
    refine (abs_sub _ _).trans ?_
    have := abs_sub (qinc' a - qinc) (irr' a - irr)
    linarith
  refine (abs_sub_le _ _ _).trans (add_le_add b2 b3)

/-- C104: average incident light of the back of a row in fast mode. -/
theorem C104_fast_mode {ε B K G w c E : ℝ} (h0 : 0 < ε) (A : TrigArith ε) (hA : A.toArith.Ordered)
    (hπ : 0 ≤ A.sind (A.add 0 180)) (Z : SumTree)
    (p : ArrayParams) (u : StepIn) (s : IrrStep) (t' : LightTerms)
    (ht : TermsNear (surfaces p) E t' s.light)
    (hp : PhysicalArray p) (hst : PhysicalStep p u) (hB : ArraySize p B)
    (hK : 0 ≤ K) (hu : StepMargin p u ε K G ∨ FlatMargin p u K G)
    (hS : 20 * sineErr ε G * K ^ 3 ≤ 1)
    (hd : shadeErr ε (trigErr ε K G) B K * K < p.distance)
    (hTOL : shadeErr ε (trigErr ε K G) B K < TOL)
    (hf : ∀ x, x = (interrowShading p (fitStep p u).alpha (fitStep p u).rot.deg).1 ∨
      x = (interrowShading p (fitStep p u).alpha (fitStep p u).rot.deg).2 → x = 0 ∨ 2 * TOL ≤ x)
    (hw : w ≤ p.width)
    (hlong : ∀ a ∈ surfaces p, ((fitStep p u).coords a).length = 0 ∨
      w ≤ ((fitStep p u).coords a).length)
    (hZ : Z.leaves = Multiset.range p.nRows)
    (hc : c ≤ p.height - p.width / 2 * sind u.surfaceTilt)
    (N : ℕ) (hN : ∀ j < p.nRows, p.nFront j ≤ N)
    (τ : ℝ) (hτd : τ = fastPointErr N ε (trigErr ε K G) B K) (hτ : 2 * K * τ < w)
    (hτT : 4 * τ ≤ TOL) (hτc : 4 * τ < c) (hw2 : 2 * TOL ≤ w - 2 * τ)
    (r : ℕ) (hr : r < p.nRows) (hseg : 0 < p.nSeg r .back) (hτw : 4 * p.nSeg r .back * τ < p.width) (V e : ℝ)
    (hV : ∀ k < p.nSeg r .back, ∀ sh,
      |(fastSurface p (fitStep p u) s r (.pv r .back k sh)).qinc| ≤ V)
    (he : ∀ k < p.nSeg r .back, ∀ sh,
      let a := SurfRef.pv r .back k sh
      let n := (s.comp a).length
      let F := fastErr p.nRows ε (stringErr ε (fastSize B K τ) w c τ)
      let L := fastLight s + (2 * |s.albedo| + |s.rhoFront|) * E
      (grow ε ^ (n + 7) - 1) * ((1 + F) * L + (((s.comp a).map fun x => |x|).sum + n * E)) + F * L
        + (2 * |s.albedo| + |s.rhoFront| + n) * E ≤ e) :
    |A.sideWeighted (fun a => A.length ((A.fitStep p u).coords a))
          (fun a => (A.fastStep Z p u (s.withLight t') r a).qinc) (sideColl p r .back)
        - sideWeighted (lengthAt p u) (fun a => (fastSurface p (fitStep p u) s r a).qinc)
          (sideColl p r .back)|
      ≤ averageErr (12 + 2 * p.nSeg r .back) (2 * p.nSeg r .back) ε p.width (2 * τ) V e := by
  have hm : SunMargin p u K G := hu.elim (fun h => h.sun) fun h => h.sun hK
  have hle := hτd ▸ fastPointErr_ge h0.le hm hS hB N
  have hn := (C102_any_step h0 A hA hπ p u hp hst hB hK hu hS hd hTOL hf hw hlong
    (lt_of_le_of_lt (mul_le_mul_of_nonneg_left hle (by linarith)) hτ)).mono hle
  exact C104_row_side h0.le (small_eps h0 hK hu hS) A.toArith p u hp hst _ hn r hr .back hseg _ _
    (fun k hk sh => (C103_fast_light h0 A hA hπ Z p u s t' ht hp hst hB hK hu hS hd hTOL hf hw hlong hZ hc N hN
      τ hτd hτ hτT hτc hw2 r k sh (mem_surfaces.2 (mem_allRefs_pv.2 ⟨hr, hk⟩))).trans (he k hk sh)) hV hτw

/-! ## Witness -/

/-- Light that differs between the surfaces of a row. -/
noncomputable def sideLight : SurfRef → ℝ
  | .pv _ _ k true => 20 + k
  | .pv _ _ k false => 300 - 10 * k
  | _ => 200

/-- Average over the back of a row with two segments, in double precision, at a time step with vertical rows
and at one with horizontal rows. -/
theorem C104_demo (t : Fin 2) :
    let A := smallPi (1 / 2 ^ 53) (by norm_num)
    let x' := A.sideWeighted (fun a => A.length ((A.fitStep vertArray (vertFlat t)).coords a)) sideLight
      (sideColl vertArray 0 .back)
    let x := sideWeighted (lengthAt vertArray (vertFlat t)) sideLight (sideColl vertArray 0 .back)
    |x' - x| ≤ 1 / 10 ^ 6 ∧ 20 ≤ x := by
  intro A x' x
  have hst : PhysicalStep vertArray (vertFlat t) := by
    unfold vertFlat; split_ifs
    · exact vert_physicalStep
    · exact flat_physicalStep
  have nseg : vertArray.nSeg 0 .back = 2 := by simp [ArrayParams.nSeg, ArrayParams.nBack, vertArray]
  have hw : vertArray.width = 2 := rfl
  constructor
  · have := C104_row_side (V := 300) (e := 0) (by norm_num) (by norm_num) A.toArith vertArray (vertFlat t)
      vert_physicalArray hst (A.fitStep vertArray (vertFlat t)) (C102_demo t).2.1 0 (by simp [vertArray]) .back
      (by omega) sideLight sideLight (fun k _ sh => by simp) (fun k hk sh => by
        rw [nseg] at hk
        have : (k : ℝ) ≤ 1 := by exact_mod_cast (by omega : k ≤ 1)
        have : (0 : ℝ) ≤ k := Nat.cast_nonneg k
        cases sh <;> simp only [sideLight] <;> rw [abs_le] <;> constructor <;> linarith) (by
        rw [nseg, hw]; norm_num)
    rw [nseg, hw] at this
    refine this.trans ?_
    norm_num [averageErr, grow]
  · refine ((C37_row_side vertArray (vertFlat t) 0 .back sideLight vert_physicalArray hst (by omega)).2 20 300
      fun a ha _ => ?_).1
    simp only [sideRefs, List.mem_flatMap, List.mem_range] at ha
    obtain ⟨k, hk, ha⟩ := ha
    rw [nseg] at hk
    have : (k : ℝ) ≤ 1 := by exact_mod_cast (by omega : k ≤ 1)
    have : (0 : ℝ) ≤ k := Nat.cast_nonneg k
    simp only [List.mem_cons, List.not_mem_nil, or_false] at ha
    rcases ha with rfl | rfl <;> simp only [sideLight] <;> constructor <;> linarith

/-- Rounding has an effect on averages, even if there is only one surface. -/
theorem C104_demo_changed :
    let A := tooLarge (1 / 2 ^ 53) (by norm_num)
    let len := fun a : Line => A.length a
    let segs : List (SegColl Line) := [⟨[⟨⟨0, 0⟩, ⟨1, 0⟩⟩], []⟩]
    A.sideWeighted len (fun _ => 1) segs = (1 + 1 / 2 ^ 53) ^ 2 ∧
    sideWeighted (fun a : Line => a.length) (fun _ => 1) segs = 1 := by
  intro A len segs
  have e : (⟨⟨0, 0⟩, ⟨1, 0⟩⟩ : Line).length = 1 := by simp [Line.length]
  have h : 0 < A.length ⟨⟨0, 0⟩, ⟨1, 0⟩⟩ := by
    have r : Rel (1 / 2 ^ 53) 3 (A.length ⟨⟨0, 0⟩, ⟨1, 0⟩⟩) (⟨⟨0, 0⟩, ⟨1, 0⟩⟩ : Line).length :=
      A.dist_rel (by norm_num) (by norm_num) _ _
    rw [e] at r
    by_contra hc
    have g := grow_pow_one (ε := 1 / 2 ^ 53) (by norm_num) (by norm_num) 3
    have := mul_nonpos_of_nonneg_of_nonpos (by linarith : (0 : ℝ) ≤ grow (1 / 2 ^ 53) ^ 3) (not_lt.1 hc)
    linarith [r.1]
  set l := A.length ⟨⟨0, 0⟩, ⟨1, 0⟩⟩
  constructor
  · change (1 + 1 / 2 ^ 53 : ℝ) * (((1 + 1 / 2 ^ 53) * (0 + (1 + 1 / 2 ^ 53) * ((1 + 1 / 2 ^ 53)
      * (0 + (1 + 1 / 2 ^ 53) * (l * 1)) + 0))) / ((1 + 1 / 2 ^ 53) * (0 + (1 + 1 / 2 ^ 53)
      * ((1 + 1 / 2 ^ 53) * (0 + l) + 0)))) = _
    field_simp
    ring
  · simp [sideWeighted, sideWW, sideCollLength, segWW, segLength, collWW, collLength, segs, e]

end PVF

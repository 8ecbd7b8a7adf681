import Verif.Props.Bounces
import Verif.Props.RoundedAbs

/-!
# The linear system of full mode with computed view factors can be solved
-/

namespace PVF

/-- C108: solutions of the radiosity equations are bounded, for any view factors that may be negative or add
up to more than one, as long as reflections lose light. -/
theorem C108_bound {p : ArrayParams} {F : ℕ → ℕ → ℝ} {e rho : SurfRef → ℝ} {sky : ℝ} {q0 qinc : SurfRef → ℝ}
    (h : RadiosityBalance p F e rho sky q0 qinc) {r S Q : ℝ}
    (hr : ∀ a ∈ surfaces p, 0 ≤ rho a ∧ rho a ≤ r)
    (hS : ∀ a ∈ surfaces p, ∑ b ∈ surfaces p, |vfBetween p F a b| + |vfToSky p F a| ≤ S) (hrS : r * S < 1)
    (hQ : ∀ a ∈ surfaces p, |e a| ≤ Q) :
    ∀ a ∈ surfaces p, |q0 a| ≤ max |sky| (r * Q / (1 - r * S)) := by
  obtain ⟨m, hm, hmax⟩ := (surfaces p).exists_max_image (fun a => |q0 a|) (surfaces_nonempty p)
  intro a ha
  refine (hmax a ha).trans ?_
  by_contra hc
  rw [not_le, max_lt_iff] at hc
  obtain ⟨c1, c2⟩ := hc
  have d : 0 < 1 - r * S := by linarith
  rw [div_lt_iff₀ d] at c2
  have q1 : ∑ b ∈ surfaces p, |vfBetween p F m b * q0 b| ≤ (∑ b ∈ surfaces p, |vfBetween p F m b|) * |q0 m| := by
    rw [Finset.sum_mul]
    refine Finset.sum_le_sum fun b hb => ?_
    rw [abs_mul]
    exact mul_le_mul_of_nonneg_left (hmax b hb) (abs_nonneg _)
  have q2 : |vfToSky p F m * sky| ≤ |vfToSky p F m| * |q0 m| := by
    rw [abs_mul]; exact mul_le_mul_of_nonneg_left c1.le (abs_nonneg _)
  have q3 := mul_le_mul_of_nonneg_right (hS m hm) (abs_nonneg (q0 m))
  have q4 : |qinc m| ≤ Q + S * |q0 m| := by
    rw [h.arriving m hm]
    refine (abs_add_le _ _).trans ((add_le_add ((abs_add_le _ _).trans (add_le_add (hQ m hm)
      ((Finset.abs_sum_le_sum_abs _ _).trans q1))) q2).trans ?_)
    linarith
  have q5 : |q0 m| ≤ r * (Q + S * |q0 m|) := by
    have e5 : |q0 m| = rho m * |qinc m| := by rw [h.sent m hm, abs_mul, abs_of_nonneg (hr m hm).1]
    refine e5.trans_le ?_
    exact (mul_le_mul_of_nonneg_left q4 (hr m hm).1).trans (mul_le_mul_of_nonneg_right (hr m hm).2
      ((abs_nonneg _).trans q4))
  linarith

/-- C108: the matrix of full mode can be inverted, for any view factors that may be negative or add up to
more than one, as long as reflections lose light. -/
theorem C108_invertible {p : ArrayParams} {s : IrrStep} {F : ℕ → ℕ → ℝ} (hs : InverseOk p s)
    (hsky : ∀ j, F (nTsSurfaces p) j = 0) {r S : ℝ}
    (hr : ∀ a ∈ surfaces p, 0 ≤ s.rho a ∧ s.rho a ≤ r)
    (hS : ∀ a ∈ surfaces p, ∑ b ∈ surfaces p, |vfBetween p F a b| + |vfToSky p F a| ≤ S) (hrS : r * S < 1) :
    IsUnit (aMat p s F).det := by
  rw [isUnit_iff_ne_zero]
  intro h0
  obtain ⟨v, hv, hz⟩ := Matrix.exists_mulVec_eq_zero_iff.2 h0
  apply hv
  obtain ⟨h1, h2⟩ := (aMat_mulVec_iff hs hsky v 0).1 hz
  rw [funext_iff, forall_fin_index]
  refine ⟨fun a ha => ?_, h2⟩
  have := C108_bound h1 hr hS hrS (Q := 0) (fun a _ => by simp) a ha
  simpa using this

/-- C108: the sky receives nothing in the computed matrix. -/
theorem C108_sky_row {ε : ℝ} (A : Arith ε) (T : SumTree) (p : ArrayParams) (g : StepGeom)
    (emp : SurfRef → Prop) (j : ℕ) : A.vfMatrix T p g emp (nTsSurfaces p) j = 0 := by
  simp only [Arith.vfMatrix, lt_irrefl, and_false, if_false]
  unfold Arith.vfNoSky
  have side : ∀ {r : ℕ} {s : RowSide} {a : SurfRef}, r < p.nRows → a ∈ sideRefs p r s → a ∈ allRefs p := by
    intro r s a hr ha
    obtain ⟨k, sh, rfl, hk⟩ := mem_sideRefs.1 ha
    exact mem_allRefs_pv.2 ⟨hr, hk⟩
  have two : ∀ {a b : SurfRef} {v : ℝ × ℝ} {x : Asg}, a ∈ allRefs p → b ∈ allRefs p →
      x ∈ [(⟨surfIndex p a, surfIndex p b, v.1⟩ : Asg), ⟨surfIndex p b, surfIndex p a, v.2⟩] →
      x.i ≠ nTsSurfaces p := by
    intro a b v x ha hb hx
    simp only [List.mem_cons, List.not_mem_nil, or_false] at hx
    rcases hx with rfl | rfl
    · exact (surfIndex_lt ha).ne
    · exact (surfIndex_lt hb).ne
  have P : ∀ x ∈ A.asgPvPv p g emp, x.i ≠ nTsSurfaces p := by
    have one : ∀ r, r + 1 < p.nRows → ∀ fb, ∀ x ∈ A.asgPvPvSides p g emp r fb, x.i ≠ nTsSurfaces p := by
      intro r hr fb x hx
      simp only [Arith.asgPvPvSides, List.mem_flatMap] at hx
      obtain ⟨a, ha, hx⟩ := hx
      by_cases h1 : emp a
      · rw [if_pos h1] at hx; exact absurd hx List.not_mem_nil
      · rw [if_neg h1] at hx
        obtain ⟨b, hb, hx⟩ := List.mem_flatMap.1 hx
        by_cases h2 : emp b
        · rw [if_pos h2] at hx; exact absurd hx List.not_mem_nil
        · rw [if_neg h2] at hx
          exact two (side (by omega) ha) (side hr hb) hx
    intro x hx
    simp only [Arith.asgPvPv, List.mem_flatMap, List.mem_range, List.mem_append] at hx
    obtain ⟨r, hr, hx | hx⟩ := hx
    · exact one r (by omega) true x hx
    · exact one r (by omega) false x hx
  have G : ∀ x ∈ A.asgPvGnd p g emp, x.i ≠ nTsSurfaces p := by
    have one : ∀ r < p.nRows, ∀ bk, ∀ a ∈ allRefs p, ∀ x ∈ A.asgPvGndSurf p g emp r bk a,
        x.i ≠ nTsSurfaces p := by
      intro r hr bk a ha x hx
      simp only [Arith.asgPvGndSurf] at hx
      split_ifs at hx with h1
      · simp at hx
      · rw [List.mem_append, List.mem_flatMap, List.mem_flatMap] at hx
        rcases hx with ⟨b, hb, hx⟩ | ⟨b, hb, hx⟩ <;>
        · split_ifs at hx with h2
          · simp at hx
          · exact two ha (gndRefsSide_subset hr hb) hx
    intro x hx
    simp only [Arith.asgPvGnd, List.mem_flatMap, List.mem_range, List.mem_append] at hx
    obtain ⟨r, hr, ⟨a, ha, hx⟩ | ⟨a, ha, hx⟩⟩ := hx
    · exact one r hr _ a (side hr ha) x hx
    · exact one r hr _ a (side hr ha) x hx
  refine applyAsg_eq _ _ _ _ _ (fun x hx h _ => absurd h (P x hx)) (Or.inl ?_)
  exact applyAsg_eq _ _ _ _ _ (fun x hx h _ => absurd h (G x hx)) (Or.inl rfl)

/-- View factors of a surface that are close to exact ones. -/
theorem row_size {p : ArrayParams} {F F' : ℕ → ℕ → ℝ} {R : ℝ} (hF : ViewFactorsOk p F) {a : SurfRef}
    (ha : a ∈ surfaces p)
    (h : ∑ b ∈ surfaces p, |vfBetween p F' a b - vfBetween p F a b| + |vfToSky p F' a - vfToSky p F a| ≤ R) :
    ∑ b ∈ surfaces p, |vfBetween p F' a b| + |vfToSky p F' a| ≤ 1 + R := by
  have one : ∀ {x y : ℝ}, 0 ≤ y → |x| ≤ y + |x - y| := fun {x y} hy => by
    have := abs_add_le y (x - y)
    rwa [add_sub_cancel, abs_of_nonneg hy] at this
  have l1 := Finset.sum_le_sum fun b hb =>
    one (x := vfBetween p F' a b) (y := vfBetween p F a b) (hF.nonneg a ha b hb)
  have l2 := one (x := vfToSky p F' a) (hF.nonneg_sky a ha)
  rw [Finset.sum_add_distrib] at l1
  have := hF.sum_le a ha
  linarith

/-- C108: full mode with view factors and light computed with rounding errors does not fail and gives
incident light close to the exact one, if only the linear system is solved without further errors. -/
theorem C108_full_mode {ι : Type*} [Fintype ι] {ε B K G D w c E : ℝ} (h0 : 0 < ε)
    (A : TrigArith ε) (hA : A.toArith.Ordered)
    (hπ : 0 ≤ A.sind (A.add 0 180)) (T : SumTree) (p : ArrayParams) (u : ι → StepIn) (s : ι → IrrStep)
    (aoi : ι → Option (List Asg)) (o : ι → FullOut) (hrun : runFullMode p u s aoi = some o)
    (hinv : ∀ t, InverseOk p (s t)) (t : ι)
    (t' : LightTerms) (ht : TermsNear (surfaces p) E t' (s t).light)
    (hp : PhysicalArray p) (hst : ∀ t, PhysicalStep p (u t)) (hB : ArraySize p B)
    (hK : 0 ≤ K) (hu : ∀ t, StepMargin p (u t) ε K G ∨ FlatMargin p (u t) K G)
    (hS : 20 * sineErr ε G * K ^ 3 ≤ 1)
    (hd : shadeErr ε (trigErr ε K G) B K * K < p.distance)
    (hTOL : shadeErr ε (trigErr ε K G) B K < TOL)
    (hf : ∀ t x, x = (interrowShading p (fitStep p (u t)).alpha (fitStep p (u t)).rot.deg).1 ∨
      x = (interrowShading p (fitStep p (u t)).alpha (fitStep p (u t)).rot.deg).2 →
        x = 0 ∨ 2 * TOL ≤ x)
    (hw : w ≤ p.width)
    (hlong : ∀ t, ∀ a ∈ surfaces p, ((fitStep p (u t)).coords a).length = 0 ∨
      w ≤ ((fitStep p (u t)).coords a).length)
    (hT : T.leaves = Multiset.range (nTsSurfaces p))
    (hs : SceneSize p (fitStep p (u t)) (isEmptyTs fun t => fitStep p (u t)) D w)
    (hc : c ≤ p.height - p.width / 2 * sind (u t).surfaceTilt)
    (τ : ℝ) (hτd : τ = sceneErr ε (trigErr ε K G) B K (1 / K)) (hτ : 2 * K * τ < w)
    (hτT : 4 * τ ≤ TOL) (hτn : Fintype.card ι * (2 * τ) < TOL) (hτc : 4 * τ < c)
    (hw2 : 2 * TOL ≤ w - 2 * τ)
    (r : ℝ) (hr : ∀ a ∈ surfaces p, 0 ≤ (s t).rho a ∧ (s t).rho a ≤ r)
    (R : ℝ) (hR : rowErrors (nTsSurfaces p) ε
      (entryBound ε (D + 2 * τ) (w - 2 * τ) (c - 2 * τ) (2 * τ)
        + entryMove (D + 2 * τ) (w - 2 * τ) (c - 2 * τ) (2 * τ) τ) ≤ R)
    (hrR : r * (1 + R) < 1) (H Q : ℝ)
    (hH : ∀ a ∈ surfaces p, termSumErr ((s t).comp a).length ε E (((s t).comp a).map fun x => |x|).sum ≤ H)
    (hQ : ∀ a ∈ surfaces p, |((s t).comp a).sum| ≤ Q) :
    let F := A.vfMatrix T p (A.fitStep p (u t)) (isEmptyTs fun t => A.fitStep p (u t))
    let s' : IrrStep := { s t with comp := fun a => [A.sumComponents (t'.comp a)] }
    let M := max |(s t).sky| (r * (Q + H) / (1 - r * (1 + R)))
    IsUnit (aMat p s' F).det ∧
    NearlySolved p F (fun a => A.sumComponents (t'.comp a)) (s t).rho (s t).sky
      (fun a => A.sumComponents (t'.comp a)) (fullStep p s' F none).q0 (fullStep p s' F none).qinc (s t).sky
      0 0 0 M ∧
    ∀ a ∈ surfaces p, |(fullStep p s' F none).qinc a - (o t).qinc a| ≤ (H + R * M) / (1 - r) := by
  intro F s' M
  have h1 := small_eps h0 hK (hu t) hS
  have hF := C02_viewFactorsOk p u t hp (hst t)
  have hv : ∀ a ∈ surfaces p, _ := fun a ha => ((C102_view_factors h0 A hA hπ T p u t hp hst hB hK hu hS hd
    hTOL hf hw hlong hT hs hc τ hτd hτ hτT hτn hτc hw2 a ha).2).trans hR
  have row : ∀ a ∈ surfaces p, ∑ b ∈ surfaces p, |vfBetween p F a b| + |vfToSky p F a| ≤ 1 + R :=
    fun a ha => row_size hF ha (hv a ha)
  obtain ⟨a₀, ha₀⟩ := surfaces_nonempty p
  have R0 : 0 ≤ R := (add_nonneg (Finset.sum_nonneg fun _ _ => abs_nonneg _) (abs_nonneg _)).trans (hv a₀ ha₀)
  have r0 : 0 ≤ r := (hr a₀ ha₀).1.trans (hr a₀ ha₀).2
  have r1 : r < 1 := lt_of_le_of_lt (le_mul_of_one_le_right r0 (by linarith)) hrR
  have hs' : InverseOk p s' := hinv t
  have det : IsUnit (aMat p s' F).det := C108_invertible hs' (C108_sky_row A.toArith T p _ _) hr row hrR
  obtain ⟨bal, -⟩ := fullStep_balance (aoi := none) hs' (C108_sky_row A.toArith T p _ _) det
  have c3 : ∀ a ∈ surfaces p, |(s'.comp a).sum - ((s t).comp a).sum| ≤ H := fun a ha => by
    change |[A.sumComponents (t'.comp a)].sum - _| ≤ H
    rw [List.sum_singleton]
    exact (C101_sky_term h0.le h1 A.toArith (surfaces p) t' (s t).light ht a ha).trans (hH a ha)
  have q : ∀ a ∈ surfaces p, |(s'.comp a).sum| ≤ Q + H := fun a ha => by
    have := abs_add_le ((s t).comp a).sum ((s'.comp a).sum - ((s t).comp a).sum)
    rw [add_sub_cancel] at this
    linarith [c3 a ha, hQ a ha]
  have bd := C108_bound bal hr row hrR q
  have es : ∀ a, (s'.comp a).sum = A.sumComponents (t'.comp a) := fun a => List.sum_singleton
  have arr : ∀ a ∈ surfaces p, |(fullStep p s' F none).qinc a - ((s'.comp a).sum + ∑ b ∈ surfaces p,
      vfBetween p F a b * (fullStep p s' F none).q0 b + vfToSky p F a * (s t).sky)| ≤ 0 :=
    fun a ha => (abs_eq_zero.2 (sub_eq_zero.2 (bal.arriving a ha))).le
  have sent : ∀ a ∈ surfaces p, |(fullStep p s' F none).q0 a - (s t).rho a * (fullStep p s' F none).qinc a| ≤ 0 :=
    fun a ha => (abs_eq_zero.2 (sub_eq_zero.2 (bal.sent a ha))).le
  refine ⟨det, ⟨fun a _ => by simp, by simp, fun a ha => by rw [← es]; exact arr a ha, sent, bd,
    le_max_left _ _⟩, fun a ha => ?_⟩
  have := (C96_system p (tsVfMatrix p u t) F _ (fun a => (s'.comp a).sum) (s t).rho _ _ (fullStep p s' F none).q0
    (fullStep p s' F none).qinc (s t).sky (s t).sky r R 0 0 H M
    (C06_radiosity p u s aoi o hrun hinv t).1 hF hr r1 hv
    ⟨c3, by simp, arr, sent, bd, le_max_left _ _⟩ a ha).1
  simpa using this

/-- C108: absorbed light of full mode, computed with rounding errors except in the solution of the linear
system, if all losses by reflection are diffuse. -/
theorem C108_absorbed {ι : Type*} [Fintype ι] {ε B K G D w c E E' : ℝ} (h0 : 0 < ε)
    (A : TrigArith ε) (hA : A.toArith.Ordered)
    (hπ : 0 ≤ A.sind (A.add 0 180)) (T T' : SumTree) (p : ArrayParams) (u : ι → StepIn) (s : ι → IrrStep)
    (o : ι → FullOut) (hrun : runFullMode p u s (fun _ => none) = some o)
    (hinv : ∀ t, InverseOk p (s t)) (t : ι)
    (t' : LightTerms) (ht : TermsNear (surfaces p) E t' (s t).light)
    (x' : SurfRef → List ℝ)
    (hx : ∀ a ∈ surfaces p, List.Forall₂ (fun x' x => |x' - x| ≤ E') (x' a) ((s t).compAbs a))
    (hp : PhysicalArray p) (hst : ∀ t, PhysicalStep p (u t)) (hB : ArraySize p B)
    (hK : 0 ≤ K) (hu : ∀ t, StepMargin p (u t) ε K G ∨ FlatMargin p (u t) K G)
    (hS : 20 * sineErr ε G * K ^ 3 ≤ 1)
    (hd : shadeErr ε (trigErr ε K G) B K * K < p.distance)
    (hTOL : shadeErr ε (trigErr ε K G) B K < TOL)
    (hf : ∀ t x, x = (interrowShading p (fitStep p (u t)).alpha (fitStep p (u t)).rot.deg).1 ∨
      x = (interrowShading p (fitStep p (u t)).alpha (fitStep p (u t)).rot.deg).2 →
        x = 0 ∨ 2 * TOL ≤ x)
    (hw : w ≤ p.width)
    (hlong : ∀ t, ∀ a ∈ surfaces p, ((fitStep p (u t)).coords a).length = 0 ∨
      w ≤ ((fitStep p (u t)).coords a).length)
    (hT : T.leaves = Multiset.range (nTsSurfaces p)) (hT' : T'.leaves = Multiset.range (nTsSurfaces p + 1))
    (hs : SceneSize p (fitStep p (u t)) (isEmptyTs fun t => fitStep p (u t)) D w)
    (hc : c ≤ p.height - p.width / 2 * sind (u t).surfaceTilt)
    (τ : ℝ) (hτd : τ = sceneErr ε (trigErr ε K G) B K (1 / K)) (hτ : 2 * K * τ < w)
    (hτT : 4 * τ ≤ TOL) (hτn : Fintype.card ι * (2 * τ) < TOL) (hτc : 4 * τ < c)
    (hw2 : 2 * TOL ≤ w - 2 * τ)
    (r : ℝ) (hr : ∀ a ∈ surfaces p, 0 ≤ (s t).rho a ∧ (s t).rho a ≤ r)
    (R : ℝ) (hR : rowErrors (nTsSurfaces p) ε
      (entryBound ε (D + 2 * τ) (w - 2 * τ) (c - 2 * τ) (2 * τ)
        + entryMove (D + 2 * τ) (w - 2 * τ) (c - 2 * τ) (2 * τ) τ) ≤ R)
    (hrR : r * (1 + R) < 1) (H H' Q Q' : ℝ)
    (hH : ∀ a ∈ surfaces p, termSumErr ((s t).comp a).length ε E (((s t).comp a).map fun x => |x|).sum ≤ H)
    (hQ : ∀ a ∈ surfaces p, |((s t).comp a).sum| ≤ Q)
    (hH' : ∀ a ∈ surfaces p,
      termSumErr ((s t).compAbs a).length ε E' (((s t).compAbs a).map fun x => |x|).sum ≤ H')
    (hQ' : ∀ a ∈ surfaces p, |((s t).compAbs a).sum| ≤ Q') :
    let F := A.vfMatrix T p (A.fitStep p (u t)) (isEmptyTs fun t => A.fitStep p (u t))
    let s' : IrrStep := { s t with comp := fun a => [A.sumComponents (t'.comp a)] }
    let M := max |(s t).sky| (r * (Q + H) / (1 - r * (1 + R)))
    ∀ a ∈ surfaces p,
      |A.fullAbsorbed T' p (s t).rho F (fullStep p s' F none).q0 (s t).sky (fun a => A.sumComponents (x' a)) a
        - (o t).qabs a|
        ≤ absorbedErr (nTsSurfaces p) ε (1 + R) M Q' H' (H + (H + R * M) / (1 - r)) := by
  intro F s' M a ha
  have h1 := small_eps h0 hK (hu t) hS
  obtain ⟨-, hsol, -⟩ := C108_full_mode h0 A hA hπ T p u s (fun _ => none) o hrun hinv t t' ht hp hst hB hK hu hS
    hd hTOL hf hw hlong hT hs hc τ hτd hτ hτT hτn hτc hw2 r hr R hR hrR H Q hH hQ
  have hv := (C102_view_factors h0 A hA hπ T p u t hp hst hB hK hu hS hd
    hTOL hf hw hlong hT hs hc τ hτd hτ hτT hτn hτc hw2 a ha).2
  have R0 := (add_nonneg (Finset.sum_nonneg fun _ _ => abs_nonneg _) (abs_nonneg _)).trans hv
  have r0 : 0 ≤ r := (hr a ha).1.trans (hr a ha).2
  have r1 : r < 1 := lt_of_le_of_lt (le_mul_of_one_le_right r0 (by linarith)) hrR
  have M0 : 0 ≤ M := (abs_nonneg _).trans (le_max_left _ _)
  refine (C107_full_mode h0 A hA hπ T T' p u s o hrun hinv t t' ht x' hx hp hst hB hK hu hS hd hTOL hf hw hlong hT
    hT' hs hc τ hτd hτ hτT hτn hτc hw2 r hr r1 _ _ _ 0 0 M H H' Q' hH hH' hQ' hsol a ha).trans ?_
  have g := grow_pow_one h0.le h1 (nTsSurfaces p + 5)
  have m1 := mul_le_mul_of_nonneg_right hR M0
  have m2 := mul_le_mul_of_nonneg_left m1 (by linarith : 0 ≤ grow ε ^ (nTsSurfaces p + 5) - 1)
  have m3 := div_le_div_of_nonneg_right (add_le_add_right m1 H) (by linarith : 0 ≤ 1 - r)
  unfold absorbedErr
  simp only [zero_add] at *
  linarith

set_option maxHeartbeats 800000 in
/-- C108 (witness).  Two rows that are first vertical and then horizontal: in double precision the system with
the computed view factors can be solved at both time steps, and the incident light is right up to 40 W/m2. -/
theorem C108_demo (t : Fin 2) : ∃ o : Fin 2 → FullOut,
    let A := smallPi (1 / 2 ^ 53) (by norm_num)
    let F := A.vfMatrix (inOrder 24) vertArray (A.fitStep vertArray (vertFlat t))
      (isEmptyTs fun t => A.fitStep vertArray (vertFlat t))
    let s := isotropicStep demoIrrParams demoIrrIn
    let s' : IrrStep := { s with comp := fun a => [A.sumComponents (s.comp a)] }
    runFullMode vertArray vertFlat (fun _ => s) (fun _ => none) = some o ∧
    IsUnit (aMat vertArray s' F).det ∧
    ∀ a ∈ surfaces vertArray, |(fullStep vertArray s' F none).qinc a - (o t).qinc a| ≤ 40 := by
  have hst : ∀ t, PhysicalStep vertArray (vertFlat t) := fun t => by
    unfold vertFlat; split_ifs
    · exact vert_physicalStep
    · exact flat_physicalStep
  obtain ⟨o, ho⟩ := C07_isotropic vertArray vertFlat demoIrrParams
    (fun _ => demoIrrIn) (fun _ => none) (fun _ => demo_losses) vert_physicalArray hst
  refine ⟨o, ?_⟩
  intro A F s s'
  have hmar : ∀ t, StepMargin vertArray (vertFlat t) (1 / 2 ^ 53) (3 / 2) 270 ∨
      FlatMargin vertArray (vertFlat t) (3 / 2) 270 := fun t => by
    unfold vertFlat; split_ifs
    · exact Or.inl vert_margin
    · exact Or.inr flat_margin
  have hlong : ∀ t, ∀ a ∈ surfaces vertArray, ((fitStep vertArray (vertFlat t)).coords a).length = 0 ∨
      1 / 2 ≤ ((fitStep vertArray (vertFlat t)).coords a).length := fun t => by
    unfold vertFlat; split_ifs
    · exact vert_half
    · exact flat_half
  have hsize : SceneSize vertArray (fitStep vertArray (vertFlat t))
      (isEmptyTs fun t => fitStep vertArray (vertFlat t)) 203 (1 / 2) := by
    unfold vertFlat; split_ifs
    · exact vert_sceneSize _
    · exact flat_sceneSize _
  have hc : (1 / 2 : ℝ) ≤ vertArray.height - vertArray.width / 2 * sind (vertFlat t).surfaceTilt := by
    have : sind (vertFlat t).surfaceTilt ≤ 1 := Real.sin_le_one _
    norm_num [vertArray]
    linarith
  have b1 : 20 * sineErr (1 / 2 ^ 53) 270 * (3 / 2) ^ 3 ≤ 1 := by norm_num [sineErr]
  have b2 : shadeErr (1 / 2 ^ 53) (trigErr (1 / 2 ^ 53) (3 / 2) 270) 5 (3 / 2) < 1 / 10 ^ 9 := by
    norm_num [shadeErr, grow, trigErr, sineErr]
  have b3 : sceneErr (1 / 2 ^ 53) (trigErr (1 / 2 ^ 53) (3 / 2) 270) 5 (3 / 2) (1 / (3 / 2))
      ≤ 1 / 10 ^ 10 := by
    norm_num [sceneErr, shadeErr, endErr, groundErr, grow, trigErr, sineErr]
  have hd : shadeErr (1 / 2 ^ 53) (trigErr (1 / 2 ^ 53) (3 / 2) 270) 5 (3 / 2) * (3 / 2)
      < vertArray.distance := by
    have : vertArray.distance = 5 := by norm_num [vertArray, ArrayParams.distance]
    rw [this]
    norm_num at b2 ⊢
    linarith
  have hT : shadeErr (1 / 2 ^ 53) (trigErr (1 / 2 ^ 53) (3 / 2) 270) 5 (3 / 2) < TOL :=
    b2.trans (by norm_num [TOL])
  have hq : ∀ a ∈ surfaces vertArray, |(s.comp a).sum| ≤ 1000 := by
    intro a _
    have h1 : (s.comp a).sum = (directCats demoIrrParams demoIrrIn).get a := by simp [s, isotropicStep]
    rw [h1]
    exact demo_direct_le a
  have hR : rowErrors (nTsSurfaces vertArray) (1 / 2 ^ 53)
      (entryBound (1 / 2 ^ 53) (203 + 2 * sceneErr (1 / 2 ^ 53) (trigErr (1 / 2 ^ 53) (3 / 2) 270) 5 (3 / 2) (1 / (3 / 2)))
        (1 / 2 - 2 * sceneErr (1 / 2 ^ 53) (trigErr (1 / 2 ^ 53) (3 / 2) 270) 5 (3 / 2) (1 / (3 / 2)))
        (1 / 2 - 2 * sceneErr (1 / 2 ^ 53) (trigErr (1 / 2 ^ 53) (3 / 2) 270) 5 (3 / 2) (1 / (3 / 2)))
        (2 * sceneErr (1 / 2 ^ 53) (trigErr (1 / 2 ^ 53) (3 / 2) 270) 5 (3 / 2) (1 / (3 / 2)))
      + entryMove (203 + 2 * sceneErr (1 / 2 ^ 53) (trigErr (1 / 2 ^ 53) (3 / 2) 270) 5 (3 / 2) (1 / (3 / 2)))
        (1 / 2 - 2 * sceneErr (1 / 2 ^ 53) (trigErr (1 / 2 ^ 53) (3 / 2) 270) 5 (3 / 2) (1 / (3 / 2)))
        (1 / 2 - 2 * sceneErr (1 / 2 ^ 53) (trigErr (1 / 2 ^ 53) (3 / 2) 270) 5 (3 / 2) (1 / (3 / 2)))
        (2 * sceneErr (1 / 2 ^ 53) (trigErr (1 / 2 ^ 53) (3 / 2) 270) 5 (3 / 2) (1 / (3 / 2)))
        (sceneErr (1 / 2 ^ 53) (trigErr (1 / 2 ^ 53) (3 / 2) 270) 5 (3 / 2) (1 / (3 / 2)))) ≤ 1 / 9 := by
    rw [vert_count]
    norm_num [rowErrors, entryBound, rowBound, grow, entryMove, sceneErr, shadeErr, endErr, groundErr, trigErr,
      sineErr]
  have := C108_full_mode (E := 0) (ε := 1 / 2 ^ 53) (w := 1 / 2) (c := 1 / 2) (D := 203) (by norm_num) A
    (smallPi_ordered _) smallPi_sine.le (inOrder 24) vertArray vertFlat (fun _ => s) (fun _ => none) o ho
    (fun _ => demo_losses.inverse_isotropic vertArray) t s.light
    ⟨fun a _ => List.forall₂_same.2 fun x _ => by simp, by simp, by simp, by simp, rfl⟩
    vert_physicalArray hst vert_size (by norm_num)
    hmar b1 hd hT vertFlat_lengths (by norm_num [vertArray]) hlong
    (by rw [inOrder_leaves, vert_count]) hsize hc _ rfl
    (by norm_num at b3 ⊢; linarith) (by norm_num [TOL] at b3 ⊢; linarith)
    (by norm_num [TOL] at b3 ⊢; linarith) (by norm_num at b3 ⊢; linarith)
    (by norm_num [TOL] at b3 ⊢; linarith) (1 / 5) (fun a _ => ?_) (1 / 9) hR (by norm_num) (1 / 1000) 1000
    (fun a ha => ?_) hq
  · refine ⟨ho, this.1, fun a ha => (this.2.2 a ha).trans ?_⟩
    have hsky : s.sky = 100 := rfl
    rw [hsky]
    norm_num
  · change 0 ≤ rhoOf demoIrrParams demoIrrIn a ∧ rhoOf demoIrrParams demoIrrIn a ≤ 1 / 5
    rcases a with _ | ⟨_, _ | _, _, _⟩ <;> norm_num [rhoOf, demoIrrParams, demoIrrIn]
  · have h2 := demo_direct_le a
    change termSumErr 1 (1 / 2 ^ 53) 0 ([|(directCats demoIrrParams demoIrrIn).get a|]).sum ≤ 1 / 1000
    rw [List.sum_singleton]
    norm_num [termSumErr, grow]
    linarith

end PVF

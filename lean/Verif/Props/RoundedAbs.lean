import Verif.Model.RoundedAbs
import Verif.Spec.RoundedAbs
import Verif.Props.Demos
import Verif.Props.RoundedGround

/-!
# Absorbed light of full mode with rounding
-/

namespace PVF

theorem Arith.sum_near' {ε : ℝ} (h0 : 0 ≤ ε) (h1 : ε < 1) (A : Arith ε) (f' f m : ℕ → ℝ) {j : ℕ}
    (h : ∀ k, Near ε j (f' k) (f k) (m k)) (T : SumTree) :
    1 ≤ T.leaves.card ∧ Near ε (j + T.leaves.card) (A.sum f' T) (T.leaves.map f).sum (T.leaves.map m).sum := by
  induction T with
  | leaf k =>
    refine ⟨by simp [SumTree.leaves], ?_⟩
    simp only [Arith.sum, SumTree.leaves, Multiset.map_singleton, Multiset.sum_singleton]
    exact (h k).mono h0 h1 (Nat.le_add_right _ _)
  | node l r hl hr =>
    obtain ⟨c1, n1⟩ := hl
    obtain ⟨c2, n2⟩ := hr
    refine ⟨by simp only [SumTree.leaves, Multiset.card_add]; omega, ?_⟩
    simp only [Arith.sum, SumTree.leaves, Multiset.card_add, Multiset.map_add, Multiset.sum_add]
    have := ((n1.mono h0 h1 (by omega : j + l.leaves.card ≤ j + (l.leaves.card + r.leaves.card) - 1)).add h0 h1
      (n2.mono h0 h1 (by omega : j + r.leaves.card ≤ j + (l.leaves.card + r.leaves.card) - 1))).round h0 h1
      (A.add_err _ _)
    rw [show j + (l.leaves.card + r.leaves.card) - 1 + 1 = j + (l.leaves.card + r.leaves.card) by omega] at this
    exact this

theorem sum_all {p : ArrayParams} (f : ℕ → ℝ) :
    ((Multiset.range (nTsSurfaces p + 1)).map f).sum
      = ∑ a ∈ surfaces p, f (surfIndex p a) + f (nTsSurfaces p) := by
  have : ((Multiset.range (nTsSurfaces p + 1)).map f).sum = ∑ k ∈ Finset.range (nTsSurfaces p + 1), f k := rfl
  rw [this, Finset.sum_range_succ, sum_index']

theorem withSky_ofNat {p : ArrayParams} (f : SurfRef → ℝ) (sky : ℝ) :
    (∀ a ∈ surfaces p, withSky p f sky (Fin.ofNat _ (surfIndex p a)) = f a) ∧
    withSky p f sky (Fin.ofNat _ (nTsSurfaces p)) = sky := by
  refine ⟨fun a ha => withSky_surf ha f sky, ?_⟩
  have : (Fin.ofNat (nTsSurfaces p + 1) (nTsSurfaces p)) = Fin.last _ :=
    Fin.ext (Nat.mod_eq_of_lt (Nat.lt_succ_self _))
  rw [this, withSky_last]

/-- C107: absorbed light, computed from radiosities that solve the equations up to small residuals. -/
theorem C107_computed {ε : ℝ} (h0 : 0 ≤ ε) (h1 : ε < 1) (A : Arith ε) (T : SumTree) (p : ArrayParams)
    (hT : T.leaves = Multiset.range (nTsSurfaces p + 1)) (F : ℕ → ℕ → ℝ) (e rho e' q0 qinc abs' : SurfRef → ℝ)
    (sky sky' η₁ η₂ η₃ M S : ℝ) (hsol : NearlySolved p F e rho sky e' q0 qinc sky' η₁ η₂ η₃ M)
    (a : SurfRef) (ha : a ∈ surfaces p) (hr : 0 ≤ rho a ∧ rho a ≤ 1)
    (hS : ∑ b ∈ surfaces p, |vfBetween p F a b| + |vfToSky p F a| ≤ S) :
    |A.fullAbsorbed T p rho F q0 sky' abs' a - ((1 - rho a) * (qinc a - e' a) + abs' a)|
      ≤ (grow ε ^ (nTsSurfaces p + 5) - 1) * (S * M + |abs' a|) + η₁ := by
  set q := fun j => withSky p q0 sky' (Fin.ofNat (nTsSurfaces p + 1) j) with hq
  have term : ∀ j, Near ε 3 (A.mul (A.diffuseAoi (rho a) F (surfIndex p a) j) (q j))
      ((1 - rho a) * F (surfIndex p a) j * q j) ((1 - rho a) * |F (surfIndex p a) j| * |q j|) := by
    intro j
    have n1 : Near ε 1 (A.sub 1 (rho a)) (1 - rho a) (1 - rho a) :=
      (near_self (abs_of_nonneg (by linarith [hr.2])).le).round h0 h1 (A.sub_err _ _)
    exact (((n1.mul h0 h1 (near_self le_rfl)).round h0 h1 (A.mul_err _ _)).mul h0 h1
      (near_self le_rfl)).round h0 h1 (A.mul_err _ _)
  have n2 := (A.sum_near' h0 h1 _ _ _ term T).2
  rw [hT, Multiset.card_range, sum_all, sum_all] at n2
  have n3 := (n2.add h0 h1 ((near_self (ε := ε) (le_refl |abs' a|)).mono h0 h1
    (Nat.zero_le (3 + (nTsSurfaces p + 1))))).round h0 h1 (A.add_err _ _)
  have q1 := n3.1
  have hq1 : ∀ b ∈ surfaces p, q (surfIndex p b) = q0 b := (withSky_ofNat q0 sky').1
  have hq2 : q (nTsSurfaces p) = sky' := (withSky_ofNat q0 sky').2
  rw [show 3 + (nTsSurfaces p + 1) + 1 = nTsSurfaces p + 5 by omega, hq2] at q1
  have s1 : ∑ b ∈ surfaces p, (1 - rho a) * F (surfIndex p a) (surfIndex p b) * q (surfIndex p b)
      = (1 - rho a) * ∑ b ∈ surfaces p, vfBetween p F a b * q0 b := by
    rw [Finset.mul_sum]
    refine Finset.sum_congr rfl fun b hb => ?_
    rw [hq1 b hb, vfBetween]
    ring
  have M0 : 0 ≤ M := (abs_nonneg _).trans hsol.size.2
  have s2 : ∑ b ∈ surfaces p, (1 - rho a) * |F (surfIndex p a) (surfIndex p b)| * |q (surfIndex p b)|
      + (1 - rho a) * |F (surfIndex p a) (nTsSurfaces p)| * |sky'| ≤ S * M := by
    refine le_trans ?_ (mul_le_mul_of_nonneg_right hS M0)
    rw [add_mul, Finset.sum_mul]
    have one : ∀ {x y : ℝ}, |y| ≤ M → (1 - rho a) * |x| * |y| ≤ |x| * M := fun {x y} hy => by
      refine mul_le_mul ?_ hy (abs_nonneg _) (abs_nonneg _)
      exact mul_le_of_le_one_left (abs_nonneg _) (by linarith [hr.1])
    refine add_le_add (Finset.sum_le_sum fun b hb => ?_) (one hsol.size.2)
    rw [hq1 b hb]
    exact one (hsol.size.1 b hb)
  have g := grow_pow_one h0 h1 (nTsSurfaces p + 5)
  have q2 := q1.trans (mul_le_mul_of_nonneg_left (add_le_add_left s2 |abs' a|) (by linarith))
  rw [s1] at q2
  have r1 : |(1 - rho a) * (qinc a - (e' a + ∑ b ∈ surfaces p, vfBetween p F a b * q0 b
      + vfToSky p F a * sky'))| ≤ η₁ := by
    rw [abs_mul, abs_of_nonneg (by linarith [hr.2])]
    exact (mul_le_of_le_one_left (abs_nonneg _) (by linarith [hr.1])).trans (hsol.arriving a ha)
  have e1 : A.fullAbsorbed T p rho F q0 sky' abs' a - ((1 - rho a) * (qinc a - e' a) + abs' a)
      = (A.fullAbsorbed T p rho F q0 sky' abs' a
          - ((1 - rho a) * ∑ b ∈ surfaces p, vfBetween p F a b * q0 b
            + (1 - rho a) * F (surfIndex p a) (nTsSurfaces p) * sky' + abs' a))
        - (1 - rho a) * (qinc a - (e' a + ∑ b ∈ surfaces p, vfBetween p F a b * q0 b
          + vfToSky p F a * sky')) := by
    rw [vfToSky]
    ring
  rw [e1]
  exact (abs_sub _ _).trans (add_le_add q2 r1)

/-- Exact absorbed light without AOI methods, for any light from the sky. -/
theorem qabs_eq {ι : Type*} [Fintype ι] (p : ArrayParams) (u : ι → StepIn) (s : ι → IrrStep) (o : ι → FullOut)
    (h : runFullMode p u s (fun _ => none) = some o) (hs : ∀ t, InverseOk p (s t)) (t : ι) :
    ∀ a ∈ surfaces p, (o t).qabs a
      = (1 - (s t).rho a) * ((o t).qinc a - ((s t).comp a).sum) + ((s t).compAbs a).sum := by
  intro a ha
  obtain ⟨hb, hsky⟩ := C06_radiosity p u s _ o h hs t
  obtain ⟨hdet, h2⟩ := runFullMode_some h t
  set F := tsVfMatrix p u t with hF
  have hqabs : (o t).qabs a
      = ∑ k : Fin (nTsSurfaces p + 1), (1 - rhoVec p (s t) (Fin.ofNat _ (fidx p a : ℕ)))
          * F (fidx p a : ℕ) k
          * ((aMat p (s t) F)⁻¹.mulVec (irradianceVec p (s t))) k
        + withSky p (fun a => sumComponents ((s t).compAbs a)) 0 (fidx p a) := by
    rw [h2]; rfl
  have hid : (Fin.ofNat (nTsSurfaces p + 1) (fidx p a : ℕ)) = fidx p a :=
    Fin.ext (Nat.mod_eq_of_lt (fidx p a).2)
  rw [sum_fin_index, hid, rhoVec, withSky_surf ha, withSky_surf ha, sumComponents_eq] at hqabs
  have hq0 : ∀ b, ((aMat p (s t) F)⁻¹.mulVec (irradianceVec p (s t))) (fidx p b) = (o t).q0 b := by
    intro b; rw [h2]; rfl
  have hq0s : ((aMat p (s t) F)⁻¹.mulVec (irradianceVec p (s t))) (Fin.last _) = (o t).q0Sky := by
    rw [h2]; rfl
  rw [hq0s, hsky] at hqabs
  have hsum : ∑ b ∈ surfaces p, (1 - (s t).rho a) * F (fidx p a : ℕ) (fidx p b : ℕ)
        * ((aMat p (s t) F)⁻¹.mulVec (irradianceVec p (s t))) (fidx p b)
      = (1 - (s t).rho a) * ∑ b ∈ surfaces p, vfBetween p F a b * (o t).q0 b := by
    rw [Finset.mul_sum]
    refine Finset.sum_congr rfl fun b hb' => ?_
    rw [hq0, fidx_val ha, fidx_val hb', vfBetween]; ring
  rw [hsum, fidx_val ha] at hqabs
  rw [hqabs, hb.arriving a ha, vfToSky]
  simp only [Fin.val_last]
  ring

/-- C107: absorbed light of full mode, computed from the inputs with rounding errors, if all losses by
reflection are diffuse; the rows may be horizontal at some or all time steps. -/
theorem C107_full_mode {ι : Type*} [Fintype ι] {ε B K G D w c E E' : ℝ} (h0 : 0 < ε)
    (A : TrigArith ε) (hA : A.toArith.Ordered)
    (hπ : 0 ≤ A.sind (A.add 0 180)) (T T' : SumTree) (p : ArrayParams) (u : ι → StepIn) (s : ι → IrrStep)
    (o : ι → FullOut) (hrun : runFullMode p u s (fun _ => none) = some o)
    (hinv : ∀ t, InverseOk p (s t)) (t : ι)
    (t' : LightTerms) (ht : TermsNear (surfaces p) E t' (s t).light)
    (x' : SurfRef → List ℝ)
    (hx : ∀ a ∈ surfaces p, List.Forall₂ (fun x' x => |x' - x| ≤ E') (x' a) ((s t).compAbs a))
    (hp : PhysicalArray p) (hst : ∀ t, PhysicalStep p (u t)) (hB : ArraySize p B)
    (hK : 0 ≤ K) (hu : ∀ t, StepMargin p (u t) ε K G ∨ FlatMargin p (u t) K G)
    (hS : 20 * sineErr ε G * K ^ 3 ≤ 1)
    (hd : shadeErr ε (trigErr ε K G) B K * K < p.distance)
    (hTOL : shadeErr ε (trigErr ε K G) B K < TOL)
    (hf : ∀ t x, x = (interrowShading p (fitStep p (u t)).alpha (fitStep p (u t)).rot.deg).1 ∨
      x = (interrowShading p (fitStep p (u t)).alpha (fitStep p (u t)).rot.deg).2 →
        x = 0 ∨ 2 * TOL ≤ x)
    (hw : w ≤ p.width)
    (hlong : ∀ t, ∀ a ∈ surfaces p, ((fitStep p (u t)).coords a).length = 0 ∨
      w ≤ ((fitStep p (u t)).coords a).length)
    (hT : T.leaves = Multiset.range (nTsSurfaces p)) (hT' : T'.leaves = Multiset.range (nTsSurfaces p + 1))
    (hs : SceneSize p (fitStep p (u t)) (isEmptyTs fun t => fitStep p (u t)) D w)
    (hc : c ≤ p.height - p.width / 2 * sind (u t).surfaceTilt)
    (τ : ℝ) (hτd : τ = sceneErr ε (trigErr ε K G) B K (1 / K)) (hτ : 2 * K * τ < w)
    (hτT : 4 * τ ≤ TOL) (hτn : Fintype.card ι * (2 * τ) < TOL) (hτc : 4 * τ < c)
    (hw2 : 2 * TOL ≤ w - 2 * τ)
    (r : ℝ) (hr : ∀ a ∈ surfaces p, 0 ≤ (s t).rho a ∧ (s t).rho a ≤ r) (hr1 : r < 1)
    (q0' qinc' : SurfRef → ℝ) (sky' η₁ η₂ M H H' Q : ℝ)
    (hH : ∀ a ∈ surfaces p, termSumErr ((s t).comp a).length ε E (((s t).comp a).map fun x => |x|).sum ≤ H)
    (hH' : ∀ a ∈ surfaces p,
      termSumErr ((s t).compAbs a).length ε E' (((s t).compAbs a).map fun x => |x|).sum ≤ H')
    (hQ : ∀ a ∈ surfaces p, |((s t).compAbs a).sum| ≤ Q)
    (hsol : NearlySolved p (A.vfMatrix T p (A.fitStep p (u t)) (isEmptyTs fun t => A.fitStep p (u t)))
      (fun a => A.sumComponents (t'.comp a)) (s t).rho (s t).sky
      (fun a => A.sumComponents (t'.comp a)) q0' qinc' sky' η₁ η₂ 0 M) :
    let E := entryBound ε (D + 2 * τ) (w - 2 * τ) (c - 2 * τ) (2 * τ)
      + entryMove (D + 2 * τ) (w - 2 * τ) (c - 2 * τ) (2 * τ) τ
    let R := rowErrors (nTsSurfaces p) ε E
    let F := A.vfMatrix T p (A.fitStep p (u t)) (isEmptyTs fun t => A.fitStep p (u t))
    ∀ a ∈ surfaces p,
      |A.fullAbsorbed T' p (s t).rho F q0' sky' (fun a => A.sumComponents (x' a)) a - (o t).qabs a|
        ≤ absorbedErr (nTsSurfaces p) ε (1 + R) M Q H' (η₁ + H + (η₁ + η₂ + H + R * M) / (1 - r)) := by
  intro E₀ R F a ha
  have h1 := small_eps h0 hK (hu t) hS
  have hF := C02_viewFactorsOk p u t hp (hst t)
  have hv := (C102_view_factors h0 A hA hπ T p u t hp hst hB hK hu hS hd hTOL hf hw hlong hT hs hc
    τ hτd hτ hτT hτn hτc hw2 a ha).2
  have row : ∑ b ∈ surfaces p, |vfBetween p F a b| + |vfToSky p F a| ≤ 1 + R := by
    have one : ∀ {x y : ℝ}, 0 ≤ y → |x| ≤ y + |x - y| := fun {x y} hy => by
      have := abs_add_le y (x - y)
      rwa [add_sub_cancel, abs_of_nonneg hy] at this
    have l1 := Finset.sum_le_sum fun b hb =>
      one (x := vfBetween p F a b) (y := vfBetween p (tsVfMatrix p u t) a b) (hF.nonneg a ha b hb)
    have l2 := one (x := vfToSky p F a) (hF.nonneg_sky a ha)
    rw [Finset.sum_add_distrib] at l1
    have := hF.sum_le a ha
    linarith
  have c1 := C107_computed h0.le h1 A.toArith T' p hT' F _ (s t).rho _ q0' qinc'
    (fun a => A.sumComponents (x' a)) (s t).sky sky' η₁ η₂ 0 M (1 + R) hsol a ha
    ⟨(hr a ha).1, (hr a ha).2.trans hr1.le⟩ row
  have c2 := C103_full_light h0 A hA hπ T p u s (fun _ => none) o hrun hinv t t' ht hp hst hB hK hu hS hd
    hTOL hf hw hlong hT hs hc τ hτd hτ hτT hτn hτc hw2 r hr hr1 q0' qinc' sky' η₁ η₂ M H hH hsol a ha
  have c3 := (C101_sky_term h0.le h1 A.toArith (surfaces p) t' (s t).light ht a ha).trans (hH a ha)
  change |A.sumComponents (t'.comp a) - ((s t).comp a).sum| ≤ H at c3
  have c4 : |A.sumComponents (x' a) - ((s t).compAbs a).sum| ≤ H' := by
    have hn : TermsNear {a} E' ⟨x', 0, 0, 0, 0⟩ ⟨(s t).compAbs, 0, 0, 0, 0⟩ ∨ ((s t).compAbs a) = [] := by
      rcases hl : (s t).compAbs a with _ | ⟨y, l⟩
      · exact .inr rfl
      · left
        have hxa := hx a ha
        have e0 : 0 ≤ E' := by
          rw [hl] at hxa
          obtain ⟨_, _, h, -, -⟩ := List.forall₂_cons_right_iff.1 hxa
          exact (abs_nonneg _).trans h
        exact ⟨fun b hb => by rw [Finset.mem_singleton.1 hb]; exact hx a ha, by simpa using e0,
          by simpa using e0, by simpa using e0, rfl⟩
    rcases hn with hn | hn
    · exact (C101_sky_term h0.le h1 A.toArith {a} _ _ hn a (Finset.mem_singleton_self a)).trans (hH' a ha)
    · have hxa := hx a ha
      have hh := hH' a ha
      rw [hn] at hxa hh ⊢
      rw [List.forall₂_nil_right_iff.1 hxa]
      simpa [Arith.sumComponents, termSumErr] using hh
  have c5 : |A.sumComponents (x' a)| ≤ Q + H' := by
    have := abs_add_le ((s t).compAbs a).sum (A.sumComponents (x' a) - ((s t).compAbs a).sum)
    rw [add_sub_cancel] at this
    linarith [hQ a ha]
  have g := grow_pow_one h0.le h1 (nTsSurfaces p + 5)
  have c6 := mul_le_mul_of_nonneg_left (add_le_add_right c5 ((1 + R) * M))
    (by linarith : 0 ≤ grow ε ^ (nTsSurfaces p + 5) - 1)
  have c7 : |(1 - (s t).rho a) * ((qinc' a - (o t).qinc a)
      - (A.sumComponents (t'.comp a) - ((s t).comp a).sum))|
      ≤ (η₁ + η₂ + H + R * M) / (1 - r) + H := by
    rw [abs_mul, abs_of_nonneg (by linarith [(hr a ha).2])]
    exact (mul_le_of_le_one_left (abs_nonneg _) (by linarith [(hr a ha).1])).trans
      ((abs_sub _ _).trans (add_le_add c2 c3))
  rw [qabs_eq p u s o hrun hinv t a ha]
  have e1 : A.fullAbsorbed T' p (s t).rho F q0' sky' (fun a => A.sumComponents (x' a)) a
      - ((1 - (s t).rho a) * ((o t).qinc a - ((s t).comp a).sum) + ((s t).compAbs a).sum)
      = (A.fullAbsorbed T' p (s t).rho F q0' sky' (fun a => A.sumComponents (x' a)) a
        - ((1 - (s t).rho a) * (qinc' a - A.sumComponents (t'.comp a)) + A.sumComponents (x' a)))
        + (1 - (s t).rho a) * ((qinc' a - (o t).qinc a)
          - (A.sumComponents (t'.comp a) - ((s t).comp a).sum))
        + (A.sumComponents (x' a) - ((s t).compAbs a).sum) := by
    ring
  rw [e1]
  refine (abs_add_le _ _).trans ((add_le_add ((abs_add_le _ _).trans (add_le_add c1 c7)) c4).trans ?_)
  unfold absorbedErr
  linarith

/-- C107: average absorbed light of a side of a row, for absorbed light with errors. -/
theorem C107_side {ε τ V e : ℝ} (h0 : 0 ≤ ε) (h1 : ε < 1) (A : Arith ε) (T : SumTree) (p : ArrayParams)
    (u : StepIn) (hp : PhysicalArray p) (hst : PhysicalStep p u) (g' : StepGeom)
    (hn : CoordsNear p (fitStep p u) g' τ) (F : ℕ → ℕ → ℝ) (rho q0' abs' : SurfRef → ℝ) (sky' : ℝ)
    (qabs : SurfRef → ℝ)
    (he : ∀ a ∈ surfaces p, |A.fullAbsorbed T p rho F q0' sky' abs' a - qabs a| ≤ e)
    (hV : ∀ a ∈ surfaces p, |qabs a| ≤ V)
    (i : ℕ) (hi : i < p.nRows) (side : RowSide) (hseg : 0 < p.nSeg i side)
    (hτ : 4 * p.nSeg i side * τ < p.width) :
    |A.sideWeighted (fun a => A.length (g'.coords a)) (A.fullAbsorbed T p rho F q0' sky' abs')
          (sideColl p i side)
        - sideWeighted (lengthAt p u) qabs (sideColl p i side)|
      ≤ averageErr (12 + 2 * p.nSeg i side) (2 * p.nSeg i side) ε p.width (2 * τ) V e :=
  C104_row_side h0 h1 A p u hp hst g' hn i hi side hseg _ _
    (fun _ hk _ => he _ (mem_surfaces.2 (mem_allRefs_pv.2 ⟨hi, hk⟩)))
    (fun _ hk _ => hV _ (mem_surfaces.2 (mem_allRefs_pv.2 ⟨hi, hk⟩))) hτ

/-- C107: absorbed parts of direct light on the ground and on rows. -/
theorem C107_direct {ε E V : ℝ} (h0 : 0 ≤ ε) (h1 : ε < 1) (A : Arith ε) (rho x' x : ℝ)
    (hr : 0 ≤ rho ∧ rho ≤ 1) (hx : |x' - x| ≤ E) (hV : |x| ≤ V) :
    |A.absorbedGround rho x' - (1 - rho) * x| ≤ (grow ε ^ 2 - 1) * (V + E) + E ∧
    |A.absorbedRow rho x' - (1 - rho) * x| ≤ (grow ε ^ 3 - 1) * (V + E) + E := by
  have hr0 : 0 ≤ 1 - rho := by linarith
  have n1 : Near ε 1 (A.sub 1 rho) (1 - rho) (1 - rho) :=
    (near_self (abs_of_nonneg hr0).le).round h0 h1 (A.sub_err _ _)
  have n2 : Near ε 2 (A.absorbedGround rho x') ((1 - rho) * x') ((1 - rho) * |x'|) :=
    (n1.mul h0 h1 (near_self le_rfl)).round h0 h1 (A.mul_err _ _)
  have n3 : Near ε 3 (A.absorbedRow rho x') ((1 - rho) * 1 * x') ((1 - rho) * 1 * |x'|) :=
    (((n1.mul h0 h1 (near_self (ε := ε) (m := 1) (by simp))).round h0 h1 (A.mul_err _ _)).mul h0 h1
      (near_self le_rfl)).round h0 h1 (A.mul_err _ _)
  rw [mul_one] at n3
  have hx' : |x'| ≤ V + E := by
    have := abs_add_le x (x' - x)
    rw [add_sub_cancel] at this
    linarith
  have m : (1 - rho) * |x'| ≤ V + E :=
    (mul_le_of_le_one_left (abs_nonneg _) (by linarith [hr.1])).trans hx'
  have d : |(1 - rho) * x' - (1 - rho) * x| ≤ E := by
    rw [← mul_sub, abs_mul, abs_of_nonneg hr0]
    exact (mul_le_of_le_one_left (abs_nonneg _) (by linarith [hr.1])).trans hx
  have g2 := grow_pow_one h0 h1 2
  have g3 := grow_pow_one h0 h1 3
  exact ⟨(abs_sub_le _ _ _).trans (add_le_add
      (n2.1.trans (mul_le_mul_of_nonneg_left m (by linarith))) d),
    (abs_sub_le _ _ _).trans (add_le_add (n3.1.trans (mul_le_mul_of_nonneg_left m (by linarith))) d)⟩

/-- C107: absorbed components of the isotropic model without AOI functions, for computed components with
errors, as they are needed for `C107_full_mode`. -/
theorem C107_isotropic {ε E V : ℝ} (h0 : 0 ≤ ε) (h1 : ε < 1) (A : Arith ε) (surf : Finset SurfRef)
    (q : IrrParams) (v : IrrIn) (hf : q.faoiFront = none) (hb : q.faoiBack = none)
    (t' : LightTerms) (ht : TermsNear surf E t' (isotropicStep q v).light) (a : SurfRef) (ha : a ∈ surf)
    (hr : 0 ≤ (isotropicStep q v).rho a ∧ (isotropicStep q v).rho a ≤ 1)
    (hV : ∀ x ∈ (isotropicStep q v).comp a, |x| ≤ V) :
    List.Forall₂ (fun x' x => |x' - x| ≤ (grow ε ^ 3 - 1) * (V + E) + E)
      (A.isotropicAbs ((isotropicStep q v).rho a) (t'.comp a) a) ((isotropicStep q v).compAbs a) := by
  have hl : List.Forall₂ (fun x' x => |x' - x| ≤ E) (t'.comp a) [(directCats q v).get a] := ht.comp a ha
  obtain ⟨x', l, hx, hl, e⟩ := List.forall₂_cons_right_iff.1 hl
  rw [List.forall₂_nil_right_iff.1 hl] at e
  have hs := isotropic_compAbs q v hf hb a
  have e1 : (isotropicStep q v).compAbs a = [faoiDirectOf q v a * (directCats q v).get a] := rfl
  have e2 : (isotropicStep q v).comp a = [(directCats q v).get a] := rfl
  rw [e1, e2, List.sum_singleton, List.sum_singleton] at hs
  obtain ⟨d1, d2⟩ := C107_direct h0 h1 A _ x' _ hr hx (hV _ (by rw [e2]; exact List.mem_singleton.2 rfl))
  have V0 : 0 ≤ V + E := add_nonneg ((abs_nonneg _).trans (hV _ (by rw [e2]; exact List.mem_singleton.2 rfl)))
    ((abs_nonneg _).trans hx)
  have g : grow ε ^ 2 ≤ grow ε ^ 3 := pow_le_pow_right₀ (grow_one h0 h1) (by norm_num)
  rw [e1, e, hs]
  match a with
  | .gnd _ _ _ =>
    refine .cons (d1.trans ?_) .nil
    have := mul_le_mul_of_nonneg_right (sub_le_sub_right g 1) V0
    linarith
  | .pv _ _ _ _ => exact .cons d2 .nil

/-- Absorbed light of the horizon band behind a neighbour: the factor of the shaded part comes last. -/
theorem horizonAbs_near {ε E V : ℝ} (h0 : 0 ≤ ε) (h1 : ε < 1) (A : Arith ε) (rho h f x : ℝ)
    (hr : 0 ≤ rho ∧ rho ≤ 1) (hx : |A.mul h f - x| ≤ E) (hV : |x| ≤ V) :
    |A.mul (A.absorbedRow rho h) f - (1 - rho) * x| ≤ (grow ε ^ 5 - 1) * (V + E) + E := by
  have hr0 : 0 ≤ 1 - rho := by linarith
  have hr1 : 1 - rho ≤ 1 := by linarith
  have n1 : Near ε 1 (A.sub 1 rho) (1 - rho) (1 - rho) :=
    (near_self (abs_of_nonneg hr0).le).round h0 h1 (A.sub_err _ _)
  have n3 : Near ε 3 (A.absorbedRow rho h) ((1 - rho) * 1 * h) ((1 - rho) * 1 * |h|) :=
    (((n1.mul h0 h1 (near_self (ε := ε) (m := 1) (by simp))).round h0 h1 (A.mul_err _ _)).mul h0 h1
      (near_self le_rfl)).round h0 h1 (A.mul_err _ _)
  have n4 : Near ε 4 (A.mul (A.absorbedRow rho h) f) ((1 - rho) * 1 * h * f) ((1 - rho) * 1 * |h| * |f|) :=
    (n3.mul h0 h1 (near_self le_rfl)).round h0 h1 (A.mul_err _ _)
  have e1 : (1 - rho) * 1 * |h| * |f| = (1 - rho) * |h * f| := by rw [abs_mul]; ring
  have e2 : (1 - rho) * 1 * h * f = (1 - rho) * (h * f) := by ring
  rw [e1, e2] at n4
  have hx' : |A.mul h f| ≤ V + E := by
    have := abs_add_le x (A.mul h f - x)
    rw [add_sub_cancel] at this
    linarith
  have hm := A.mul_err h f
  have hd : 0 < 1 - ε := by linarith
  have hg : grow ε * (1 - ε) = 1 := by
    unfold grow; field_simp
  have hhf : |h * f| ≤ grow ε * (V + E) := by
    have := abs_sub_abs_le_abs_sub (h * f) (A.mul h f)
    rw [abs_sub_comm] at this
    have h2 : |h * f| * (1 - ε) ≤ V + E := by linarith
    calc |h * f| = grow ε * (|h * f| * (1 - ε)) := by rw [mul_left_comm, hg, mul_one]
      _ ≤ _ := mul_le_mul_of_nonneg_left h2 (zero_le_one.trans (grow_one h0 h1))
  have g4 := grow_pow_one h0 h1 4
  have m1 : (1 - rho) * |h * f| ≤ grow ε * (V + E) :=
    (mul_le_of_le_one_left (abs_nonneg _) hr1).trans hhf
  have d1 : |A.mul (A.absorbedRow rho h) f - (1 - rho) * (h * f)| ≤ (grow ε ^ 4 - 1) * (grow ε * (V + E)) :=
    n4.1.trans (mul_le_mul_of_nonneg_left m1 (by linarith))
  have d2 : |(1 - rho) * (h * f) - (1 - rho) * x| ≤ (grow ε - 1) * (V + E) + E := by
    rw [← mul_sub, abs_mul, abs_of_nonneg hr0]
    refine (mul_le_of_le_one_left (abs_nonneg _) hr1).trans ((abs_sub_le _ (A.mul h f) _).trans
      (add_le_add ?_ hx))
    rw [abs_sub_comm]
    refine hm.trans ((mul_le_mul_of_nonneg_left hhf h0).trans (le_of_eq ?_))
    rw [← mul_assoc]
    congr 1
    linear_combination -hg
  have h3 := abs_sub_le (A.mul (A.absorbedRow rho h) f) ((1 - rho) * (h * f)) ((1 - rho) * x)
  have e3 : (grow ε ^ 5 - 1) * (V + E) + E
      = (grow ε ^ 4 - 1) * (grow ε * (V + E)) + ((grow ε - 1) * (V + E) + E) := by ring
  rw [e3]
  linarith

/-- C107: absorbed components of the hybrid model without AOI functions, as they are needed for
`C107_full_mode`, if the computed components have errors of at most `E`. -/
theorem C107_hybrid {ε E V : ℝ} (h0 : 0 ≤ ε) (h1 : ε < 1) (A : LightArith ε) (surf : Finset SurfRef)
    (q : IrrParams) (p : ArrayParams) (g' g : StepGeom) (v : IrrIn) (hf : q.faoiFront = none)
    (hb : q.faoiBack = none)
    (ht : TermsNear surf E (A.hybridLight q p g' v) (hybridPerezStep q p g v).light)
    (a : SurfRef) (ha : a ∈ surf)
    (hr : 0 ≤ (hybridPerezStep q p g v).rho a ∧ (hybridPerezStep q p g v).rho a ≤ 1)
    (hV : ∀ x ∈ (hybridPerezStep q p g v).comp a, |x| ≤ V) :
    List.Forall₂ (fun x' x => |x' - x| ≤ (grow ε ^ 5 - 1) * (V + E) + E)
      (A.hybridAbs q p g' v ((hybridPerezStep q p g v).rho a) a) ((hybridPerezStep q p g v).compAbs a) := by
  have hl : List.Forall₂ (fun x' x => |x' - x| ≤ E)
      [(A.directCats q v).get a, (A.circumsolarCats q v).get a, A.horizonOf q p g' v a]
      [(directCats q v).get a, (circumsolarCats q v).get a, horizonOf q p g v a] := ht.comp a ha
  simp only [List.forall₂_cons, List.Forall₂.nil, and_true] at hl
  obtain ⟨l1, l2, l3⟩ := hl
  have e2 : (hybridPerezStep q p g v).comp a
      = [(directCats q v).get a, (circumsolarCats q v).get a, horizonOf q p g v a] := rfl
  rw [e2] at hV
  have v1 := hV _ (by simp : (directCats q v).get a ∈ _)
  have v2 := hV _ (by simp : (circumsolarCats q v).get a ∈ _)
  have v3 := hV _ (by simp : horizonOf q p g v a ∈ _)
  have V0 : 0 ≤ V + E := add_nonneg ((abs_nonneg _).trans v1) ((abs_nonneg _).trans l1)
  have up {k : ℕ} (hk : k ≤ 5) {y : ℝ} (h : y ≤ (grow ε ^ k - 1) * (V + E) + E) :
      y ≤ (grow ε ^ 5 - 1) * (V + E) + E :=
    h.trans (by linarith [mul_le_mul_of_nonneg_right (sub_le_sub_right (grow_mono h0 h1 hk) 1) V0])
  have p1 := C107_direct h0 h1 A.toArith _ _ _ hr l1 v1
  have p2 := C107_direct h0 h1 A.toArith _ _ _ hr l2 v2
  have e1 : (hybridPerezStep q p g v).compAbs a = [faoiDirectOf q v a * (directCats q v).get a,
      faoiDirectOf q v a * (circumsolarCats q v).get a, horizonAbsOf q p g v a] := rfl
  have er : (hybridPerezStep q p g v).rho a = rhoOf q v a := rfl
  rw [er] at hr p1 p2
  rw [e1, er]
  match a with
  | .gnd sh e z =>
    refine .cons (up (by norm_num) p1.1) (.cons (up (by norm_num) p2.1) (.cons ?_ .nil))
    have : (0 : ℝ) ≤ (grow ε ^ 5 - 1) * (V + E) + E := up (k := 0) (by norm_num)
      (by simpa using (abs_nonneg _).trans l1)
    simpa [LightArith.horizonAbs, horizonAbsOf] using this
  | .pv r .front k sh =>
    have e : faoiDirectOf q v (.pv r .front k sh) = 1 - rhoOf q v (.pv r .front k sh) := by
      simp [faoiDirectOf, rhoOf, faoiDirectFront, hf]
    have eh : horizonAbsOf q p g v (.pv r .front k sh)
        = (1 - rhoOf q v (.pv r .front k sh)) * horizonOf q p g v (.pv r .front k sh) := by
      simp [horizonAbsOf, horizonOf, rhoOf, faoiHorizonFront, hf]
    rw [e, eh]
    exact .cons (up (by norm_num) p1.2) (.cons (up (by norm_num) p2.2)
      (.cons (up (by norm_num) (C107_direct h0 h1 A.toArith _ _ _ hr l3 v3).2) .nil))
  | .pv r .back k sh =>
    have e : faoiDirectOf q v (.pv r .back k sh) = 1 - rhoOf q v (.pv r .back k sh) := by
      simp [faoiDirectOf, rhoOf, faoiDirectBack, hb]
    have eh : horizonAbsOf q p g v (.pv r .back k sh)
        = (1 - rhoOf q v (.pv r .back k sh)) * horizonOf q p g v (.pv r .back k sh) := by
      simp [horizonAbsOf, horizonOf, rhoOf, faoiHorizonBack, hb]; ring
    rw [e, eh]
    exact .cons (up (by norm_num) p1.2) (.cons (up (by norm_num) p2.2)
      (.cons (horizonAbs_near h0 h1 A.toArith _ _ _ _ hr l3 v3) .nil))

/-- C107 (witness).  The front of the second row of the array of two rows absorbs 990 W/m2 or more.  If all
operations give results that are too large, the absorbed light is not wrong by more than 1e-13 times the
numbers that it is computed from, but the absorbed direct light is wrong. -/
theorem C107_demo : ∃ o : Fin 3 → FullOut,
    let A := tooLarge (1 / 2 ^ 53) (by norm_num)
    let s := isotropicStep demoIrrParams demoIrrIn
    let a := SurfRef.pv 1 .front 0 false
    runFullMode vertArray (fun _ => vertStep) (fun _ => s) (fun _ => none) = some o ∧
    A.absorbedRow (1 / 100) 1000 ≠ (1 - 1 / 100) * 1000 ∧
    ∀ t, 990 ≤ (o t).qabs a ∧
      |A.fullAbsorbed (inOrder 25) vertArray s.rho (tsVfMatrix vertArray (fun _ : Fin 3 => vertStep) t)
          (o t).q0 s.sky (fun a => (s.compAbs a).sum) a - (o t).qabs a|
        ≤ 1 / 10 ^ 13 * (∑ b ∈ surfaces vertArray, |(o t).q0 b| + |s.sky| + |(s.compAbs a).sum|) := by
  obtain ⟨o, ho⟩ := C07_isotropic vertArray (fun _ : Fin 3 => vertStep) demoIrrParams
    (fun _ => demoIrrIn) (fun _ => none) (fun _ => demo_losses) vert_physicalArray
    (fun _ => vert_physicalStep)
  refine ⟨o, ?_⟩
  intro A s a
  have hinv : InverseOk vertArray s := demo_losses.inverse_isotropic vertArray
  refine ⟨ho, ?_, fun t => ?_⟩
  · change (1 + 1 / 2 ^ 53 : ℝ) * ((1 + 1 / 2 ^ 53) * ((1 + 1 / 2 ^ 53) * (1 - 1 / 100) * 1) * 1000) ≠ _
    norm_num
  have ha : a ∈ surfaces vertArray := vert_right_mem
  have hF := C02_viewFactorsOk vertArray (fun _ : Fin 3 => vertStep) t vert_physicalArray vert_physicalStep
  have hrho : s.rho a = 1 / 100 := rfl
  constructor
  · have h10 := (C10_isotropic vertArray (fun _ : Fin 3 => vertStep) demoIrrParams (fun _ => demoIrrIn) o ho rfl
      rfl demo_losses.front.1.ne' demo_losses.back.1.ne' (fun _ => demo_losses.albedo.1.ne') t a ha).1
    have h8 := (C08_isotropic _ _ _ _ _ o ho (fun _ => demo_losses) vert_physicalArray t
      vert_physicalStep demo_light a ha)
    have hr : rhoOf demoIrrParams demoIrrIn a = 1 / 100 := rfl
    have d : (directCats demoIrrParams demoIrrIn).get a = 1000 := demo_front
    rw [hr] at h10
    have h9 := (C09_components vertArray (fun _ : Fin 3 => vertStep) _ _ o ho (fun _ => hinv) t a ha).1
    have hc : (s.comp a).sum = 1000 := by
      simp only [s, isotropicStep, List.sum_cons, List.sum_nil, add_zero]
      exact d
    rw [hc] at h9
    linarith [h8.2.2.1, h8.2.2.2]
  · set M := ∑ b ∈ surfaces vertArray, |(o t).q0 b| + |s.sky| with hM
    have hM1 : ∀ a ∈ surfaces vertArray, |(o t).q0 a| ≤ M := fun a ha => by
      have := Finset.single_le_sum (fun b _ => abs_nonneg ((o t).q0 b)) ha
      have := abs_nonneg s.sky
      linarith
    have hM2 : |s.sky| ≤ M := by
      have := Finset.sum_nonneg fun b (_ : b ∈ surfaces vertArray) => abs_nonneg ((o t).q0 b)
      linarith
    have hbal := (C06_radiosity vertArray (fun _ : Fin 3 => vertStep) (fun _ => s) (fun _ => none) o
      ho (fun _ => hinv) t).1
    have hn : NearlySolved vertArray (tsVfMatrix vertArray (fun _ : Fin 3 => vertStep) t)
        (fun a => (s.comp a).sum) s.rho s.sky (fun a => (s.comp a).sum) (o t).q0 (o t).qinc s.sky 0 0 0 M :=
      ⟨fun a _ => by simp, by simp, fun a ha => by rw [hbal.arriving a ha]; simp,
        fun a ha => by rw [hbal.sent a ha]; simp, hM1, hM2⟩
    have hT : (inOrder 25).leaves = Multiset.range (nTsSurfaces vertArray + 1) := by
      rw [inOrder_leaves, vert_count]
    have row : ∑ b ∈ surfaces vertArray, |vfBetween vertArray (tsVfMatrix vertArray (fun _ => vertStep) t) a b|
        + |vfToSky vertArray (tsVfMatrix vertArray (fun _ => vertStep) t) a| ≤ 1 := by
      rw [Finset.sum_congr rfl fun b hb => abs_of_nonneg (hF.nonneg a ha b hb),
        abs_of_nonneg (hF.nonneg_sky a ha)]
      exact hF.sum_le a ha
    have := C107_computed (by norm_num) (by norm_num) A (inOrder 25) vertArray hT _ _ s.rho _ _ _
      (fun a => (s.compAbs a).sum) s.sky s.sky 0 0 0 M 1 hn a ha (by rw [hrho]; norm_num) row
    rw [qabs_eq vertArray (fun _ : Fin 3 => vertStep) (fun _ => s) o ho (fun _ => hinv) t a ha]
    refine this.trans ?_
    rw [vert_count, add_zero, one_mul]
    refine mul_le_mul_of_nonneg_right ?_ (add_nonneg ((abs_nonneg _).trans hM2) (abs_nonneg _))
    norm_num [grow]

end PVF

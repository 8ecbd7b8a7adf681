import Verif.Model.RoundedSolve
import Verif.Spec.RoundedSolve
import Verif.Props.RoundedSolve

/-!
# Incident light from a computed inverse
-/

namespace PVF

theorem ofNat_fin {n : ℕ} (k : Fin (n + 1)) : Fin.ofNat (n + 1) (k : ℕ) = k :=
  Fin.ext (Nat.mod_eq_of_lt k.2)

/-- Computed sums of products over all surfaces and the sky. -/
theorem Arith.dot_near {ε : ℝ} (h0 : 0 ≤ ε) (h1 : ε < 1) (A : Arith ε) {n : ℕ} (T : SumTree)
    (hT : T.leaves = Multiset.range n) (x y : ℕ → ℝ) :
    Near ε (n + 1) (A.sum (fun k => A.mul (x k) (y k)) T) (∑ k ∈ Finset.range n, x k * y k)
      (∑ k ∈ Finset.range n, |x k| * |y k|) := by
  have := (A.sum_near' h0 h1 (fun k => A.mul (x k) (y k)) (fun k => x k * y k) (fun k => |x k| * |y k|) (j := 1)
    (fun k => (near_self (abs_mul _ _).le).round h0 h1 (A.mul_err _ _)) T).2
  rw [hT, Multiset.card_range, add_comm 1] at this
  exact this

/-- Entries of the matrix of full mode. -/
theorem matrix_row {p : ArrayParams} {s : IrrStep} {F : ℕ → ℕ → ℝ} {S P : ℝ} (hs : InverseOk p s)
    (hsky : ∀ j, F (nTsSurfaces p) j = 0) (hr : ∀ a ∈ surfaces p, 0 ≤ s.rho a)
    (hP : ∀ a ∈ surfaces p, s.invRho a ≤ P) (hP1 : 1 ≤ P)
    (hS : ∀ a ∈ surfaces p, ∑ b ∈ surfaces p, |vfBetween p F a b| + |vfToSky p F a| ≤ S) (i : ℕ)
    (hi : i < nTsSurfaces p + 1) :
    ∑ j ∈ Finset.range (nTsSurfaces p + 1), |Arith.invRhoDiag p s i j - F i j| ≤ P + S := by
  set N := nTsSurfaces p + 1 with hN
  have inv0 : ∀ b ∈ surfaces p, 0 ≤ s.invRho b := fun b hb => by
    rw [(hs b hb).2]; exact div_nonneg zero_le_one (hr b hb)
  have dg : ∀ i < N, |invRhoVec p s (Fin.ofNat _ i)| ≤ P := by
    have : ∀ k : Fin (nTsSurfaces p + 1), |invRhoVec p s k| ≤ P := forall_fin_index.2
      ⟨fun b hb => by rw [invRhoVec, withSky_surf hb, abs_of_nonneg (inv0 b hb)]; exact hP b hb,
        by rw [invRhoVec, withSky_last]; simpa [SKY_REFLECTIVITY_DUMMY] using hP1⟩
    exact fun i _ => this _
  have fr : ∀ i < N, ∑ j ∈ Finset.range N, |F i j| ≤ S := by
    have : ∀ k : Fin (nTsSurfaces p + 1), ∑ j ∈ Finset.range N, |F (k : ℕ) j| ≤ S := by
      refine forall_fin_index.2 ⟨fun b hb => ?_, ?_⟩
      · rw [fidx_val hb, hN, Finset.sum_range_succ, sum_index' (fun j => |F (surfIndex p b) j|)]
        exact hS b hb
      · obtain ⟨b, hb⟩ := surfaces_nonempty p
        have := (add_nonneg (Finset.sum_nonneg fun _ _ => abs_nonneg _) (abs_nonneg _)).trans (hS b hb)
        simpa [hsky] using this
    exact fun i hi => this ⟨i, hi⟩
  have h2 : ∑ j ∈ Finset.range N, |Arith.invRhoDiag p s i j| ≤ P := by
    rw [Finset.sum_eq_single i]
    · simpa [Arith.invRhoDiag] using dg i hi
    · intro j _ hj
      simp [Arith.invRhoDiag, hj.symm]
    · intro h; exact absurd (Finset.mem_range.2 hi) h
  have h3 : ∑ j ∈ Finset.range N, |Arith.invRhoDiag p s i j - F i j|
      ≤ ∑ j ∈ Finset.range N, (|Arith.invRhoDiag p s i j| + |F i j|) :=
    Finset.sum_le_sum fun j _ => abs_sub _ _
  rw [Finset.sum_add_distrib] at h3
  linarith [fr i hi]

/-- C109: radiosities and incident light that are computed with a nearly inverse matrix nearly solve the
equations. -/
theorem C109_nearly_solved {ε δ I Y L S P : ℝ} (h0 : 0 ≤ ε) (h1 : ε < 1) (A : Arith ε) (T : SumTree)
    (p : ArrayParams) (s : IrrStep) (hs : InverseOk p s) (F : ℕ → ℕ → ℝ) (hsky : ∀ j, F (nTsSurfaces p) j = 0)
    (hT : T.leaves = Multiset.range (nTsSurfaces p + 1)) (X : ℕ → ℕ → ℝ)
    (hX : NearlyInverse (nTsSurfaces p + 1) (A.aMat p s F) X δ)
    (hr : ∀ a ∈ surfaces p, 0 ≤ s.rho a)
    (hP : ∀ a ∈ surfaces p, s.invRho a ≤ P) (hP1 : 1 ≤ P)
    (hS : ∀ a ∈ surfaces p, ∑ b ∈ surfaces p, |vfBetween p F a b| + |vfToSky p F a| ≤ S) (hL : P + S ≤ L)
    (hY : ∀ i < nTsSurfaces p + 1, ∑ k ∈ Finset.range (nTsSurfaces p + 1), |X i k| ≤ Y)
    (e : SurfRef → ℝ) (hI : ∀ a ∈ surfaces p, |e a| ≤ I) (hIs : |s.sky| ≤ I) :
    let q := A.fullQ0 T p X e s.sky
    let g := grow ε ^ (nTsSurfaces p + 2)
    let M := g * (Y * I)
    let η := systemErr (nTsSurfaces p + 1) ε I Y L δ
    NearlySolved p F e s.rho s.sky e (fun a => q (surfIndex p a))
      (fun a => A.fullQinc T p s q (surfIndex p a)) (q (nTsSurfaces p))
      (η + (g - 1) * (P * M)) (η + (g - 1) * M) 0 M := by
  intro q g M η
  set N := nTsSurfaces p + 1 with hN
  have g1 : 1 ≤ g := grow_pow_one h0 h1 _
  let irr : ℕ → ℝ := fun k => withSky p e s.sky (Fin.ofNat _ k)
  have hirr : ∀ k < N, |irr k| ≤ I := by
    have : ∀ k : Fin (nTsSurfaces p + 1), |withSky p e s.sky k| ≤ I := forall_fin_index.2
      ⟨fun a ha => by rw [withSky_surf ha]; exact hI a ha, by rw [withSky_last]; exact hIs⟩
    exact fun k _ => this _
  have I0 : 0 ≤ I := (abs_nonneg _).trans hIs
  have Y0 : 0 ≤ Y := (Finset.sum_nonneg fun _ _ => abs_nonneg _).trans (hY 0 (by omega))
  have YI : 0 ≤ Y * I := mul_nonneg Y0 I0
  have sumYI : ∀ i < N, ∑ k ∈ Finset.range N, |X i k| * |irr k| ≤ Y * I := fun i hi => by
    refine (Finset.sum_le_sum fun k hk => mul_le_mul_of_nonneg_left (hirr k (Finset.mem_range.1 hk))
      (abs_nonneg _)).trans ?_
    rw [← Finset.sum_mul]
    exact mul_le_mul_of_nonneg_right (hY i hi) I0
  -- radiosities
  let y : ℕ → ℝ := fun i => ∑ k ∈ Finset.range N, X i k * irr k
  have qy : ∀ i < N, |q i - y i| ≤ (g - 1) * (Y * I) := fun i hi =>
    (A.dot_near h0 h1 T hT (X i) irr).1.trans (mul_le_mul_of_nonneg_left (sumYI i hi) (by linarith))
  have qM : ∀ i < N, |q i| ≤ M := fun i hi => by
    have h2 := (A.dot_near h0 h1 T hT (X i) irr).2.trans (sumYI i hi)
    have h3 := abs_add_le (y i) (q i - y i)
    rw [add_sub_cancel] at h3
    have h4 : M = Y * I + (g - 1) * (Y * I) := by simp only [M]; ring
    rw [h4]
    exact h3.trans (add_le_add h2 (qy i hi))
  have M0 : 0 ≤ M := mul_nonneg (by linarith) YI
  -- the exact matrix
  let a : ℕ → ℕ → ℝ := fun i j => Arith.invRhoDiag p s i j - F i j
  have L0 : 0 ≤ L := by
    obtain ⟨b, hb⟩ := surfaces_nonempty p
    have := (add_nonneg (Finset.sum_nonneg fun _ _ => abs_nonneg _) (abs_nonneg _)).trans (hS b hb)
    linarith
  have inv0 : ∀ b ∈ surfaces p, 0 ≤ s.invRho b := fun b hb => by
    rw [(hs b hb).2]; exact div_nonneg zero_le_one (hr b hb)
  have aL : ∀ i < N, ∑ j ∈ Finset.range N, |a i j| ≤ L := fun i hi =>
    (matrix_row hs hsky hr hP hP1 hS i hi).trans hL
  have ac : ∀ i j, |A.aMat p s F i j - a i j| ≤ ε * |a i j| := fun i j => A.sub_err _ _
  have aC : ∀ i j, |A.aMat p s F i j| ≤ (1 + ε) * |a i j| := fun i j => by
    have h3 := abs_add_le (a i j) (A.aMat p s F i j - a i j)
    rw [add_sub_cancel] at h3
    linarith [ac i j]
  -- residuals
  have res : ∀ i < N, |∑ j ∈ Finset.range N, a i j * q j - irr i| ≤ η := fun i hi => by
    have e1 : ∑ j ∈ Finset.range N, A.aMat p s F i j * y j
        = ∑ k ∈ Finset.range N, (∑ j ∈ Finset.range N, A.aMat p s F i j * X j k) * irr k := by
      simp only [y, Finset.mul_sum, Finset.sum_mul]
      rw [Finset.sum_comm]
      exact Finset.sum_congr rfl fun k _ => Finset.sum_congr rfl fun j _ => by ring
    have e2 : irr i = ∑ k ∈ Finset.range N, (if i = k then 1 else 0) * irr k := by
      rw [Finset.sum_eq_single i] <;> simp
      · intro b _ h h'; exact absurd h'.symm h
      · intro h; omega
    have r1 : |∑ j ∈ Finset.range N, A.aMat p s F i j * y j - irr i| ≤ N * δ * I := by
      rw [e1, show |_ - irr i| = |_ - ∑ k ∈ Finset.range N, (if i = k then 1 else 0) * irr k| from
        congrArg (fun z => |_ - z|) e2, ← Finset.sum_sub_distrib]
      refine (Finset.abs_sum_le_sum_abs _ _).trans ?_
      have : ∀ k ∈ Finset.range N, |(∑ j ∈ Finset.range N, A.aMat p s F i j * X j k) * irr k
          - (if i = k then 1 else 0) * irr k| ≤ δ * I := fun k hk => by
        rw [← sub_mul, abs_mul]
        have := hX i hi k (Finset.mem_range.1 hk)
        exact mul_le_mul this (hirr k (Finset.mem_range.1 hk)) (abs_nonneg _) ((abs_nonneg _).trans this)
      refine (Finset.sum_le_sum this).trans (le_of_eq ?_)
      rw [Finset.sum_const, Finset.card_range, nsmul_eq_mul, mul_assoc]
    have r2 : |∑ j ∈ Finset.range N, A.aMat p s F i j * (q j - y j)|
        ≤ (1 + ε) * L * ((g - 1) * (Y * I)) := by
      refine (Finset.abs_sum_le_sum_abs _ _).trans ?_
      have : ∀ j ∈ Finset.range N, |A.aMat p s F i j * (q j - y j)|
          ≤ (1 + ε) * ((g - 1) * (Y * I)) * |a i j| := fun j hj => by
        rw [abs_mul]
        refine (mul_le_mul (aC i j) (qy j (Finset.mem_range.1 hj)) (abs_nonneg _)
          (mul_nonneg (by linarith) (abs_nonneg _))).trans (le_of_eq (by ring))
      refine (Finset.sum_le_sum this).trans ?_
      rw [← Finset.mul_sum]
      refine (mul_le_mul_of_nonneg_left (aL i hi) (mul_nonneg (by linarith)
        (mul_nonneg (by linarith) YI))).trans (le_of_eq (by ring))
    have r3 : |∑ j ∈ Finset.range N, (A.aMat p s F i j - a i j) * q j| ≤ ε * L * M := by
      refine (Finset.abs_sum_le_sum_abs _ _).trans ?_
      have : ∀ j ∈ Finset.range N, |(A.aMat p s F i j - a i j) * q j| ≤ ε * M * |a i j| := fun j hj => by
        rw [abs_mul]
        exact (mul_le_mul (ac i j) (qM j (Finset.mem_range.1 hj)) (abs_nonneg _)
          (mul_nonneg h0 (abs_nonneg _))).trans (le_of_eq (by ring))
      refine (Finset.sum_le_sum this).trans ?_
      rw [← Finset.mul_sum]
      exact (mul_le_mul_of_nonneg_left (aL i hi) (mul_nonneg h0 M0)).trans (le_of_eq (by ring))
    have e3 : ∑ j ∈ Finset.range N, a i j * q j - irr i
        = (∑ j ∈ Finset.range N, A.aMat p s F i j * y j - irr i)
          + ∑ j ∈ Finset.range N, A.aMat p s F i j * (q j - y j)
          - ∑ j ∈ Finset.range N, (A.aMat p s F i j - a i j) * q j := by
      have : ∑ j ∈ Finset.range N, a i j * q j = ∑ j ∈ Finset.range N, A.aMat p s F i j * y j
          + ∑ j ∈ Finset.range N, A.aMat p s F i j * (q j - y j)
          - ∑ j ∈ Finset.range N, (A.aMat p s F i j - a i j) * q j := by
        rw [← Finset.sum_add_distrib, ← Finset.sum_sub_distrib]
        exact Finset.sum_congr rfl fun j _ => by ring
      rw [this]; ring
    rw [e3]
    refine (abs_sub _ _).trans ((add_le_add ((abs_add_le _ _).trans (add_le_add r1 r2)) r3).trans (le_of_eq ?_))
    simp only [η, systemErr, M, g, hN]
  -- incident light
  have qinc : ∀ i < N, |A.fullQinc T p s q i - invRhoVec p s (Fin.ofNat _ i) * q i|
      ≤ (g - 1) * (|invRhoVec p s (Fin.ofNat _ i)| * M) := fun i hi => by
    have h2 := (A.dot_near h0 h1 T hT (Arith.invRhoDiag p s i) q).1
    have e1 : ∑ k ∈ Finset.range N, Arith.invRhoDiag p s i k * q k = invRhoVec p s (Fin.ofNat _ i) * q i := by
      rw [Finset.sum_eq_single i]
      · simp [Arith.invRhoDiag]
      · intro j _ hj
        simp [Arith.invRhoDiag, hj.symm]
      · intro h; exact absurd (Finset.mem_range.2 hi) h
    have e2 : ∑ k ∈ Finset.range N, |Arith.invRhoDiag p s i k| * |q k|
        = |invRhoVec p s (Fin.ofNat _ i)| * |q i| := by
      rw [Finset.sum_eq_single i]
      · simp [Arith.invRhoDiag]
      · intro j _ hj
        simp [Arith.invRhoDiag, hj.symm]
      · intro h; exact absurd (Finset.mem_range.2 hi) h
    rw [e1, e2] at h2
    exact h2.trans (mul_le_mul_of_nonneg_left (mul_le_mul_of_nonneg_left (qM i hi) (abs_nonneg _)) (by linarith))
  have gM : 0 ≤ (g - 1) * M := mul_nonneg (by linarith) M0
  have asum : ∀ b ∈ surfaces p, ∑ j ∈ Finset.range N, a (surfIndex p b) j * q j
      = s.invRho b * q (surfIndex p b) - (∑ c ∈ surfaces p, vfBetween p F b c * q (surfIndex p c)
        + vfToSky p F b * q (nTsSurfaces p)) := fun b hb => by
    have hi : surfIndex p b < N := Nat.lt_succ_of_lt (surfIndex_lt (mem_surfaces.1 hb))
    have e1 : ∑ j ∈ Finset.range N, a (surfIndex p b) j * q j
        = ∑ j ∈ Finset.range N, Arith.invRhoDiag p s (surfIndex p b) j * q j
          - ∑ j ∈ Finset.range N, F (surfIndex p b) j * q j := by
      rw [← Finset.sum_sub_distrib]
      exact Finset.sum_congr rfl fun j _ => by simp only [a]; ring
    rw [e1, Finset.sum_eq_single (surfIndex p b), hN, Finset.sum_range_succ,
      sum_index' (fun j => F (surfIndex p b) j * q j)]
    · have : invRhoVec p s (Fin.ofNat _ (surfIndex p b)) = s.invRho b := withSky_surf hb _ _
      simp only [Arith.invRhoDiag, if_true, this]
      rfl
    · intro j _ hj
      simp [Arith.invRhoDiag, hj.symm]
    · intro h; exact absurd (Finset.mem_range.2 hi) h
  refine ⟨fun b _ => by simp, ?_, fun b hb => ?_, fun b hb => ?_, fun b hb => ?_, qM _ (by omega)⟩
  · have h2 := res (nTsSurfaces p) (by omega)
    have e1 : ∑ j ∈ Finset.range N, a (nTsSurfaces p) j * q j = q (nTsSurfaces p) := by
      rw [Finset.sum_eq_single (nTsSurfaces p)]
      · have : invRhoVec p s (Fin.ofNat _ (nTsSurfaces p)) = SKY_REFLECTIVITY_DUMMY := (withSky_ofNat _ _).2
        simp only [a, Arith.invRhoDiag, hsky, this, SKY_REFLECTIVITY_DUMMY, if_true]
        ring
      · intro j _ hj
        simp [a, Arith.invRhoDiag, hj.symm, hsky]
      · intro h; exact absurd (Finset.mem_range.2 (by omega)) h
    rw [e1, show irr (nTsSurfaces p) = s.sky from (withSky_ofNat _ _).2] at h2
    linarith
  · have hi : surfIndex p b < N := Nat.lt_succ_of_lt (surfIndex_lt (mem_surfaces.1 hb))
    have h2 := res _ hi
    rw [asum b hb, show irr (surfIndex p b) = e b from (withSky_ofNat _ _).1 b hb] at h2
    have h3 := qinc _ hi
    have e1 : invRhoVec p s (Fin.ofNat _ (surfIndex p b)) = s.invRho b := withSky_surf hb _ _
    rw [e1, abs_of_nonneg (inv0 b hb)] at h3
    have h4 : (g - 1) * (s.invRho b * M) ≤ (g - 1) * (P * M) :=
      mul_le_mul_of_nonneg_left (mul_le_mul_of_nonneg_right (hP b hb) M0) (by linarith)
    have h5 := abs_add_le (A.fullQinc T p s q (surfIndex p b) - s.invRho b * q (surfIndex p b))
      (s.invRho b * q (surfIndex p b) - (∑ c ∈ surfaces p, vfBetween p F b c * q (surfIndex p c)
        + vfToSky p F b * q (nTsSurfaces p)) - e b)
    refine le_trans (le_of_eq (congrArg _ ?_)) (h5.trans ?_)
    · ring
    · linarith
  · have hi : surfIndex p b < N := Nat.lt_succ_of_lt (surfIndex_lt (mem_surfaces.1 hb))
    have h3 := qinc _ hi
    have e1 : invRhoVec p s (Fin.ofNat _ (surfIndex p b)) = s.invRho b := withSky_surf hb _ _
    rw [e1, abs_of_nonneg (inv0 b hb)] at h3
    have e2 : s.rho b * s.invRho b = 1 := by
      rw [(hs b hb).2]; exact mul_one_div_cancel (hs b hb).1
    have h4 := mul_le_mul_of_nonneg_left h3 (hr b hb)
    have e3 : s.rho b * (A.fullQinc T p s q (surfIndex p b) - s.invRho b * q (surfIndex p b))
        = -(q (surfIndex p b) - s.rho b * A.fullQinc T p s q (surfIndex p b)) := by
      linear_combination -(q (surfIndex p b)) * e2
    have e4 : s.rho b * |A.fullQinc T p s q (surfIndex p b) - s.invRho b * q (surfIndex p b)|
        = |q (surfIndex p b) - s.rho b * A.fullQinc T p s q (surfIndex p b)| := by
      rw [← abs_neg (q (surfIndex p b) - _), ← e3, abs_mul, abs_of_nonneg (hr b hb)]
    have e5 : s.rho b * ((g - 1) * (s.invRho b * M)) = (g - 1) * M := by
      linear_combination (g - 1) * M * e2
    have n0 : 0 ≤ η := (abs_nonneg _).trans (res 0 (by omega))
    rw [e4, e5] at h4
    linarith
  · exact qM _ (Nat.lt_succ_of_lt (surfIndex_lt (mem_surfaces.1 hb)))

/-- C109: incident light of full mode, all computed with rounding errors from the inputs and an inverse matrix
with errors. -/
theorem C109_full_mode {ι : Type*} [Fintype ι] {ε B K G D w c E : ℝ} (h0 : 0 < ε)
    (A : TrigArith ε) (hA : A.toArith.Ordered)
    (hπ : 0 ≤ A.sind (A.add 0 180)) (T T' : SumTree) (p : ArrayParams) (u : ι → StepIn) (s : ι → IrrStep)
    (aoi : ι → Option (List Asg)) (o : ι → FullOut) (hrun : runFullMode p u s aoi = some o)
    (hinv : ∀ t, InverseOk p (s t)) (t : ι)
    (t' : LightTerms) (ht : TermsNear (surfaces p) E t' (s t).light)
    (hp : PhysicalArray p) (hst : ∀ t, PhysicalStep p (u t)) (hB : ArraySize p B)
    (hK : 0 ≤ K) (hu : ∀ t, StepMargin p (u t) ε K G ∨ FlatMargin p (u t) K G)
    (hS : 20 * sineErr ε G * K ^ 3 ≤ 1)
    (hd : shadeErr ε (trigErr ε K G) B K * K < p.distance)
    (hTOL : shadeErr ε (trigErr ε K G) B K < TOL)
    (hf : ∀ t x, x = (interrowShading p (fitStep p (u t)).alpha (fitStep p (u t)).rot.deg).1 ∨
      x = (interrowShading p (fitStep p (u t)).alpha (fitStep p (u t)).rot.deg).2 →
        x = 0 ∨ 2 * TOL ≤ x)
    (hw : w ≤ p.width)
    (hlong : ∀ t, ∀ a ∈ surfaces p, ((fitStep p (u t)).coords a).length = 0 ∨
      w ≤ ((fitStep p (u t)).coords a).length)
    (hT : T.leaves = Multiset.range (nTsSurfaces p))
    (hs : SceneSize p (fitStep p (u t)) (isEmptyTs fun t => fitStep p (u t)) D w)
    (hc : c ≤ p.height - p.width / 2 * sind (u t).surfaceTilt)
    (τ : ℝ) (hτd : τ = sceneErr ε (trigErr ε K G) B K (1 / K)) (hτ : 2 * K * τ < w)
    (hτT : 4 * τ ≤ TOL) (hτn : Fintype.card ι * (2 * τ) < TOL) (hτc : 4 * τ < c)
    (hw2 : 2 * TOL ≤ w - 2 * τ)
    (r : ℝ) (hr : ∀ a ∈ surfaces p, 0 ≤ (s t).rho a ∧ (s t).rho a ≤ r)
    (R : ℝ) (hR : rowErrors (nTsSurfaces p) ε
      (entryBound ε (D + 2 * τ) (w - 2 * τ) (c - 2 * τ) (2 * τ)
        + entryMove (D + 2 * τ) (w - 2 * τ) (c - 2 * τ) (2 * τ) τ) ≤ R)
    (hrR : r * (1 + R) < 1) (H Q : ℝ)
    (hH : ∀ a ∈ surfaces p, termSumErr ((s t).comp a).length ε E (((s t).comp a).map fun x => |x|).sum ≤ H)
    (hQ : ∀ a ∈ surfaces p, |((s t).comp a).sum| ≤ Q) (hQs : |(s t).sky| ≤ Q + H)
    (hT' : T'.leaves = Multiset.range (nTsSurfaces p + 1)) (P Y δ : ℝ)
    (hP : ∀ a ∈ surfaces p, (s t).invRho a ≤ P) (hP1 : 1 ≤ P) (X : ℕ → ℕ → ℝ)
    (hX : NearlyInverse (nTsSurfaces p + 1) (A.aMat p (s t)
      (A.vfMatrix T p (A.fitStep p (u t)) (isEmptyTs fun t => A.fitStep p (u t)))) X δ)
    (hY : ∀ i < nTsSurfaces p + 1, ∑ k ∈ Finset.range (nTsSurfaces p + 1), |X i k| ≤ Y) :
    let e := fun a => A.sumComponents (t'.comp a)
    let g := grow ε ^ (nTsSurfaces p + 2)
    let M := g * (Y * (Q + H))
    let η := systemErr (nTsSurfaces p + 1) ε (Q + H) Y (P + (1 + R)) δ
    ∀ a ∈ surfaces p,
      |A.fullQinc T' p (s t) (A.fullQ0 T' p X e (s t).sky) (surfIndex p a) - (o t).qinc a|
        ≤ (2 * η + (g - 1) * ((P + 1) * M) + H + R * M) / (1 - r) := by
  intro e g M η a ha
  have h1 := small_eps h0 hK (hu t) hS
  have hF := C02_viewFactorsOk p u t hp (hst t)
  have hv : ∀ a ∈ surfaces p, _ := fun a ha => ((C102_view_factors h0 A hA hπ T p u t hp hst hB hK hu hS hd
    hTOL hf hw hlong hT hs hc τ hτd hτ hτT hτn hτc hw2 a ha).2).trans hR
  have R0 := (add_nonneg (Finset.sum_nonneg fun _ _ => abs_nonneg _) (abs_nonneg _)).trans (hv a ha)
  have r0 : 0 ≤ r := (hr a ha).1.trans (hr a ha).2
  have r1 : r < 1 := lt_of_le_of_lt (le_mul_of_one_le_right r0 (by linarith)) hrR
  have c3 : ∀ a ∈ surfaces p, |e a - ((s t).comp a).sum| ≤ H := fun a ha =>
    (C101_sky_term h0.le h1 A.toArith (surfaces p) t' (s t).light ht a ha).trans (hH a ha)
  have q : ∀ a ∈ surfaces p, |e a| ≤ Q + H := fun a ha => by
    have := abs_add_le ((s t).comp a).sum (e a - ((s t).comp a).sum)
    rw [add_sub_cancel] at this
    linarith [c3 a ha, hQ a ha]
  have sol := C109_nearly_solved h0.le h1 A.toArith T' p (s t) (hinv t) _ (C108_sky_row A.toArith T p _ _) hT' X hX
    (fun a ha => (hr a ha).1) hP hP1 (fun a ha => row_size hF ha (hv a ha)) le_rfl hY e q hQs
  have M0 : 0 ≤ M := (abs_nonneg _).trans sol.size.2
  refine (C103_full_light h0 A hA hπ T p u s aoi o hrun hinv t t' ht hp hst hB hK hu hS hd hTOL hf hw hlong hT
    hs hc τ hτd hτ hτT hτn hτc hw2 r hr r1 _ _ _ _ _ M H hH sol a ha).trans ?_
  refine div_le_div_of_nonneg_right ?_ (by linarith)
  have m1 := mul_le_mul_of_nonneg_right hR M0
  have e1 : (g - 1) * ((P + 1) * M) = (g - 1) * (P * M) + (g - 1) * M := by ring
  rw [e1]
  linarith

/-- C109: absorbed light of full mode, all computed with rounding errors from the inputs and an inverse matrix
with errors, if all losses by reflection are diffuse. -/
theorem C109_absorbed {ι : Type*} [Fintype ι] {ε B K G D w c E E' : ℝ} (h0 : 0 < ε)
    (A : TrigArith ε) (hA : A.toArith.Ordered)
    (hπ : 0 ≤ A.sind (A.add 0 180)) (T T' : SumTree) (p : ArrayParams) (u : ι → StepIn) (s : ι → IrrStep)
    (o : ι → FullOut) (hrun : runFullMode p u s (fun _ => none) = some o)
    (hinv : ∀ t, InverseOk p (s t)) (t : ι)
    (t' : LightTerms) (ht : TermsNear (surfaces p) E t' (s t).light)
    (x' : SurfRef → List ℝ)
    (hx : ∀ a ∈ surfaces p, List.Forall₂ (fun x' x => |x' - x| ≤ E') (x' a) ((s t).compAbs a))
    (hp : PhysicalArray p) (hst : ∀ t, PhysicalStep p (u t)) (hB : ArraySize p B)
    (hK : 0 ≤ K) (hu : ∀ t, StepMargin p (u t) ε K G ∨ FlatMargin p (u t) K G)
    (hS : 20 * sineErr ε G * K ^ 3 ≤ 1)
    (hd : shadeErr ε (trigErr ε K G) B K * K < p.distance)
    (hTOL : shadeErr ε (trigErr ε K G) B K < TOL)
    (hf : ∀ t x, x = (interrowShading p (fitStep p (u t)).alpha (fitStep p (u t)).rot.deg).1 ∨
      x = (interrowShading p (fitStep p (u t)).alpha (fitStep p (u t)).rot.deg).2 →
        x = 0 ∨ 2 * TOL ≤ x)
    (hw : w ≤ p.width)
    (hlong : ∀ t, ∀ a ∈ surfaces p, ((fitStep p (u t)).coords a).length = 0 ∨
      w ≤ ((fitStep p (u t)).coords a).length)
    (hT : T.leaves = Multiset.range (nTsSurfaces p)) (hT' : T'.leaves = Multiset.range (nTsSurfaces p + 1))
    (hs : SceneSize p (fitStep p (u t)) (isEmptyTs fun t => fitStep p (u t)) D w)
    (hc : c ≤ p.height - p.width / 2 * sind (u t).surfaceTilt)
    (τ : ℝ) (hτd : τ = sceneErr ε (trigErr ε K G) B K (1 / K)) (hτ : 2 * K * τ < w)
    (hτT : 4 * τ ≤ TOL) (hτn : Fintype.card ι * (2 * τ) < TOL) (hτc : 4 * τ < c)
    (hw2 : 2 * TOL ≤ w - 2 * τ)
    (r : ℝ) (hr : ∀ a ∈ surfaces p, 0 ≤ (s t).rho a ∧ (s t).rho a ≤ r)
    (R : ℝ) (hR : rowErrors (nTsSurfaces p) ε
      (entryBound ε (D + 2 * τ) (w - 2 * τ) (c - 2 * τ) (2 * τ)
        + entryMove (D + 2 * τ) (w - 2 * τ) (c - 2 * τ) (2 * τ) τ) ≤ R)
    (hrR : r * (1 + R) < 1) (H H' Q Q' : ℝ)
    (hH : ∀ a ∈ surfaces p, termSumErr ((s t).comp a).length ε E (((s t).comp a).map fun x => |x|).sum ≤ H)
    (hQ : ∀ a ∈ surfaces p, |((s t).comp a).sum| ≤ Q)
    (hH' : ∀ a ∈ surfaces p,
      termSumErr ((s t).compAbs a).length ε E' (((s t).compAbs a).map fun x => |x|).sum ≤ H')
    (hQ' : ∀ a ∈ surfaces p, |((s t).compAbs a).sum| ≤ Q') (hQs : |(s t).sky| ≤ Q + H) (P Y δ : ℝ)
    (hP : ∀ a ∈ surfaces p, (s t).invRho a ≤ P) (hP1 : 1 ≤ P) (X : ℕ → ℕ → ℝ)
    (hX : NearlyInverse (nTsSurfaces p + 1) (A.aMat p (s t)
      (A.vfMatrix T p (A.fitStep p (u t)) (isEmptyTs fun t => A.fitStep p (u t)))) X δ)
    (hY : ∀ i < nTsSurfaces p + 1, ∑ k ∈ Finset.range (nTsSurfaces p + 1), |X i k| ≤ Y) :
    let F := A.vfMatrix T p (A.fitStep p (u t)) (isEmptyTs fun t => A.fitStep p (u t))
    let q := A.fullQ0 T' p X (fun a => A.sumComponents (t'.comp a)) (s t).sky
    let g := grow ε ^ (nTsSurfaces p + 2)
    let M := g * (Y * (Q + H))
    let η := systemErr (nTsSurfaces p + 1) ε (Q + H) Y (P + (1 + R)) δ
    ∀ a ∈ surfaces p,
      |A.fullAbsorbed T' p (s t).rho F (fun a => q (surfIndex p a)) (q (nTsSurfaces p))
          (fun a => A.sumComponents (x' a)) a - (o t).qabs a|
        ≤ absorbedErr (nTsSurfaces p) ε (1 + R) M Q' H' (η + (g - 1) * (P * M) + H
          + (η + (g - 1) * (P * M) + (η + (g - 1) * M) + H + R * M) / (1 - r)) := by
  intro F q g M η a ha
  have h1 := small_eps h0 hK (hu t) hS
  have hF := C02_viewFactorsOk p u t hp (hst t)
  have hv : ∀ a ∈ surfaces p, _ := fun a ha => ((C102_view_factors h0 A hA hπ T p u t hp hst hB hK hu hS hd
    hTOL hf hw hlong hT hs hc τ hτd hτ hτT hτn hτc hw2 a ha).2)
  have R0 := (add_nonneg (Finset.sum_nonneg fun _ _ => abs_nonneg _) (abs_nonneg _)).trans (hv a ha)
  have r0 : 0 ≤ r := (hr a ha).1.trans (hr a ha).2
  have r1 : r < 1 := lt_of_le_of_lt (le_mul_of_one_le_right r0 (by linarith)) hrR
  have c3 : ∀ a ∈ surfaces p, |A.sumComponents (t'.comp a) - ((s t).comp a).sum| ≤ H := fun a ha =>
    (C101_sky_term h0.le h1 A.toArith (surfaces p) t' (s t).light ht a ha).trans (hH a ha)
  have qe : ∀ a ∈ surfaces p, |A.sumComponents (t'.comp a)| ≤ Q + H := fun a ha => by
    have := abs_add_le ((s t).comp a).sum (A.sumComponents (t'.comp a) - ((s t).comp a).sum)
    rw [add_sub_cancel] at this
    linarith [c3 a ha, hQ a ha]
  have sol := C109_nearly_solved h0.le h1 A.toArith T' p (s t) (hinv t) _ (C108_sky_row A.toArith T p _ _) hT' X hX
    (fun a ha => (hr a ha).1) hP hP1 (fun a ha => row_size hF ha ((hv a ha).trans hR)) le_rfl hY _ qe hQs
  have M0 : 0 ≤ M := (abs_nonneg _).trans sol.size.2
  refine (C107_full_mode h0 A hA hπ T T' p u s o hrun hinv t t' ht x' hx hp hst hB hK hu hS hd hTOL hf hw hlong hT
    hT' hs hc τ hτd hτ hτT hτn hτc hw2 r hr r1 _ _ _ _ _ M H H' Q' hH hH' hQ' sol a ha).trans ?_
  have g5 := grow_pow_one h0.le h1 (nTsSurfaces p + 5)
  have m1 := mul_le_mul_of_nonneg_right hR M0
  have m2 := mul_le_mul_of_nonneg_left m1 (by linarith : 0 ≤ grow ε ^ (nTsSurfaces p + 5) - 1)
  have m3 := div_le_div_of_nonneg_right
    (add_le_add_right m1 (η + (g - 1) * (P * M) + (η + (g - 1) * M) + H)) (by linarith : 0 ≤ 1 - r)
  unfold absorbedErr
  linarith

/-- C109: the exact inverse satisfies the assumptions, also for the rounded matrix. -/
theorem C109_exact_inverse {ε r S P : ℝ} (h0 : 0 ≤ ε) (A : Arith ε) {p : ArrayParams} {s : IrrStep} {F : ℕ → ℕ → ℝ}
    (hs : InverseOk p s) (hsky : ∀ j, F (nTsSurfaces p) j = 0)
    (hr : ∀ a ∈ surfaces p, 0 ≤ s.rho a ∧ s.rho a ≤ r)
    (hS : ∀ a ∈ surfaces p, ∑ b ∈ surfaces p, |vfBetween p F a b| + |vfToSky p F a| ≤ S) (hrS : r * S < 1)
    (hP : ∀ a ∈ surfaces p, s.invRho a ≤ P) (hP1 : 1 ≤ P) :
    let X := fun i k => (aMat p s F)⁻¹ (Fin.ofNat _ i) (Fin.ofNat _ k)
    (∀ i < nTsSurfaces p + 1, ∑ k ∈ Finset.range (nTsSurfaces p + 1), |X i k| ≤ max 1 (r / (1 - r * S))) ∧
    NearlyInverse (nTsSurfaces p + 1) (A.aMat p s F) X (ε * (P + S) * max 1 (r / (1 - r * S))) := by
  intro X
  have det := C108_invertible hs hsky hr hS hrS
  have key : ∀ i : Fin (nTsSurfaces p + 1), ∑ k, |(aMat p s F)⁻¹ i k| ≤ max 1 (r / (1 - r * S)) := by
    intro i
    let σ : Fin (nTsSurfaces p + 1) → ℝ := fun k => if 0 ≤ (aMat p s F)⁻¹ i k then 1 else -1
    have hσ : ∀ k, |σ k| = 1 := fun k => by simp only [σ]; split_ifs <;> simp
    let v := (aMat p s F)⁻¹.mulVec σ
    have hv : (aMat p s F).mulVec v = σ := by
      simp only [v, Matrix.mulVec_mulVec, Matrix.mul_nonsing_inv _ det, Matrix.one_mulVec]
    have e1 : ∑ k, |(aMat p s F)⁻¹ i k| = v i := by
      simp only [v, Matrix.mulVec, dotProduct]
      refine Finset.sum_congr rfl fun k _ => ?_
      simp only [σ]
      split_ifs with h
      · rw [abs_of_nonneg h, mul_one]
      · rw [abs_of_neg (not_le.1 h)]; ring
    rw [e1]
    refine (le_abs_self _).trans ?_
    obtain ⟨h1, h2⟩ := (aMat_mulVec_iff hs hsky v σ).1 hv
    have := C108_bound h1 hr hS hrS (Q := 1) (fun a _ => (hσ _).le)
    rw [hσ, mul_one] at this
    have all : ∀ k, |v k| ≤ max 1 (r / (1 - r * S)) := forall_fin_index.2
      ⟨this, by rw [h2, hσ]; exact le_max_left _ _⟩
    exact all i
  have row : ∀ i < nTsSurfaces p + 1, ∑ k ∈ Finset.range (nTsSurfaces p + 1), |X i k|
      ≤ max 1 (r / (1 - r * S)) := fun i hi => by
    rw [← Fin.sum_univ_eq_sum_range (fun k => |X i k|)]
    simp only [X, ofNat_fin]
    exact key _
  refine ⟨row, fun i hi k hk => ?_⟩
  have hmul : ∑ j ∈ Finset.range (nTsSurfaces p + 1), (Arith.invRhoDiag p s i j - F i j) * X j k
      = if i = k then 1 else 0 := by
    have := congrFun (congrFun (Matrix.mul_nonsing_inv _ det) ⟨i, hi⟩) ⟨k, hk⟩
    rw [Matrix.mul_apply, Matrix.one_apply] at this
    rw [← Fin.sum_univ_eq_sum_range (fun j => (Arith.invRhoDiag p s i j - F i j) * X j k)]
    simp only [Fin.mk.injEq] at this
    rw [← this]
    refine Finset.sum_congr rfl fun j _ => ?_
    have ek : Fin.ofNat (nTsSurfaces p + 1) k = ⟨k, hk⟩ := ofNat_fin ⟨k, hk⟩
    have ei : Fin.ofNat (nTsSurfaces p + 1) i = ⟨i, hi⟩ := ofNat_fin ⟨i, hi⟩
    have e3 : aMat p s F ⟨i, hi⟩ j = Arith.invRhoDiag p s i j - F i j := by
      simp only [aMat, Arith.invRhoDiag, ei, Matrix.sub_apply, Matrix.diagonal_apply, Fin.ext_iff]
      rfl
    simp only [X, ofNat_fin, ek, e3]
  have Y0 : 0 ≤ max 1 (r / (1 - r * S)) := zero_le_one.trans (le_max_left _ _)
  rw [← hmul, ← Finset.sum_sub_distrib]
  refine (Finset.abs_sum_le_sum_abs _ _).trans ?_
  have one : ∀ j ∈ Finset.range (nTsSurfaces p + 1),
      |A.aMat p s F i j * X j k - (Arith.invRhoDiag p s i j - F i j) * X j k|
        ≤ ε * max 1 (r / (1 - r * S)) * |Arith.invRhoDiag p s i j - F i j| := fun j hj => by
    rw [← sub_mul, abs_mul]
    have h2 : |X j k| ≤ max 1 (r / (1 - r * S)) :=
      (Finset.single_le_sum (f := fun k => |X j k|) (fun _ _ => abs_nonneg _) (Finset.mem_range.2 hk)).trans
        (row j (Finset.mem_range.1 hj))
    exact (mul_le_mul (A.sub_err _ _) h2 (abs_nonneg _) (mul_nonneg h0 (abs_nonneg _))).trans (le_of_eq (by ring))
  refine (Finset.sum_le_sum one).trans ?_
  rw [← Finset.mul_sum]
  refine (mul_le_mul_of_nonneg_left (matrix_row hs hsky (fun a ha => (hr a ha).1) hP hP1 hS i hi)
    (mul_nonneg h0 Y0)).trans (le_of_eq (by ring))

set_option maxHeartbeats 1600000 in
/-- C109 (witness).  Two rows that are first vertical and then horizontal: in double precision, with the exact
inverse of the matrix with computed view factors, the computed incident light is right up to 140 W/m2. -/
theorem C109_demo (t : Fin 2) : ∃ o : Fin 2 → FullOut,
    let A := smallPi (1 / 2 ^ 53) (by norm_num)
    let F := A.vfMatrix (inOrder 24) vertArray (A.fitStep vertArray (vertFlat t))
      (isEmptyTs fun t => A.fitStep vertArray (vertFlat t))
    let s := isotropicStep demoIrrParams demoIrrIn
    let X := fun i k => (aMat vertArray s F)⁻¹ (Fin.ofNat _ i) (Fin.ofNat _ k)
    runFullMode vertArray vertFlat (fun _ => s) (fun _ => none) = some o ∧
    ∀ a ∈ surfaces vertArray, |A.fullQinc (inOrder 25) vertArray s
      (A.fullQ0 (inOrder 25) vertArray X (fun a => A.sumComponents (s.comp a)) s.sky) (surfIndex vertArray a)
        - (o t).qinc a| ≤ 140 := by
  have hst : ∀ t, PhysicalStep vertArray (vertFlat t) := fun t => by
    unfold vertFlat; split_ifs
    · exact vert_physicalStep
    · exact flat_physicalStep
  obtain ⟨o, ho⟩ := C07_isotropic vertArray vertFlat demoIrrParams
    (fun _ => demoIrrIn) (fun _ => none) (fun _ => demo_losses) vert_physicalArray hst
  refine ⟨o, ?_⟩
  intro A F s X
  have hmar : ∀ t, StepMargin vertArray (vertFlat t) (1 / 2 ^ 53) (3 / 2) 270 ∨
      FlatMargin vertArray (vertFlat t) (3 / 2) 270 := fun t => by
    unfold vertFlat; split_ifs
    · exact Or.inl vert_margin
    · exact Or.inr flat_margin
  have hlong : ∀ t, ∀ a ∈ surfaces vertArray, ((fitStep vertArray (vertFlat t)).coords a).length = 0 ∨
      1 / 2 ≤ ((fitStep vertArray (vertFlat t)).coords a).length := fun t => by
    unfold vertFlat; split_ifs
    · exact vert_half
    · exact flat_half
  have hsize : SceneSize vertArray (fitStep vertArray (vertFlat t))
      (isEmptyTs fun t => fitStep vertArray (vertFlat t)) 203 (1 / 2) := by
    unfold vertFlat; split_ifs
    · exact vert_sceneSize _
    · exact flat_sceneSize _
  have hc : (1 / 2 : ℝ) ≤ vertArray.height - vertArray.width / 2 * sind (vertFlat t).surfaceTilt := by
    have : sind (vertFlat t).surfaceTilt ≤ 1 := Real.sin_le_one _
    norm_num [vertArray]
    linarith
  have b1 : 20 * sineErr (1 / 2 ^ 53) 270 * (3 / 2) ^ 3 ≤ 1 := by norm_num [sineErr]
  have b2 : shadeErr (1 / 2 ^ 53) (trigErr (1 / 2 ^ 53) (3 / 2) 270) 5 (3 / 2) < 1 / 10 ^ 9 := by
    norm_num [shadeErr, grow, trigErr, sineErr]
  have b3 : sceneErr (1 / 2 ^ 53) (trigErr (1 / 2 ^ 53) (3 / 2) 270) 5 (3 / 2) (1 / (3 / 2))
      ≤ 1 / 10 ^ 10 := by
    norm_num [sceneErr, shadeErr, endErr, groundErr, grow, trigErr, sineErr]
  have hd : shadeErr (1 / 2 ^ 53) (trigErr (1 / 2 ^ 53) (3 / 2) 270) 5 (3 / 2) * (3 / 2)
      < vertArray.distance := by
    have : vertArray.distance = 5 := by norm_num [vertArray, ArrayParams.distance]
    rw [this]
    norm_num at b2 ⊢
    linarith
  have hT : shadeErr (1 / 2 ^ 53) (trigErr (1 / 2 ^ 53) (3 / 2) 270) 5 (3 / 2) < TOL :=
    b2.trans (by norm_num [TOL])
  have hq : ∀ a ∈ surfaces vertArray, |(s.comp a).sum| ≤ 1000 := by
    intro a _
    have h1 : (s.comp a).sum = (directCats demoIrrParams demoIrrIn).get a := by simp [s, isotropicStep]
    rw [h1]
    exact demo_direct_le a
  have hR : rowErrors (nTsSurfaces vertArray) (1 / 2 ^ 53)
      (entryBound (1 / 2 ^ 53) (203 + 2 * sceneErr (1 / 2 ^ 53) (trigErr (1 / 2 ^ 53) (3 / 2) 270) 5 (3 / 2) (1 / (3 / 2)))
        (1 / 2 - 2 * sceneErr (1 / 2 ^ 53) (trigErr (1 / 2 ^ 53) (3 / 2) 270) 5 (3 / 2) (1 / (3 / 2)))
        (1 / 2 - 2 * sceneErr (1 / 2 ^ 53) (trigErr (1 / 2 ^ 53) (3 / 2) 270) 5 (3 / 2) (1 / (3 / 2)))
        (2 * sceneErr (1 / 2 ^ 53) (trigErr (1 / 2 ^ 53) (3 / 2) 270) 5 (3 / 2) (1 / (3 / 2)))
      + entryMove (203 + 2 * sceneErr (1 / 2 ^ 53) (trigErr (1 / 2 ^ 53) (3 / 2) 270) 5 (3 / 2) (1 / (3 / 2)))
        (1 / 2 - 2 * sceneErr (1 / 2 ^ 53) (trigErr (1 / 2 ^ 53) (3 / 2) 270) 5 (3 / 2) (1 / (3 / 2)))
        (1 / 2 - 2 * sceneErr (1 / 2 ^ 53) (trigErr (1 / 2 ^ 53) (3 / 2) 270) 5 (3 / 2) (1 / (3 / 2)))
        (2 * sceneErr (1 / 2 ^ 53) (trigErr (1 / 2 ^ 53) (3 / 2) 270) 5 (3 / 2) (1 / (3 / 2)))
        (sceneErr (1 / 2 ^ 53) (trigErr (1 / 2 ^ 53) (3 / 2) 270) 5 (3 / 2) (1 / (3 / 2)))) ≤ 1 / 9 := by
    rw [vert_count]
    norm_num [rowErrors, entryBound, rowBound, grow, entryMove, sceneErr, shadeErr, endErr, groundErr, trigErr,
      sineErr]
  have hrho : ∀ a ∈ surfaces vertArray, 0 ≤ s.rho a ∧ s.rho a ≤ 1 / 5 := fun a _ => by
    change 0 ≤ rhoOf demoIrrParams demoIrrIn a ∧ rhoOf demoIrrParams demoIrrIn a ≤ 1 / 5
    rcases a with _ | ⟨_, _ | _, _, _⟩ <;> norm_num [rhoOf, demoIrrParams, demoIrrIn]
  have hinv := demo_losses.inverse_isotropic vertArray
  have hP : ∀ a ∈ surfaces vertArray, s.invRho a ≤ 100 := fun a ha => by
    rw [(hinv a ha).2]
    change 1 / rhoOf demoIrrParams demoIrrIn a ≤ 100
    rcases a with _ | ⟨_, _ | _, _, _⟩ <;> norm_num [rhoOf, demoIrrParams, demoIrrIn]
  have hτ : 2 * (3 / 2) * sceneErr (1 / 2 ^ 53) (trigErr (1 / 2 ^ 53) (3 / 2) 270) 5 (3 / 2) (1 / (3 / 2))
      < 1 / 2 := by norm_num at b3 ⊢; linarith
  have hvf : ∀ a ∈ surfaces vertArray, ∑ b ∈ surfaces vertArray, |vfBetween vertArray F a b|
      + |vfToSky vertArray F a| ≤ 1 + 1 / 9 := fun a ha =>
    row_size (C02_viewFactorsOk vertArray vertFlat t vert_physicalArray (hst t)) ha
      (((C102_view_factors (ε := 1 / 2 ^ 53) (w := 1 / 2) (c := 1 / 2) (D := 203) (by norm_num) A
        (smallPi_ordered _) smallPi_sine.le (inOrder 24) vertArray vertFlat t
        vert_physicalArray hst vert_size (by norm_num)
        hmar b1 hd hT vertFlat_lengths (by norm_num [vertArray]) hlong
        (by rw [inOrder_leaves, vert_count]) hsize hc _ rfl
        hτ (by norm_num [TOL] at b3 ⊢; linarith)
        (by norm_num [TOL] at b3 ⊢; linarith) (by norm_num at b3 ⊢; linarith)
        (by norm_num [TOL] at b3 ⊢; linarith) a ha).2).trans hR)
  have hex := C109_exact_inverse (ε := 1 / 2 ^ 53) (by norm_num) A.toArith hinv
    (C108_sky_row A.toArith (inOrder 24) vertArray _ _) hrho hvf (by norm_num) hP (by norm_num)
  refine ⟨ho, fun a ha => ?_⟩
  have := C109_full_mode (E := 0) (ε := 1 / 2 ^ 53) (w := 1 / 2) (c := 1 / 2) (D := 203) (by norm_num) A
    (smallPi_ordered _) smallPi_sine.le (inOrder 24) (inOrder 25) vertArray vertFlat (fun _ => s) (fun _ => none) o ho
    (fun _ => hinv) t s.light
    ⟨fun a _ => List.forall₂_same.2 fun x _ => by simp, by simp, by simp, by simp, rfl⟩
    vert_physicalArray hst vert_size (by norm_num)
    hmar b1 hd hT vertFlat_lengths (by norm_num [vertArray]) hlong
    (by rw [inOrder_leaves, vert_count]) hsize hc _ rfl
    hτ (by norm_num [TOL] at b3 ⊢; linarith)
    (by norm_num [TOL] at b3 ⊢; linarith) (by norm_num at b3 ⊢; linarith)
    (by norm_num [TOL] at b3 ⊢; linarith) (1 / 5) hrho (1 / 9) hR (by norm_num) (1 / 1000) 1000
    (fun a ha => ?_) hq (by have hsky : s.sky = 100 := rfl; rw [hsky]; norm_num)
    (by rw [inOrder_leaves, vert_count]) 100 _ _ hP (by norm_num) X hex.2 hex.1 a ha
  · refine this.trans ?_
    have e1 : max (1 : ℝ) (1 / 5 / (1 - 1 / 5 * (1 + 1 / 9))) = 1 := by norm_num
    rw [e1, vert_count]
    norm_num [systemErr, grow]
  · have h2 := demo_direct_le a
    change termSumErr 1 (1 / 2 ^ 53) 0 ([|(directCats demoIrrParams demoIrrIn).get a|]).sum ≤ 1 / 1000
    rw [List.sum_singleton]
    norm_num [termSumErr, grow]
    linarith

end PVF

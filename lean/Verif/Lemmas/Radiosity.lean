import Verif.Model.Engine
import Verif.Spec.Radiosity
import Verif.Lemmas.Entries
import Mathlib.LinearAlgebra.Matrix.ToLinearEquiv

/-! # Solving the radiosity equations: lemmas -/

namespace PVF

theorem mem_surfaces {p : ArrayParams} {a : SurfRef} : a ∈ surfaces p ↔ a ∈ allRefs p := by
  simp [surfaces]

theorem surfaces_nonempty (p : ArrayParams) : (surfaces p).Nonempty :=
  ⟨.gnd false 0 0, mem_surfaces.2 (mem_allRefs_gnd.2 (by simp))⟩

theorem sumComponents_eq (l : List ℝ) : sumComponents l = l.sum := by
  have : ∀ (l : List ℝ) (x : ℝ), l.foldl (fun v c => v + c) x = x + l.sum := by
    intro l
    induction l with
    | nil => simp
    | cons c l ih => intro x; simp [ih, add_assoc]
  simp [sumComponents, this]

theorem sum_index' {p : ArrayParams} (f : ℕ → ℝ) :
    ∑ k ∈ Finset.range (nTsSurfaces p), f k = ∑ a ∈ surfaces p, f (surfIndex p a) := by
  rw [sum_index, surfaces, List.sum_toFinset _ (nodup_allRefs p)]

/-- Index of a surface in vectors with the sky. -/
noncomputable def fidx (p : ArrayParams) (a : SurfRef) : Fin (nTsSurfaces p + 1) :=
  Fin.ofNat _ (surfIndex p a)

theorem fidx_val {p : ArrayParams} {a : SurfRef} (ha : a ∈ surfaces p) :
    (fidx p a : ℕ) = surfIndex p a := by
  have := surfIndex_lt (mem_surfaces.1 ha)
  simp only [fidx, Fin.ofNat]
  exact Nat.mod_eq_of_lt (by omega)

theorem withSky_surf {p : ArrayParams} {a : SurfRef} (ha : a ∈ surfaces p) (f : SurfRef → ℝ)
    (sky : ℝ) : withSky p f sky (fidx p a) = f a := by
  have := surfIndex_lt (mem_surfaces.1 ha)
  simp only [withSky, fidx_val ha, this.ne, if_false, getElem?_surfIndex (mem_surfaces.1 ha),
    Option.map_some, Option.getD_some]

theorem withSky_last {p : ArrayParams} (f : SurfRef → ℝ) (sky : ℝ) :
    withSky p f sky (Fin.last _) = sky := by simp [withSky]

theorem sum_fin_index {p : ArrayParams} (f : Fin (nTsSurfaces p + 1) → ℝ) :
    ∑ k, f k = ∑ a ∈ surfaces p, f (fidx p a) + f (Fin.last _) := by
  have h : ∑ k, f k = ∑ k ∈ Finset.range (nTsSurfaces p + 1), f (Fin.ofNat _ k) := by
    rw [← Fin.sum_univ_eq_sum_range (fun k => f (Fin.ofNat _ k))]
    refine Finset.sum_congr rfl fun k _ => ?_
    congr 1
    ext
    simp [Fin.ofNat, Nat.mod_eq_of_lt k.2]
  rw [h, Finset.sum_range_succ, sum_index']
  congr 1
  congr 1
  ext
  simp [Fin.ofNat]

theorem forall_fin_index {p : ArrayParams} {P : Fin (nTsSurfaces p + 1) → Prop} :
    (∀ k, P k) ↔ (∀ a ∈ surfaces p, P (fidx p a)) ∧ P (Fin.last _) := by
  constructor
  · intro h; exact ⟨fun a _ => h _, h _⟩
  · rintro ⟨h1, h2⟩ k
    rcases Nat.lt_succ_iff_lt_or_eq.1 k.2 with hk | hk
    · obtain ⟨a, ha, he⟩ := exists_surfIndex hk
      have ha' := mem_surfaces.2 ha
      have : fidx p a = k := by ext; rw [fidx_val ha', he]
      exact this ▸ h1 a ha'
    · have : k = Fin.last _ := by ext; simpa using hk
      exact this ▸ h2

/-- Rows of the system in terms of surfaces. -/
theorem aMat_mulVec_surf {p : ArrayParams} {s : IrrStep} {F : ℕ → ℕ → ℝ} {a : SurfRef}
    (ha : a ∈ surfaces p) (q : Fin (nTsSurfaces p + 1) → ℝ) :
    (aMat p s F).mulVec q (fidx p a)
      = s.invRho a * q (fidx p a)
        - (∑ b ∈ surfaces p, vfBetween p F a b * q (fidx p b) + vfToSky p F a * q (Fin.last _)) := by
  have h1 : ∀ b ∈ surfaces p, vfMat _ F (fidx p a) (fidx p b) = vfBetween p F a b := by
    intro b hb
    simp [vfMat, vfBetween, fidx_val ha, fidx_val hb]
  have h2 : vfMat _ F (fidx p a) (Fin.last _) = vfToSky p F a := by
    simp [vfMat, vfToSky, fidx_val ha]
  simp only [aMat, Matrix.sub_mulVec, Pi.sub_apply, Matrix.mulVec_diagonal]
  congr 1
  · rw [invRhoVec, withSky_surf ha]
  · simp only [Matrix.mulVec, dotProduct]
    rw [sum_fin_index, h2]
    congr 1
    exact Finset.sum_congr rfl fun b hb => by rw [h1 b hb]

theorem aMat_mulVec_sky {p : ArrayParams} {s : IrrStep} {F : ℕ → ℕ → ℝ}
    (hF : ∀ j, F (nTsSurfaces p) j = 0) (q : Fin (nTsSurfaces p + 1) → ℝ) :
    (aMat p s F).mulVec q (Fin.last _) = q (Fin.last _) := by
  simp only [aMat, Matrix.sub_mulVec, Pi.sub_apply, Matrix.mulVec_diagonal]
  have : (vfMat (nTsSurfaces p + 1) F).mulVec q (Fin.last _) = 0 := by
    simp [Matrix.mulVec, dotProduct, vfMat, hF]
  rw [this, invRhoVec, withSky_last]
  simp [SKY_REFLECTIVITY_DUMMY]

/-- The matrix is the one of the radiosity equations. -/
theorem aMat_mulVec_iff {p : ArrayParams} {s : IrrStep} {F : ℕ → ℕ → ℝ} (hs : InverseOk p s)
    (hF : ∀ j, F (nTsSurfaces p) j = 0) (q irr : Fin (nTsSurfaces p + 1) → ℝ) :
    (aMat p s F).mulVec q = irr ↔
      RadiosityBalance p F (fun a => irr (fidx p a)) s.rho (irr (Fin.last _))
        (fun a => q (fidx p a)) (fun a => s.invRho a * q (fidx p a)) ∧
      q (Fin.last _) = irr (Fin.last _) := by
  rw [funext_iff, forall_fin_index, aMat_mulVec_sky hF]
  constructor
  · rintro ⟨h1, h2⟩
    refine ⟨⟨fun a ha => ?_, fun a ha => ?_⟩, h2⟩
    · have := h1 a ha
      rw [aMat_mulVec_surf ha] at this
      rw [← h2]
      linarith
    · obtain ⟨h3, h4⟩ := hs a ha
      rw [h4]; field_simp
  · rintro ⟨h1, h2⟩
    refine ⟨fun a ha => ?_, h2⟩
    rw [aMat_mulVec_surf ha]
    have := h1.arriving a ha
    rw [h2]
    linarith

/-- Minimum principle: without negative sources nothing negative is sent out. -/
theorem RadiosityBalance.nonneg {p : ArrayParams} {F : ℕ → ℕ → ℝ} {e rho : SurfRef → ℝ} {sky : ℝ}
    {q0 qinc : SurfRef → ℝ} (h : RadiosityBalance p F e rho sky q0 qinc)
    (hF : ViewFactorsOk p F) (hr : ∀ a ∈ surfaces p, 0 < rho a ∧ rho a < 1)
    (he : ∀ a ∈ surfaces p, 0 ≤ e a) (hsky : 0 ≤ sky) :
    ∀ a ∈ surfaces p, 0 ≤ q0 a := by
  obtain ⟨m, hm, hmin⟩ := (surfaces p).exists_min_image q0 (surfaces_nonempty p)
  intro a ha
  refine le_trans ?_ (hmin a ha)
  by_contra hneg
  push Not at hneg
  have h1 : ∑ b ∈ surfaces p, vfBetween p F m b * q0 m ≤ ∑ b ∈ surfaces p, vfBetween p F m b * q0 b :=
    Finset.sum_le_sum fun b hb => mul_le_mul_of_nonneg_left (hmin b hb) (hF.nonneg m hm b hb)
  rw [← Finset.sum_mul] at h1
  have h2 : ∑ b ∈ surfaces p, vfBetween p F m b ≤ 1 := by
    have := hF.sum_le m hm
    have := hF.nonneg_sky m hm
    linarith
  have h3 : q0 m ≤ (∑ b ∈ surfaces p, vfBetween p F m b) * q0 m := by nlinarith
  have h4 : 0 ≤ vfToSky p F m * sky := mul_nonneg (hF.nonneg_sky m hm) hsky
  have h5 : q0 m ≤ qinc m := by
    rw [h.arriving m hm]
    have := he m hm
    linarith
  have h6 := h.sent m hm
  obtain ⟨h7, h8⟩ := hr m hm
  nlinarith

/-- Superposition. -/
theorem RadiosityBalance.add {p : ArrayParams} {F : ℕ → ℕ → ℝ} {e e' rho : SurfRef → ℝ}
    {sky sky' : ℝ} {q0 qinc q0' qinc' : SurfRef → ℝ} (h : RadiosityBalance p F e rho sky q0 qinc)
    (h' : RadiosityBalance p F e' rho sky' q0' qinc') (x y : ℝ) :
    RadiosityBalance p F (fun a => x * e a + y * e' a) rho (x * sky + y * sky')
      (fun a => x * q0 a + y * q0' a) (fun a => x * qinc a + y * qinc' a) := by
  refine ⟨fun a ha => ?_, fun a ha => ?_⟩
  · rw [h.arriving a ha, h'.arriving a ha]
    have : ∑ b ∈ surfaces p, vfBetween p F a b * (x * q0 b + y * q0' b)
        = x * ∑ b ∈ surfaces p, vfBetween p F a b * q0 b
          + y * ∑ b ∈ surfaces p, vfBetween p F a b * q0' b := by
      rw [Finset.mul_sum, Finset.mul_sum, ← Finset.sum_add_distrib]
      exact Finset.sum_congr rfl fun b _ => by ring
    rw [this]; ring
  · rw [h.sent a ha, h'.sent a ha]; ring

/-- There is only one solution. -/
theorem RadiosityBalance.unique {p : ArrayParams} {F : ℕ → ℕ → ℝ} {e rho : SurfRef → ℝ}
    {sky : ℝ} {q0 qinc q0' qinc' : SurfRef → ℝ} (h : RadiosityBalance p F e rho sky q0 qinc)
    (h' : RadiosityBalance p F e rho sky q0' qinc')
    (hF : ViewFactorsOk p F) (hr : ∀ a ∈ surfaces p, 0 < rho a ∧ rho a < 1) :
    ∀ a ∈ surfaces p, q0 a = q0' a ∧ qinc a = qinc' a := by
  have key : ∀ a ∈ surfaces p, q0 a = q0' a := by
    have h1 := (h.add h' 1 (-1)).nonneg hF hr (fun a _ => by simp) (by simp)
    have h2 := (h.add h' (-1) 1).nonneg hF hr (fun a _ => by simp) (by simp)
    intro a ha
    have := h1 a ha
    have := h2 a ha
    linarith
  intro a ha
  refine ⟨key a ha, ?_⟩
  rw [h.arriving a ha, h'.arriving a ha]
  congr 2
  exact Finset.sum_congr rfl fun b hb => by rw [key b hb]

theorem inverseOk_of_reflectivitiesOk {p : ArrayParams} {s : IrrStep} (h : ReflectivitiesOk p s)
    (hinv : ∀ a ∈ surfaces p, s.invRho a = 1 / s.rho a) : InverseOk p s :=
  fun a ha => ⟨(h a ha).1.ne', hinv a ha⟩

theorem isUnit_det_aMat {p : ArrayParams} {s : IrrStep} {F : ℕ → ℕ → ℝ} (hs : InverseOk p s)
    (hr : ReflectivitiesOk p s) (hF : ViewFactorsOk p F) (hsky : ∀ j, F (nTsSurfaces p) j = 0) :
    IsUnit (aMat p s F).det := by
  rw [isUnit_iff_ne_zero]
  intro h0
  obtain ⟨v, hv, hz⟩ := Matrix.exists_mulVec_eq_zero_iff.2 h0
  apply hv
  obtain ⟨h1, h2⟩ := (aMat_mulVec_iff hs hsky v 0).1 hz
  have h0' : RadiosityBalance p F (fun a => (0 : Fin (nTsSurfaces p + 1) → ℝ) (fidx p a)) s.rho
      ((0 : Fin (nTsSurfaces p + 1) → ℝ) (Fin.last _)) (fun _ => 0) (fun _ => 0) :=
    ⟨fun a _ => by simp, fun a _ => by simp⟩
  rw [funext_iff, forall_fin_index]
  exact ⟨fun a ha => (h1.unique h0' hF hr a ha).1, h2⟩

end PVF

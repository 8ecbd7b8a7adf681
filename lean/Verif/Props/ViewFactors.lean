import Verif.Lemmas.ViewRow
import Verif.Spec.Physical
import Verif.Props.Energy

/-!
# C02: view factors lie between 0 and 1

Consequences for C07, C08 and C12: for physically placed arrays full mode never fails, its results
are unique, not negative, bounded and monotone.
-/

namespace PVF

variable {ι : Type*} [Fintype ι]

theorem rotation_flatOk (u : StepIn) (p : ArrayParams) :
    FlatOk (rotationFromTiltAzimuth u.surfaceAzimuth p.axisAzimuth u.surfaceTilt) := by
  intro h
  unfold rotationFromTiltAzimuth at h ⊢
  simp only at h ⊢
  split_ifs at h ⊢ with h0 h1
  · rfl
  · exact absurd h h0
  · rfl

theorem rotation_sind_abs (u : StepIn) (p : ArrayParams) (h0 : 0 ≤ u.surfaceTilt)
    (h1 : u.surfaceTilt < 180) :
    |sind (rotationFromTiltAzimuth u.surfaceAzimuth p.axisAzimuth u.surfaceTilt).deg|
      = sind u.surfaceTilt := by
  have hs : 0 ≤ sind u.surfaceTilt := by
    rcases eq_or_lt_of_le h0 with h | h
    · rw [← h, sind_zero]
    · exact (sind_pos h h1).le
  unfold rotationFromTiltAzimuth
  simp only
  split_ifs with h h'
  · rw [h]; simp [sind_zero]
  · exact abs_of_nonneg hs
  · simp only [sind_neg, abs_neg]; exact abs_of_nonneg hs

theorem rotation_range' {sa aa tilt : ℝ} (h0 : 0 ≤ tilt) (h1 : tilt < 180) :
    -180 < (rotationFromTiltAzimuth sa aa tilt).deg ∧
    (rotationFromTiltAzimuth sa aa tilt).deg < 180 := by
  unfold rotationFromTiltAzimuth
  simp only
  split_ifs
  · norm_num
  · constructor <;> linarith
  · constructor <;> linarith

theorem physical_of {p : ArrayParams} {u : StepIn} (hp : PhysicalArray p) (hu : PhysicalStep p u) :
    Physical p (rotationFromTiltAzimuth u.surfaceAzimuth p.axisAzimuth u.surfaceTilt).deg where
  width := hp.width_pos
  distance := div_pos hp.width_pos hp.gcr_pos
  lo := (rotation_range' hu.tilt_nonneg hu.tilt_lt).1
  hi := (rotation_range' hu.tilt_nonneg hu.tilt_lt).2
  above := by rw [rotation_sind_abs u p hu.tilt_nonneg hu.tilt_lt]; exact hu.above

theorem ordered_of {p : ArrayParams} {u : StepIn} (hp : PhysicalArray p) (hu : PhysicalStep p u) :
    (fitStep p u).ground.Ordered :=
  fit_ordered p _ _ hp.width_pos hp.gcr_pos hu.sun_y hu.sun_front (hu.shade hp)

/-- C02: the view factors of a physically placed array are not negative, nor are those to the sky,
and those of a surface add up to at most 1; whatever happens at other time steps. -/
theorem C02_viewFactorsOk (p : ArrayParams) (u : ι → StepIn) (t : ι) (hp : PhysicalArray p)
    (hu : PhysicalStep p (u t)) : ViewFactorsOk p (tsVfMatrix p u t) := by
  have h := physical_of hp hu
  have ho := ordered_of hp hu
  have hf := rotation_flatOk (u t) p
  set g := fitStep p (u t) with hg
  set emp := isEmptyTs fun t => fitStep p (u t) with hemp
  have hentry : ∀ a ∈ surfaces p, ∀ b ∈ surfaces p,
      vfBetween p (tsVfMatrix p u t) a b = entryVF p g emp a b := fun a ha b hb =>
    vfMatrix_eq (mem_surfaces.1 ha) (mem_surfaces.1 hb)
  have hnn : ∀ a ∈ surfaces p, ∀ b ∈ surfaces p, 0 ≤ entryVF p g emp a b := by
    intro a ha b hb
    match a, mem_surfaces.1 ha with
    | .gnd sh e z, ha' => exact gnd_row_nonneg h hf ho emp ha' (mem_surfaces.1 hb)
    | .pv r s k sh, ha' => exact pv_row_nonneg h hf ho emp ha' (mem_surfaces.1 hb)
  have hsum : ∀ a ∈ surfaces p, ∑ b ∈ surfaces p, vfBetween p (tsVfMatrix p u t) a b ≤ 1 := by
    intro a ha
    rw [Finset.sum_congr rfl (hentry a ha)]
    by_cases hl : (g.coords a).length > TOL
    · unfold surfaces
      rw [List.sum_toFinset _ (nodup_allRefs p)]
      match a, mem_surfaces.1 ha with
      | .gnd sh e z, ha' => exact gnd_row_sum h hf ho emp ha' hl
      | .pv r s k sh, ha' => exact pv_row_sum h hf ho emp ha' hl
    · rw [Finset.sum_eq_zero fun b _ => entryVF_short_row p g emp a b hl]
      exact zero_le_one
  have hsky : ∀ a ∈ surfaces p, vfToSky p (tsVfMatrix p u t) a
      = if lengthAt p (u t) a > TOL then
          1 - ∑ b ∈ surfaces p, vfBetween p (tsVfMatrix p u t) a b else 0 := by
    intro a ha
    split_ifs with hl
    · linarith [row_sum_surfaces (u := u) (t := t) ha hl]
    · exact C01_sky_of_short p u t _ (surfIndex_lt (mem_surfaces.1 ha))
        (by rw [surfLen_eq (mem_surfaces.1 ha)]; exact hl)
  refine ⟨fun a ha b hb => ?_, fun a ha => ?_, fun a ha => ?_⟩
  · rw [hentry a ha b hb]; exact hnn a ha b hb
  · rw [hsky a ha]
    split_ifs
    · linarith [hsum a ha]
    · exact le_rfl
  · rw [hsky a ha]
    split_ifs
    · linarith
    · linarith [hsum a ha]

/-- C02: every entry of the view factor matrix, including the row and the column of the sky, lies
between 0 and 1. -/
theorem C02_range (p : ArrayParams) (u : ι → StepIn) (t : ι) (hp : PhysicalArray p)
    (hu : PhysicalStep p (u t)) (i j : ℕ) (hi : i ≤ nTsSurfaces p) (hj : j ≤ nTsSurfaces p) :
    0 ≤ tsVfMatrix p u t i j ∧ tsVfMatrix p u t i j ≤ 1 := by
  have hok := C02_viewFactorsOk p u t hp hu
  have hidx : ∀ k, k < nTsSurfaces p → ∃ a ∈ surfaces p, surfIndex p a = k := by
    intro k hk
    obtain ⟨a, ha, h⟩ := exists_surfIndex hk
    exact ⟨a, mem_surfaces.2 ha, h⟩
  rcases hi.eq_or_lt with rfl | hi
  · rw [C01_sky_row]; exact ⟨le_rfl, zero_le_one⟩
  · obtain ⟨a, ha, rfl⟩ := hidx i hi
    have hs := hok.sum_le a ha
    have hnn : ∀ b ∈ surfaces p, 0 ≤ vfBetween p (tsVfMatrix p u t) a b := hok.nonneg a ha
    have hsn := hok.nonneg_sky a ha
    rcases hj.eq_or_lt with rfl | hj
    · refine ⟨hsn, ?_⟩
      have := Finset.sum_nonneg hnn
      change vfToSky p (tsVfMatrix p u t) a ≤ 1
      linarith
    · obtain ⟨b, hb, rfl⟩ := hidx j hj
      refine ⟨hnn b hb, ?_⟩
      have := Finset.single_le_sum hnn hb
      change vfBetween p (tsVfMatrix p u t) a b ≤ 1
      linarith

end PVF

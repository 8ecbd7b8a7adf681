import Verif.Model.Nan
import Verif.Props.Time

/-!
# C81: time steps with missing values
-/

namespace PVF

variable {ι κ : Type*} [Fintype ι] [Fintype κ]

theorem NanSeries.short_of_empty (x : NanSeries ι) {p : ArrayParams} {t : ι} {u : StepIn}
    (hu : x.u t = some u) {a : SurfRef} (h : x.isEmpty p a) :
    ((fitStep p u).coords a).length < TOL := by
  have := Finset.single_le_sum (f := fun t => (match x.u t with
    | some u => ((fitStep p u).coords a).length
    | none => x.len t a)) (s := Finset.univ) (fun t _ => by
      split
      · exact Line.length_nonneg _
      · exact x.len_nonneg _ _) (Finset.mem_univ t)
  simp only [hu] at this
  exact this.trans_lt h

theorem NanSeries.short_of_skyEmpty (x : NanSeries ι) {p : ArrayParams} {t : ι} {u : StepIn}
    (hu : x.u t = some u) {k : ℕ} (h : x.skyEmpty p k) :
    (dummySky p (fitStep p u) k).length < TOL := by
  have := Finset.single_le_sum (f := fun t => (match x.u t with
    | some u => (dummySky p (fitStep p u) k).length
    | none => x.skyLen t k)) (s := Finset.univ) (fun t _ => by
      split
      · exact Line.length_nonneg _
      · exact x.skyLen_nonneg _ _) (Finset.mem_univ t)
  simp only [hu] at this
  exact this.trans_lt h

/-- C81 (view factors).  At a step without missing values the view factors are those of every time
series without missing values that contains the step. -/
theorem C81_view_factors (p : ArrayParams) (x : NanSeries ι) (v : κ → StepIn) (t : ι) (k : κ)
    (ht : x.u t = some (v k)) (h : PointOrLong p (v k)) : x.vf p (v k) = tsVfMatrix p v k := by
  unfold NanSeries.vf tsVfMatrix
  refine vfMatrix_emp fun a ha he => (h a (mem_surfaces.2 ha)).resolve_right (not_le.2 ?_)
  rcases he with he | he
  · exact x.short_of_empty ht he
  · exact length_lt_of_empty he k

theorem nan_aoi (p : ArrayParams) (m : AOIMethods) (x : NanSeries ι) (v : κ → StepIn) (t : ι) (k : κ)
    (ht : x.u t = some (v k)) :
    asgAoi m p (fitStep p (v k)) (x.isEmpty p) (x.skyEmpty p) = asgAoiTs m p v k := by
  refine asgAoi_emp m p _ ?_ ?_
  · rintro a (h | h)
    · exact x.short_of_empty ht h
    · exact length_lt_of_empty h k
  · rintro j (h | h)
    · exact x.short_of_skyEmpty ht h
    · exact lt_of_le_of_lt (Finset.single_le_sum
        (f := fun t => (dummySky p (fitStep p (v t)) j).length)
        (fun t _ => Line.length_nonneg _) (Finset.mem_univ k)) h

/-- C81 (full mode).  Take steps without missing values out of a time series with missing values, in any
order and any number.  The run of the time series made of these steps gives, at each of them, exactly
what the run of the time series with missing values gives, whatever is missing at the other steps. -/
theorem C81_full_mode (p : ArrayParams) (x : NanSeries ι) (s : ι → Option IrrStep)
    (m : Option AOIMethods) (o : ι → Option FullOut) (h : x.runFullMode p s m = some o)
    (f : κ → ι) (v : κ → StepIn) (w : κ → IrrStep) (hv : ∀ k, x.u (f k) = some (v k))
    (hw : ∀ k, s (f k) = some (w k)) (hlen : ∀ k, PointOrLong p (v k)) :
    ∃ o', runFullMode p v w (aoiOf m p v) = some o' ∧ ∀ k, o (f k) = some (o' k) := by
  classical
  unfold NanSeries.runFullMode at h
  split_ifs at h with hc
  rw [Option.some_inj] at h
  have hvf := fun k => C81_view_factors p x v (f k) k (hv k) (hlen k)
  refine ⟨fun k => fullStep p (w k) (tsVfMatrix p v k) (aoiOf m p v k), ?_, fun k => ?_⟩
  · unfold runFullMode
    rw [if_pos]
    intro k
    rw [← hvf k]
    exact hc (f k) _ _ (hv k) (hw k)
  · rw [← h]
    simp only [hv, hw, Option.bind_some, Option.map_some, hvf k]
    congr 2
    unfold aoiOf
    cases m with
    | none => rfl
    | some m => simp only [Option.map_some, nan_aoi p m x v (f k) k (hv k)]

/-- C81 (errors).  The run of a time series with missing values fails exactly if the run of its steps
without missing values does; steps with missing values never cause an error, and the result has no
values exactly there. -/
theorem C81_failure (p : ArrayParams) (x : NanSeries ι) (s : ι → Option IrrStep)
    (m : Option AOIMethods) (f : κ → ι) (v : κ → StepIn) (w : κ → IrrStep)
    (hv : ∀ k, x.u (f k) = some (v k)) (hw : ∀ k, s (f k) = some (w k))
    (hlen : ∀ k, PointOrLong p (v k))
    (hf : ∀ t, x.u t ≠ none → s t ≠ none → ∃ k, f k = t) :
    (x.runFullMode p s m = none ↔ runFullMode p v w (aoiOf m p v) = none) ∧
    ∀ o, x.runFullMode p s m = some o → ∀ t, o t = none ↔ x.u t = none ∨ s t = none := by
  classical
  have hvf := fun k => C81_view_factors p x v (f k) k (hv k) (hlen k)
  constructor
  · unfold NanSeries.runFullMode runFullMode
    simp only [ite_eq_right_iff, reduceCtorEq, imp_false, not_iff_not]
    constructor
    · intro h k
      rw [← hvf k]
      exact h (f k) _ _ (hv k) (hw k)
    · intro h t u y hu hy
      obtain ⟨k, rfl⟩ := hf t (by rw [hu]; exact Option.some_ne_none _)
        (by rw [hy]; exact Option.some_ne_none _)
      rw [hv k] at hu
      rw [hw k] at hy
      obtain rfl := Option.some.inj hu
      obtain rfl := Option.some.inj hy
      rw [hvf k]
      exact h k
  · intro o h t
    unfold NanSeries.runFullMode at h
    split_ifs at h with hc
    rw [Option.some_inj] at h
    rw [← h]
    rcases hu : x.u t with _ | u <;> rcases hy : s t with _ | y <;> simp [hu, hy]

/-- C81, a case: between two missing steps, the flat row gets the view factors that it has alone. -/
theorem C81_demo (c : ℝ) (hc : 0 ≤ c) (i j : ℕ) :
    (⟨![none, some demoStepFlat, none], fun _ _ => c, fun _ _ => hc, fun _ _ => c, fun _ _ => hc⟩ :
      NanSeries (Fin 3)).vf oneRow demoStepFlat i j
      = tsVfMatrix oneRow (fun _ : Fin 1 => demoStepFlat) 0 i j := by
  rw [C81_view_factors oneRow _ (fun _ : Fin 1 => demoStepFlat) 1 0 rfl C15_demo]

end PVF

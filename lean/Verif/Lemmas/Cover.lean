import Verif.Spec.Segment
import Mathlib.MeasureTheory.Measure.Lebesgue.Basic

/-!
# Total length of intervals that cover, or lie apart in, an interval
-/

namespace PVF
open MeasureTheory

theorem volume_cover (S : Set ℝ) (l : List (ℝ × ℝ)) :
    volume (S ∩ {s | ∃ i ∈ l, s ∈ Set.Icc i.1 i.2})
      ≤ (l.map fun i => volume (S ∩ Set.Icc i.1 i.2)).sum := by
  induction l with
  | nil => simp
  | cons i l ih =>
    rw [List.map_cons, List.sum_cons]
    refine le_trans ?_ (add_le_add (le_refl _) ih)
    refine le_trans (measure_mono ?_) (measure_union_le _ _)
    rintro s ⟨h1, j, hj, h2⟩
    rcases List.mem_cons.1 hj with rfl | hj
    · exact Or.inl ⟨h1, h2⟩
    · exact Or.inr ⟨h1, j, hj, h2⟩

theorem sum_ofReal (l : List (ℝ × ℝ)) (f : ℝ × ℝ → ℝ) :
    (l.map fun i => ENNReal.ofReal (f i)).sum = ENNReal.ofReal (l.map fun i => max 0 (f i)).sum := by
  induction l with
  | nil => simp
  | cons i l ih =>
    rw [List.map_cons, List.sum_cons, List.map_cons, List.sum_cons, ih,
      ENNReal.ofReal_add (le_max_left _ _)]
    · rw [ENNReal.ofReal_max]; simp
    · apply List.sum_nonneg
      simp only [List.mem_map]
      rintro _ ⟨j, _, rfl⟩
      exact le_max_left _ _

/-- An interval covered by intervals is not longer than its common parts with them together. -/
theorem length_le_of_cover {A B : ℝ} (l : List (ℝ × ℝ))
    (h : ∀ s, A ≤ s → s ≤ B → ∃ i ∈ l, i.1 ≤ s ∧ s ≤ i.2) :
    B - A ≤ (l.map fun i => max 0 (min B i.2 - max A i.1)).sum := by
  have h1 : volume (Set.Icc A B) ≤ (l.map fun i => volume (Set.Icc A B ∩ Set.Icc i.1 i.2)).sum := by
    refine le_trans (measure_mono ?_) (volume_cover _ l)
    intro s hs
    exact ⟨hs, h s hs.1 hs.2⟩
  simp only [Set.Icc_inter_Icc, Real.volume_Icc] at h1
  rw [sum_ofReal l fun i => min B i.2 - max A i.1] at h1
  refine (ENNReal.ofReal_le_ofReal_iff ?_).1 h1
  apply List.sum_nonneg
  simp only [List.mem_map]
  rintro _ ⟨j, _, rfl⟩
  exact le_max_left _ _

theorem volume_apart (S : Set ℝ) (hS : MeasurableSet S) (l : List (ℝ × ℝ))
    (h : l.Pairwise fun i j => i.2 ≤ j.1 ∨ j.2 ≤ i.1) :
    (l.map fun i => volume (S ∩ Set.Ioo i.1 i.2)).sum
      = volume (S ∩ {s | ∃ i ∈ l, s ∈ Set.Ioo i.1 i.2}) ∧
    MeasurableSet {s | ∃ i ∈ l, s ∈ Set.Ioo i.1 i.2} := by
  induction l with
  | nil => simp
  | cons i l ih =>
    obtain ⟨h1, h2⟩ := List.pairwise_cons.1 h
    obtain ⟨i1, i2⟩ := ih h2
    have e : {s : ℝ | ∃ j ∈ i :: l, s ∈ Set.Ioo j.1 j.2}
        = Set.Ioo i.1 i.2 ∪ {s | ∃ j ∈ l, s ∈ Set.Ioo j.1 j.2} := by
      ext s
      simp [List.mem_cons, or_and_right, exists_or]
    rw [e]
    refine ⟨?_, measurableSet_Ioo.union i2⟩
    rw [List.map_cons, List.sum_cons, i1, Set.inter_union_distrib_left, measure_union ?_ (hS.inter i2)]
    rw [Set.disjoint_left]
    rintro s ⟨-, q1, q2⟩ ⟨-, j, hj, q3, q4⟩
    rcases h1 j hj with q | q <;> linarith

/-- Intervals that lie apart have together at most the length of an interval in common with it. -/
theorem sum_le_of_apart {A B : ℝ} (hAB : A ≤ B) (l : List (ℝ × ℝ))
    (h : l.Pairwise fun i j => i.2 ≤ j.1 ∨ j.2 ≤ i.1) :
    (l.map fun i => max 0 (min B i.2 - max A i.1)).sum ≤ B - A := by
  have h1 := (volume_apart (Set.Ioo A B) measurableSet_Ioo l h).1
  have h2 : (l.map fun i => volume (Set.Ioo A B ∩ Set.Ioo i.1 i.2)).sum ≤ volume (Set.Ioo A B) := by
    rw [h1]; exact measure_mono Set.inter_subset_left
  simp only [Set.Ioo_inter_Ioo, Real.volume_Ioo] at h2
  rw [sum_ofReal l fun i => min B i.2 - max A i.1] at h2
  exact (ENNReal.ofReal_le_ofReal_iff (by linarith)).1 h2

end PVF

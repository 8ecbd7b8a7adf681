import Verif.Lemmas.Interval

/-!
# The difference of intervals when all end points are equal or well apart
-/

namespace PVF
noncomputable section

open Classical in
/-- `diffIntervals` without tolerance. -/
def exactDiff (a b c d : ℝ) : List (ℝ × ℝ) :=
  if Within a b c then
    if Within a b d then
      let pieces := if Within a c d then [(a, d), (c, b)] else [(a, c), (d, b)]
      pieces.filter fun i => i.1 ≠ i.2
    else if Within c d a then
      if Within c d b then [] else [(c, b)]
    else if Within c d b then [(a, c)]
    else [(a, b)]
  else if Within a b d then
    if Within c d a then
      if Within c d b then [] else [(d, b)]
    else if Within c d b then [(a, d)]
    else [(a, b)]
  else [(a, b)]

theorem mem_filter_pair (x y : ℝ × ℝ) (s : ℝ) :
    (∃ i ∈ [x, y].filter (fun i => decide (i.1 ≠ i.2)), Inside i.1 i.2 s) ↔ (Inside x.1 x.2 s ∨ Inside y.1 y.2 s) := by
  have : ∀ z : ℝ × ℝ, Inside z.1 z.2 s → z.1 ≠ z.2 := by
    rintro z ⟨h1, h2⟩ h
    rw [h, min_self] at h1; rw [h, max_self] at h2; linarith
  constructor
  · rintro ⟨i, hi, h⟩
    rw [List.mem_filter] at hi
    rcases List.mem_cons.1 hi.1 with rfl | hi'
    · exact Or.inl h
    · rw [List.mem_singleton.1 hi'] at h; exact Or.inr h
  · rintro (h | h)
    · exact ⟨x, List.mem_filter.2 ⟨by simp, by simpa using this x h⟩, h⟩
    · exact ⟨y, List.mem_filter.2 ⟨by simp, by simpa using this y h⟩, h⟩

theorem exactDiff_mem {a b c d : ℝ} (hab : a < b) (hcd : c ≠ d)
    (h : ¬ (min c d < a ∧ b < max c d)) (s : ℝ) :
    (∃ i ∈ exactDiff a b c d, Inside i.1 i.2 s) ↔ a < s ∧ s < b ∧ ¬ Within c d s := by
  unfold exactDiff
  dsimp only
  split_ifs with h1 h2 h3 h4 h5 h6 h7 h8 h9 h10
  · rw [mem_filter_pair]
    unfold Inside Within at *
    dsimp only
    grind
  · rw [mem_filter_pair]
    unfold Inside Within at *
    dsimp only
    grind
  all_goals
    simp only [List.mem_singleton, exists_eq_left, List.not_mem_nil, false_and, exists_false]
    unfold Inside Within at *
    grind

theorem exactDiff_length {a b c d : ℝ} (hab : a < b) (hcd : c ≠ d)
    (h : ¬ (min c d < a ∧ b < max c d)) :
    ((exactDiff a b c d).map fun i => |i.2 - i.1|).sum = b - a - overlapLen a b c d := by
  have hp : ∀ x y : ℝ × ℝ, (([x, y].filter (fun i => decide (i.1 ≠ i.2))).map
      fun i => |i.2 - i.1|).sum = |x.2 - x.1| + |y.2 - y.1| := by
    intro x y
    by_cases h1 : x.1 = x.2 <;> by_cases h2 : y.1 = y.2 <;> simp [h1, h2]
  unfold exactDiff overlapLen
  dsimp only
  split_ifs with h1 h2 h3 h4 h5 h6 h7 h8 h9 h10
  · rw [hp]
    unfold Within at *
    dsimp only
    grind
  · rw [hp]
    unfold Within at *
    dsimp only
    grind
  all_goals
    simp only [List.map_cons, List.map_nil, List.sum_cons, List.sum_nil]
    unfold Within at *
    grind

theorem has_iff {p q s : ℝ} (h1 : Apart p s) (h2 : Apart q s) :
    (min p q - TOL < s ∧ s < max p q + TOL) ↔ Within p q s := by
  have hT := TOL_pos'
  unfold Apart Within at *
  grind

theorem apart_comm {p q : ℝ} (h : Apart p q) : Apart q p := by
  unfold Apart at *
  rw [abs_sub_comm, eq_comm]; exact h

theorem diffIntervals_exact {a b c d : ℝ} (hac : Apart a c) (had : Apart a d)
    (hbc : Apart b c) (hbd : Apart b d) (hcd : Apart c d) :
    diffIntervals a b c d = exactDiff a b c d := by
  have hT := TOL_pos'
  unfold diffIntervals exactDiff
  dsimp only
  have e1 := has_iff hac hbc
  have e2 := has_iff had hbd
  have e3 := has_iff had hcd
  have e4 := has_iff (apart_comm hac) (apart_comm had)
  have e5 := has_iff (apart_comm hbc) (apart_comm hbd)
  have hf : ∀ x y : ℝ, Apart x y → (|y - x| > TOL ↔ x ≠ y) := by
    intro x y h
    unfold Apart at h
    grind
  have f1 := hf _ _ hac
  have f2 := hf _ _ had
  have f3 := hf _ _ (apart_comm hbc)
  have f4 := hf _ _ (apart_comm hbd)
  have hfil : ∀ (l : List (ℝ × ℝ)), (∀ i ∈ l, (|i.2 - i.1| > TOL ↔ i.1 ≠ i.2)) →
      l.filter (fun i => decide (|i.2 - i.1| > TOL)) = l.filter fun i => decide (i.1 ≠ i.2) := by
    intro l hl
    apply List.filter_congr
    intro i hi
    rw [decide_eq_decide]
    exact hl i hi
  by_cases k1 : Within a b c
  · rw [if_pos k1, if_pos (e1.2 k1)]
    by_cases k2 : Within a b d
    · rw [if_pos k2, if_pos (e2.2 k2)]
      by_cases k3 : Within a c d
      · rw [if_pos k3, if_pos (e3.2 k3)]
        apply hfil
        simp only [List.forall_mem_cons, List.not_mem_nil, false_implies, implies_true, and_true]
        exact ⟨f2, f3⟩
      · rw [if_neg k3, if_neg (fun h => k3 (e3.1 h))]
        apply hfil
        simp only [List.forall_mem_cons, List.not_mem_nil, false_implies, implies_true, and_true]
        exact ⟨f1, f4⟩
    · rw [if_neg k2, if_neg (fun h => k2 (e2.1 h))]
      by_cases k4 : Within c d a <;> by_cases k5 : Within c d b
      · rw [if_pos k4, if_pos (e4.2 k4), if_pos k5, if_pos (e5.2 k5)]
      · rw [if_pos k4, if_pos (e4.2 k4), if_neg k5, if_neg (fun h => k5 (e5.1 h))]
      · rw [if_neg k4, if_neg (fun h => k4 (e4.1 h)), if_pos k5, if_pos (e5.2 k5)]
      · rw [if_neg k4, if_neg (fun h => k4 (e4.1 h)), if_neg k5, if_neg (fun h => k5 (e5.1 h))]
  · rw [if_neg k1, if_neg (fun h => k1 (e1.1 h))]
    by_cases k2 : Within a b d
    · rw [if_pos k2, if_pos (e2.2 k2)]
      by_cases k4 : Within c d a <;> by_cases k5 : Within c d b
      · rw [if_pos k4, if_pos (e4.2 k4), if_pos k5, if_pos (e5.2 k5)]
      · rw [if_pos k4, if_pos (e4.2 k4), if_neg k5, if_neg (fun h => k5 (e5.1 h))]
      · rw [if_neg k4, if_neg (fun h => k4 (e4.1 h)), if_pos k5, if_pos (e5.2 k5)]
      · rw [if_neg k4, if_neg (fun h => k4 (e4.1 h)), if_neg k5, if_neg (fun h => k5 (e5.1 h))]
    · rw [if_neg k2, if_neg (fun h => k2 (e2.1 h))]
end
end PVF

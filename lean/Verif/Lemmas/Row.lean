import Verif.Lemmas.Trig
import Mathlib.Algebra.BigOperators.Intervals
import Mathlib.Tactic.LinearCombination

/-! # PV rows: closed form of segments and surfaces -/

namespace PVF

theorem TOL_pos : 0 < TOL := by unfold TOL; norm_num

/-- Point of a row at signed distance `ρ` from the centre. -/
noncomputable def rowPt (c : Pt) (rot ρ : ℝ) : Pt := ⟨ρ * cosd rot + c.x, ρ * sind rot + c.y⟩

theorem fullRowCoords_eq (c : Pt) (w rot : ℝ) :
    fullRowCoords c w rot = ⟨rowPt c rot (-(w / 2)), rowPt c rot (w / 2)⟩ := by
  simp [fullRowCoords, rowPt, cosd_add_180, sind_add_180]

theorem sqrt_rowPt (c : Pt) (rot a b : ℝ) :
    Real.sqrt (((rowPt c rot b).y - (rowPt c rot a).y) ^ 2
      + ((rowPt c rot b).x - (rowPt c rot a).x) ^ 2) = |b - a| := by
  have h := cosd_sq_add_sind_sq rot
  have : ((rowPt c rot b).y - (rowPt c rot a).y) ^ 2
      + ((rowPt c rot b).x - (rowPt c rot a).x) ^ 2 = (b - a) ^ 2 := by
    simp only [rowPt]
    linear_combination (b - a) ^ 2 * h
  rw [this, Real.sqrt_sq_eq_abs]

theorem length_rowPt (c : Pt) (rot a b : ℝ) :
    (Line.mk (rowPt c rot a) (rowPt c rot b)).length = |b - a| := sqrt_rowPt c rot a b

theorem ite_eq_clamp {x lo hi : ℝ} (h : lo ≤ hi) :
    (if lo < x ∧ ¬ hi < x then x else if hi < x then hi else lo) = max lo (min hi x) := by
  split_ifs with h1 h2
  · rw [min_eq_right (not_lt.1 h1.2), max_eq_right h1.1.le]
  · rw [min_eq_left h2.le, max_eq_right h]
  · have : x ≤ lo := by by_contra h3; exact h1 ⟨not_le.1 h3, h2⟩
    rw [max_eq_left]; exact (min_le_right _ _).trans this

/-- Left end of segment `k` out of `n` (signed distance from the centre). -/
noncomputable def segLo (w : ℝ) (n k : ℕ) : ℝ := -(w / 2) + k * (w / n)

theorem segLo_succ (w : ℝ) (n k : ℕ) : segLo w n (k + 1) = segLo w n k + w / n := by
  unfold segLo; push_cast; ring

theorem segLo_zero (w : ℝ) (n : ℕ) : segLo w n 0 = -(w / 2) := by simp [segLo]

theorem segLo_self (w : ℝ) {n : ℕ} (hn : 0 < n) : segLo w n n = w / 2 := by
  have : (n : ℝ) ≠ 0 := by positivity
  unfold segLo; field_simp; ring

theorem segLo_mono {w : ℝ} (hw : 0 ≤ w) (n : ℕ) {j k : ℕ} (h : j ≤ k) :
    segLo w n j ≤ segLo w n k := by
  unfold segLo
  have : (j : ℝ) ≤ k := by exact_mod_cast h
  have : 0 ≤ w / n := by positivity
  nlinarith

theorem sideSegment_coords (c : Pt) (w rot : ℝ) (n : ℕ) (L : ℝ) (k : ℕ) :
    (sideSegment c w rot n L k).coords
      = ⟨rowPt c rot (segLo w n k), rowPt c rot (segLo w n (k + 1))⟩ := by
  simp only [sideSegment, rowPt, segLo, cosd_add_180, sind_add_180, Line.mk.injEq, Pt.mk.injEq]
  push_cast
  refine ⟨⟨?_, ?_⟩, ?_, ?_⟩ <;> ring

theorem sideSegment_pos {c : Pt} {w rot : ℝ} {n : ℕ} {L : ℝ} {k : ℕ} (hw : 0 ≤ w)
    (h0 : 0 < rot) (h1 : rot < 180) :
    let m := max (segLo w n k) (min (segLo w n (k + 1)) (-(w / 2) + L))
    (sideSegment c w rot n L k).shaded = ⟨rowPt c rot (segLo w n k), rowPt c rot m⟩ ∧
    (sideSegment c w rot n L k).illum = ⟨rowPt c rot m, rowPt c rot (segLo w n (k + 1))⟩ := by
  intro m
  have hs := sind_pos h0 h1
  have hle := segLo_mono hw n (Nat.le_succ k)
  have e1 : ∀ x : ℝ, (w / 2 - k * (w / n)) * x = -(segLo w n k) * x := by
    intro x; unfold segLo; ring
  have e2 : ∀ x : ℝ, (w / 2 - (k + 1) * (w / n)) * x = -(segLo w n (k + 1)) * x := by
    intro x; unfold segLo; push_cast; ring
  have hm : m = if segLo w n k < -(w / 2) + L ∧ ¬ segLo w n (k + 1) < -(w / 2) + L
      then -(w / 2) + L else if segLo w n (k + 1) < -(w / 2) + L then segLo w n (k + 1)
      else segLo w n k := (ite_eq_clamp hle).symm
  have a1 : (segLo w n (k + 1) * sind rot + c.y < (w / 2 - L) * -sind rot + c.y)
      ↔ segLo w n (k + 1) < -(w / 2) + L := by
    constructor
    · intro h; by_contra h'; nlinarith
    · intro h; nlinarith
  have a2 : (segLo w n k * sind rot + c.y < (w / 2 - L) * -sind rot + c.y)
      ↔ segLo w n k < -(w / 2) + L := by
    constructor
    · intro h; by_contra h'; nlinarith
    · intro h; nlinarith
  simp only [sideSegment, shadePoint, cosd_add_180, sind_add_180, e1, e2, ge_iff_le, h0.le, if_true,
    neg_mul_neg, gt_iff_lt, a1, a2, h0.ne', ne_eq, not_false_eq_true, and_true]
  rw [hm]
  simp only [rowPt, Line.mk.injEq, Pt.mk.injEq, true_and, and_true]
  split_ifs <;> (simp; try (ring_nf; simp))

theorem sideSegment_neg {c : Pt} {w rot : ℝ} {n : ℕ} {L : ℝ} {k : ℕ} (hw : 0 ≤ w)
    (h0 : rot < 0) (h1 : -180 < rot) :
    let m := min (segLo w n (k + 1)) (max (segLo w n k) (w / 2 - L))
    (sideSegment c w rot n L k).shaded = ⟨rowPt c rot (segLo w n (k + 1)), rowPt c rot m⟩ ∧
    (sideSegment c w rot n L k).illum = ⟨rowPt c rot m, rowPt c rot (segLo w n k)⟩ := by
  intro m
  have hs := sind_neg_of_neg h0 h1
  have hle := segLo_mono hw n (Nat.le_succ k)
  have e1 : ∀ x : ℝ, (w / 2 - k * (w / n)) * x = -(segLo w n k) * x := by
    intro x; unfold segLo; ring
  have e2 : ∀ x : ℝ, (w / 2 - (k + 1) * (w / n)) * x = -(segLo w n (k + 1)) * x := by
    intro x; unfold segLo; push_cast; ring
  have hm : m = if w / 2 - L < segLo w n (k + 1) ∧ ¬ w / 2 - L < segLo w n k
      then w / 2 - L else if w / 2 - L < segLo w n k then segLo w n k
      else segLo w n (k + 1) := by
    have hle' : -segLo w n (k + 1) ≤ -segLo w n k := by linarith
    have := ite_eq_clamp (x := -(w / 2 - L)) hle'
    simp only [neg_lt_neg_iff] at this
    have hm' : m = - max (-segLo w n (k + 1)) (min (-segLo w n k) (-(w / 2 - L))) := by
      rw [min_neg_neg, max_neg_neg, neg_neg]
    rw [hm', ← this]
    split_ifs <;> simp
  have a1 : (segLo w n k * sind rot + c.y < (w / 2 - L) * sind rot + c.y)
      ↔ w / 2 - L < segLo w n k := by
    constructor
    · intro h; by_contra h'; nlinarith
    · intro h; nlinarith
  have a2 : (segLo w n (k + 1) * sind rot + c.y < (w / 2 - L) * sind rot + c.y)
      ↔ w / 2 - L < segLo w n (k + 1) := by
    constructor
    · intro h; by_contra h'; nlinarith
    · intro h; nlinarith
  simp only [sideSegment, shadePoint, cosd_add_180, sind_add_180, e1, e2, ge_iff_le, not_le.2 h0,
    if_false, neg_mul_neg, gt_iff_lt, a1, a2, h0.ne, ne_eq, not_false_eq_true, and_true]
  rw [hm]
  simp only [rowPt, Line.mk.injEq, Pt.mk.injEq, true_and, and_true]
  split_ifs <;> simp

theorem sideSegment_flat {c : Pt} {w : ℝ} {n : ℕ} {L : ℝ} {k : ℕ} :
    (sideSegment c w 0 n L k).shaded = ⟨rowPt c 0 (segLo w n k), rowPt c 0 (segLo w n k)⟩ ∧
    (sideSegment c w 0 n L k).illum
      = ⟨rowPt c 0 (segLo w n k), rowPt c 0 (segLo w n (k + 1))⟩ := by
  have e1 : ∀ x : ℝ, (w / 2 - k * (w / n)) * x = -(segLo w n k) * x := by
    intro x; unfold segLo; ring
  have e2 : ∀ x : ℝ, (w / 2 - (k + 1) * (w / n)) * x = -(segLo w n (k + 1)) * x := by
    intro x; unfold segLo; push_cast; ring
  have h0 : sind 0 = 0 := sind_zero
  simp only [sideSegment, cosd_add_180, sind_add_180, e1, e2, ge_iff_le, le_refl, if_true,
    neg_mul_neg, ne_eq, not_true, and_false, if_false]
  simp [rowPt]

end PVF

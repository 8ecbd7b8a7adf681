import Verif.Model.Shapely
import Verif.Spec.Segment
import Mathlib.Tactic.Linarith
import Mathlib.Tactic.LinearCombination
import Mathlib.Tactic.FieldSimp

/-!
# `difference` for segments on a common line
-/

namespace PVF
noncomputable section

variable {o e : Pt}

theorem linePt_dist (he : e.x ^ 2 + e.y ^ 2 = 1) (s t : ℝ) :
    distPt (linePt o e s) (linePt o e t) = |t - s| := by
  unfold distPt linePt
  rw [← Real.sqrt_sq_eq_abs]
  congr 1
  linear_combination (t - s) ^ 2 * he

theorem lineSeg_length (he : e.x ^ 2 + e.y ^ 2 = 1) (a b : ℝ) :
    (lineSeg o e a b).length = |b - a| := by
  unfold Line.length lineSeg linePt
  rw [← Real.sqrt_sq_eq_abs]
  congr 1
  linear_combination (b - a) ^ 2 * he

theorem lineSeg_segDist (he : e.x ^ 2 + e.y ^ 2 = 1) (a b s : ℝ) :
    segDist (lineSeg o e a b) (linePt o e s) = max 0 (max (min a b - s) (s - max a b)) := by
  have key : segDist (lineSeg o e a b) (linePt o e s)
      = |a + clip ((s - a) * (b - a) / (b - a) ^ 2) 0 1 * (b - a) - s| := by
    unfold segDist
    dsimp only
    have h1 : ((lineSeg o e a b).b2.x - (lineSeg o e a b).b1.x) ^ 2
        + ((lineSeg o e a b).b2.y - (lineSeg o e a b).b1.y) ^ 2 = (b - a) ^ 2 := by
      unfold lineSeg linePt; dsimp only; linear_combination (b - a) ^ 2 * he
    have h2 : ((linePt o e s).x - (lineSeg o e a b).b1.x)
          * ((lineSeg o e a b).b2.x - (lineSeg o e a b).b1.x)
        + ((linePt o e s).y - (lineSeg o e a b).b1.y)
          * ((lineSeg o e a b).b2.y - (lineSeg o e a b).b1.y) = (s - a) * (b - a) := by
      unfold lineSeg linePt; dsimp only; linear_combination (s - a) * (b - a) * he
    rw [h1, h2]
    generalize clip ((s - a) * (b - a) / (b - a) ^ 2) 0 1 = t
    rw [← linePt_dist (o := o) he]
    congr 1
    unfold lineSeg linePt
    dsimp only
    congr 1 <;> ring
  rw [key]
  unfold clip
  rcases eq_or_ne a b with rfl | hab
  · simp only [sub_self, mul_zero, add_zero, min_self, max_self]
    rcases le_total a s with h | h
    · rw [abs_of_nonpos (by linarith), max_eq_right (by linarith : a - s ≤ s - a),
        max_eq_right (by linarith)]
      ring
    · rw [abs_of_nonneg (by linarith), max_eq_left (by linarith : s - a ≤ a - s),
        max_eq_right (by linarith)]
  · have hd : b - a ≠ 0 := sub_ne_zero.2 hab.symm
    have hq : (s - a) * (b - a) / (b - a) ^ 2 = (s - a) / (b - a) := by field_simp
    rw [hq]
    rcases lt_or_gt_of_ne hab with h | h
    · have hp : 0 < b - a := by linarith
      rw [min_eq_left h.le, max_eq_right h.le]
      rcases le_total s a with h1 | h1
      · rw [max_eq_right (div_nonpos_of_nonpos_of_nonneg (by linarith) hp.le),
          min_eq_left zero_le_one, max_eq_left (by linarith : s - b ≤ a - s),
          max_eq_right (by linarith), abs_of_nonneg (by linarith)]
        ring
      · rw [max_eq_left (div_nonneg (by linarith) hp.le)]
        rcases le_total s b with h2 | h2
        · rw [min_eq_left ((div_le_one hp).2 (by linarith)), div_mul_cancel₀ _ hd,
            max_eq_left (max_le (by linarith) (by linarith))]
          rw [show a + (s - a) - s = 0 by ring, abs_zero]
        · rw [min_eq_right ((one_le_div hp).2 (by linarith)),
            max_eq_right (by linarith : a - s ≤ s - b), max_eq_right (by linarith),
            abs_of_nonpos (by linarith)]
          ring
    · have hp : b - a < 0 := by linarith
      rw [min_eq_right h.le, max_eq_left h.le]
      rcases le_total s a with h1 | h1
      · rw [max_eq_left (div_nonneg_of_nonpos (by linarith) hp.le)]
        rcases le_total b s with h2 | h2
        · rw [min_eq_left ((div_le_one_of_neg hp).2 (by linarith)), div_mul_cancel₀ _ hd,
            max_eq_left (max_le (by linarith) (by linarith))]
          rw [show a + (s - a) - s = 0 by ring, abs_zero]
        · rw [min_eq_right ((one_le_div_of_neg hp).2 (by linarith)),
            max_eq_left (by linarith : s - a ≤ b - s), max_eq_right (by linarith),
            abs_of_nonneg (by linarith)]
          ring
      · rw [max_eq_right (div_nonpos_of_nonneg_of_nonpos (by linarith) hp.le),
          min_eq_left zero_le_one, max_eq_right (by linarith : b - s ≤ s - a),
          max_eq_right (by linarith), abs_of_nonpos (by linarith)]
        ring

theorem contains_lineSeg (he : e.x ^ 2 + e.y ^ 2 = 1) (a b s : ℝ) :
    containsPt (lineSeg o e a b) (linePt o e s) ↔ min a b - TOL < s ∧ s < max a b + TOL := by
  unfold containsPt
  rw [lineSeg_segDist he, max_lt_iff, max_lt_iff]
  have : (0 : ℝ) < TOL := by unfold TOL; norm_num
  constructor
  · rintro ⟨-, h1, h2⟩; constructor <;> linarith
  · rintro ⟨h1, h2⟩; exact ⟨this, by linarith, by linarith⟩

open Classical in
/-- `difference` for segments on a line, in terms of distances. -/
def diffIntervals (a b c d : ℝ) : List (ℝ × ℝ) :=
  let has (p q s : ℝ) : Prop := min p q - TOL < s ∧ s < max p q + TOL
  if has a b c then
    if has a b d then
      let pieces := if has a c d then [(a, d), (c, b)] else [(a, c), (d, b)]
      pieces.filter fun i => |i.2 - i.1| > TOL
    else if has c d a then
      if has c d b then [] else [(c, b)]
    else if has c d b then [(a, c)]
    else [(a, b)]
  else if has a b d then
    if has c d a then
      if has c d b then [] else [(d, b)]
    else if has c d b then [(a, d)]
    else [(a, b)]
  else [(a, b)]

theorem difference_lineSeg (he : e.x ^ 2 + e.y ^ 2 = 1) (a b c d : ℝ) :
    difference (lineSeg o e a b) (lineSeg o e c d)
      = (diffIntervals a b c d).map fun i => lineSeg o e i.1 i.2 := by
  have h1 : ∀ p q s, containsPt (lineSeg o e p q) (linePt o e s)
      ↔ min p q - TOL < s ∧ s < max p q + TOL := contains_lineSeg he
  have h2 : ∀ p q, (lineSeg o e p q).length > TOL ↔ |q - p| > TOL := fun p q => by
    rw [lineSeg_length he]
  unfold difference diffIntervals
  dsimp only
  have e1 : (lineSeg o e c d).b1 = linePt o e c := rfl
  have e2 : (lineSeg o e c d).b2 = linePt o e d := rfl
  have e3 : (lineSeg o e a b).b1 = linePt o e a := rfl
  have e4 : (lineSeg o e a b).b2 = linePt o e b := rfl
  have e5 : ∀ p q, (⟨linePt o e p, linePt o e q⟩ : Line) = lineSeg o e p q := fun _ _ => rfl
  rw [e1, e2, e3, e4]
  simp only [e5, h1]
  split_ifs <;> simp [List.filter_cons, h2] <;> split_ifs <;> simp_all

theorem length_pieces (he : e.x ^ 2 + e.y ^ 2 = 1) (l : List (ℝ × ℝ)) :
    totalLength (l.map fun i => lineSeg o e i.1 i.2) = (l.map fun i => |i.2 - i.1|).sum := by
  unfold totalLength
  rw [List.map_map]
  congr 1
  apply List.map_congr_left
  intro i _
  exact lineSeg_length he _ _

theorem sum_filter_pair (x y : ℝ × ℝ) (T : ℝ) (hT : 0 < T) :
    (((([x, y].filter fun i => |i.2 - i.1| > T).map fun i => |i.2 - i.1|).sum
        ≤ |x.2 - x.1| + |y.2 - y.1|) ∧
     |x.2 - x.1| - T + (|y.2 - y.1| - T)
      ≤ (([x, y].filter fun i => |i.2 - i.1| > T).map fun i => |i.2 - i.1|).sum ∧
     |x.2 - x.1| - T ≤ (([x, y].filter fun i => |i.2 - i.1| > T).map fun i => |i.2 - i.1|).sum ∧
     |y.2 - y.1| - T ≤ (([x, y].filter fun i => |i.2 - i.1| > T).map fun i => |i.2 - i.1|).sum ∧
     0 ≤ (([x, y].filter fun i => |i.2 - i.1| > T).map fun i => |i.2 - i.1|).sum ∧
     (|x.2 - x.1| ≤ T →
       (([x, y].filter fun i => |i.2 - i.1| > T).map fun i => |i.2 - i.1|).sum ≤ |y.2 - y.1|) ∧
     (|y.2 - y.1| ≤ T →
       (([x, y].filter fun i => |i.2 - i.1| > T).map fun i => |i.2 - i.1|).sum ≤ |x.2 - x.1|)) := by
  have hx := abs_nonneg (x.2 - x.1)
  have hy := abs_nonneg (y.2 - y.1)
  by_cases h1 : |x.2 - x.1| > T <;> by_cases h2 : |y.2 - y.1| > T <;>
    simp [List.filter_cons, h1, h2] <;> (try constructor) <;> (try constructor) <;>
    (try intro) <;> (try constructor) <;> (try constructor) <;> (try linarith)

/-- The line string `c`, `d` sticks out at both ends of the surface from `a` to `b`. -/
def SticksOut (a b c d : ℝ) : Prop :=
  min c d ≤ a - TOL ∧ b + TOL ≤ max c d

theorem TOL_pos' : (0 : ℝ) < TOL := by unfold TOL; norm_num

theorem overlap_cases (a b lo hi : ℝ) :
    ∃ O, max 0 (min b hi - max a lo) = O ∧ 0 ≤ O ∧
      ((O = 0 ∧ (b ≤ a ∨ b ≤ lo ∨ hi ≤ a ∨ hi ≤ lo)) ∨
       (O = b - a ∧ lo ≤ a ∧ b ≤ hi) ∨ (O = b - lo ∧ a ≤ lo ∧ b ≤ hi) ∨
       (O = hi - a ∧ lo ≤ a ∧ hi ≤ b) ∨ (O = hi - lo ∧ a ≤ lo ∧ hi ≤ b)) := by
  refine ⟨_, rfl, le_max_left _ _, ?_⟩
  rcases max_cases 0 (min b hi - max a lo) with ⟨ho, ho'⟩ | ⟨ho, ho'⟩ <;>
  rcases min_cases b hi with ⟨hm, hm'⟩ | ⟨hm, hm'⟩ <;>
  rcases max_cases a lo with ⟨hx, hx'⟩ | ⟨hx, hx'⟩ <;> rw [ho] <;> rw [hm, hx] at ho'
  · left; exact ⟨rfl, Or.inl (by linarith)⟩
  · left; exact ⟨rfl, Or.inr (Or.inl (by linarith))⟩
  · left; exact ⟨rfl, Or.inr (Or.inr (Or.inl (by linarith)))⟩
  · left; exact ⟨rfl, Or.inr (Or.inr (Or.inr (by linarith)))⟩
  · right; left; exact ⟨by rw [hm, hx], by linarith, by linarith⟩
  · right; right; left; exact ⟨by rw [hm, hx], by linarith, by linarith⟩
  · right; right; right; left; exact ⟨by rw [hm, hx], by linarith, by linarith⟩
  · right; right; right; right; exact ⟨by rw [hm, hx], by linarith, by linarith⟩

set_option maxHeartbeats 1000000 in
theorem pair_bound {a b x y T O S : ℝ} (hT : 0 < T) (hab : a < b)
    (hx : a - T < x) (hx' : x < b + T) (hy : a - T < y) (hy' : y < b + T) (hxy : x < a + T ∨ x < y + T)
    (hO0 : 0 ≤ O)
    (hO1 : (O = 0 ∧ (b ≤ a ∨ b ≤ min x y ∨ max x y ≤ a ∨ max x y ≤ min x y)) ∨
       (O = b - a ∧ min x y ≤ a ∧ b ≤ max x y) ∨ (O = b - min x y ∧ a ≤ min x y ∧ b ≤ max x y) ∨
       (O = max x y - a ∧ min x y ≤ a ∧ max x y ≤ b) ∨
       (O = max x y - min x y ∧ a ≤ min x y ∧ max x y ≤ b))
    (g1 : S ≤ |x - a| + |b - y|) (g2 : |x - a| - T + (|b - y| - T) ≤ S)
    (g3 : |x - a| - T ≤ S) (g4 : |b - y| - T ≤ S) (g5 : 0 ≤ S)
    (g6 : |x - a| ≤ T → S ≤ |b - y|) (g7 : |b - y| ≤ T → S ≤ |x - a|) :
    -(2 * T) ≤ S - (b - a - O) ∧ S - (b - a - O) ≤ 2 * T := by
  have g6' : |x - a| > T ∨ S ≤ |b - y| := by
    by_cases h : |x - a| ≤ T
    · exact Or.inr (g6 h)
    · exact Or.inl (not_le.1 h)
  have g7' : |b - y| > T ∨ S ≤ |x - a| := by
    by_cases h : |b - y| ≤ T
    · exact Or.inr (g7 h)
    · exact Or.inl (not_le.1 h)
  clear g6 g7
  rcases hxy with hxy | hxy <;> rcases le_total x y with h | h
  · rw [min_eq_left h, max_eq_right h] at hO1
    rcases abs_cases (x - a) with ⟨k1, k1'⟩ | ⟨k1, k1'⟩ <;>
    rcases abs_cases (b - y) with ⟨k2, k2'⟩ | ⟨k2, k2'⟩ <;>
    rcases g6' with g6 | g6 <;> rcases g7' with g7 | g7 <;>
    rcases hO1 with ⟨r, q | q | q | q⟩ | ⟨r, q, q'⟩ | ⟨r, q, q'⟩ | ⟨r, q, q'⟩ | ⟨r, q, q'⟩ <;>
    constructor <;> linarith
  · rw [min_eq_right h, max_eq_left h] at hO1
    rcases abs_cases (x - a) with ⟨k1, k1'⟩ | ⟨k1, k1'⟩ <;>
    rcases abs_cases (b - y) with ⟨k2, k2'⟩ | ⟨k2, k2'⟩ <;>
    rcases g6' with g6 | g6 <;> rcases g7' with g7 | g7 <;>
    rcases hO1 with ⟨r, q | q | q | q⟩ | ⟨r, q, q'⟩ | ⟨r, q, q'⟩ | ⟨r, q, q'⟩ | ⟨r, q, q'⟩ <;>
    constructor <;> linarith
  · rw [min_eq_left h, max_eq_right h] at hO1
    rcases abs_cases (x - a) with ⟨k1, k1'⟩ | ⟨k1, k1'⟩ <;>
    rcases abs_cases (b - y) with ⟨k2, k2'⟩ | ⟨k2, k2'⟩ <;>
    rcases g6' with g6 | g6 <;> rcases g7' with g7 | g7 <;>
    rcases hO1 with ⟨r, q | q | q | q⟩ | ⟨r, q, q'⟩ | ⟨r, q, q'⟩ | ⟨r, q, q'⟩ | ⟨r, q, q'⟩ <;>
    constructor <;> linarith
  · rw [min_eq_right h, max_eq_left h] at hO1
    rcases abs_cases (x - a) with ⟨k1, k1'⟩ | ⟨k1, k1'⟩ <;>
    rcases abs_cases (b - y) with ⟨k2, k2'⟩ | ⟨k2, k2'⟩ <;>
    rcases g6' with g6 | g6 <;> rcases g7' with g7 | g7 <;>
    rcases hO1 with ⟨r, q | q | q | q⟩ | ⟨r, q, q'⟩ | ⟨r, q, q'⟩ | ⟨r, q, q'⟩ | ⟨r, q, q'⟩ <;>
    constructor <;> linarith

set_option maxHeartbeats 1000000 in
theorem one_bound {a b x y T O S : ℝ} (hT : 0 < T) (hab : a < b)
    (hx : a - T < x) (hx' : x < b + T) (hy : y ≤ a - T ∨ b + T ≤ y)
    (hO0 : 0 ≤ O)
    (hO1 : (O = 0 ∧ (b ≤ a ∨ b ≤ min x y ∨ max x y ≤ a ∨ max x y ≤ min x y)) ∨
       (O = b - a ∧ min x y ≤ a ∧ b ≤ max x y) ∨ (O = b - min x y ∧ a ≤ min x y ∧ b ≤ max x y) ∨
       (O = max x y - a ∧ min x y ≤ a ∧ max x y ≤ b) ∨
       (O = max x y - min x y ∧ a ≤ min x y ∧ max x y ≤ b))
    (hS : ((min x y - T < a ∧ a < max x y + T) ∧ (min x y - T < b ∧ b < max x y + T) ∧ S = 0) ∨
      ((min x y - T < a ∧ a < max x y + T) ∧ ¬ (min x y - T < b ∧ b < max x y + T) ∧ S = |b - x|) ∨
      (¬ (min x y - T < a ∧ a < max x y + T) ∧ (min x y - T < b ∧ b < max x y + T) ∧ S = |x - a|) ∨
      (¬ (min x y - T < a ∧ a < max x y + T) ∧ ¬ (min x y - T < b ∧ b < max x y + T) ∧ S = b - a)) :
    -(2 * T) ≤ S - (b - a - O) ∧ S - (b - a - O) ≤ 2 * T := by
  simp only [not_and_or, not_lt] at hS
  rcases hy with hy | hy
  · rw [min_eq_right (by linarith), max_eq_left (by linarith)] at *
    rcases hS with ⟨⟨s1, s2⟩, ⟨s3, s4⟩, hS⟩ | ⟨⟨s1, s2⟩, s3 | s3, hS⟩ | ⟨s1 | s1, ⟨s3, s4⟩, hS⟩ |
        ⟨s1 | s1, s3 | s3, hS⟩ <;>
    rcases abs_cases (b - x) with ⟨k1, k1'⟩ | ⟨k1, k1'⟩ <;>
    rcases abs_cases (x - a) with ⟨k2, k2'⟩ | ⟨k2, k2'⟩ <;>
    rcases hO1 with ⟨r, q | q | q | q⟩ | ⟨r, q, q'⟩ | ⟨r, q, q'⟩ | ⟨r, q, q'⟩ | ⟨r, q, q'⟩ <;>
    constructor <;> linarith
  · rw [min_eq_left (by linarith), max_eq_right (by linarith)] at *
    rcases hS with ⟨⟨s1, s2⟩, ⟨s3, s4⟩, hS⟩ | ⟨⟨s1, s2⟩, s3 | s3, hS⟩ | ⟨s1 | s1, ⟨s3, s4⟩, hS⟩ |
        ⟨s1 | s1, s3 | s3, hS⟩ <;>
    rcases abs_cases (b - x) with ⟨k1, k1'⟩ | ⟨k1, k1'⟩ <;>
    rcases abs_cases (x - a) with ⟨k2, k2'⟩ | ⟨k2, k2'⟩ <;>
    rcases hO1 with ⟨r, q | q | q | q⟩ | ⟨r, q, q'⟩ | ⟨r, q, q'⟩ | ⟨r, q, q'⟩ | ⟨r, q, q'⟩ <;>
    constructor <;> linarith

theorem diffIntervals_bound {a b c d : ℝ} (hab : a < b) (h : ¬ SticksOut a b c d) :
    |((diffIntervals a b c d).map fun i => |i.2 - i.1|).sum - (b - a - overlapLen a b c d)|
      ≤ 2 * TOL := by
  have hT := TOL_pos'
  unfold SticksOut at h
  unfold diffIntervals overlapLen
  dsimp only
  rw [min_eq_left hab.le, max_eq_right hab.le]
  generalize TOL = T at *
  have hL : |b - a| = b - a := abs_of_pos (by linarith)
  rw [abs_le]
  obtain ⟨O, hO, hO0, hO1⟩ := overlap_cases a b (min c d) (max c d)
  rw [hO]
  clear hO
  by_cases h1 : a - T < c ∧ c < b + T
  · rw [if_pos h1]
    by_cases h2 : a - T < d ∧ d < b + T
    · rw [if_pos h2]
      by_cases h3 : min a c - T < d ∧ d < max a c + T
      · rw [if_pos h3]
        obtain ⟨g1, g2, g3, g4, g5, g6, g7⟩ := sum_filter_pair (a, d) (c, b) T hT
        rw [min_comm c d, max_comm c d] at hO1
        refine pair_bound hT hab h2.1 h2.2 h1.1 h1.2 ?_ hO0 hO1 g1 g2 g3 g4 g5 g6 g7
        rcases max_cases a c with ⟨k, k'⟩ | ⟨k, k'⟩ <;> rw [k] at h3
        · exact Or.inl h3.2
        · exact Or.inr h3.2
      · rw [if_neg h3]
        obtain ⟨g1, g2, g3, g4, g5, g6, g7⟩ := sum_filter_pair (a, c) (d, b) T hT
        refine pair_bound hT hab h1.1 h1.2 h2.1 h2.2 ?_ hO0 hO1 g1 g2 g3 g4 g5 g6 g7
        rw [not_and_or, not_lt, not_lt] at h3
        rcases max_cases a c with ⟨k, k'⟩ | ⟨k, k'⟩ <;> rw [k] at h3 <;>
        rcases min_cases a c with ⟨l, l'⟩ | ⟨l, l'⟩ <;> rw [l] at h3 <;>
        rcases h3 with h3 | h3 <;> first | (left; linarith) | (right; linarith)
    · rw [if_neg h2]
      rw [not_and_or, not_lt, not_lt] at h2
      refine one_bound hT hab h1.1 h1.2 h2 hO0 hO1 ?_
      by_cases h4 : min c d - T < a ∧ a < max c d + T <;>
      by_cases h5 : min c d - T < b ∧ b < max c d + T <;>
      simp [h4, h5, hL]
  · rw [if_neg h1]
    by_cases h2 : a - T < d ∧ d < b + T
    · rw [if_pos h2]
      rw [not_and_or, not_lt, not_lt] at h1
      rw [min_comm c d, max_comm c d] at *
      refine one_bound hT hab h2.1 h2.2 h1 hO0 hO1 ?_
      by_cases h4 : min d c - T < a ∧ a < max d c + T <;>
      by_cases h5 : min d c - T < b ∧ b < max d c + T <;>
      simp [h4, h5, hL]
    · rw [if_neg h2]
      rw [not_and_or, not_lt, not_lt] at h1 h2
      simp only [List.map_cons, List.map_nil, List.sum_cons, List.sum_nil, hL]
      have : O = 0 := by
        rw [not_and_or, not_le, not_le] at h
        rcases le_total c d with hcd | hcd
        · rw [min_eq_left hcd, max_eq_right hcd] at *
          rcases hO1 with ⟨r, q | q | q | q⟩ | ⟨r, q, q'⟩ | ⟨r, q, q'⟩ | ⟨r, q, q'⟩ | ⟨r, q, q'⟩ <;>
          rcases h1 with h1 | h1 <;> rcases h2 with h2 | h2 <;> rcases h with h | h <;> linarith
        · rw [min_eq_right hcd, max_eq_left hcd] at *
          rcases hO1 with ⟨r, q | q | q | q⟩ | ⟨r, q, q'⟩ | ⟨r, q, q'⟩ | ⟨r, q, q'⟩ | ⟨r, q, q'⟩ <;>
          rcases h1 with h1 | h1 <;> rcases h2 with h2 | h2 <;> rcases h with h | h <;> linarith
      constructor <;> linarith

end
end PVF

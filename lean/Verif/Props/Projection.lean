import Verif.Model.Side
import Verif.Spec.Geometry
import Verif.Lemmas.Strings
import Verif.Lemmas.Interval

/-!
# C59: projection of a point along a vector onto a line string
-/

namespace PVF
noncomputable section

/-- The point lies on the straight line through `p` in the direction of `v`. -/
def OnLine (p v X : Pt) : Prop := ∃ t : ℝ, X = ⟨p.x + t * v.x, p.y + t * v.y⟩

/-- The area of the parallelogram spanned by the vector and the line string. -/
def spanArea (v : Pt) (l : Line) : ℝ := |v.x * (l.b2.y - l.b1.y) - v.y * (l.b2.x - l.b1.x)|

theorem spanArea_collinear (v : Pt) (l : Line) :
    vecsCollinear ⟨-v.y, v.x⟩ ⟨-(l.b2.y - l.b1.y), l.b2.x - l.b1.x⟩ ↔ spanArea v l < 1e-5 := by
  unfold vecsCollinear spanArea TOL_COLLINEAR
  rw [show -v.x * -(l.b2.y - l.b1.y) + -v.y * (l.b2.x - l.b1.x)
    = v.x * (l.b2.y - l.b1.y) - v.y * (l.b2.x - l.b1.x) by ring]

theorem onLine_iff {p v X : Pt} (hv : v.x ^ 2 + v.y ^ 2 ≠ 0) :
    OnLine p v X ↔ v.x * (X.y - p.y) - v.y * (X.x - p.x) = 0 := by
  constructor
  · rintro ⟨t, rfl⟩; dsimp only; ring
  · intro h
    refine ⟨((X.x - p.x) * v.x + (X.y - p.y) * v.y) / (v.x ^ 2 + v.y ^ 2), ?_⟩
    ext
    · dsimp only; field_simp; linear_combination (-v.y) * h
    · dsimp only; field_simp; linear_combination v.x * h

/-- The intersection point computed by the code. -/
def meetPt (p v : Pt) (l : Line) : Pt :=
  let a := -v.y
  let b := v.x
  let c := -(a * p.x + b * p.y)
  let d := -(l.b2.y - l.b1.y)
  let e := l.b2.x - l.b1.x
  let f := -(d * l.b1.x + e * l.b1.y)
  let det := a * e - b * d
  ⟨-((e * c - b * f) / det), -((-d * c + a * f) / det)⟩

theorem area_ne {v : Pt} {l : Line} (h : ¬ spanArea v l < 1e-5) :
    v.x * (l.b2.y - l.b1.y) - v.y * (l.b2.x - l.b1.x) ≠ 0 ∧ v.x ^ 2 + v.y ^ 2 ≠ 0 ∧
    (l.b2.x - l.b1.x) ^ 2 + (l.b2.y - l.b1.y) ^ 2 ≠ 0 := by
  have h0 : v.x * (l.b2.y - l.b1.y) - v.y * (l.b2.x - l.b1.x) ≠ 0 := by
    intro h0
    apply h
    rw [spanArea, h0, abs_zero]; norm_num
  refine ⟨h0, fun h1 => h0 ?_, fun h1 => h0 ?_⟩
  · have hx : v.x = 0 := by nlinarith [sq_nonneg v.x, sq_nonneg v.y]
    have hy : v.y = 0 := by nlinarith [sq_nonneg v.x, sq_nonneg v.y]
    rw [hx, hy]; ring
  · have hx : l.b2.x - l.b1.x = 0 := by nlinarith [sq_nonneg (l.b2.x - l.b1.x), sq_nonneg (l.b2.y - l.b1.y)]
    have hy : l.b2.y - l.b1.y = 0 := by nlinarith [sq_nonneg (l.b2.x - l.b1.x), sq_nonneg (l.b2.y - l.b1.y)]
    rw [hx, hy]; ring

theorem onLine_lerp (a b X : Pt) : OnLine a ⟨b.x - a.x, b.y - a.y⟩ X ↔ ∃ s : ℝ, X = lerp a b s :=
  Iff.rfl

/-- The computed point is the only common point of the two straight lines. -/
theorem meetPt_iff {p v : Pt} {l : Line} (h : ¬ spanArea v l < 1e-5) (X : Pt) :
    X = meetPt p v l ↔ OnLine p v X ∧ ∃ s : ℝ, X = lerp l.b1 l.b2 s := by
  obtain ⟨h0, h1, h2⟩ := area_ne h
  rw [← onLine_lerp, onLine_iff h1, onLine_iff h2]
  dsimp only
  have hd : (-v.y) * (l.b2.x - l.b1.x) - v.x * (-(l.b2.y - l.b1.y)) ≠ 0 := by
    intro hh; apply h0; linear_combination hh
  constructor
  · rintro rfl
    obtain ⟨mx, my⟩ : (meetPt p v l).x * ((-v.y) * (l.b2.x - l.b1.x) - v.x * (-(l.b2.y - l.b1.y)))
        = -((l.b2.x - l.b1.x) * -((-v.y) * p.x + v.x * p.y)
          - v.x * -(-(l.b2.y - l.b1.y) * l.b1.x + (l.b2.x - l.b1.x) * l.b1.y)) ∧
        (meetPt p v l).y * ((-v.y) * (l.b2.x - l.b1.x) - v.x * (-(l.b2.y - l.b1.y)))
        = -(-(-(l.b2.y - l.b1.y)) * -((-v.y) * p.x + v.x * p.y)
          + (-v.y) * -(-(l.b2.y - l.b1.y) * l.b1.x + (l.b2.x - l.b1.x) * l.b1.y)) := by
      unfold meetPt
      dsimp only
      constructor <;> rw [← neg_div, div_mul_cancel₀ _ hd]
    constructor
    · apply mul_right_cancel₀ hd
      linear_combination v.x * my - v.y * mx
    · apply mul_right_cancel₀ hd
      linear_combination (l.b2.x - l.b1.x) * my - (l.b2.y - l.b1.y) * mx
  · rintro ⟨q1, q2⟩
    unfold meetPt
    ext
    · dsimp only
      rw [← neg_div, eq_div_iff hd]
      linear_combination (l.b2.x - l.b1.x) * q1 - v.x * q2
    · dsimp only
      rw [← neg_div, eq_div_iff hd]
      linear_combination (l.b2.y - l.b1.y) * q1 - v.y * q2

open Classical in
theorem projection_eq (p v : Pt) (l : Line) (m : Bool) :
    projection p v l m = if spanArea v l < 1e-5 then none
      else if m = false then some (meetPt p v l)
      else if segDist l (meetPt p v l) < TOL ∧ distPt l.b1 (meetPt p v l) ≤ l.length ∧
          distPt l.b2 (meetPt p v l) ≤ l.length then
        if distPt l.b1 (meetPt p v l) < TOL then some l.b1
        else if distPt l.b2 (meetPt p v l) < TOL then some l.b2
        else some (meetPt p v l) else none := by
  classical
  unfold projection
  dsimp only
  by_cases h : spanArea v l < 1e-5
  · rw [if_pos h, if_pos ((spanArea_collinear v l).2 h)]
  · rw [if_neg h, if_neg (fun hh => h ((spanArea_collinear v l).1 hh))]
    rfl

/-- C59 (whole lines).  If the result does not have to lie on the line string, the projection is the
common point of the straight line through the point in the direction of the vector and the straight
line through the line string.  There is no result exactly if the vector and the line string span an
area of less than 1e-5. -/
theorem C59_lines (p v : Pt) (l : Line) :
    (∀ X, projection p v l false = some X ↔
      ¬ spanArea v l < 1e-5 ∧ OnLine p v X ∧ ∃ s : ℝ, X = lerp l.b1 l.b2 s) ∧
    (projection p v l false = none ↔ spanArea v l < 1e-5) := by
  classical
  rw [projection_eq]
  by_cases h : spanArea v l < 1e-5
  · simp [h]
  · simp only [h, if_false, if_true, not_false_eq_true, true_and, Option.some.injEq, reduceCtorEq]
    exact ⟨fun X => by rw [← meetPt_iff h, eq_comm], trivial⟩

theorem dist_lerp_left (a b : Pt) (s : ℝ) : distPt a (lerp a b s) = |s| * distPt a b := by
  unfold distPt lerp
  dsimp only
  rw [← Real.sqrt_sq_eq_abs, ← Real.sqrt_mul (sq_nonneg _)]
  congr 1
  ring

theorem dist_lerp_right (a b : Pt) (s : ℝ) : distPt b (lerp a b s) = |1 - s| * distPt a b := by
  unfold distPt lerp
  dsimp only
  rw [← Real.sqrt_sq_eq_abs, ← Real.sqrt_mul (sq_nonneg _)]
  congr 1
  ring

theorem segDist_lerp {l : Line} {s : ℝ} (h0 : 0 ≤ s) (h1 : s ≤ 1)
    (hl : (l.b2.x - l.b1.x) ^ 2 + (l.b2.y - l.b1.y) ^ 2 ≠ 0) : segDist l (lerp l.b1 l.b2 s) = 0 := by
  unfold segDist lerp
  dsimp only
  rw [show ((l.b1.x + s * (l.b2.x - l.b1.x) - l.b1.x) * (l.b2.x - l.b1.x)
      + (l.b1.y + s * (l.b2.y - l.b1.y) - l.b1.y) * (l.b2.y - l.b1.y))
      / ((l.b2.x - l.b1.x) ^ 2 + (l.b2.y - l.b1.y) ^ 2) = s by field_simp; ring]
  rw [show clip s 0 1 = s by unfold clip; rw [max_eq_left h0, min_eq_left h1]]
  unfold distPt
  simp

/-- The tests of the code accept exactly the points of the line string. -/
theorem accepted_iff {p v : Pt} {l : Line} (h : ¬ spanArea v l < 1e-5) :
    (segDist l (meetPt p v l) < TOL ∧ distPt l.b1 (meetPt p v l) ≤ l.length ∧
      distPt l.b2 (meetPt p v l) ≤ l.length) ↔ OnSeg (meetPt p v l) l := by
  obtain ⟨h0, h1, h2⟩ := area_ne h
  obtain ⟨-, s, hs⟩ := (meetPt_iff (p := p) h _).1 rfl
  have hL : 0 < distPt l.b1 l.b2 := Real.sqrt_pos.2 (by
    have := lt_of_le_of_ne (add_nonneg (sq_nonneg _) (sq_nonneg _)) (Ne.symm h2)
    linarith)
  constructor
  · rintro ⟨-, q1, q2⟩
    rw [hs, dist_lerp_left, Line.length_eq_distPt] at q1
    rw [hs, dist_lerp_right, Line.length_eq_distPt] at q2
    have e1 : |s| ≤ 1 := by
      by_contra hc
      nlinarith
    have e2 : |1 - s| ≤ 1 := by
      by_contra hc
      nlinarith
    rw [abs_le] at e1 e2
    exact ⟨s, by linarith, by linarith, hs⟩
  · rintro ⟨t, t0, t1, ht⟩
    rw [ht, segDist_lerp t0 t1 h2, dist_lerp_left, dist_lerp_right, Line.length_eq_distPt,
      abs_of_nonneg t0, abs_of_nonneg (by linarith : 0 ≤ 1 - t)]
    exact ⟨by norm_num [TOL], by nlinarith, by nlinarith⟩

theorem onSeg_left (l : Line) : OnSeg l.b1 l := ⟨0, le_refl _, zero_le_one, by unfold lerp; ext <;> simp⟩

theorem onSeg_right (l : Line) : OnSeg l.b2 l := ⟨1, zero_le_one, le_refl _, by unfold lerp; ext <;> simp⟩

/-- C59 (line strings).  If the result has to lie on the line string, there is a result exactly if the
straight line through the point in the direction of the vector meets the line string (and they span
an area of at least 1e-5).  The result then lies on the line string, less than the distance tolerance
from the common point; unless an end is that close it is the common point itself. -/
theorem C59_contained (p v : Pt) (l : Line) (h : ¬ spanArea v l < 1e-5) :
    (∀ Y, OnLine p v Y → OnSeg Y l → ∃ X, projection p v l true = some X ∧ OnSeg X l ∧
      distPt X Y < TOL ∧
      (TOL ≤ distPt l.b1 Y → TOL ≤ distPt l.b2 Y → X = Y)) ∧
    ((¬ ∃ Y, OnLine p v Y ∧ OnSeg Y l) → projection p v l true = none) := by
  classical
  obtain ⟨h0, h1, h2⟩ := area_ne h
  have hT : (0 : ℝ) < TOL := by norm_num [TOL]
  rw [projection_eq, if_neg h, if_neg (by simp)]
  constructor
  · rintro Y hY ⟨t, t0, t1, ht⟩
    have hm : Y = meetPt p v l := (meetPt_iff h Y).2 ⟨hY, t, ht⟩
    rw [if_pos ((accepted_iff h).2 (by rw [← hm]; exact ⟨t, t0, t1, ht⟩)), ← hm]
    split_ifs with k1 k2
    · exact ⟨l.b1, rfl, onSeg_left l, k1, fun q => absurd k1 (not_lt.2 q)⟩
    · exact ⟨l.b2, rfl, onSeg_right l, k2, fun _ q => absurd k2 (not_lt.2 q)⟩
    · refine ⟨Y, rfl, ⟨t, t0, t1, ht⟩, ?_, fun _ _ => rfl⟩
      unfold distPt
      simpa using hT
  · intro hn
    rw [if_neg]
    intro hc
    exact hn ⟨meetPt p v l, ((meetPt_iff h _).1 rfl).1, (accepted_iff h).1 hc⟩

/-- C59 (almost parallel).  Nothing is returned if vector and line string span an area of less than
1e-5; in particular a line string shorter than 1e-5 never receives the projection along a unit
vector. -/
theorem C59_parallel (p v : Pt) (l : Line) (m : Bool) :
    (spanArea v l < 1e-5 → projection p v l m = none) ∧
    (v.x ^ 2 + v.y ^ 2 = 1 → l.length < 1e-5 → projection p v l m = none) := by
  classical
  have h1 : spanArea v l < 1e-5 → projection p v l m = none := fun h => by
    rw [projection_eq, if_pos h]
  refine ⟨h1, fun hv hl => h1 (lt_of_le_of_lt ?_ hl)⟩
  unfold spanArea Line.length
  rw [← Real.sqrt_sq_eq_abs]
  apply Real.sqrt_le_sqrt
  nlinarith [sq_nonneg (v.x * (l.b2.x - l.b1.x) + v.y * (l.b2.y - l.b1.y)), hv]

/-- C59 (finding).  The sense of the vector does not count: the projection is also found behind the
point. -/
theorem C59_backwards (p v : Pt) (l : Line) (m : Bool) :
    projection p ⟨-v.x, -v.y⟩ l m = projection p v l m := by
  classical
  have ha : spanArea ⟨-v.x, -v.y⟩ l = spanArea v l := by
    unfold spanArea
    dsimp only
    rw [← abs_neg]
    congr 1
    ring
  rw [projection_eq, projection_eq]
  by_cases h : spanArea v l < 1e-5
  · rw [if_pos h, if_pos (by rw [ha]; exact h)]
  · rw [if_neg h, if_neg (by rw [ha]; exact h)]
    have hm : meetPt p ⟨-v.x, -v.y⟩ l = meetPt p v l := by
      rw [meetPt_iff h]
      obtain ⟨⟨t, ht⟩, q⟩ := (meetPt_iff (p := p) (v := ⟨-v.x, -v.y⟩) (l := l) (by rw [ha]; exact h) _).1 rfl
      exact ⟨⟨-t, by rw [ht]; ext <;> simp⟩, q⟩
    rw [hm]

/-! ## A concrete case: a point above the ground, light from the right -/

/-- The point (1, 2) is projected along (−1, −1) to the point (−1, 0) of the ground. -/
theorem C59_demo : projection ⟨1, 2⟩ ⟨-1, -1⟩ ⟨⟨-4, 0⟩, ⟨4, 0⟩⟩ true = some ⟨-1, 0⟩ := by
  have hs : spanArea ⟨-1, -1⟩ ⟨⟨-4, 0⟩, ⟨4, 0⟩⟩ = 8 := by unfold spanArea; norm_num
  have h : ¬ spanArea ⟨-1, -1⟩ ⟨⟨-4, 0⟩, ⟨4, 0⟩⟩ < 1e-5 := by rw [hs]; norm_num
  obtain ⟨X, h1, -, -, h2⟩ := (C59_contained ⟨1, 2⟩ ⟨-1, -1⟩ ⟨⟨-4, 0⟩, ⟨4, 0⟩⟩ h).1 ⟨-1, 0⟩
    ⟨2, by ext <;> norm_num⟩ ⟨3 / 8, by norm_num, by norm_num, by unfold lerp; ext <;> norm_num⟩
  rw [h1, h2]
  · unfold distPt TOL; apply Real.le_sqrt_of_sq_le; norm_num
  · unfold distPt TOL; apply Real.le_sqrt_of_sq_le; norm_num

/-- It is not projected onto the ground from 0 to 4. -/
theorem C59_demo_none : projection ⟨1, 2⟩ ⟨-1, -1⟩ ⟨⟨0, 0⟩, ⟨4, 0⟩⟩ true = none := by
  have hs : spanArea ⟨-1, -1⟩ ⟨⟨0, 0⟩, ⟨4, 0⟩⟩ = 4 := by unfold spanArea; norm_num
  have h : ¬ spanArea ⟨-1, -1⟩ ⟨⟨0, 0⟩, ⟨4, 0⟩⟩ < 1e-5 := by rw [hs]; norm_num
  refine (C59_contained ⟨1, 2⟩ ⟨-1, -1⟩ ⟨⟨0, 0⟩, ⟨4, 0⟩⟩ h).2 ?_
  rintro ⟨Y, ⟨t, rfl⟩, s, s0, -, hs⟩
  unfold lerp at hs
  simp only [Pt.mk.injEq] at hs
  linarith [hs.1, hs.2]

end
end PVF

import Verif.Lemmas.RoundedMatrix
import Verif.Spec.Moved
import Mathlib.Topology.Order.IntermediateValue
import Mathlib.Topology.Algebra.Polynomial
import Mathlib.Topology.ContinuousOn

/-! # Strings between points that are moved a little -/

namespace PVF

/-- Twice the area of a triangle, with sign. -/
noncomputable def side (g o q : Pt) : ℝ := (q.y - g.y) * (o.x - g.x) - (q.x - g.x) * (o.y - g.y)

/-- The branches of the string length. -/
theorem hottelString_side (P G O : Pt) (s : Bool) (ho : G.y < O.y) (hP : G.y < P.y) :
    hottelString P G O s = if 0 < (if s then side G O P else - side G O P)
      then distPt G O + distPt O P else distPt P G := by
  unfold hottelString side
  cases s
  · simp only [Bool.false_eq_true, if_false]
    have := angle_lt_iff hP ho
    have e : (O.y - G.y) * (P.x - G.x) - (O.x - G.x) * (P.y - G.y)
        = -((P.y - G.y) * (O.x - G.x) - (P.x - G.x) * (O.y - G.y)) := by ring
    rw [e] at this
    by_cases h : angleX G P < angleX G O
    · rw [if_pos h, if_pos (this.1 h)]
    · rw [if_neg h, if_neg (fun h' => h (this.2 h'))]
  · simp only [if_true]
    have := angle_lt_iff ho hP
    by_cases h : angleX G P > angleX G O
    · rw [if_pos h, if_pos (this.1 h)]
    · rw [if_neg h, if_neg (fun h' => h (this.2 h'))]

/-- Over a point on the straight line there is no detour, except for what the obstruction is higher
than the end of the line. -/
theorem straight_slack {g o q : Pt} {σ : ℝ} (ho : g.y < o.y) (hQ : g.y < q.y) (hσ : 0 ≤ σ)
    (hq : o.y ≤ q.y + σ) (h : side g o q = 0) :
    distPt q g ≤ distPt g o + distPt o q ∧
      distPt g o + distPt o q ≤ distPt q g + 2 * (σ * distPt g o / (o.y - g.y)) := by
  have a1 : ¬ angleX g o < angleX g q := by
    rw [angle_lt_iff ho hQ]
    unfold side at h
    rw [h]; exact lt_irrefl _
  have a2 : ¬ angleX g q < angleX g o := by
    rw [angle_lt_iff hQ ho]
    unfold side at h
    intro h'
    linarith
  have e : angleX g q = angleX g o := le_antisymm (not_lt.1 a1) (not_lt.1 a2)
  have det := detour_slack ho hQ hσ hq
  rw [e, sub_self, abs_zero] at det
  have tri := distPt_triangle g o q
  rw [distPt_comm q g] at det ⊢
  exact ⟨tri, by simpa using det⟩

theorem distPt_way_way {a a' b b' : Pt} {t : ℝ} (h0 : 0 ≤ t) (h1 : t ≤ 1) :
    distPt (wayPt a a' t) (wayPt b b' t) ≤ (1 - t) * distPt a b + t * distPt a' b' := by
  rw [distPt_eq_norm, distPt_eq_norm, distPt_eq_norm, wayPt_toC, wayPt_toC]
  rw [show b.toC + t * (b'.toC - b.toC) - (a.toC + t * (a'.toC - a.toC))
    = ((1 - t : ℝ) : ℂ) * (b.toC - a.toC) + (t : ℂ) * (b'.toC - a'.toC) by push_cast; ring]
  refine (norm_add_le _ _).trans (le_of_eq ?_)
  rw [norm_mul, norm_mul, Complex.norm_real, Complex.norm_real, Real.norm_of_nonneg h0,
    Real.norm_of_nonneg (by linarith)]

theorem distPt_lip (a b a' b' : Pt) : |distPt a' b' - distPt a b| ≤ distPt a a' + distPt b b' := by
  have t1 := distPt_triangle a' a b'
  have t2 := distPt_triangle a b b'
  have t3 := distPt_triangle a a' b
  have t4 := distPt_triangle a' b' b
  rw [distPt_comm a' a] at t1
  rw [distPt_comm b' b] at t4
  rw [abs_le]
  constructor <;> linarith

theorem way_ends (a b : Pt) : wayPt a b 0 = a ∧ wayPt a b 1 = b := by
  unfold wayPt
  constructor <;> simp

/-- Moving the ends of a string and the obstruction changes its length by at most as much, although
the string may go straight in one case and over the obstruction in the other. -/
theorem hottelString_lip {P G O P' G' O' : Pt} (s : Bool) {c σ D : ℝ} (hσ : 0 ≤ σ) (hc : σ < c)
    (ho : G.y + c ≤ O.y) (hq : O.y ≤ P.y + σ) (hD : distPt G O ≤ D)
    (ho' : G'.y + c ≤ O'.y) (hq' : O'.y ≤ P'.y + σ) (hD' : distPt G' O' ≤ D) :
    |hottelString P' G' O' s - hottelString P G O s|
      ≤ distPt P P' + distPt G G' + 2 * distPt O O' + 2 * (σ * D / c) := by
  have hD0 : 0 ≤ D := (distPt_nonneg _ _).trans hD
  have hc0 : 0 < c := by linarith
  have hx : 0 ≤ σ * D / c := by positivity
  have pP := distPt_nonneg P P'
  have pG := distPt_nonneg G G'
  have pO := distPt_nonneg O O'
  rw [hottelString_side P' G' O' s (by linarith) (by linarith),
    hottelString_side P G O s (by linarith) (by linarith)]
  have L := fun x y z x' y' z' : Pt => show |distPt x' y' + distPt y' z' - (distPt x y + distPt y z)|
      ≤ distPt x x' + 2 * distPt y y' + distPt z z' by
    have d1 := abs_le.1 (distPt_lip x y x' y')
    have d2 := abs_le.1 (distPt_lip y z y' z')
    rw [abs_le]
    constructor <;> linarith [d1.1, d1.2, d2.1, d2.2]
  -- the branch changes on the way
  have meet : ∀ σ : ℝ, σ = 1 ∨ σ = -1 →
      ((0 < σ * side G O P ∧ ¬ 0 < σ * side G' O' P') ∨
        (¬ 0 < σ * side G O P ∧ 0 < σ * side G' O' P')) →
      ∃ t : ℝ, 0 ≤ t ∧ t ≤ 1 ∧ side (wayPt G G' t) (wayPt O O' t) (wayPt P P' t) = 0 := by
    intro σ hσ h
    set f : ℝ → ℝ := fun t => σ * side (wayPt G G' t) (wayPt O O' t) (wayPt P P' t) with hf
    have hc : Continuous f := by
      rw [hf]
      unfold side wayPt
      fun_prop
    have f0 : f 0 = σ * side G O P := by
      simp only [hf, (way_ends _ _).1]
    have f1 : f 1 = σ * side G' O' P' := by
      simp only [hf, (way_ends _ _).2]
    have : ∃ t ∈ Set.Icc (0 : ℝ) 1, f t = 0 := by
      rcases h with h | h
      · have := intermediate_value_Icc' (zero_le_one' ℝ) hc.continuousOn
        exact this ⟨by rw [f1]; exact not_lt.1 h.2, by rw [f0]; exact h.1.le⟩
      · have := intermediate_value_Icc (zero_le_one' ℝ) hc.continuousOn
        exact this ⟨by rw [f0]; exact not_lt.1 h.1, by rw [f1]; exact h.2.le⟩
    obtain ⟨t, ht, h0⟩ := this
    refine ⟨t, ht.1, ht.2, ?_⟩
    rcases hσ with rfl | rfl
    · simpa [hf] using h0
    · simpa [hf] using h0
  have across : ∀ t : ℝ, 0 ≤ t → t ≤ 1 →
      side (wayPt G G' t) (wayPt O O' t) (wayPt P P' t) = 0 →
      |distPt G' O' + distPt O' P' - distPt P G| ≤ distPt P P' + distPt G G' + 2 * distPt O O' + 2 * (σ * D / c) ∧
      |distPt P' G' - (distPt G O + distPt O P)| ≤ distPt P P' + distPt G G' + 2 * distPt O O' + 2 * (σ * D / c) := by
    intro t t0 t1 h
    have s0 : 0 ≤ 1 - t := by linarith
    have yw : ∀ a b : Pt, (wayPt a b t).y = (1 - t) * a.y + t * b.y := by
      intro a b; simp only [wayPt]; ring
    have y1 : (wayPt G G' t).y + c ≤ (wayPt O O' t).y := by
      rw [yw, yw]
      linarith [mul_le_mul_of_nonneg_left ho' t0, mul_le_mul_of_nonneg_left ho s0]
    have y2 : (wayPt O O' t).y ≤ (wayPt P P' t).y + σ := by
      rw [yw, yw]
      linarith [mul_le_mul_of_nonneg_left hq' t0, mul_le_mul_of_nonneg_left hq s0]
    have hd : distPt (wayPt G G' t) (wayPt O O' t) ≤ D := by
      refine (distPt_way_way t0 t1).trans ?_
      linarith [mul_le_mul_of_nonneg_left hD' t0, mul_le_mul_of_nonneg_left hD s0]
    obtain ⟨st1, st2⟩ := straight_slack (by linarith) (by linarith) hσ y2 h
    have hx' : σ * distPt (wayPt G G' t) (wayPt O O' t) / ((wayPt O O' t).y - (wayPt G G' t).y)
        ≤ σ * D / c :=
      div_le_div₀ (by positivity) (mul_le_mul_of_nonneg_left hd hσ) hc0 (by linarith)
    have l1 := abs_le.1 (L G O P (wayPt G G' t) (wayPt O O' t) (wayPt P P' t))
    have l2 := abs_le.1 (L (wayPt G G' t) (wayPt O O' t) (wayPt P P' t) G' O' P')
    have l3 := abs_le.1 (distPt_lip P G (wayPt P P' t) (wayPt G G' t))
    have l4 := abs_le.1 (distPt_lip (wayPt P P' t) (wayPt G G' t) P' G')
    rw [distPt_way_left t0, distPt_way_left t0, distPt_way_left t0] at l1
    rw [distPt_way_right t1, distPt_way_right t1, distPt_way_right t1] at l2
    rw [distPt_way_left t0, distPt_way_left t0] at l3
    rw [distPt_way_right t1, distPt_way_right t1] at l4
    have q1 := mul_nonneg t0 pO
    have q2 := mul_nonneg (show 0 ≤ 1 - t by linarith) pO
    constructor <;> rw [abs_le] <;> constructor <;>
      linarith [l1.1, l1.2, l2.1, l2.2, l3.1, l3.2, l4.1, l4.2]
  set σ : ℝ := if s then 1 else -1 with hσ
  have hσ' : σ = 1 ∨ σ = -1 := by rw [hσ]; cases s <;> simp
  have c1 : (if s then side G O P else - side G O P) = σ * side G O P := by
    rw [hσ]; cases s <;> simp
  have c2 : (if s then side G' O' P' else - side G' O' P') = σ * side G' O' P' := by
    rw [hσ]; cases s <;> simp
  rw [c1, c2]
  by_cases h : 0 < σ * side G O P <;> by_cases h' : 0 < σ * side G' O' P'
  · rw [if_pos h, if_pos h']
    refine (L G O P G' O' P').trans ?_
    linarith
  · rw [if_pos h, if_neg h']
    obtain ⟨t, t0, t1, ht⟩ := meet σ hσ' (Or.inl ⟨h, h'⟩)
    exact (across t t0 t1 ht).2
  · rw [if_neg h, if_pos h']
    obtain ⟨t, t0, t1, ht⟩ := meet σ hσ' (Or.inr ⟨h, h'⟩)
    exact (across t t0 t1 ht).1
  · rw [if_neg h, if_neg h']
    refine (distPt_lip P G P' G').trans ?_
    linarith

end PVF

import Verif.Lemmas.Strings
import Mathlib.Algebra.BigOperators.Intervals
import Mathlib.Algebra.BigOperators.Field

/-!
# C05: view factors do not depend on how the ground is cut
-/

namespace PVF

/-- The piece of ground between two positions. -/
def groundPiece (a b : ℝ) : Line := ⟨⟨a, 0⟩, ⟨b, 0⟩⟩

/-- On which side of the line through `P` and `Q` the ground point `x` lies: the cross product of
`Q - P` and `x - P`. -/
def sideOf (P Q : Pt) (x : ℝ) : ℝ := (Q.x - P.x) * (0 - P.y) - (Q.y - P.y) * (x - P.x)

/-- Both ground positions lie on the same side of the line that carries the PV surface. -/
def SameSide (l : Line) (a b : ℝ) : Prop :=
  (0 ≤ sideOf l.b1 l.b2 a ∧ 0 ≤ sideOf l.b1 l.b2 b) ∨
  (sideOf l.b1 l.b2 a ≤ 0 ∧ sideOf l.b1 l.b2 b ≤ 0)

/-- C05, row with an obstructing neighbour: no condition at all. -/
theorem C05_obstructed (high low obstr : Pt) (w : ℝ) (left : Bool) (a b c : ℝ) :
    vfHottelGnd high low ⟨a, 0⟩ ⟨c, 0⟩ obstr w left
      = vfHottelGnd high low ⟨a, 0⟩ ⟨b, 0⟩ obstr w left
        + vfHottelGnd high low ⟨b, 0⟩ ⟨c, 0⟩ obstr w left := by
  simp only [vfHottelGnd]
  by_cases hw : w > TOL
  · simp only [hw, if_true]
    rw [← add_div]
    congr 1
    cases left <;> simp only [Bool.false_eq_true, if_false, if_true] <;> ring
  · simp [hw]

/-- Signed numerator of the unobstructed view factor. -/
noncomputable def crossed (l : Line) (x : ℝ) : ℝ := distPt l.b1 ⟨x, 0⟩ - distPt l.b2 ⟨x, 0⟩

theorem vfSurfSurf_crossed (l : Line) (a b w : ℝ) :
    vfSurfSurf l (groundPiece a b) w
      = if w > TOL then |crossed l b - crossed l a| / (2 * w) else 0 := by
  simp only [vfSurfSurf, groundPiece, crossed]
  congr 3
  ring_nf

theorem sideOf_eq {l : Line} (h1 : 0 < l.b1.y) (h2 : 0 < l.b2.y) (x : ℝ) :
    (cot x l.b2 ≤ cot x l.b1 ↔ 0 ≤ sideOf l.b1 l.b2 x) ∧
    (cot x l.b1 ≤ cot x l.b2 ↔ sideOf l.b1 l.b2 x ≤ 0) := by
  rw [cot_le_cot h2 h1, cot_le_cot h1 h2]
  unfold sideOf
  constructor <;> constructor <;> intro h <;> nlinarith

/-- The crossed string difference is monotone on each side of the surface. -/
theorem crossed_mono {l : Line} (h1 : 0 < l.b1.y) (h2 : 0 < l.b2.y) {a b : ℝ} (hab : a ≤ b) :
    (0 ≤ sideOf l.b1 l.b2 a → 0 ≤ sideOf l.b1 l.b2 b → crossed l b ≤ crossed l a) ∧
    (sideOf l.b1 l.b2 a ≤ 0 → sideOf l.b1 l.b2 b ≤ 0 → crossed l a ≤ crossed l b) := by
  have e : ∀ P x, distPt P ⟨x, 0⟩ = distPt (gp x) P := fun P x => distPt_comm _ _
  unfold crossed
  simp only [e]
  constructor
  · intro ha hb
    have := four_point hab h1 h2 ((sideOf_eq h1 h2 a).1.2 ha)
      ((sideOf_eq h1 h2 b).1.2 hb)
    linarith
  · intro ha hb
    have := four_point hab h2 h1 ((sideOf_eq h1 h2 a).2.2 ha) ((sideOf_eq h1 h2 b).2.2 hb)
    linarith

theorem sideOf_between {P Q : Pt} {a b c : ℝ} (hab : a ≤ b) (hbc : b ≤ c) :
    (0 ≤ sideOf P Q a → 0 ≤ sideOf P Q c → 0 ≤ sideOf P Q b) ∧
    (sideOf P Q a ≤ 0 → sideOf P Q c ≤ 0 → sideOf P Q b ≤ 0) := by
  unfold sideOf
  constructor <;> intro h1 h2 <;> rcases le_total (Q.y - P.y) 0 with h | h <;> nlinarith

/-- C05, row without obstructing neighbour: the ground interval must not extend beyond the line
that carries the PV surface. -/
theorem C05_unobstructed (l : Line) (h1 : 0 < l.b1.y) (h2 : 0 < l.b2.y) (w : ℝ) {a b c : ℝ}
    (hab : a ≤ b) (hbc : b ≤ c) (hs : SameSide l a c) :
    vfSurfSurf l (groundPiece a c) w
      = vfSurfSurf l (groundPiece a b) w + vfSurfSurf l (groundPiece b c) w := by
  simp only [vfSurfSurf_crossed]
  by_cases hw : w > TOL
  · simp only [hw, if_true]
    rw [← add_div]
    congr 1
    rcases hs with ⟨ha, hc⟩ | ⟨ha, hc⟩
    · have hb := (sideOf_between hab hbc).1 ha hc
      have m1 := (crossed_mono h1 h2 hab).1 ha hb
      have m2 := (crossed_mono h1 h2 hbc).1 hb hc
      rw [abs_of_nonpos (by linarith), abs_of_nonpos (by linarith), abs_of_nonpos (by linarith)]
      ring
    · have hb := (sideOf_between hab hbc).2 ha hc
      have m1 := (crossed_mono h1 h2 hab).2 ha hb
      have m2 := (crossed_mono h1 h2 hbc).2 hb hc
      rw [abs_of_nonneg (by linarith), abs_of_nonneg (by linarith), abs_of_nonneg (by linarith)]
      ring
  · simp [hw]

theorem SameSide.left {l : Line} {a b c : ℝ} (hab : a ≤ b) (hbc : b ≤ c) (h : SameSide l a c) :
    SameSide l a b := by
  rcases h with ⟨ha, hc⟩ | ⟨ha, hc⟩
  · exact Or.inl ⟨ha, (sideOf_between hab hbc).1 ha hc⟩
  · exact Or.inr ⟨ha, (sideOf_between hab hbc).2 ha hc⟩

/-- C05: the view factor from a PV surface to a stretch of ground, as computed by
`vf_pvrow_surf_to_gnd_surf_obstruction_hottel`, is additive. -/
theorem C05_split (l : Line) (h1 : 0 < l.b1.y) (h2 : 0 < l.b2.y) (r n : ℕ) (tiltedLeft : Prop)
    (full : ℕ → Line) (w : ℝ) (back left : Bool) {a b c : ℝ} (hab : a ≤ b) (hbc : b ≤ c)
    (hs : SameSide l a c) :
    (vfPvGnd l r n tiltedLeft full (groundPiece a c) w back left).1
      = (vfPvGnd l r n tiltedLeft full (groundPiece a b) w back left).1
        + (vfPvGnd l r n tiltedLeft full (groundPiece b c) w back left).1 := by
  simp only [vfPvGnd]
  rw [C05_unobstructed l h1 h2 w hab hbc hs]
  have o := C05_obstructed l.highest l.lowest
    (full (if left = true then r - 1 else r + 1)).lowest w left a b c
  simp only [groundPiece] at o ⊢
  rw [o]
  split_ifs <;> simp

/-- C05: however a stretch of ground is cut, at any number of points, the view factors to its
pieces add up to the view factor to the whole stretch. -/
theorem C05_any_cuts (l : Line) (h1 : 0 < l.b1.y) (h2 : 0 < l.b2.y) (r n : ℕ) (tiltedLeft : Prop)
    (full : ℕ → Line) (w : ℝ) (back left : Bool) (x : ℕ → ℝ) (hx : Monotone x) (m : ℕ)
    (hs : SameSide l (x 0) (x (m + 1))) :
    ∑ i ∈ Finset.range (m + 1),
        (vfPvGnd l r n tiltedLeft full (groundPiece (x i) (x (i + 1))) w back left).1
      = (vfPvGnd l r n tiltedLeft full (groundPiece (x 0) (x (m + 1))) w back left).1 := by
  induction m with
  | zero => simp
  | succ m ih =>
    rw [Finset.sum_range_succ,
      ih (hs.left (hx (Nat.zero_le _)) (hx (Nat.le_succ _)))]
    exact (C05_split l h1 h2 r n tiltedLeft full w back left (hx (Nat.zero_le _))
      (hx (Nat.le_succ _)) hs).symm

/-- The condition on the side is needed for rows without neighbour, which is why the ground is cut
where the plane of a row meets it: a vertical surface sees two equal stretches on its two sides,
but the formula gives 0 for both together. -/
theorem C05_straddle : ∃ (l : Line) (a b c : ℝ), 0 < l.b1.y ∧ 0 < l.b2.y ∧ a ≤ b ∧ b ≤ c ∧
    vfSurfSurf l (groundPiece a c) 1
      ≠ vfSurfSurf l (groundPiece a b) 1 + vfSurfSurf l (groundPiece b c) 1 := by
  refine ⟨⟨⟨0, 1⟩, ⟨0, 2⟩⟩, -1, 0, 1, by norm_num, by norm_num, by norm_num, by norm_num, ?_⟩
  have hw : (1:ℝ) > TOL := by norm_num [TOL]
  simp only [vfSurfSurf_crossed, hw, if_true, crossed, distPt]
  have s1 : (1:ℝ) < Real.sqrt 2 := by
    rw [Real.lt_sqrt] <;> norm_num
  have s2 : Real.sqrt 2 ^ 2 = 2 := Real.sq_sqrt (by norm_num)
  have s5 : Real.sqrt 5 ^ 2 = 5 := Real.sq_sqrt (by norm_num)
  have s4 : Real.sqrt 4 = 2 := by
    rw [show (4:ℝ) = 2 ^ 2 by norm_num]; exact Real.sqrt_sq (by norm_num)
  have h5 : Real.sqrt 5 < 1 + Real.sqrt 2 := by
    nlinarith [Real.sqrt_nonneg 5, Real.sqrt_nonneg 2]
  norm_num
  rw [s4]
  have : 1 - 2 - (Real.sqrt 2 - Real.sqrt 5) < 0 := by linarith
  intro h
  have a1 := abs_pos.2 this.ne
  have a2 := abs_nonneg (Real.sqrt 2 - Real.sqrt 5 - (1 - 2))
  exact absurd h (ne_of_lt (by positivity))

/-- The hypotheses of C05 can be met: a surface tilted by 45 degrees, ground to its left. -/
theorem C05_demo : ∃ l : Line, 0 < l.b1.y ∧ 0 < l.b2.y ∧ SameSide l (-50) 0 := by
  refine ⟨⟨⟨1, 1⟩, ⟨2, 2⟩⟩, by norm_num, by norm_num, ?_⟩
  left
  norm_num [sideOf]

end PVF

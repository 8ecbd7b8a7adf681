import Verif.Model.Ground
import Mathlib.Tactic.Linarith
import Mathlib.Tactic.NormNum
import Mathlib.Algebra.Order.Ring.Unbundled.Rat
import Mathlib.Order.Lattice

/-! # Cutting ground elements -/

namespace PVF

/-- The cut point, clipped to the ground. -/
noncomputable def XR.clipped : XR → ℝ
  | .negInf => MIN_X
  | .fin c => max MIN_X (min c MAX_X)
  | .posInf => MAX_X

/-- An x coordinate on the ground. -/
def InGround (x : ℝ) : Prop := MIN_X ≤ x ∧ x ≤ MAX_X

theorem MIN_lt_MAX : MIN_X < MAX_X := by norm_num [MIN_X, MAX_X]

theorem XR.clipped_inGround (c : XR) : InGround c.clipped := by
  have := MIN_lt_MAX.le
  cases c with
  | negInf => exact ⟨le_rfl, this⟩
  | fin c => exact ⟨le_max_left _ _, max_le this (min_le_right _ _)⟩
  | posInf => exact ⟨this, le_rfl⟩

theorem leftOfCutX_eq {x : ℝ} (hx : InGround x) (c : XR) : leftOfCutX x c = min x c.clipped := by
  obtain ⟨h1, h2⟩ := hx
  cases c with
  | negInf => simp [leftOfCutX, XR.clipped, h1]
  | posInf => simp [leftOfCutX, XR.clipped, h1, h2]
  | fin c =>
    simp only [leftOfCutX, XR.clipped]
    rcases le_total c MAX_X with h3 | h3
    · rw [min_eq_left h3]
      rcases le_total c MIN_X with h4 | h4
      · rw [max_eq_left h4, min_eq_right h1, max_eq_right]
        exact (min_le_right _ _).trans h4
      · rw [max_eq_right h4, max_eq_left]
        exact le_min h1 h4
    · rw [min_eq_right h3, max_eq_right MIN_lt_MAX.le, min_eq_left h2, min_eq_left (h2.trans h3),
        max_eq_left h1]

theorem rightOfCutX_eq {x : ℝ} (hx : InGround x) (c : XR) : rightOfCutX x c = max x c.clipped := by
  obtain ⟨h1, h2⟩ := hx
  cases c with
  | negInf => simp [rightOfCutX, XR.clipped, h1, h2]
  | posInf => simp [rightOfCutX, XR.clipped, h2]
  | fin c =>
    simp only [rightOfCutX, XR.clipped]
    rcases le_total c MAX_X with h3 | h3
    · rw [min_eq_left h3]
      rcases le_total c MIN_X with h4 | h4
      · rw [max_eq_left h4, max_eq_left h1, max_eq_left (h4.trans h1), min_eq_left h2]
      · rw [max_eq_right h4, min_eq_left]
        exact max_le h2 h3
    · rw [min_eq_right h3, max_eq_right MIN_lt_MAX.le, max_eq_right h2, min_eq_right]
      exact h3.trans (le_max_right _ _)

theorem inGround_min {x y : ℝ} (hx : InGround x) (hy : InGround y) : InGround (min x y) :=
  ⟨le_min hx.1 hy.1, (min_le_left _ _).trans hx.2⟩

theorem inGround_max {x y : ℝ} (hx : InGround x) (hy : InGround y) : InGround (max x y) :=
  ⟨hx.1.trans (le_max_left _ _), max_le hx.2 hy.2⟩

/-- Both ends of the line are on the ground. -/
def LineInGround (l : Line) : Prop :=
  InGround l.b1.x ∧ InGround l.b2.x ∧ l.b1.y = Y_GROUND ∧ l.b2.y = Y_GROUND

theorem coordsLeft_eq {l : Line} (h : LineInGround l) (c : XR) :
    coordsLeftOfCut l c = ⟨⟨min l.b1.x c.clipped, Y_GROUND⟩, ⟨min l.b2.x c.clipped, Y_GROUND⟩⟩ := by
  simp [coordsLeftOfCut, leftOfCutX_eq h.1, leftOfCutX_eq h.2.1, h.2.2.1, h.2.2.2]

theorem coordsRight_eq {l : Line} (h : LineInGround l) (c : XR) :
    coordsRightOfCut l c = ⟨⟨max l.b1.x c.clipped, Y_GROUND⟩, ⟨max l.b2.x c.clipped, Y_GROUND⟩⟩ := by
  simp [coordsRightOfCut, rightOfCutX_eq h.1, rightOfCutX_eq h.2.1, h.2.2.1, h.2.2.2]

theorem coordsLeft_inGround {l : Line} (h : LineInGround l) (c : XR) :
    LineInGround (coordsLeftOfCut l c) := by
  rw [coordsLeft_eq h]
  exact ⟨inGround_min h.1 c.clipped_inGround, inGround_min h.2.1 c.clipped_inGround, rfl, rfl⟩

theorem coordsRight_inGround {l : Line} (h : LineInGround l) (c : XR) :
    LineInGround (coordsRightOfCut l c) := by
  rw [coordsRight_eq h]
  exact ⟨inGround_max h.1 c.clipped_inGround, inGround_max h.2.1 c.clipped_inGround, rfl, rfl⟩

theorem cutSurfaces_length (l : Line) (cs : List XR) : (cutSurfaces l cs).length = cs.length + 1 := by
  induction cs generalizing l with
  | nil => rfl
  | cons c cs ih => simp [cutSurfaces, ih]

theorem cutSurfaces_inGround {l : Line} (h : LineInGround l) (cs : List XR) :
    ∀ s ∈ cutSurfaces l cs, LineInGround s := by
  induction cs generalizing l with
  | nil => intro s hs; simp only [cutSurfaces, List.mem_singleton] at hs; rw [hs]; exact h
  | cons c cs ih =>
    intro s hs
    simp only [cutSurfaces, List.mem_cons] at hs
    rcases hs with rfl | hs
    · exact coordsLeft_inGround h c
    · exact ih (coordsRight_inGround h c) s hs

/-- The pieces, for any function of the x coordinate: the sum of its increments over the pieces is
its increment over the element. -/
theorem cutSurfaces_telescope (A : ℝ → ℝ) {l : Line} (h : LineInGround l) (cs : List XR) :
    ((cutSurfaces l cs).map fun s => A s.b2.x - A s.b1.x).sum = A l.b2.x - A l.b1.x := by
  induction cs generalizing l with
  | nil => simp [cutSurfaces]
  | cons c cs ih =>
    simp only [cutSurfaces, List.map_cons, List.sum_cons]
    rw [ih (coordsRight_inGround h c), coordsLeft_eq h, coordsRight_eq h]
    simp only
    have e : ∀ x : ℝ, A (min x c.clipped) + A (max x c.clipped) = A x + A c.clipped := by
      intro x
      rcases le_total x c.clipped with h | h
      · rw [min_eq_left h, max_eq_right h]
      · rw [min_eq_right h, max_eq_left h]; ring
    have e1 := e l.b1.x
    have e2 := e l.b2.x
    linarith

theorem Line.length_ground {l : Line} (h : l.b1.y = l.b2.y) : l.length = |l.b2.x - l.b1.x| := by
  unfold Line.length
  rw [h, sub_self]
  simp [Real.sqrt_sq_eq_abs]

theorem cutSurfaces_ordered {l : Line} (h : LineInGround l) (hle : l.b1.x ≤ l.b2.x)
    (cs : List XR) : ∀ s ∈ cutSurfaces l cs, s.b1.x ≤ s.b2.x := by
  induction cs generalizing l with
  | nil => intro s hs; simp only [cutSurfaces, List.mem_singleton] at hs; rw [hs]; exact hle
  | cons c cs ih =>
    intro s hs
    simp only [cutSurfaces, List.mem_cons] at hs
    rcases hs with rfl | hs
    · rw [coordsLeft_eq h]
      exact min_le_min_right _ hle
    · refine ih (coordsRight_inGround h c) ?_ s hs
      rw [coordsRight_eq h]
      exact max_le_max_right _ hle

/-- Sorted cut points. -/
def SortedCuts (cs : List XR) : Prop := cs.Pairwise fun a b => a.clipped ≤ b.clipped

/-- Closed form of the pieces for sorted cut points.  Piece `z` is the element clamped to the zone
between cut points `z - 1` and `z`. -/
theorem cutSurfaces_getElem {l : Line} (h : LineInGround l) {cs : List XR} (hcs : SortedCuts cs)
    (z : ℕ) (hz : z ≤ cs.length) :
    (cutSurfaces l cs)[z]? = some
      (let f := fun x : ℝ =>
        min (max x (if z = 0 then MIN_X else ((cs[z - 1]?).map XR.clipped).getD 0))
          (((cs[z]?).map XR.clipped).getD MAX_X)
       ⟨⟨f l.b1.x, Y_GROUND⟩, ⟨f l.b2.x, Y_GROUND⟩⟩) := by
  induction cs generalizing l z with
  | nil =>
    have : z = 0 := by simpa using hz
    subst this
    simp only [cutSurfaces, List.getElem?_cons_zero, Option.some.injEq]
    ext <;> simp [h.1.1, h.1.2, h.2.1.1, h.2.1.2, h.2.2.1, h.2.2.2]
  | cons c cs ih =>
    rw [SortedCuts, List.pairwise_cons] at hcs
    cases z with
    | zero =>
      simp only [cutSurfaces, List.getElem?_cons_zero]
      rw [coordsLeft_eq h]
      simp [h.1.1, h.2.1.1]
    | succ z =>
      simp only [cutSurfaces, List.getElem?_cons_succ]
      rw [ih (coordsRight_inGround h c) hcs.2 z (by simpa using hz), coordsRight_eq h]
      congr 1
      have hmax : ∀ x : ℝ, max (max x c.clipped) (if z = 0 then MIN_X else
            ((cs[z - 1]?).map XR.clipped).getD 0)
          = max x (((c :: cs)[z]?.map XR.clipped).getD 0) := by
        intro x
        cases z with
        | zero =>
          simp only [if_true, List.getElem?_cons_zero, Option.map_some, Option.getD_some]
          exact max_eq_left (c.clipped_inGround.1.trans (le_max_right _ _))
        | succ z =>
          have hz' : z < cs.length := by simpa using hz
          have := hcs.1 cs[z] (List.getElem_mem hz')
          simp [hz', max_assoc, this]
      simp only [Nat.succ_ne_zero, if_false, Nat.add_sub_cancel, hmax]

end PVF

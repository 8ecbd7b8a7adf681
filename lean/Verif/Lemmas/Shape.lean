import Verif.Spec.Shape
import Verif.Lemmas.ArrayGeom
import Verif.Lemmas.Short
import Verif.Lemmas.Entries

/-! # Lines under maps that keep or scale distances -/

namespace PVF

/-- The image of a line. -/
def Line.map (T : Pt → Pt) (l : Line) : Line := ⟨T l.b1, T l.b2⟩

/-- The images of the lines of a segment. -/
def SegGeom.map (T : Pt → Pt) (s : SegGeom) : SegGeom :=
  ⟨s.coords.map T, s.illum.map T, s.shaded.map T⟩

/-- All distances are multiplied by `c`. -/
def Scales (c : ℝ) (T : Pt → Pt) : Prop := ∀ a b, distPt (T a) (T b) = c * distPt a b

theorem Scales.length {c : ℝ} {T : Pt → Pt} (h : Scales c T) (l : Line) :
    (l.map T).length = c * l.length := h _ _

/-- The move that puts `z` onto `z'` and multiplies distances by `c`. -/
def moveTo (c : ℝ) (z z' : Pt) (q : Pt) : Pt := ⟨z'.x + c * (q.x - z.x), z'.y + c * (q.y - z.y)⟩

theorem moveTo_scales {c : ℝ} (hc : 0 ≤ c) (z z' : Pt) : Scales c (moveTo c z z') := by
  intro a b
  simp only [distPt, moveTo]
  rw [← Real.sqrt_sq hc, ← Real.sqrt_mul (sq_nonneg c), Real.sqrt_sq hc]
  congr 1
  ring

/-- The mirror image that puts `z` onto `z'`. -/
def mirrorTo (z z' : Pt) (q : Pt) : Pt := ⟨z'.x - (q.x - z.x), z'.y + (q.y - z.y)⟩

theorem mirrorTo_scales (z z' : Pt) : Scales 1 (mirrorTo z z') := by
  intro a b
  simp only [distPt, mirrorTo, one_mul]
  congr 1
  ring

theorem vfSurfSurf_map {c : ℝ} {T : Pt → Pt} (h : Scales c T) (hc : 0 < c) {l1 l2 : Line}
    (hl : (l1.map T).length > TOL ↔ l1.length > TOL) :
    vfSurfSurf (l1.map T) (l2.map T) (l1.map T).length = vfSurfSurf l1 l2 l1.length := by
  simp only [vfSurfSurf, hl]
  have e : ∀ a b, distPt (T a) (T b) = c * distPt a b := h
  simp only [Line.map, e, h.length]
  have e1 : ((⟨T l1.b1, T l1.b2⟩ : Line)).length = c * l1.length := h _ _
  split_ifs with h1
  · have h2 : 0 < l1.length := lt_trans (by norm_num [TOL]) h1
    rw [e1]
    have : c * distPt l1.b1 l2.b2 + c * distPt l1.b2 l2.b1
        - (c * distPt l1.b1 l2.b1 + c * distPt l1.b2 l2.b2)
        = c * (distPt l1.b1 l2.b2 + distPt l1.b2 l2.b1
          - (distPt l1.b1 l2.b1 + distPt l1.b2 l2.b2)) := by ring
    rw [this, abs_mul, abs_of_pos hc]
    field_simp
  · rfl

theorem distPt_comm (a b : Pt) : distPt a b = distPt b a := by
  simp only [distPt]; congr 1; ring

theorem vfPvPv_map {c : ℝ} {T : Pt → Pt} (h : Scales c T) (hc : 0 < c) {l1 l2 : Line}
    (h1 : (l1.map T).length > TOL ↔ l1.length > TOL)
    (h2 : (l2.map T).length > TOL ↔ l2.length > TOL) (P : Prop) (b : Bool) :
    vfPvPv (l1.map T) (l2.map T) P b = vfPvPv l1 l2 P b := by
  simp only [vfPvPv, vfSurfSurf_map h hc h1, h2]
  congr 1
  split_ifs
  all_goals first
    | rfl
    | (rw [h.length, h.length, zero_mul, zero_mul, zero_div, zero_div])
    | (rw [h.length, h.length, mul_left_comm, mul_div_mul_left _ _ hc.ne'])

/-- The view factors with the surfaces exchanged. -/
theorem vfPvPv_swap {l1 l2 : Line} {P Q : Prop} {b : Bool} (h1 : l1.length > TOL)
    (h2 : l2.length > TOL) (hPQ : Q ↔ ¬ P) :
    vfPvPv l2 l1 Q (!b) = (vfPvPv l1 l2 P b).swap := by
  have p1 : 0 < l1.length := lt_trans (by norm_num [TOL]) h1
  have p2 : 0 < l2.length := lt_trans (by norm_num [TOL]) h2
  have key : vfSurfSurf l2 l1 l2.length * l2.length = vfSurfSurf l1 l2 l1.length * l1.length := by
    simp only [vfSurfSurf, if_pos h1, if_pos h2]
    rw [distPt_comm l2.b1 l1.b1, distPt_comm l2.b2 l1.b2, distPt_comm l2.b1 l1.b2,
      distPt_comm l2.b2 l1.b1, add_comm (distPt l1.b2 l2.b1)]
    field_simp
  have key' : vfSurfSurf l1 l2 l1.length * l1.length / l2.length = vfSurfSurf l2 l1 l2.length := by
    rw [← key]; field_simp
  have key'' : vfSurfSurf l2 l1 l2.length * l2.length / l1.length = vfSurfSurf l1 l2 l1.length := by
    rw [key]; field_simp
  obtain rfl : Q = ¬ P := propext hPQ
  simp only [vfPvPv, h1, h2, if_true, Prod.swap_prod_mk]
  by_cases hP : P <;> cases b <;> simp [hP, key', key'']

/-! ## Segments -/

theorem gt_iff_scaled {c x y x' y' : ℝ} (hc : 0 < c) (h : x' - y' = c * (x - y)) :
    x' > y' ↔ x > y := by
  constructor
  · intro h'
    have : 0 < c * (x - y) := by linarith
    have := (mul_pos_iff_of_pos_left hc).1 this
    linarith
  · intro h'
    have : 0 < c * (x - y) := mul_pos hc (by linarith)
    linarith

/-- A row moved to another place and made larger. -/
theorem sideSegment_move {c : ℝ} (hc : 0 < c) (z z' : Pt) (w rot : ℝ) (cut : ℕ) (L : ℝ) (k : ℕ) :
    sideSegment z' (c * w) rot cut (c * L) k
      = (sideSegment z w rot cut L k).map (moveTo c z z') := by
  have g1 : ∀ (A B S : ℝ), (c * A * S + z'.y > c * B * S + z'.y) ↔ (A * S + z.y > B * S + z.y) :=
    fun A B S => gt_iff_scaled hc (by ring)
  have e0 : c * w / 2 - c * L = c * (w / 2 - L) := by ring
  have e1 : ∀ x : ℝ, c * w / 2 - x * (c * w / cut) = c * (w / 2 - x * (w / cut)) := by
    intro x; ring
  have hx : ∀ A C : ℝ, z'.x + c * (A * C + z.x - z.x) = c * A * C + z'.x := by intros; ring
  have hy : ∀ A C : ℝ, z'.y + c * (A * C + z.y - z.y) = c * A * C + z'.y := by intros; ring
  by_cases hr : rot ≥ 0
  · simp only [sideSegment, shadePoint, hr, if_true, e0, e1, g1, SegGeom.map, Line.map, moveTo]
    split_ifs <;> simp only [hx, hy]
  · have g2 : ∀ (A B C D : ℝ), (c * A * C + z'.y > c * B * D + z'.y)
        ↔ (A * C + z.y > B * D + z.y) := fun A B C D => gt_iff_scaled hc (by ring)
    simp only [sideSegment, shadePoint, hr, if_false, e0, e1, g2, SegGeom.map, Line.map, moveTo]
    split_ifs <;> simp only [hx, hy]

/-- A row in the mirror. -/
theorem sideSegment_mirror (z z' : Pt) (w rot : ℝ) (hr : rot ≠ 0) (cut : ℕ) (L : ℝ) (k : ℕ)
    (hk : k < cut) :
    (sideSegment z' w (-rot) cut L (cut - 1 - k)).illum
      = (sideSegment z w rot cut L k).illum.map (mirrorTo z z') ∧
    (sideSegment z' w (-rot) cut L (cut - 1 - k)).shaded
      = (sideSegment z w rot cut L k).shaded.map (mirrorTo z z') := by
  have hcut : (cut : ℝ) ≠ 0 := by
    have : 0 < cut := by omega
    positivity
  have e1 : w / 2 - ((cut - 1 - k : ℕ) : ℝ) * (w / cut) = -(w / 2 - (k + 1) * (w / cut)) := by
    rw [show cut - 1 - k = cut - (k + 1) by omega, Nat.cast_sub (by omega)]
    push_cast
    field_simp
    ring
  have e2 : w / 2 - (((cut - 1 - k : ℕ) : ℝ) + 1) * (w / cut) = -(w / 2 - k * (w / cut)) := by
    rw [show cut - 1 - k = cut - (k + 1) by omega, Nat.cast_sub (by omega)]
    push_cast
    field_simp
    ring
  have hg : ∀ A B C D : ℝ, (A - B = C - D) → (A > B ↔ C > D) := by
    intro A B C D h
    constructor <;> intro h' <;> linarith
  rcases lt_or_gt_of_ne hr with h | h
  · have h1 : ¬ rot ≥ 0 := not_le.2 h
    have h2 : -rot ≥ 0 := by linarith
    simp only [sideSegment, shadePoint, h1, h2, if_true, if_false, e1, e2, Line.map, mirrorTo,
      cosd_add_180, sind_add_180, cosd_neg, sind_neg, ne_eq, neg_eq_zero, hr, not_false_eq_true,
      and_true]
    have m : ∀ A B : ℝ, (A * - -sind rot + z'.y > -B * - -sind rot + z'.y)
        ↔ (A * sind rot + z.y > B * -sind rot + z.y) := fun A B => hg _ _ _ _ (by ring)
    simp only [m]
    split_ifs <;> constructor <;> ext <;> simp only <;> ring
  · have h1 : rot ≥ 0 := h.le
    have h2 : ¬ -rot ≥ 0 := by linarith
    simp only [sideSegment, shadePoint, h1, h2, if_true, if_false, e1, e2, Line.map, mirrorTo,
      cosd_add_180, sind_add_180, cosd_neg, sind_neg, ne_eq, neg_eq_zero, hr, not_false_eq_true,
      and_true]
    have m : ∀ A B : ℝ, (A * -sind rot + z'.y > -B * - -sind rot + z'.y)
        ↔ (A * -sind rot + z.y > B * -sind rot + z.y) := fun A B => hg _ _ _ _ (by ring)
    simp only [m]
    split_ifs <;> constructor <;> ext <;> simp only <;> ring

end PVF

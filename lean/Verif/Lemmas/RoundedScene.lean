import Verif.Spec.RoundedScene
import Verif.Lemmas.RoundedRow

/-! # Rounding errors of the coordinates of a whole scene -/

namespace PVF

/-! ## Choices of coordinates -/

theorem min_near {a a' b b' e : ℝ} (ha : |a' - a| ≤ e) (hb : |b' - b| ≤ e) :
    |min a' b' - min a b| ≤ e := (abs_min_sub_min_le_max _ _ _ _).trans (max_le ha hb)

theorem max_near {a a' b b' e : ℝ} (ha : |a' - a| ≤ e) (hb : |b' - b| ≤ e) :
    |max a' b' - max a b| ≤ e := (abs_max_sub_max_le_max _ _ _ _).trans (max_le ha hb)

theorem const_near {a e : ℝ} (he : 0 ≤ e) : |a - a| ≤ e := by simpa using he

/-- Cut points that are close, or at the same infinity. -/
def XRNear (e : ℝ) : XR → XR → Prop
  | .negInf, .negInf => True
  | .fin a, .fin b => |b - a| ≤ e
  | .posInf, .posInf => True
  | _, _ => False

theorem leftOfCutX_near {e x x' : ℝ} {c c' : XR} (hx : |x' - x| ≤ e) (hc : XRNear e c c') :
    |leftOfCutX x' c' - leftOfCutX x c| ≤ e := by
  have he := (abs_nonneg _).trans hx
  match c, c', hc with
  | .negInf, .negInf, _ => exact const_near he
  | .fin a, .fin b, h => exact max_near (min_near hx h) (const_near he)
  | .posInf, .posInf, _ => exact max_near hx (const_near he)

theorem rightOfCutX_near {e x x' : ℝ} {c c' : XR} (hx : |x' - x| ≤ e) (hc : XRNear e c c') :
    |rightOfCutX x' c' - rightOfCutX x c| ≤ e := by
  have he := (abs_nonneg _).trans hx
  match c, c', hc with
  | .negInf, .negInf, _ => exact min_near hx (const_near he)
  | .fin a, .fin b, h => exact min_near (max_near hx h) (const_near he)
  | .posInf, .posInf, _ => exact const_near he

/-- Lines whose ends are equally high and close. -/
def FlatNear (e : ℝ) (l l' : Line) : Prop :=
  (|l'.b1.x - l.b1.x| ≤ e ∧ |l'.b2.x - l.b2.x| ≤ e) ∧ l'.b1.y = l.b1.y ∧ l'.b2.y = l.b2.y

theorem cutSurfaces_near {e : ℝ} (he : 0 ≤ e) {l l' : Line} {cs cs' : List XR} (hl : FlatNear e l l')
    (hc : List.Forall₂ (XRNear e) cs cs') (k : ℕ) :
    FlatNear e ((cutSurfaces l cs).getD k default) ((cutSurfaces l' cs').getD k default) := by
  have d : FlatNear e default default := ⟨⟨const_near he, const_near he⟩, rfl, rfl⟩
  induction hc generalizing l l' k with
  | nil =>
    cases k with
    | zero => exact hl
    | succ k => simpa [cutSurfaces] using d
  | cons h _ ih =>
    cases k with
    | zero =>
      exact ⟨⟨leftOfCutX_near hl.1.1 h, leftOfCutX_near hl.1.2 h⟩, hl.2⟩
    | succ k =>
      simp only [cutSurfaces, List.getD_cons_succ]
      exact ih (l := coordsRightOfCut _ _) (l' := coordsRightOfCut _ _)
        ⟨⟨rightOfCutX_near hl.1.1 h, rightOfCutX_near hl.1.2 h⟩, hl.2⟩ k

theorem FlatNear.dist {e : ℝ} {l l' : Line} (h : FlatNear e l l') :
    distPt l.b1 l'.b1 ≤ e ∧ distPt l.b2 l'.b2 ≤ e := by
  have key : ∀ {x y : Pt}, |y.x - x.x| ≤ e → y.y = x.y → distPt x y ≤ e := fun h1 h2 => by
    have := Arith.dist_le_of h1 (show |_ - _| ≤ (0 : ℝ) by rw [h2]; simp)
    linarith
  exact ⟨key h.1.1 h.2.1, key h.1.2 h.2.2⟩

/-- Ground elements from shadows that are close. -/
theorem ground_near {e : ℝ} (he : 0 ≤ e) {g g' : GroundIn} (hn : g'.nRows = g.nRows)
    (hf : g'.flagOverlap ↔ g.flagOverlap)
    (hs : ∀ i < g.nRows, |(g'.shadowXs i).1 - (g.shadowXs i).1| ≤ e ∧
      |(g'.shadowXs i).2 - (g.shadowXs i).2| ≤ e) :
    (∀ i < g.nRows, FlatNear e (g.shadowEl i) (g'.shadowEl i)) ∧
    ∀ i ≤ g.nRows, FlatNear e (g.illumEl i) (g'.illumEl i) := by
  have clipn : ∀ {x x' : ℝ}, |x' - x| ≤ e → |clip x' MIN_X MAX_X - clip x MIN_X MAX_X| ≤ e :=
    fun h => min_near (max_near h (const_near he)) (const_near he)
  have h1 : ∀ i < g.nRows, FlatNear e (g.shadowEl i) (g'.shadowEl i) := by
    intro i hi
    refine ⟨⟨clipn (hs i hi).1, clipn ?_⟩, rfl, rfl⟩
    unfold GroundIn.noOverlap
    dsimp only
    rw [hn]
    by_cases h : i + 1 < g.nRows ∧ g.flagOverlap
    · rw [if_pos h, if_pos ⟨h.1, hf.2 h.2⟩]; exact (hs _ h.1).1
    · rw [if_neg h, if_neg fun h' => h ⟨h'.1, hf.1 h'.2⟩]; exact (hs i hi).2
  refine ⟨h1, fun i hi => ⟨⟨?_, ?_⟩, rfl, rfl⟩⟩
  · unfold GroundIn.illumEl
    dsimp only
    by_cases h : i = 0
    · simp only [if_pos h]; exact const_near he
    · simp only [if_neg h]; exact (h1 (i - 1) (by omega)).1.2
  · unfold GroundIn.illumEl
    dsimp only
    rw [hn]
    by_cases h : i < g.nRows
    · simp only [if_pos h]; exact (h1 i h).1.1
    · simp only [if_neg h]; exact const_near he

/-! ## Ends of shade -/

/-- The end of the shade on a segment from `L` up to `H`, when the shade ends at `S`. -/
noncomputable def shadeEnd (L H S : Pt) : Pt :=
  if S.y > L.y ∧ ¬ S.y > H.y then S else if S.y > H.y then H else L

theorem shadeEnd_near {L H S L' H' S' : Pt} {e s : ℝ} (hs : 0 < s)
    (hLH : L.y ≤ H.y)
    (hl : |L'.x - L.x| ≤ e ∧ |L'.y - L.y| ≤ e) (hh : |H'.x - H.x| ≤ e ∧ |H'.y - H.y| ≤ e)
    (hS : |S'.x - S.x| ≤ e ∧ |S'.y - S.y| ≤ e)
    (d1 : distPt L H * s ≤ |L.y - H.y|) (d2 : distPt L S * s ≤ |L.y - S.y|)
    (d3 : distPt H S * s ≤ |H.y - S.y|) :
    distPt (shadeEnd L H S) (shadeEnd L' H' S') ≤ 2 * e * (1 + 1 / s) := by
  have he : 0 ≤ e := (abs_nonneg _).trans hl.1
  obtain ⟨l1, l2⟩ := abs_le.1 hl.2
  obtain ⟨h1, h2⟩ := abs_le.1 hh.2
  obtain ⟨s1, s2⟩ := abs_le.1 hS.2
  have z : ∀ x : Pt, distPt x x = 0 := fun x => by simp [distPt]
  have comm : ∀ x y : Pt, distPt x y = distPt y x := fun x y => by
    unfold distPt; congr 1; ring
  have key : ∀ {X Y Y' : Pt}, distPt X Y * s ≤ |X.y - Y.y| → |X.y - Y.y| ≤ 2 * e →
      |Y'.x - Y.x| ≤ e ∧ |Y'.y - Y.y| ≤ e → distPt X Y' ≤ 2 * e * (1 + 1 / s) := by
    intro X Y Y' h1 h2 h3
    have t1 := Arith.dist_le_of h3.1 h3.2
    have t2 := distPt_triangle X Y Y'
    have t3 : distPt X Y ≤ 2 * e * (1 / s) := by
      rw [mul_one_div, le_div_iff₀ hs]; linarith
    linarith
  have c1 : distPt H L * s ≤ |H.y - L.y| := by rw [comm, abs_sub_comm]; exact d1
  have c2 : distPt S L * s ≤ |S.y - L.y| := by rw [comm, abs_sub_comm]; exact d2
  have c3 : distPt S H * s ≤ |S.y - H.y| := by rw [comm, abs_sub_comm]; exact d3
  have self : ∀ {X : Pt}, distPt X X * s ≤ |X.y - X.y| ∧ |X.y - X.y| ≤ 2 * e := fun {X} => by
    rw [z, sub_self, abs_zero]; exact ⟨by simp, by linarith⟩
  unfold shadeEnd
  by_cases a1 : S.y > H.y
  · rw [if_neg (fun h => h.2 a1), if_pos a1]
    by_cases b1 : S'.y > H'.y
    · rw [if_neg (fun h => h.2 b1), if_pos b1]; exact key self.1 self.2 hh
    · by_cases b2 : S'.y > L'.y
      · rw [if_pos ⟨b2, b1⟩]
        exact key d3 (by rw [abs_le]; constructor <;> linarith) hS
      · rw [if_neg (fun h => b2 h.1), if_neg b1]
        exact key c1 (by rw [abs_le]; constructor <;> linarith) hl
  · by_cases a2 : S.y > L.y
    · rw [if_pos ⟨a2, a1⟩]
      by_cases b1 : S'.y > H'.y
      · rw [if_neg (fun h => h.2 b1), if_pos b1]
        exact key c3 (by rw [abs_le]; constructor <;> linarith) hh
      · by_cases b2 : S'.y > L'.y
        · rw [if_pos ⟨b2, b1⟩]; exact key self.1 self.2 hS
        · rw [if_neg (fun h => b2 h.1), if_neg b1]
          exact key c2 (by rw [abs_le]; constructor <;> linarith) hl
    · rw [if_neg (fun h => a2 h.1), if_neg a1]
      by_cases b1 : S'.y > H'.y
      · rw [if_neg (fun h => h.2 b1), if_pos b1]
        exact key d1 (by rw [abs_le]; constructor <;> linarith) hh
      · by_cases b2 : S'.y > L'.y
        · rw [if_pos ⟨b2, b1⟩]
          exact key d2 (by rw [abs_le]; constructor <;> linarith) hS
        · rw [if_neg (fun h => b2 h.1), if_neg b1]; exact key self.1 self.2 hl

/-- Ends of lines keep their order if they are further apart in height than the errors. -/
theorem highest_near {l l' : Line} {τ : ℝ} (hn : distPt l.b1 l'.b1 ≤ τ ∧ distPt l.b2 l'.b2 ≤ τ)
    (h : l.length = 0 ∨ 2 * τ < |l.b1.y - l.b2.y|) :
    distPt l.highest l'.highest ≤ τ ∧ distPt l.lowest l'.lowest ≤ τ := by
  have hy : ∀ {x y : Pt}, distPt x y ≤ τ → |x.y - y.y| ≤ τ := fun {x y} hd => by
    refine le_trans ?_ hd
    unfold distPt
    rw [abs_sub_comm]
    exact Real.abs_le_sqrt (by nlinarith [sq_nonneg (y.x - x.x)])
  rcases h with h | h
  · have e : l.b1 = l.b2 := by
      unfold Line.length at h
      rw [Real.sqrt_eq_zero (by positivity)] at h
      have q1 := sq_nonneg (l.b2.y - l.b1.y)
      have q2 := sq_nonneg (l.b2.x - l.b1.x)
      have h1 : (l.b2.y - l.b1.y) ^ 2 = 0 := by linarith
      have h2 : (l.b2.x - l.b1.x) ^ 2 = 0 := by linarith
      have h3 := (pow_eq_zero_iff two_ne_zero).1 h1
      have h4 := (pow_eq_zero_iff two_ne_zero).1 h2
      exact Pt.ext (by linarith) (by linarith)
    have eh : l.highest = l.b1 := by unfold Line.highest; simp only [e, le_refl, ge_iff_le, if_true]
    have el : l.lowest = l.b1 := by unfold Line.lowest; simp only [e, le_refl, ge_iff_le, if_true]
    rw [← e] at hn
    rw [eh, el]
    unfold Line.highest Line.lowest
    by_cases c : l'.b1.y ≥ l'.b2.y
    · simp only [if_pos c]; exact hn
    · simp only [if_neg c]; exact hn.symm
  · have y1 := abs_le.1 (hy hn.1)
    have y2 := abs_le.1 (hy hn.2)
    unfold Line.highest Line.lowest
    by_cases c : l.b1.y ≥ l.b2.y
    · have : |l.b1.y - l.b2.y| = l.b1.y - l.b2.y := abs_of_nonneg (by linarith)
      rw [this] at h
      have c' : l'.b1.y ≥ l'.b2.y := by linarith [y1.2, y2.1]
      simp only [if_pos c, if_pos c']; exact hn
    · have : |l.b1.y - l.b2.y| = -(l.b1.y - l.b2.y) := abs_of_nonpos (by linarith)
      rw [this] at h
      have c' : ¬ l'.b1.y ≥ l'.b2.y := by linarith [y1.1, y2.2]
      simp only [if_neg c, if_neg c']; exact hn.symm

/-! ## Errors of numbers -/

namespace Arith
variable {ε : ℝ} (h0 : 0 ≤ ε) (h1 : ε < 1) (A : Arith ε)
include h0 h1

/-- One coordinate of an end of a row or segment, for a computed center. -/
theorem coord_near {r' r m η t' t x' x X B : ℝ} (hr : Near ε 3 r' r m) (hm : m ≤ 3 / 2 * B)
    (hx : Near ε 3 x' x X) (hX : X ≤ B) (ht : |t' - t| ≤ η) (ht1 : |t| ≤ 1) :
    |A.add (A.mul r' t') x' - (r * t + x)| ≤ endErr ε η B := by
  have hm0 : 0 ≤ m := (abs_nonneg r).trans hr.2
  have hη : 0 ≤ η := (abs_nonneg _).trans ht
  have ht' : |t'| ≤ 1 + η := by
    have := abs_add_le (t' - t) t
    rw [sub_add_cancel] at this
    linarith
  have n1 := (hr.mul h0 h1 (near_self ht')).round h0 h1 (A.mul_err _ _)
  have n2 := ((n1.add h0 h1 (hx.mono h0 h1 (show 3 ≤ 3 + 0 + 1 by norm_num))).round h0 h1
    (A.add_err _ _)).1
  have e1 : |A.add (A.mul r' t') x' - (r * t + x)|
      ≤ (grow ε ^ 5 - 1) * (m * (1 + η) + X) + m * η := by
    refine (abs_sub_le _ (r * t' + x) _).trans (add_le_add n2 ?_)
    rw [show r * t' + x - (r * t + x) = r * (t' - t) by ring, abs_mul]
    exact mul_le_mul hr.2 ht (abs_nonneg _) hm0
  refine e1.trans ?_
  unfold endErr
  have g := sub_nonneg.2 (grow_pow_one h0 h1 5)
  refine add_le_add (mul_le_mul_of_nonneg_left ?_ g) (mul_le_mul_of_nonneg_right hm hη)
  have := mul_le_mul_of_nonneg_right hm (show 0 ≤ 1 + η by linarith)
  linarith

theorem distance_near {p : ArrayParams} {B : ℝ} (hB : ArraySize p B) :
    Near ε 1 (A.distance p) p.distance p.distance :=
  (near_self (le_of_eq (abs_of_nonneg (div_nonneg hB.width_pos.le hB.gcr_pos.le)))).round h0 h1
    (A.div_err _ _)

/-- The computed center of a row. -/
theorem center_near {p : ArrayParams} {B : ℝ} (hB : ArraySize p B) {i : ℕ} (hi : i < p.nRows) :
    (∃ X ≤ B, Near ε 3 (A.rowCenter p i).x (PVF.rowCenter p i).x X) ∧
    (∃ X ≤ B, Near ε 3 (A.rowCenter p i).y (PVF.rowCenter p i).y X) := by
  have hi0 : |(i : ℝ)| ≤ i := le_of_eq (abs_of_nonneg (Nat.cast_nonneg i))
  have n1 := ((near_self (ε := ε) hi0).mul h0 h1 (A.distance_near h0 h1 hB)).round h0 h1
    (A.mul_err _ _)
  have n2 := (((near_self (ε := ε) (le_refl |X_ORIGIN|)).mono h0 h1 (Nat.zero_le _)).add h0 h1
    n1).round h0 h1 (A.add_err _ _)
  have n3 := ((near_self (ε := ε) (le_refl |p.height|)).add h0 h1
    (near_self (ε := ε) (le_refl |Y_GROUND|))).round h0 h1 (A.add_err _ _)
  refine ⟨⟨_, ?_, n2⟩, ⟨_, ?_, n3.mono h0 h1 (by norm_num)⟩⟩
  · have := hB.place i hi
    simpa [X_ORIGIN] using this
  · have := hB.height
    simpa [Y_GROUND] using this

/-- The computed `delta`. -/
theorem delta_near {p : ArrayParams} {B rot alpha η K : ℝ} {T : Trig} (hB : ArraySize p B)
    (hT : TrigNear rot alpha T η K) :
    Near ε 4 (A.shadingDelta p T) (p.distance * (T.sinTheta - T.cosTheta * T.tanBeta))
      (B * ((1 + η) * (1 + K + η))) ∧
    |p.distance * (T.sinTheta - T.cosTheta * T.tanBeta) - PVF.shadingDelta p.distance alpha rot|
      ≤ B * (η * (2 + K + η)) := by
  have hη : 0 ≤ η := (abs_nonneg _).trans hT.cs
  have hK : 0 ≤ K := (abs_nonneg _).trans hT.tanBeta_le
  have hd : 0 ≤ p.distance := div_nonneg hB.width_pos.le hB.gcr_pos.le
  have up : ∀ {x' x m : ℝ}, |x' - x| ≤ η → |x| ≤ m → |x'| ≤ m + η := fun {x' x m} h1 h2 => by
    have := abs_add_le (x' - x) x
    rw [sub_add_cancel] at this
    linarith
  have bs := up hT.sinTheta (Real.abs_sin_le_one _)
  have bc := up hT.cosTheta (Real.abs_cos_le_one _)
  have bt := up hT.tanBeta hT.tanBeta_le
  have n1 := ((near_self (ε := ε) bc).mul h0 h1 (near_self bt)).round h0 h1 (A.mul_err _ _)
  have n2 := (((near_self (ε := ε) bs).mono h0 h1 (Nat.zero_le _)).sub h0 h1 n1).round h0 h1
    (A.sub_err _ _)
  have n3 := ((A.distance_near h0 h1 hB).mul h0 h1 n2).round h0 h1 (A.mul_err _ _)
  constructor
  · have hle : p.distance * (1 + η + (1 + η) * (K + η)) ≤ B * ((1 + η) * (1 + K + η)) := by
      rw [show (1 + η) + (1 + η) * (K + η) = (1 + η) * (1 + K + η) by ring]
      exact mul_le_mul_of_nonneg_right hB.distance (by positivity)
    exact ⟨n3.1.trans (mul_le_mul_of_nonneg_left hle (sub_nonneg.2 (grow_pow_one h0 h1 _))),
      n3.2.trans hle⟩
  · unfold PVF.shadingDelta
    dsimp only
    rw [← mul_sub, abs_mul, abs_of_nonneg hd]
    refine mul_le_mul hB.distance ?_ (abs_nonneg _) (hd.trans hB.distance)
    set s := Real.sin (deg2rad (90 - rot))
    set c := Real.cos (deg2rad (90 - rot))
    set t := Real.tan (deg2rad (90 - rot + rad2deg alpha))
    rw [show T.sinTheta - T.cosTheta * T.tanBeta - (s - c * t)
      = (T.sinTheta - s) - (T.cosTheta * (T.tanBeta - t) + (T.cosTheta - c) * t) by ring]
    refine (abs_sub _ _).trans ?_
    have a1 := abs_add_le (T.cosTheta * (T.tanBeta - t)) ((T.cosTheta - c) * t)
    rw [abs_mul, abs_mul] at a1
    have a2 := mul_le_mul bc hT.tanBeta (abs_nonneg _) (by positivity)
    have a3 := mul_le_mul hT.cosTheta hT.tanBeta_le (abs_nonneg _) hη
    have a4 := hT.sinTheta
    nlinarith

/-- Computed lengths of the unshaded parts (before they are limited). -/
theorem tmp_near {p : ArrayParams} {B rot alpha η K : ℝ} {T : Trig} (hB : ArraySize p B)
    (hT : TrigNear rot alpha T η K) :
    |A.sub p.width (A.shadingDelta p T) - (p.width - PVF.shadingDelta p.distance alpha rot)|
      ≤ shadeErr ε η B K ∧
    |A.add p.width (A.shadingDelta p T) - (p.width + PVF.shadingDelta p.distance alpha rot)|
      ≤ shadeErr ε η B K := by
  obtain ⟨n, e⟩ := A.delta_near h0 h1 hB hT
  have g := sub_nonneg.2 (grow_pow_one h0 h1 5)
  have w := (near_self (ε := ε) ((abs_of_nonneg hB.width_pos.le).le.trans hB.width)).mono h0 h1
    (Nat.zero_le 4)
  have s1 := ((w.sub h0 h1 n).round h0 h1 (A.sub_err _ _)).1
  have s2 := ((w.add h0 h1 n).round h0 h1 (A.add_err _ _)).1
  have hm : (grow ε ^ 5 - 1) * (B + B * ((1 + η) * (1 + K + η)))
      = (grow ε ^ 5 - 1) * (B * (1 + (1 + η) * (1 + K + η))) := by ring
  rw [hm] at s1 s2
  unfold shadeErr
  constructor
  · refine (abs_sub_le _ _ _).trans (add_le_add s1 ?_)
    rw [sub_sub_sub_cancel_left, abs_sub_comm]; exact e
  · refine (abs_sub_le _ _ _).trans (add_le_add s2 ?_)
    rw [add_sub_add_left_eq_sub]; exact e

omit h0 h1 in
/-- Limiting a shaded length does not make its error larger, unless it is close to the width. -/
theorem limit_near {w z z' e : ℝ} (hw : 0 < w) (hz : |z' - z| ≤ e) (hm : e < |z - w|) :
    |(if max 0 z' > w then 0 else max 0 z') - (if max 0 z > w then 0 else max 0 z)| ≤ e := by
  have he := (abs_nonneg _).trans hz
  obtain ⟨z1, z2⟩ := abs_le.1 hz
  rcases lt_abs.1 hm with h | h
  · rw [if_pos (lt_max_of_lt_right (by linarith)), if_pos (lt_max_of_lt_right (by linarith))]
    simpa using he
  · rw [if_neg (not_lt.2 (max_le hw.le (by linarith))), if_neg (not_lt.2 (max_le hw.le (by linarith)))]
    exact max_near (const_near he) hz

/-- Computed shaded lengths. -/
theorem interrow_near {p : ArrayParams} {B rot alpha η K : ℝ} {T : Trig} (hB : ArraySize p B)
    (hT : TrigNear rot alpha T η K)
    (hm : 1 < p.nRows → shadeErr ε η B K < |PVF.shadingDelta p.distance alpha rot|) :
    |(A.interrowShading p T).1 - (PVF.interrowShading p alpha rot).1| ≤ shadeErr ε η B K ∧
    |(A.interrowShading p T).2 - (PVF.interrowShading p alpha rot).2| ≤ shadeErr ε η B K := by
  obtain ⟨t1, t2⟩ := A.tmp_near h0 h1 hB hT
  have he := (abs_nonneg _).trans t1
  unfold Arith.interrowShading PVF.interrowShading
  by_cases h : p.nRows > 1
  · simp only [if_pos h]
    have := hm h
    exact ⟨limit_near hB.width_pos t1 (by rw [sub_sub_cancel_left, abs_neg]; exact this),
      limit_near hB.width_pos t2 (by rw [add_sub_cancel_left]; exact this)⟩
  · simp only [if_neg h]
    exact ⟨const_near he, const_near he⟩

omit h0 h1 in
theorem interrow_range (p : ArrayParams) (T : Trig) (hw : 0 ≤ p.width) :
    (0 ≤ (A.interrowShading p T).1 ∧ (A.interrowShading p T).1 ≤ p.width) ∧
    (0 ≤ (A.interrowShading p T).2 ∧ (A.interrowShading p T).2 ≤ p.width) := by
  have key : ∀ z : ℝ, 0 ≤ (if max 0 z > p.width then 0 else max 0 z) ∧
      (if max 0 z > p.width then 0 else max 0 z) ≤ p.width := by
    intro z
    split_ifs with h
    · exact ⟨le_rfl, hw⟩
    · exact ⟨le_max_left _ _, not_lt.1 h⟩
  unfold Arith.interrowShading
  by_cases h : p.nRows > 1
  · simp only [if_pos h]; exact ⟨key _, key _⟩
  · simp only [if_neg h]; exact ⟨⟨le_rfl, hw⟩, le_rfl, hw⟩

omit h0 h1 in
/-- Shaded lengths of the rows. -/
theorem rowShaded_near {p : ArrayParams} {rot alpha e : ℝ} {T : Trig} (he : 0 ≤ e)
    (hw : 0 ≤ p.width)
    (h : |(A.interrowShading p T).1 - (PVF.interrowShading p alpha rot).1| ≤ e ∧
      |(A.interrowShading p T).2 - (PVF.interrowShading p alpha rot).2| ≤ e) (i : ℕ) :
    let s := A.rowShadedLengths p T rot i
    let s' := PVF.rowShadedLengths p alpha rot i
    (|s.1 - s'.1| ≤ e ∧ |s.2 - s'.2| ≤ e) ∧ (0 ≤ s.1 ∧ s.1 ≤ p.width) ∧ 0 ≤ s.2 ∧ s.2 ≤ p.width := by
  intro s s'
  have r := A.interrow_range p T hw
  have z : |(0 : ℝ) - 0| ≤ e := const_near he
  have zw : (0 : ℝ) ≤ 0 ∧ (0 : ℝ) ≤ p.width := ⟨le_rfl, hw⟩
  unfold s s' Arith.rowShadedLengths PVF.rowShadedLengths
  dsimp only
  by_cases h1 : i = 0
  · simp only [if_pos h1]
    by_cases h2 : rot > 0
    · simp only [if_pos h2]; exact ⟨⟨z, h.2⟩, zw, r.2⟩
    · simp only [if_neg h2]; exact ⟨⟨h.1, z⟩, r.1, zw⟩
  · simp only [if_neg h1]
    by_cases h3 : i = p.nRows - 1
    · simp only [if_pos h3]
      by_cases h2 : rot > 0
      · simp only [if_pos h2]; exact ⟨⟨h.1, z⟩, r.1, zw⟩
      · simp only [if_neg h2]; exact ⟨⟨z, h.2⟩, zw, r.2⟩
    · simp only [if_neg h3]; exact ⟨h, r⟩

/-- Where a line through an end of a row meets the ground. -/
theorem foot_near {x y x' y' tn c e M K η : ℝ} (hx : |x' - x| ≤ e) (hy : |y' - y| ≤ e)
    (hxM : |x| ≤ M) (hyM : |y| ≤ M) (hc : |1 / tn - c| ≤ η) (hK : |c| ≤ K) :
    |A.sub x' (A.div (A.sub y' Y_GROUND) tn) - (x - y * c)|
      ≤ (grow ε ^ 3 - 1) * ((M + e) * (1 + K + η)) + e * (1 + K + η) + M * η := by
  have he := (abs_nonneg _).trans hx
  have up : ∀ {x' x m e : ℝ}, |x' - x| ≤ e → |x| ≤ m → |x'| ≤ m + e := fun {x' x m e} h1 h2 => by
    have := abs_add_le (x' - x) x
    rw [sub_add_cancel] at this
    linarith
  have bx := up hx hxM
  have by' := up hy hyM
  have bt := up hc hK
  have hM : 0 ≤ M := (abs_nonneg _).trans hxM
  have n1 := ((near_self (ε := ε) by').sub h0 h1 (near_self (le_refl |Y_GROUND|))).round h0 h1
    (A.sub_err _ _)
  have n2 := n1.mul h0 h1 (near_self bt)
  rw [mul_one_div] at n2
  have n3 := n2.round h0 h1 (A.div_err _ _)
  have n4 := ((((near_self (ε := ε) bx).mono h0 h1 (Nat.zero_le _)).sub h0 h1 n3).round h0 h1
    (A.sub_err _ _)).1
  have hm : M + e + (M + e + |Y_GROUND|) * (K + η) = (M + e) * (1 + K + η) := by
    simp only [Y_GROUND, abs_zero]; ring
  rw [hm] at n4
  rw [add_assoc]
  refine (abs_sub_le _ _ _).trans (add_le_add n4 ?_)
  simp only [Y_GROUND, sub_zero]
  rw [show x' - y' * (1 / tn) - (x - y * c)
    = (x' - x) - ((y' - y) * (1 / tn) + y * (1 / tn - c)) by ring]
  refine (abs_sub _ _).trans ?_
  have a1 := abs_add_le ((y' - y) * (1 / tn)) (y * (1 / tn - c))
  rw [abs_mul, abs_mul] at a1
  have a2 := mul_le_mul hy bt (abs_nonneg _) he
  have a3 := mul_le_mul hyM hc (abs_nonneg _) hM
  linarith

end Arith
end PVF

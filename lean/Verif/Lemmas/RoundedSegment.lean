import Verif.Lemmas.RoundedScene

/-! # Errors of the coordinates of all surfaces -/

namespace PVF

theorem cosd_half_turn (x : ℝ) : cosd (x + 180) = -cosd x := by
  unfold cosd deg2rad
  rw [show (x + 180) * Real.pi / 180 = x * Real.pi / 180 + Real.pi by ring, Real.cos_add_pi]

theorem sind_half_turn (x : ℝ) : sind (x + 180) = -sind x := by
  unfold sind deg2rad
  rw [show (x + 180) * Real.pi / 180 = x * Real.pi / 180 + Real.pi by ring, Real.sin_add_pi]

/-- The point of a row at the (signed) distance `r` from its center. -/
noncomputable def turnPt (c : Pt) (rot r : ℝ) : Pt :=
  ⟨r * cosd (rot + 180) + c.x, r * sind (rot + 180) + c.y⟩

theorem turnPt_dist (c : Pt) (rot r r' : ℝ) : distPt (turnPt c rot r) (turnPt c rot r') = |r - r'| ∧
    distPt (turnPt c rot r) (turnPt c rot r') * |sind rot|
      = |(turnPt c rot r).y - (turnPt c rot r').y| := by
  have h : distPt (turnPt c rot r) (turnPt c rot r') = |r - r'| := by
    unfold distPt turnPt
    rw [← Real.sqrt_sq_eq_abs]
    congr 1
    have : sind (rot + 180) ^ 2 + cosd (rot + 180) ^ 2 = 1 := Real.sin_sq_add_cos_sq _
    dsimp only
    linear_combination (r' - r) ^ 2 * this
  refine ⟨h, ?_⟩
  rw [h, ← abs_mul]
  unfold turnPt
  dsimp only
  rw [sind_half_turn, ← abs_neg]
  congr 1; ring

theorem shadePoint_eq (c : Pt) (width rot sl : ℝ) : ∃ r, shadePoint c width rot sl = turnPt c rot r := by
  by_cases h : rot ≥ 0
  · refine ⟨width / 2 - sl, ?_⟩
    unfold shadePoint turnPt; simp only [if_pos h]
  · refine ⟨-(width / 2 - sl), ?_⟩
    unfold shadePoint turnPt
    simp only [if_neg h, cosd_half_turn, sind_half_turn, neg_mul_neg]

/-- The ends of a segment. -/
theorem sideSegment_ends (c : Pt) (width rot : ℝ) (cut : ℕ) (sl : ℝ) (i : ℕ) (hr : rot ≠ 0) :
    let P1 := turnPt c rot (width / 2 - i * (width / cut))
    let P2 := turnPt c rot (width / 2 - (i + 1) * (width / cut))
    let H := if rot ≥ 0 then P2 else P1
    let L := if rot ≥ 0 then P1 else P2
    let S := shadePoint c width rot sl
    (sideSegment c width rot cut sl i).illum = ⟨shadeEnd L H S, H⟩ ∧
    (sideSegment c width rot cut sl i).shaded = ⟨L, shadeEnd L H S⟩ := by
  intro P1 P2 H L S
  by_cases h : rot ≥ 0
  · have eH : H = P2 := if_pos h
    have eL : L = P1 := if_pos h
    rw [eH, eL]
    unfold sideSegment shadeEnd
    simp only [if_pos h, hr, ne_eq, not_false_eq_true, and_true]
    by_cases a : S.y > P2.y <;> by_cases b : S.y > P1.y <;>
      simp only [P1, P2, S, turnPt] at * <;> simp [a, b]
  · have eH : H = P1 := if_neg h
    have eL : L = P2 := if_neg h
    rw [eH, eL]
    unfold sideSegment shadeEnd
    simp only [if_neg h, hr, ne_eq, not_false_eq_true, and_true]
    by_cases a : S.y > P1.y <;> by_cases b : S.y > P2.y <;>
      simp only [P1, P2, S, turnPt] at * <;> simp [a, b]

/-- Surfaces of rows have the tilt of the row. -/
theorem sideSegment_tilt (c : Pt) (width rot : ℝ) (cut : ℕ) (sl : ℝ) (i : ℕ) (hr : rot ≠ 0)
    (sh : Bool) :
    let l := if sh then (sideSegment c width rot cut sl i).shaded
      else (sideSegment c width rot cut sl i).illum
    l.length * |sind rot| = |l.b1.y - l.b2.y| := by
  intro l
  obtain ⟨e1, e2⟩ := sideSegment_ends c width rot cut sl i hr
  obtain ⟨r, hS⟩ := shadePoint_eq c width rot sl
  rw [hS] at e1 e2
  have key : ∃ r1 r2, l = ⟨turnPt c rot r1, turnPt c rot r2⟩ := by
    unfold l
    rw [e1, e2]
    unfold shadeEnd
    cases sh <;> split_ifs <;> exact ⟨_, _, rfl⟩
  obtain ⟨r1, r2, e⟩ := key
  rw [e]
  exact (turnPt_dist c rot r1 r2).2

namespace Arith
variable {ε : ℝ} (h0 : 0 ≤ ε) (h1 : ε < 1) (A : Arith ε)
include h0 h1

/-- Computed surfaces of a segment. -/
theorem sideSegment_near {p : ArrayParams} {B rot alpha η K : ℝ} {T : Trig} (hB : ArraySize p B)
    (hT : TrigNear rot alpha T η K) (hsgn : 0 < rot * sind rot) {r : ℕ} (hr : r < p.nRows)
    {cut i : ℕ} (hi : i < cut) {sl sl' es : ℝ} (hes : |sl' - sl| ≤ es) (hs0 : 0 ≤ sl')
    (hsw : sl' ≤ p.width) :
    let s := PVF.sideSegment (PVF.rowCenter p r) p.width rot cut sl i
    let s' := A.sideSegment (A.rowCenter p r) p.width rot T cut sl' i
    let τ := 2 * (endErr ε η B + es) * (1 + 1 / |sind rot|)
    (distPt s.illum.b1 s'.illum.b1 ≤ τ ∧ distPt s.illum.b2 s'.illum.b2 ≤ τ) ∧
    distPt s.shaded.b1 s'.shaded.b1 ≤ τ ∧ distPt s.shaded.b2 s'.shaded.b2 ≤ τ := by
  intro s s' τ
  have hrot : rot ≠ 0 := by rintro rfl; simp at hsgn
  have hsin : sind rot ≠ 0 := by intro h; simp [h] at hsgn
  have hsp : 0 < |sind rot| := abs_pos.2 hsin
  have c1 : ∀ x, |cosd x| ≤ 1 := fun x => Real.abs_cos_le_one _
  have s1 : ∀ x, |sind x| ≤ 1 := fun x => Real.abs_sin_le_one _
  have he : 0 ≤ es := (abs_nonneg _).trans hes
  obtain ⟨⟨X, hX, nx⟩, ⟨Y, hY, ny⟩⟩ := A.center_near h0 h1 hB hr
  have i1 : (i : ℝ) ≤ cut := by exact_mod_cast hi.le
  have i2 : (i : ℝ) + 1 ≤ cut := by exact_mod_cast hi
  have hw32 : 3 / 2 * p.width ≤ 3 / 2 * B := by linarith [hB.width]
  have n1 := A.segRadius_near h0 h1 hB.width_pos.le cut (Nat.cast_nonneg i) i1
  have n2 := A.segRadius_near h0 h1 hB.width_pos.le cut (by positivity) i2
  -- the ends of the segment
  have cx1 := A.coord_near h0 h1 n1 hw32 nx hX hT.cs180 (c1 _)
  have cy1 := A.coord_near h0 h1 n1 hw32 ny hY hT.sn180 (s1 _)
  have cx2 := A.coord_near h0 h1 n2 hw32 nx hX hT.cs180 (c1 _)
  have cy2 := A.coord_near h0 h1 n2 hw32 ny hY hT.sn180 (s1 _)
  have hE : 0 ≤ endErr ε η B := (abs_nonneg _).trans cx1
  have up : ∀ {x : ℝ}, x ≤ endErr ε η B → x ≤ endErr ε η B + es := fun h => by linarith
  -- the end of the shade
  have nr : Near ε 3 (A.sub (A.div p.width 2) sl') (p.width / 2 - sl') (p.width / 2 + p.width) :=
    ((((A.radius_near h0 h1 hB.width_pos.le).sub h0 h1
      ((near_self (by rw [abs_of_nonneg hs0]; exact hsw)).mono h0 h1 (Nat.zero_le _)))).round h0 h1
      (A.sub_err _ _)).mono h0 h1 (by norm_num)
  have hw' : p.width / 2 + p.width ≤ 3 / 2 * B := by linarith [hB.width]
  have shc : ∀ {t' t x' x X : ℝ}, Near ε 3 x' x X → X ≤ B → |t' - t| ≤ η → |t| ≤ 1 →
      |A.add (A.mul (A.sub (A.div p.width 2) sl') t') x' - ((p.width / 2 - sl) * t + x)|
        ≤ endErr ε η B + es := by
    intro t' t x' x X hx hX ht ht1
    refine (abs_sub_le _ _ _).trans (add_le_add (A.coord_near h0 h1 nr hw' hx hX ht ht1) ?_)
    rw [show (p.width / 2 - sl') * t + x - ((p.width / 2 - sl) * t + x) = -((sl' - sl) * t) by ring,
      abs_neg, abs_mul]
    calc |sl' - sl| * |t| ≤ es * 1 := mul_le_mul hes ht1 (abs_nonneg _) he
      _ = es := mul_one _
  have hS : |(A.shadePoint (A.rowCenter p r) p.width rot T sl').x
        - (PVF.shadePoint (PVF.rowCenter p r) p.width rot sl).x| ≤ endErr ε η B + es ∧
      |(A.shadePoint (A.rowCenter p r) p.width rot T sl').y
        - (PVF.shadePoint (PVF.rowCenter p r) p.width rot sl).y| ≤ endErr ε η B + es := by
    unfold Arith.shadePoint PVF.shadePoint
    by_cases h : rot ≥ 0
    · simp only [if_pos h]
      exact ⟨shc nx hX hT.cs180 (c1 _), shc ny hY hT.sn180 (s1 _)⟩
    · simp only [if_neg h]
      exact ⟨shc nx hX hT.cs (c1 _), shc ny hY hT.sn (s1 _)⟩
  obtain ⟨e1, e2⟩ := sideSegment_ends (PVF.rowCenter p r) p.width rot cut sl i hrot
  obtain ⟨ρ, hρ⟩ := shadePoint_eq (PVF.rowCenter p r) p.width rot sl
  have hq : 0 ≤ p.width / cut := div_nonneg hB.width_pos.le (Nat.cast_nonneg _)
  set P1 := turnPt (PVF.rowCenter p r) rot (p.width / 2 - i * (p.width / cut)) with hP1
  set P2 := turnPt (PVF.rowCenter p r) rot (p.width / 2 - (i + 1) * (p.width / cut)) with hP2
  set Q := A.segmentCoords (A.rowCenter p r) p.width cut i T.cs180 T.sn180 with hQ
  set S := PVF.shadePoint (PVF.rowCenter p r) p.width rot sl with hSd
  set S' := A.shadePoint (A.rowCenter p r) p.width rot T sl' with hSd'
  have p1 : |Q.b1.x - P1.x| ≤ endErr ε η B + es ∧ |Q.b1.y - P1.y| ≤ endErr ε η B + es :=
    ⟨up cx1, up cy1⟩
  have p2 : |Q.b2.x - P2.x| ≤ endErr ε η B + es ∧ |Q.b2.y - P2.y| ≤ endErr ε η B + es :=
    ⟨up cx2, up cy2⟩
  have τ1 : endErr ε η B + es + (endErr ε η B + es) ≤ τ := by
    unfold τ
    have : 0 ≤ 2 * (endErr ε η B + es) * (1 / |sind rot|) := by positivity
    linarith
  have q1 : distPt P1 Q.b1 ≤ τ := (dist_le_of p1.1 p1.2).trans τ1
  have q2 : distPt P2 Q.b2 ≤ τ := (dist_le_of p2.1 p2.2).trans τ1
  have on := fun a b => (turnPt_dist (PVF.rowCenter p r) rot a b).2.le
  by_cases h : rot ≥ 0
  · have hpos : 0 < sind rot := by
      by_contra hn
      nlinarith [mul_nonneg h (neg_nonneg.2 (not_lt.1 hn))]
    have e' : s'.illum = ⟨shadeEnd Q.b1 Q.b2 S', Q.b2⟩ ∧ s'.shaded = ⟨Q.b1, shadeEnd Q.b1 Q.b2 S'⟩ := by
      unfold s' Arith.sideSegment shadeEnd
      simp only [if_pos h, hrot, ne_eq, not_false_eq_true, and_true, ← hQ, ← hSd', and_self]
    simp only [if_pos h] at e1 e2
    unfold s
    rw [e1, e2, e'.1, e'.2]
    have k := shadeEnd_near (L := P1) (H := P2) (S := S) (L' := Q.b1) (H' := Q.b2) (S' := S') hsp
      (by
        rw [hP1, hP2]; unfold turnPt; dsimp only; rw [sind_half_turn]
        nlinarith [mul_nonneg hq hpos.le]) p1 p2 hS (on _ _) (by rw [hρ]; exact on _ _)
      (by rw [hρ]; exact on _ _)
    exact ⟨⟨k, q2⟩, q1, k⟩
  · have hneg : sind rot < 0 := by
      by_contra hn
      nlinarith [mul_nonneg (neg_nonneg.2 (not_le.1 h).le) (not_lt.1 hn)]
    have e' : s'.illum = ⟨shadeEnd Q.b2 Q.b1 S', Q.b1⟩ ∧ s'.shaded = ⟨Q.b2, shadeEnd Q.b2 Q.b1 S'⟩ := by
      unfold s' Arith.sideSegment shadeEnd
      simp only [if_neg h, hrot, ne_eq, not_false_eq_true, and_true, ← hQ, ← hSd', and_self]
    simp only [if_neg h] at e1 e2
    unfold s
    rw [e1, e2, e'.1, e'.2]
    have k := shadeEnd_near (L := P2) (H := P1) (S := S) (L' := Q.b2) (H' := Q.b1) (S' := S') hsp
      (by
        rw [hP1, hP2]; unfold turnPt; dsimp only; rw [sind_half_turn]
        nlinarith [mul_nonneg hq (neg_nonneg.2 hneg.le)]) p2 p1 hS (on _ _) (by rw [hρ]; exact on _ _)
      (by rw [hρ]; exact on _ _)
    exact ⟨⟨k, q1⟩, q2, k⟩

/-- Computed ends of rows. -/
theorem full_near {p : ArrayParams} {B rot alpha η K : ℝ} {T : Trig} (hB : ArraySize p B)
    (hT : TrigNear rot alpha T η K) {r : ℕ} (hr : r < p.nRows) :
    let R := PVF.fullRowCoords (PVF.rowCenter p r) p.width rot
    let R' := A.fullRowCoords (A.rowCenter p r) p.width T.cs T.sn T.cs180 T.sn180
    (|R'.b1.x - R.b1.x| ≤ endErr ε η B ∧ |R'.b1.y - R.b1.y| ≤ endErr ε η B) ∧
    |R'.b2.x - R.b2.x| ≤ endErr ε η B ∧ |R'.b2.y - R.b2.y| ≤ endErr ε η B := by
  intro R R'
  have c1 : ∀ x, |cosd x| ≤ 1 := fun x => Real.abs_cos_le_one _
  have s1 : ∀ x, |sind x| ≤ 1 := fun x => Real.abs_sin_le_one _
  obtain ⟨⟨X, hX, nx⟩, ⟨Y, hY, ny⟩⟩ := A.center_near h0 h1 hB hr
  have n := (A.radius_near h0 h1 hB.width_pos.le).mono h0 h1 (show 1 ≤ 3 by norm_num)
  have hm : p.width / 2 ≤ 3 / 2 * B := by linarith [hB.width, hB.width_pos]
  exact ⟨⟨A.coord_near h0 h1 n hm nx hX hT.cs180 (c1 _), A.coord_near h0 h1 n hm ny hY hT.sn180 (s1 _)⟩,
    A.coord_near h0 h1 n hm nx hX hT.cs (c1 _), A.coord_near h0 h1 n hm ny hY hT.sn (s1 _)⟩

omit h0 h1 in
theorem full_size {p : ArrayParams} {B rot : ℝ} (hB : ArraySize p B) {r : ℕ} (hr : r < p.nRows) :
    let R := PVF.fullRowCoords (PVF.rowCenter p r) p.width rot
    (|R.b1.x| ≤ 3 / 2 * B ∧ |R.b1.y| ≤ 3 / 2 * B) ∧ |R.b2.x| ≤ 3 / 2 * B ∧ |R.b2.y| ≤ 3 / 2 * B := by
  intro R
  have c1 : ∀ x, |cosd x| ≤ 1 := fun x => Real.abs_cos_le_one _
  have s1 : ∀ x, |sind x| ≤ 1 := fun x => Real.abs_sin_le_one _
  have hw := hB.width_pos
  have hd : 0 ≤ p.distance := div_nonneg hw.le hB.gcr_pos.le
  have hx : |(PVF.rowCenter p r).x| ≤ B := by
    have := hB.place r hr
    unfold PVF.rowCenter
    simp only [X_ORIGIN, zero_add]
    rwa [abs_of_nonneg (by positivity)]
  have hy : |(PVF.rowCenter p r).y| ≤ B := by
    unfold PVF.rowCenter
    simp only [Y_GROUND, add_zero]
    exact hB.height
  have key : ∀ {t x : ℝ}, |t| ≤ 1 → |x| ≤ B → |p.width / 2 * t + x| ≤ 3 / 2 * B := by
    intro t x ht hx
    refine (abs_add_le _ _).trans ?_
    rw [abs_mul, abs_of_pos (by linarith : 0 < p.width / 2)]
    have := mul_le_mul_of_nonneg_left ht (by linarith : 0 ≤ p.width / 2)
    linarith [hB.width]
  exact ⟨⟨key (c1 _) hx, key (s1 _) hy⟩, key (c1 _) hx, key (s1 _) hy⟩

/-- Computed shadows and cut points. -/
theorem shadow_near {p : ArrayParams} {B alpha η K : ℝ} {rot : Rot} {T : Trig} (hB : ArraySize p B)
    (hT : TrigNear rot.deg alpha T η K) {r : ℕ} (hr : r < p.nRows) :
    let R := PVF.fullRowCoords (PVF.rowCenter p r) p.width rot.deg
    let R' := A.fullRowCoords (A.rowCenter p r) p.width T.cs T.sn T.cs180 T.sn180
    (|(A.shadowXs R' T.tanSun).1 - (PVF.shadowXs R alpha).1| ≤ groundErr ε η B K ∧
      |(A.shadowXs R' T.tanSun).2 - (PVF.shadowXs R alpha).2| ≤ groundErr ε η B K) ∧
    XRNear (groundErr ε η B K) (PVF.cutPointX R rot) (A.cutPointX R' rot T.tanRot) := by
  intro R R'
  obtain ⟨⟨x1, y1⟩, x2, y2⟩ := A.full_near h0 h1 hB hT hr
  obtain ⟨⟨mx1, my1⟩, mx2, my2⟩ := full_size (rot := rot.deg) hB hr
  have f1 := A.foot_near h0 h1 x1 y1 mx1 my1 hT.cotSun hT.cotSun_le
  have f2 := A.foot_near h0 h1 x2 y2 mx2 my2 hT.cotSun hT.cotSun_le
  have f3 := A.foot_near h0 h1 x1 y1 mx1 my1 hT.cotRot hT.cotRot_le
  have mm : ∀ a b : ℝ, ((if a ≤ b then a else b) = min a b) ∧ ((if a ≤ b then b else a) = max a b) :=
    fun a b => ⟨(min_def a b).symm, (max_def a b).symm⟩
  have q : ∀ x y a b : ℝ, x - (y - Y_GROUND) * a / b = x - y * (a / b) := fun x y a b => by
    simp only [Y_GROUND, sub_zero, mul_div_assoc]
  refine ⟨?_, ?_⟩
  · unfold Arith.shadowXs PVF.shadowXs
    simp only [(mm _ _).1, (mm _ _).2, q]
    exact ⟨min_near f1 f2, max_near f1 f2⟩
  · unfold Arith.cutPointX PVF.cutPointX
    by_cases h : rot.deg = 0
    · simp only [if_pos h]
      by_cases h2 : rot.negZero <;> simp [h2, XRNear]
    · simp only [if_neg h, q]
      exact f3

end Arith
end PVF

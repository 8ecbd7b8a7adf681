import Verif.Model.VF
import Mathlib.Tactic.Linarith
import Mathlib.Tactic.FieldSimp
import Mathlib.Tactic.Ring
import Mathlib.Tactic.LinearCombination

/-! # Crossed strings: inequalities between lengths of strings -/

namespace PVF

/-- A point as a complex number. -/
def Pt.toC (p : Pt) : ℂ := ⟨p.x, p.y⟩

theorem distPt_eq_norm (p q : Pt) : distPt p q = ‖q.toC - p.toC‖ := by
  rw [distPt, Complex.norm_def, Complex.normSq_apply]
  congr 1
  simp [Pt.toC]
  ring

theorem distPt_comm (p q : Pt) : distPt p q = distPt q p := by
  rw [distPt_eq_norm, distPt_eq_norm, norm_sub_rev]

theorem distPt_nonneg (p q : Pt) : 0 ≤ distPt p q := Real.sqrt_nonneg _

theorem distPt_triangle (p q r : Pt) : distPt p r ≤ distPt p q + distPt q r := by
  rw [distPt_eq_norm, distPt_eq_norm, distPt_eq_norm]
  calc ‖r.toC - p.toC‖ = ‖(q.toC - p.toC) + (r.toC - q.toC)‖ := by congr 1; ring
    _ ≤ _ := norm_add_le _ _

theorem Line.length_eq_distPt (l : Line) : l.length = distPt l.b1 l.b2 := rfl

/-- Point on the way from `a` to `p`. -/
def wayPt (a p : Pt) (t : ℝ) : Pt := ⟨a.x + t * (p.x - a.x), a.y + t * (p.y - a.y)⟩

theorem wayPt_toC (a p : Pt) (t : ℝ) : (wayPt a p t).toC = a.toC + t * (p.toC - a.toC) := by
  apply Complex.ext <;> simp [wayPt, Pt.toC]

theorem distPt_way_left {a p : Pt} {t : ℝ} (h : 0 ≤ t) :
    distPt a (wayPt a p t) = t * distPt a p := by
  rw [distPt_eq_norm, distPt_eq_norm, wayPt_toC, add_sub_cancel_left, norm_mul,
    Complex.norm_real, Real.norm_of_nonneg h]

theorem distPt_way_right {a p : Pt} {t : ℝ} (h : t ≤ 1) :
    distPt (wayPt a p t) p = (1 - t) * distPt a p := by
  have : p.toC - (wayPt a p t).toC = ((1 - t : ℝ) : ℂ) * (p.toC - a.toC) := by
    rw [wayPt_toC]; push_cast; ring
  rw [distPt_eq_norm, distPt_eq_norm, this, norm_mul, Complex.norm_real,
    Real.norm_of_nonneg (by linarith)]

/-- Quadrilateral: if the segments from `a` to `p` and from `b` to `q` meet, together they are at
least as long as the segments from `a` to `q` and from `b` to `p`. -/
theorem quad {a b p q : Pt} {t s : ℝ} (h : wayPt a p t = wayPt b q s) (ht0 : 0 ≤ t) (ht1 : t ≤ 1)
    (hs0 : 0 ≤ s) (hs1 : s ≤ 1) : distPt a q + distPt b p ≤ distPt a p + distPt b q := by
  have e1 := distPt_way_left (a := a) (p := p) ht0
  have e2 := distPt_way_right (a := a) (p := p) ht1
  have e3 := distPt_way_left (a := b) (p := q) hs0
  have e4 := distPt_way_right (a := b) (p := q) hs1
  have t1 := distPt_triangle a (wayPt a p t) q
  have t2 := distPt_triangle b (wayPt b q s) p
  rw [← h] at e3 e4 t2
  linarith

/-- Ground point. -/
def gp (x : ℝ) : Pt := ⟨x, 0⟩

/-- Cotangent of the angle under which `P` is seen from the ground point `x`. -/
noncomputable def cot (x : ℝ) (P : Pt) : ℝ := (P.x - x) / P.y

theorem cot_le_cot {x : ℝ} {P Q : Pt} (hP : 0 < P.y) (hQ : 0 < Q.y) :
    cot x P ≤ cot x Q ↔ (P.x - x) * Q.y ≤ (Q.x - x) * P.y := by
  rw [cot, cot, div_le_div_iff₀ hP hQ]

theorem cot_lt_cot {x : ℝ} {P Q : Pt} (hP : 0 < P.y) (hQ : 0 < Q.y) :
    cot x P < cot x Q ↔ (P.x - x) * Q.y < (Q.x - x) * P.y := by
  rw [cot, cot, div_lt_div_iff₀ hP hQ]

/-- Two ground points `a ≤ b` that both see `q` to the left of `p`. -/
theorem four_point {a b : ℝ} {p q : Pt} (hab : a ≤ b) (hp : 0 < p.y) (hq : 0 < q.y)
    (ha : cot a q ≤ cot a p) (hb : cot b q ≤ cot b p) :
    distPt (gp a) q + distPt (gp b) p ≤ distPt (gp a) p + distPt (gp b) q := by
  rcases eq_or_lt_of_le hab with rfl | hab
  · linarith
  rw [cot_le_cot hq hp] at ha hb
  set D := (p.x - a) * q.y - (q.x - b) * p.y with hD
  have d1 : (b - a) * p.y ≤ D := by rw [hD]; nlinarith
  have d2 : (b - a) * q.y ≤ D := by rw [hD]; nlinarith
  have hpos : 0 < D := lt_of_lt_of_le (mul_pos (by linarith) hp) d1
  refine quad (t := (b - a) * q.y / D) (s := (b - a) * p.y / D) ?_ ?_ ?_ ?_ ?_
  · have e : D ≠ 0 := hpos.ne'
    ext
    · simp only [wayPt, gp]
      field_simp
      rw [hD]; ring
    · simp only [wayPt, gp]
      field_simp
      ring
  · exact div_nonneg (mul_nonneg (by linarith) hq.le) hpos.le
  · rw [div_le_one hpos]; exact d2
  · exact div_nonneg (mul_nonneg (by linarith) hp.le) hpos.le
  · rw [div_le_one hpos]; exact d1

/-- A ground point sees `h` between `O` (left) and `l` (right), and `h` is higher than both: the
segments from the ground to `h` and from `O` to `l` meet. -/
theorem four_point_low {x : ℝ} {O l h : Pt} (hO : 0 < O.y) (hl : 0 < l.y) (hOh : O.y ≤ h.y)
    (hlh : l.y ≤ h.y) (h1 : cot x O ≤ cot x h) (h2 : cot x h ≤ cot x l) :
    distPt (gp x) l + distPt O h ≤ distPt (gp x) h + distPt O l := by
  have hh : 0 < h.y := hO.trans_le hOh
  rw [cot_le_cot hO hh] at h1
  rw [cot_le_cot hh hl] at h2
  set A := (h.x - x) * O.y - (O.x - x) * h.y with hA
  set B := (l.x - x) * h.y - (h.x - x) * l.y with hB
  have hA0 : 0 ≤ A := by rw [hA]; linarith
  have hB0 : 0 ≤ B := by rw [hB]; linarith
  rcases eq_or_lt_of_le (add_nonneg hA0 hB0) with h0 | h0
  · -- all three in one direction
    have a0 : A = 0 := by linarith
    have b0 : B = 0 := by linarith
    refine quad (t := l.y / h.y) (s := 1) ?_ (div_nonneg hl.le hh.le) ?_ zero_le_one le_rfl
    · ext
      · simp only [wayPt, gp]; field_simp; rw [hB] at b0; linarith
      · simp only [wayPt, gp]; field_simp; ring
    · rw [div_le_one hh]; exact hlh
  · have e : A + B ≠ 0 := h0.ne'
    have ey : (A * l.y + B * O.y) = ((l.x - x) * O.y - (O.x - x) * l.y) * h.y := by
      rw [hA, hB]; ring
    have ex : (A * (l.x - x) + B * (O.x - x))
        = ((l.x - x) * O.y - (O.x - x) * l.y) * (h.x - x) := by
      rw [hA, hB]; ring
    refine quad (t := ((l.x - x) * O.y - (O.x - x) * l.y) / (A + B)) (s := A / (A + B)) ?_ ?_ ?_ ?_ ?_
    · ext
      · simp only [wayPt, gp]
        field_simp
        linarith
      · simp only [wayPt, gp]
        field_simp
        linarith
    · apply div_nonneg _ h0.le
      have : 0 ≤ ((l.x - x) * O.y - (O.x - x) * l.y) * h.y := by
        rw [← ey]; exact add_nonneg (mul_nonneg hA0 hl.le) (mul_nonneg hB0 hO.le)
      exact nonneg_of_mul_nonneg_left this hh
    · rw [div_le_one h0]
      have : ((l.x - x) * O.y - (O.x - x) * l.y) * h.y ≤ (A + B) * h.y := by
        rw [← ey]; nlinarith
      exact le_of_mul_le_mul_right this hh
    · exact div_nonneg hA0 h0.le
    · rw [div_le_one h0]; linarith

/-- `O` is seen between `h` (left) and `l` (right) and is lower than both: going to `h` by way of
`O` is shorter than by way of `l`. -/
theorem around {x : ℝ} {O l h : Pt} (hO : 0 < O.y) (hOl : O.y ≤ l.y) (hOh : O.y ≤ h.y)
    (h1 : cot x h < cot x O) (h2 : cot x O ≤ cot x l) :
    distPt (gp x) O + distPt O h ≤ distPt (gp x) l + distPt l h := by
  have hl : 0 < l.y := hO.trans_le hOl
  have hh : 0 < h.y := hO.trans_le hOh
  rw [cot_lt_cot hh hO] at h1
  rw [cot_le_cot hO hl] at h2
  set A := (O.x - x) * h.y - (h.x - x) * O.y with hA
  set B := (l.x - x) * O.y - (O.x - x) * l.y with hB
  have hA0 : 0 < A := by rw [hA]; linarith
  have hB0 : 0 ≤ B := by rw [hB]; linarith
  have h0 : 0 < A + B := by linarith
  have e : A + B ≠ 0 := h0.ne'
  -- `Y` is the point of the segment from `l` to `h` seen behind `O`
  set τ := B / (A + B) with hτ
  have τ0 : 0 ≤ τ := div_nonneg hB0 h0.le
  have τ1 : τ ≤ 1 := by rw [hτ, div_le_one h0]; linarith
  set Y := wayPt l h τ with hY
  set σ := O.y / Y.y with hσ
  have Yy : O.y ≤ Y.y := by
    simp only [hY, wayPt]; nlinarith
  have hYp : 0 < Y.y := hO.trans_le Yy
  have hO2 : O = wayPt (gp x) Y σ := by
    have hx : (Y.x - x) * O.y = (O.x - x) * Y.y := by
      simp only [hY, wayPt, hτ]
      field_simp
      rw [hA, hB]; ring
    ext
    · simp only [wayPt, gp, hσ]; field_simp; linarith
    · simp only [wayPt, gp, hσ]; field_simp; ring
  have σ0 : 0 ≤ σ := div_nonneg hO.le hYp.le
  have σ1 : σ ≤ 1 := by rw [hσ, div_le_one hYp]; exact Yy
  have a1 := distPt_way_left (a := gp x) (p := Y) σ0
  have a2 := distPt_way_right (a := gp x) (p := Y) σ1
  rw [← hO2] at a1 a2
  have b1 := distPt_way_left (a := l) (p := h) τ0
  have b2 := distPt_way_right (a := l) (p := h) τ1
  rw [← hY] at b1 b2
  have t1 := distPt_triangle O Y h
  have t2 := distPt_triangle (gp x) l Y
  linarith

/-- Length of the string from the ground to `P`, around `O` if `O` is in the way of a view to the
left. -/
noncomputable def strL (P O : Pt) (x : ℝ) : ℝ :=
  open Classical in
  if cot x P < cot x O then distPt (gp x) O + distPt O P else distPt (gp x) P

/-- Once a ground point sees `P`, ground points to its right do, too. -/
theorem unblocked_mono {P O : Pt} (hO : 0 < O.y) (hOP : O.y ≤ P.y) {x y : ℝ} (hxy : x ≤ y)
    (h : cot x O ≤ cot x P) : cot y O ≤ cot y P := by
  have hP := hO.trans_le hOP
  rw [cot_le_cot hO hP] at *
  nlinarith

/-- How the string to `P` changes compared with the straight distance to `P`. -/
theorem strL_le_direct {P O : Pt} (hO : 0 < O.y) (hOP : O.y ≤ P.y) {x y : ℝ} (hxy : x ≤ y) :
    strL P O y - strL P O x ≤ distPt (gp y) P - distPt (gp x) P := by
  have hP := hO.trans_le hOP
  unfold strL
  by_cases hx : cot x P < cot x O
  · by_cases hy : cot y P < cot y O
    · rw [if_pos hx, if_pos hy]
      linarith [four_point hxy hO hP hx.le hy.le]
    · rw [if_pos hx, if_neg hy]
      linarith [distPt_triangle (gp x) O P]
  · have hy := unblocked_mono hO hOP hxy (not_lt.1 hx)
    rw [if_neg hx, if_neg (not_lt.2 hy)]

/-- How the string to `P` changes compared with the distance to the obstruction. -/
theorem strL_le_obstr {P O : Pt} (hO : 0 < O.y) (hOP : O.y ≤ P.y) {x y : ℝ} (hxy : x ≤ y) :
    strL P O y - strL P O x ≤ distPt (gp y) O - distPt (gp x) O := by
  have hP := hO.trans_le hOP
  unfold strL
  by_cases hx : cot x P < cot x O
  · by_cases hy : cot y P < cot y O
    · rw [if_pos hx, if_pos hy]; linarith
    · rw [if_pos hx, if_neg hy]
      linarith [distPt_triangle (gp y) O P]
  · have hy := unblocked_mono hO hOP hxy (not_lt.1 hx)
    rw [if_neg hx, if_neg (not_lt.2 hy)]
    linarith [four_point hxy hP hO (not_lt.1 hx) hy]

/-- The difference of the strings to two points, `h` seen to the left of `l`, grows to the right. -/
theorem strL_diff_mono {l h O : Pt} (hO : 0 < O.y) (hOl : O.y ≤ l.y) (hlh : l.y ≤ h.y) {x y : ℝ}
    (hxy : x ≤ y) (hx : cot x h ≤ cot x l) (hy : cot y h ≤ cot y l) :
    strL h O x - strL l O x ≤ strL h O y - strL l O y := by
  have hl := hO.trans_le hOl
  have hh := hl.trans_le hlh
  have hOh := hOl.trans hlh
  unfold strL
  by_cases lx : cot x l < cot x O
  · have hx' : cot x h < cot x O := hx.trans_lt lx
    rw [if_pos lx, if_pos hx']
    by_cases ly : cot y l < cot y O
    · rw [if_pos ly, if_pos (hy.trans_lt ly)]; linarith
    · rw [if_neg ly]
      by_cases hhy : cot y h < cot y O
      · rw [if_pos hhy]; linarith [distPt_triangle (gp y) O l]
      · rw [if_neg hhy]
        linarith [four_point_low hO hl hOh hlh (not_lt.1 hhy) hy]
  · have ly := unblocked_mono hO hOl hxy (not_lt.1 lx)
    rw [if_neg lx, if_neg (not_lt.2 ly)]
    by_cases hhx : cot x h < cot x O
    · rw [if_pos hhx]
      by_cases hhy : cot y h < cot y O
      · rw [if_pos hhy]
        linarith [four_point hxy hl hO (not_lt.1 lx) ly]
      · rw [if_neg hhy]
        -- the point from which `O` and `h` are in line
        rw [cot_lt_cot hh hO] at hhx
        rw [not_lt, cot_le_cot hO hh] at hhy
        have hlt : 0 < h.y - O.y := by
          by_contra hcon
          have : h.y = O.y := le_antisymm (by linarith) hOh
          rw [this] at hhx hhy
          have h1 := lt_of_mul_lt_mul_right hhx hO.le
          have h2 := le_of_mul_le_mul_right hhy hO
          linarith
        set m := (O.x * h.y - h.x * O.y) / (h.y - O.y) with hm
        have hmm : m * (h.y - O.y) = O.x * h.y - h.x * O.y := by
          rw [hm]; field_simp
        have xm : x ≤ m := by
          rw [hm, le_div_iff₀ hlt]; linarith
        have my : m ≤ y := by
          rw [hm, div_le_iff₀ hlt]; linarith
        have e1 : (h.x - m) * O.y = (O.x - m) * h.y := by linarith
        have good : cot m h ≤ cot m l := by
          rw [cot_le_cot hh hl] at *
          rcases eq_or_lt_of_le hxy with rfl | hlt'
          · have : m = x := le_antisymm my xm
            rw [this]; exact hx
          · nlinarith
        have c1 : cot m O = cot m h := by
          rw [cot, cot, div_eq_div_iff hO.ne' hh.ne']; linarith
        have hOm : O = wayPt (gp m) h (O.y / h.y) := by
          ext
          · simp only [wayPt, gp]; field_simp; linarith
          · simp only [wayPt, gp]; field_simp; ring
        have a1 := distPt_way_left (a := gp m) (p := h) (div_nonneg hO.le hh.le)
        have a2 := distPt_way_right (a := gp m) (p := h) ((div_le_one hh).2 hOh)
        rw [← hOm] at a1 a2
        have s1 := four_point xm hl hO (not_lt.1 lx) (by rw [c1]; exact good)
        have s2 := four_point my hl hh good hy
        linarith
    · have hhy := unblocked_mono hO hOh hxy (not_lt.1 hhx)
      rw [if_neg hhx, if_neg (not_lt.2 hhy)]
      linarith [four_point hxy hl hh hx hy]

/-- Lower bound of the difference of strings. -/
theorem strL_diff_lower {l h O : Pt} (hO : 0 < O.y) (hOl : O.y ≤ l.y) (hlh : l.y ≤ h.y) {x : ℝ}
    (hx : cot x h ≤ cot x l) : distPt O h - distPt O l ≤ strL h O x - strL l O x := by
  have hl := hO.trans_le hOl
  have hOh := hOl.trans hlh
  unfold strL
  by_cases lx : cot x l < cot x O
  · rw [if_pos lx, if_pos (hx.trans_lt lx)]; linarith
  · rw [if_neg lx]
    by_cases hhx : cot x h < cot x O
    · rw [if_pos hhx]; linarith [distPt_triangle (gp x) O l]
    · rw [if_neg hhx]
      linarith [four_point_low hO hl hOh hlh (not_lt.1 hhx) hx]

/-- Upper bound of the difference of strings. -/
theorem strL_diff_upper {l h O : Pt} (hO : 0 < O.y) (hOl : O.y ≤ l.y) (hlh : l.y ≤ h.y) {x : ℝ}
    (hx : cot x h ≤ cot x l) : strL h O x - strL l O x ≤ distPt l h := by
  have hOh := hOl.trans hlh
  unfold strL
  by_cases lx : cot x l < cot x O
  · rw [if_pos lx, if_pos (hx.trans_lt lx)]; linarith [distPt_triangle O l h]
  · rw [if_neg lx]
    by_cases hhx : cot x h < cot x O
    · rw [if_pos hhx]; linarith [around hO hOl hOh hhx (not_lt.1 lx)]
    · rw [if_neg hhx]; linarith [distPt_triangle (gp x) l h]

/-- The distance to a ground point changes at most as much as the ground point moves. -/
theorem dist_gp_lip (P : Pt) {x y : ℝ} (hxy : x ≤ y) :
    |distPt (gp y) P - distPt (gp x) P| ≤ y - x := by
  have e : distPt (gp x) (gp y) = y - x := by
    simp [distPt, gp, Real.sqrt_sq_eq_abs, abs_of_nonneg (sub_nonneg.2 hxy)]
  have t1 := distPt_triangle (gp x) (gp y) P
  have t2 := distPt_triangle (gp y) (gp x) P
  rw [distPt_comm (gp y) (gp x)] at t2
  rw [abs_le]; constructor <;> linarith

end PVF

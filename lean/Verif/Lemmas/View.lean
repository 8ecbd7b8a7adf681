import Verif.Lemmas.Strings
import Verif.Lemmas.ArrayGeom
import Verif.Lemmas.Trig

/-! # What a PV row side sees: views to the left and, mirrored, to the right -/

namespace PVF

/-- Mirror image. -/
def Pt.mir (P : Pt) : Pt := ⟨-P.x, P.y⟩

/-- Views to the right are mirrored. -/
def mirB (left : Bool) (P : Pt) : Pt := if left then P else P.mir

/-- Ground coordinate for views to the left or right. -/
def sx (left : Bool) (x : ℝ) : ℝ := if left then x else -x

theorem distPt_mir (P Q : Pt) : distPt P.mir Q.mir = distPt P Q := by
  simp only [distPt, Pt.mir]; congr 1; ring

theorem distPt_mirB (left : Bool) (P Q : Pt) : distPt (mirB left P) (mirB left Q) = distPt P Q := by
  cases left
  · exact distPt_mir P Q
  · rfl

theorem gp_sx (left : Bool) (x : ℝ) : gp (sx left x) = mirB left (gp x) := by
  cases left <;> simp [sx, mirB, gp, Pt.mir]

theorem mirB_y (left : Bool) (P : Pt) : (mirB left P).y = P.y := by cases left <;> rfl

/-- The angle under which a higher point is seen decides like the cotangent. -/
theorem angleX_lt {x : ℝ} {P Q : Pt} (hP : 0 < P.y) (hQ : 0 < Q.y) :
    angleX (gp x) P < angleX (gp x) Q ↔ cot x Q < cot x P := by
  rw [cot_lt_cot hQ hP]
  set z : ℂ := ⟨P.x - x, P.y⟩ with hz
  set w : ℂ := ⟨Q.x - x, Q.y⟩ with hw
  have ez : angleX (gp x) P = Complex.arg z := by simp [angleX, arctan2, gp, hz]
  have ew : angleX (gp x) Q = Complex.arg w := by simp [angleX, arctan2, gp, hw]
  rw [ez, ew]
  have z0 : z ≠ 0 := fun h => by
    have := congrArg Complex.im h; simp [hz] at this; exact hP.ne' this
  have w0 : w ≠ 0 := fun h => by
    have := congrArg Complex.im h; simp [hw] at this; exact hQ.ne' this
  have nz : 0 < ‖z‖ := norm_pos_iff.2 z0
  have nw : 0 < ‖w‖ := norm_pos_iff.2 w0
  have az : 0 < z.arg ∧ z.arg < Real.pi := by
    refine ⟨lt_of_le_of_ne (Complex.arg_nonneg_iff.2 hP.le) fun h => ?_, lt_of_le_of_ne (Complex.arg_le_pi z) fun h => ?_⟩
    · have := (Complex.arg_eq_zero_iff.1 h.symm).2; simp [hz] at this; exact hP.ne' this
    · have := (Complex.arg_eq_pi_iff.1 h).2; simp [hz] at this; exact hP.ne' this
  have aw : 0 < w.arg ∧ w.arg < Real.pi := by
    refine ⟨lt_of_le_of_ne (Complex.arg_nonneg_iff.2 hQ.le) fun h => ?_, lt_of_le_of_ne (Complex.arg_le_pi w) fun h => ?_⟩
    · have := (Complex.arg_eq_zero_iff.1 h.symm).2; simp [hw] at this; exact hQ.ne' this
    · have := (Complex.arg_eq_pi_iff.1 h).2; simp [hw] at this; exact hQ.ne' this
  have cz := Complex.norm_mul_cos_arg z
  have sz := Complex.norm_mul_sin_arg z
  have cw := Complex.norm_mul_cos_arg w
  have sw := Complex.norm_mul_sin_arg w
  have cross : (P.x - x) * Q.y - (Q.x - x) * P.y = ‖z‖ * ‖w‖ * Real.sin (w.arg - z.arg) := by
    have h1 : P.x - x = z.re := rfl
    have h2 : P.y = z.im := rfl
    have h3 : Q.x - x = w.re := rfl
    have h4 : Q.y = w.im := rfl
    rw [h1, h2, h3, h4, ← cz, ← sz, ← cw, ← sw, Real.sin_sub]; ring
  have hpos : 0 < ‖z‖ * ‖w‖ := mul_pos nz nw
  constructor
  · intro h
    have : 0 < Real.sin (w.arg - z.arg) :=
      Real.sin_pos_of_pos_of_lt_pi (by linarith) (by linarith)
    have := mul_pos hpos this
    linarith
  · intro h
    by_contra hcon
    have : Real.sin (w.arg - z.arg) ≤ 0 :=
      Real.sin_nonpos_of_nonpos_of_neg_pi_le (by linarith) (by linarith)
    have := mul_nonpos_of_nonneg_of_nonpos hpos.le this
    linarith

theorem cot_mir (x : ℝ) (P : Pt) : cot (-x) P.mir = - cot x P := by
  simp only [cot, Pt.mir]; ring

/-- The code's string length is the string length of the mirrored scene. -/
theorem hottelString_eq (left : Bool) {P O : Pt} (hP : 0 < P.y) (hO : 0 < O.y) (x : ℝ) :
    hottelString P (gp x) O left = strL (mirB left P) (mirB left O) (sx left x) := by
  unfold hottelString strL
  rw [gp_sx, distPt_mirB, distPt_mirB, distPt_mirB, distPt_comm P (gp x)]
  cases left
  · simp only [Bool.false_eq_true, if_false, mirB, sx, cot_mir, neg_lt_neg_iff]
    simp only [angleX_lt hP hO]
  · simp only [if_true, mirB, sx, gt_iff_lt]
    simp only [angleX_lt hO hP]

/-- String to a point, around an optional obstruction. -/
noncomputable def strO : Option Pt → Pt → ℝ → ℝ
  | none, P, x => distPt (gp x) P
  | some O, P, x => strL P O x

theorem strO_le_direct {O : Option Pt} {P : Pt} (hO : ∀ Q ∈ O, 0 < Q.y ∧ Q.y ≤ P.y) {x y : ℝ}
    (hxy : x ≤ y) : strO O P y - strO O P x ≤ distPt (gp y) P - distPt (gp x) P := by
  cases O with
  | none => exact le_rfl
  | some O => exact strL_le_direct (hO O rfl).1 (hO O rfl).2 hxy

theorem strO_diff_mono {O : Option Pt} {l h : Pt} (hO : ∀ Q ∈ O, 0 < Q.y ∧ Q.y ≤ l.y)
    (hl : 0 < l.y) (hlh : l.y ≤ h.y) {x y : ℝ} (hxy : x ≤ y) (hx : cot x h ≤ cot x l)
    (hy : cot y h ≤ cot y l) : strO O h x - strO O l x ≤ strO O h y - strO O l y := by
  cases O with
  | none =>
    simp only [strO]
    linarith [four_point hxy hl (hl.trans_le hlh) hx hy]
  | some O => exact strL_diff_mono (hO O rfl).1 (hO O rfl).2 hlh hxy hx hy

theorem strO_diff_upper {O : Option Pt} {l h : Pt} (hO : ∀ Q ∈ O, 0 < Q.y ∧ Q.y ≤ l.y)
    (hlh : l.y ≤ h.y) {x : ℝ} (hx : cot x h ≤ cot x l) :
    strO O h x - strO O l x ≤ distPt l h := by
  cases O with
  | none => simp only [strO]; linarith [distPt_triangle (gp x) l h]
  | some O => exact strL_diff_upper (hO O rfl).1 (hO O rfl).2 hlh hx

/-- Array and rotation are physical: positive sizes, all rows above the ground. -/
structure Physical (p : ArrayParams) (rot : ℝ) : Prop where
  width : 0 < p.width
  distance : 0 < p.distance
  lo : -180 < rot
  hi : rot < 180
  above : p.width / 2 * |sind rot| < p.height

/-- Upward component of the direction from the lower to the higher end of a row. -/
noncomputable def upY (rot : ℝ) : ℝ := if 0 < rot then sind rot else - sind rot

/-- Horizontal component of that direction, mirrored for views to the right. -/
noncomputable def upX (left : Bool) (rot : ℝ) : ℝ := sx left (if 0 < rot then cosd rot else - cosd rot)

/-- Height of the lower end of the rows. -/
noncomputable def lowY (p : ArrayParams) (rot : ℝ) : ℝ := p.height - p.width / 2 * upY rot

/-- Horizontal position of the lower end of a row, mirrored for views to the right. -/
noncomputable def lowX (p : ArrayParams) (left : Bool) (rot : ℝ) (r : ℕ) : ℝ :=
  sx left (r * p.distance) - p.width / 2 * upX left rot

/-- Point of row `r` at distance `t` from its lower end, mirrored for views to the right. -/
noncomputable def vp (p : ArrayParams) (left : Bool) (rot : ℝ) (r : ℕ) (t : ℝ) : Pt :=
  mirB left (tPt (rowCenter p r) p.width rot t)

theorem vp_eq (p : ArrayParams) (left : Bool) (rot : ℝ) (r : ℕ) (t : ℝ) :
    vp p left rot r t = ⟨lowX p left rot r + t * upX left rot, lowY p rot + t * upY rot⟩ := by
  unfold vp mirB tPt rowPt rowCenter lowX lowY upX upY sx X_ORIGIN Y_GROUND Pt.mir
  cases left <;> split_ifs <;> simp <;> constructor <;> ring

theorem upY_eq_abs {rot : ℝ} (h0 : -180 < rot) (h1 : rot < 180) : upY rot = |sind rot| := by
  unfold upY
  split_ifs with h
  · rw [abs_of_pos (sind_pos h h1)]
  · rcases eq_or_lt_of_le (not_lt.1 h) with rfl | h'
    · simp [sind_zero]
    · rw [abs_of_neg (sind_neg_of_neg h' h0)]

theorem upY_nonneg {rot : ℝ} (h0 : -180 < rot) (h1 : rot < 180) : 0 ≤ upY rot := by
  rw [upY_eq_abs h0 h1]; exact abs_nonneg _

theorem Physical.lowY_pos {p : ArrayParams} {rot : ℝ} (h : Physical p rot) : 0 < lowY p rot := by
  unfold lowY; rw [upY_eq_abs h.lo h.hi]; linarith [h.above]

theorem Physical.upY_nonneg {p : ArrayParams} {rot : ℝ} (h : Physical p rot) : 0 ≤ upY rot :=
  PVF.upY_nonneg h.lo h.hi

theorem vp_y_pos {p : ArrayParams} {rot : ℝ} (h : Physical p rot) (left : Bool) (r : ℕ) {t : ℝ}
    (ht : 0 ≤ t) : 0 < (vp p left rot r t).y := by
  rw [vp_eq]; have := h.lowY_pos; have := h.upY_nonneg; positivity

theorem vp_y_le {p : ArrayParams} {rot : ℝ} (h : Physical p rot) (left : Bool) (r r' : ℕ) {s t : ℝ}
    (hst : s ≤ t) : (vp p left rot r s).y ≤ (vp p left rot r' t).y := by
  rw [vp_eq, vp_eq]; have := h.upY_nonneg; simp only; nlinarith

/-- Row towards which the view goes. -/
def nb (left : Bool) (r : ℕ) : ℕ := if left then r - 1 else r + 1

/-- There is a row in that direction. -/
def HasNb (left : Bool) (n r : ℕ) : Prop := if left then r ≠ 0 else r ≠ n - 1

theorem vp_nb {p : ArrayParams} {left : Bool} {rot : ℝ} {n r : ℕ} (h : HasNb left n r) (t : ℝ) :
    vp p left rot (nb left r) t
      = ⟨lowX p left rot r - p.distance + t * upX left rot, lowY p rot + t * upY rot⟩ := by
  rw [vp_eq]
  congr 2
  unfold lowX nb sx
  cases left
  · simp; ring
  · simp only [HasNb, if_true] at h
    have : ((r - 1 : ℕ) : ℝ) = r - 1 := by
      rw [Nat.cast_sub (by omega)]; simp
    simp [this]; ring

open Classical in
/-- The obstruction of a view: the lower end of the next row in the direction of the view. -/
noncomputable def obs (p : ArrayParams) (left : Bool) (rot : ℝ) (r : ℕ) : Option Pt :=
  if HasNb left p.nRows r then some (vp p left rot (nb left r) 0) else none

theorem obs_spec {p : ArrayParams} {rot : ℝ} (h : Physical p rot) (left : Bool) (r r' : ℕ) {t : ℝ}
    (ht : 0 ≤ t) : ∀ Q ∈ obs p left rot r, 0 < Q.y ∧ Q.y ≤ (vp p left rot r' t).y := by
  intro Q hQ
  unfold obs at hQ
  split_ifs at hQ with hn
  · simp only [Option.mem_def, Option.some.injEq] at hQ
    subst hQ
    exact ⟨vp_y_pos h left _ le_rfl, vp_y_le h left _ _ ht⟩
  · simp at hQ

/-- The ground point is on the side of the row that the view goes to. -/
def OnSide (p : ArrayParams) (left : Bool) (rot : ℝ) (r : ℕ) (x : ℝ) : Prop :=
  upX left rot * lowY p rot ≤ upY rot * (lowX p left rot r - sx left x)

theorem cot_vp {p : ArrayParams} {rot : ℝ} (h : Physical p rot) {left : Bool} {r : ℕ} {x : ℝ}
    (hx : OnSide p left rot r x) {s t : ℝ} (hs : 0 ≤ s) (hst : s ≤ t) :
    cot (sx left x) (vp p left rot r t) ≤ cot (sx left x) (vp p left rot r s) := by
  rw [cot_le_cot (vp_y_pos h left r (hs.trans hst)) (vp_y_pos h left r hs), vp_eq, vp_eq]
  simp only
  unfold OnSide at hx
  nlinarith [mul_nonneg (sub_nonneg.2 hst) (sub_nonneg.2 hx)]

/-- Difference of strings to two points of a row. -/
noncomputable def phi (p : ArrayParams) (left : Bool) (rot : ℝ) (r : ℕ) (a b x : ℝ) : ℝ :=
  strO (obs p left rot r) (vp p left rot r b) x - strO (obs p left rot r) (vp p left rot r a) x

/-- Change of the string difference over a ground interval. -/
noncomputable def dphi (p : ArrayParams) (left : Bool) (rot : ℝ) (r : ℕ) (a b x1 x2 : ℝ) : ℝ :=
  if left then phi p left rot r a b x2 - phi p left rot r a b x1
  else phi p left rot r a b (-x1) - phi p left rot r a b (-x2)

theorem dphi_nonneg {p : ArrayParams} {rot : ℝ} (h : Physical p rot) {left : Bool} {r : ℕ}
    {a b x1 x2 : ℝ} (ha : 0 ≤ a) (hab : a ≤ b) (hx : x1 ≤ x2) (h1 : OnSide p left rot r x1)
    (h2 : OnSide p left rot r x2) : 0 ≤ dphi p left rot r a b x1 x2 := by
  have m := fun {x y : ℝ} (hxy : x ≤ y) => strO_diff_mono (obs_spec h left r r ha)
    (vp_y_pos h left r ha) (vp_y_le h left r r hab) hxy
  have c1 := cot_vp h h1 ha hab
  have c2 := cot_vp h h2 ha hab
  unfold dphi phi
  cases left
  · have := m (neg_le_neg hx) c2 c1
    simp only [Bool.false_eq_true, if_false]; linarith
  · have := m hx c1 c2
    simp only [if_true]; linarith

theorem phi_upper {p : ArrayParams} {rot : ℝ} (h : Physical p rot) {left : Bool} {r : ℕ}
    {a b x : ℝ} (ha : 0 ≤ a) (hab : a ≤ b) (hx : OnSide p left rot r x) :
    phi p left rot r a b (sx left x) ≤ distPt (vp p left rot r a) (vp p left rot r b) :=
  strO_diff_upper (obs_spec h left r r ha) (vp_y_le h left r r hab) (cot_vp h hx ha hab)

theorem phi_lower_nb {p : ArrayParams} {rot : ℝ} (h : Physical p rot) {left : Bool} {r : ℕ}
    (hn : HasNb left p.nRows r) {a b x : ℝ} (ha : 0 ≤ a) (hab : a ≤ b)
    (hx : OnSide p left rot r x) :
    distPt (vp p left rot (nb left r) 0) (vp p left rot r b)
      - distPt (vp p left rot (nb left r) 0) (vp p left rot r a) ≤ phi p left rot r a b (sx left x) := by
  unfold phi obs
  rw [if_pos hn]
  exact strL_diff_lower (vp_y_pos h left _ le_rfl) (vp_y_le h left _ _ ha) (vp_y_le h left r r hab)
    (cot_vp h hx ha hab)

theorem phi_lower {p : ArrayParams} {rot : ℝ} {left : Bool} {r : ℕ}
    (hn : ¬ HasNb left p.nRows r) {a b x : ℝ} :
    - distPt (vp p left rot r a) (vp p left rot r b) ≤ phi p left rot r a b x := by
  unfold phi obs
  rw [if_neg hn]
  simp only [strO]
  have := distPt_triangle (gp x) (vp p left rot r b) (vp p left rot r a)
  rw [distPt_comm (vp p left rot r b)] at this
  linarith

theorem dist_vp_self (p : ArrayParams) (left : Bool) (rot : ℝ) (r : ℕ) {a b : ℝ} (hab : a ≤ b) :
    distPt (vp p left rot r a) (vp p left rot r b) = b - a := by
  unfold vp
  rw [distPt_mirB]
  have := length_tPt (rowCenter p r) p.width rot a b
  rw [abs_of_nonneg (by linarith)] at this
  exact this

/-- Neighbouring rows are parallel: crossed strings are longer than uncrossed ones. -/
theorem trapezoid {p : ArrayParams} {left : Bool} {rot : ℝ} {n r : ℕ} (hn : HasNb left n r)
    {a b a' b' : ℝ} (hab : a ≤ b) (hab' : a' ≤ b') :
    distPt (vp p left rot r a) (vp p left rot (nb left r) a')
      + distPt (vp p left rot r b) (vp p left rot (nb left r) b')
    ≤ distPt (vp p left rot r a) (vp p left rot (nb left r) b')
      + distPt (vp p left rot r b) (vp p left rot (nb left r) a') := by
  rcases eq_or_lt_of_le (add_le_add hab hab') with h | h
  · have h1 : a = b := by linarith
    have h2 : a' = b' := by linarith
    rw [h1, h2]
  · have hpos : 0 < (b - a) + (b' - a') := by linarith
    refine quad (t := (b - a) / ((b - a) + (b' - a'))) (s := (b - a) / ((b - a) + (b' - a'))) ?_
      (div_nonneg (by linarith) hpos.le) (by rw [div_le_one hpos]; linarith)
      (div_nonneg (by linarith) hpos.le) (by rw [div_le_one hpos]; linarith)
    rw [vp_nb hn, vp_nb hn, vp_eq, vp_eq]
    have e := hpos.ne'
    ext <;> simp only [wayPt] <;> field_simp <;> ring

end PVF

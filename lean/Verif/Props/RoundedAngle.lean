import Verif.Model.RoundedAngle
import Verif.Props.RoundedTable
import Verif.Props.RoundedIrr

/-!
# Computed angles of AOI methods
-/

namespace PVF

variable {ε : ℝ}

theorem cos_sub_ge {a b : ℝ} (hb : 0 ≤ b) (hab : b ≤ a) (ha : a ≤ Real.pi) :
    2 * ((a - b) / Real.pi) * Real.sin ((a + b) / 2) ≤ Real.cos b - Real.cos a := by
  have p0 := Real.pi_pos
  have e : Real.cos b - Real.cos a = 2 * Real.sin ((a - b) / 2) * Real.sin ((a + b) / 2) := by
    rw [Real.cos_sub_cos, show (b - a) / 2 = -((a - b) / 2) by ring, Real.sin_neg, add_comm b a]; ring
  rw [e]
  have s := Real.mul_le_sin (x := (a - b) / 2) (by linarith) (by linarith)
  have s' : (a - b) / Real.pi ≤ Real.sin ((a - b) / 2) := by
    rw [show (a - b) / Real.pi = 2 / Real.pi * ((a - b) / 2) by field_simp]; exact s
  exact mul_le_mul_of_nonneg_right (mul_le_mul_of_nonneg_left s' (by norm_num))
    (Real.sin_nonneg_of_nonneg_of_le_pi (by linarith) (by linarith))

/-- Cosines determine angles well unless the angle is close to 0 or 180 degrees. -/
theorem cos_sub_sin {a b : ℝ} (hb : 0 ≤ b) (hab : b ≤ a) (ha : a ≤ Real.pi) :
    (a - b) / Real.pi * (Real.sin a + Real.sin b) ≤ Real.cos b - Real.cos a := by
  have p0 := Real.pi_pos
  refine le_trans ?_ (cos_sub_ge hb hab ha)
  have c := (strictConcaveOn_sin_Icc.concaveOn).2 (show a ∈ Set.Icc 0 Real.pi from ⟨by linarith, ha⟩)
    (show b ∈ Set.Icc 0 Real.pi from ⟨hb, by linarith⟩) (show (0 : ℝ) ≤ 1 / 2 by norm_num)
    (show (0 : ℝ) ≤ 1 / 2 by norm_num) (by norm_num)
  simp only [smul_eq_mul] at c
  rw [show 1 / 2 * a + 1 / 2 * b = (a + b) / 2 by ring] at c
  have d0 : 0 ≤ (a - b) / Real.pi := div_nonneg (by linarith) p0.le
  have := mul_le_mul_of_nonneg_left c d0
  linarith

/-- Cosines determine angles at least up to the square root of their errors. -/
theorem cos_sub_sq {a b : ℝ} (hb : 0 ≤ b) (hab : b ≤ a) (ha : a ≤ Real.pi) :
    2 * ((a - b) / Real.pi) ^ 2 ≤ Real.cos b - Real.cos a := by
  have p0 := Real.pi_pos
  refine le_trans ?_ (cos_sub_ge hb hab ha)
  have d0 : 0 ≤ (a - b) / Real.pi := div_nonneg (by linarith) p0.le
  have s := Real.mul_le_sin (x := (a - b) / 2) (by linarith) (by linarith)
  have s' : (a - b) / Real.pi ≤ Real.sin ((a - b) / 2) := by
    rw [show (a - b) / Real.pi = 2 / Real.pi * ((a - b) / 2) by field_simp]; exact s
  have t : Real.sin ((a - b) / 2) ≤ Real.sin ((a + b) / 2) := by
    rcases le_total ((a + b) / 2) (Real.pi / 2) with h | h
    · exact Real.sin_le_sin_of_le_of_le_pi_div_two (by linarith) h (by linarith)
    · rw [← Real.sin_pi_sub ((a + b) / 2)]
      exact Real.sin_le_sin_of_le_of_le_pi_div_two (by linarith) (by linarith) (by linarith)
  have := mul_le_mul_of_nonneg_left (s'.trans t) d0
  nlinarith

theorem norm_rel (h0 : 0 ≤ ε) (h1 : ε < 1) (A : Arith ε) (x y : ℝ) :
    Rel ε 2 (A.norm x y) (Real.sqrt (x ^ 2 + y ^ 2)) := by
  have hs : ∀ z : ℝ, Rel ε 1 (A.mul z z) (z ^ 2) := fun z => by
    have := A.mul_err z z
    rw [abs_of_nonneg (mul_self_nonneg z), ← pow_two] at this
    exact rel_of_err h0 h1 (sq_nonneg z) this
  have e3 := A.add_rel h0 h1 (hs x) (hs y) (sq_nonneg _) (sq_nonneg _)
  have hn := e3.nonneg h0 h1 (by positivity)
  have e4 := rel_of_err h0 h1 (Real.sqrt_nonneg _) (A.sqrt_err _ hn)
  exact e4.trans h0 h1 (Rel.sqrt h0 h1 (k := 1) e3)

theorem normSub_rel (h0 : 0 ≤ ε) (h1 : ε < 1) (A : Arith ε) (p q : Pt) :
    Rel ε 3 (A.norm (A.sub q.x p.x) (A.sub q.y p.y)) (Real.sqrt ((q.x - p.x) ^ 2 + (q.y - p.y) ^ 2)) := by
  have e3 := A.add_rel h0 h1 (A.sq_rel h0 h1 q.x p.x) (A.sq_rel h0 h1 q.y p.y) (sq_nonneg _) (sq_nonneg _)
  have hn := e3.nonneg h0 h1 (by positivity)
  have e4 := rel_of_err h0 h1 (Real.sqrt_nonneg _) (A.sqrt_err _ hn)
  exact e4.trans h0 h1 (Rel.sqrt h0 h1 (k := 2) e3)

/-- The exact cosine. -/
noncomputable def cosBetween (u c q : Pt) : ℝ :=
  (u.x * (q.x - c.x) + u.y * (q.y - c.y)) /
    (Real.sqrt (u.x ^ 2 + u.y ^ 2) * Real.sqrt ((q.x - c.x) ^ 2 + (q.y - c.y) ^ 2))

theorem root_pos {x y : ℝ} (h : x ≠ 0 ∨ y ≠ 0) : 0 < Real.sqrt (x ^ 2 + y ^ 2) := by
  apply Real.sqrt_pos.2
  rcases h with h | h
  · have := sq_pos_of_ne_zero h; positivity
  · have := sq_pos_of_ne_zero h; positivity

theorem abs_dot_le (a b x y : ℝ) : |a * x| + |b * y| ≤ Real.sqrt (a ^ 2 + b ^ 2) * Real.sqrt (x ^ 2 + y ^ 2) := by
  rw [← Real.sqrt_mul (by positivity), abs_mul, abs_mul]
  apply Real.le_sqrt_of_sq_le
  rw [← sq_abs a, ← sq_abs b, ← sq_abs x, ← sq_abs y]
  nlinarith [sq_nonneg (|a| * |y| - |b| * |x|)]

theorem cosTheta_near (h0 : 0 ≤ ε) (h1 : ε < 1) (A : Arith ε) {u c q : Pt} (hu : u.x ≠ 0 ∨ u.y ≠ 0)
    (hq : q.x - c.x ≠ 0 ∨ q.y - c.y ≠ 0) :
    |A.cosTheta u c q - cosBetween u c q| ≤ grow ε ^ 10 - 1 ∧ |cosBetween u c q| ≤ 1 := by
  have U := root_pos hu
  have V := root_pos hq
  have s : ∀ x y : ℝ, Near ε 1 (A.sub x y) (x - y) |x - y| := fun x y =>
    (near_self le_rfl).round h0 h1 (A.sub_err _ _)
  have m : ∀ z x y : ℝ, Near ε 2 (A.mul z (A.sub x y)) (z * (x - y)) |z * (x - y)| := fun z x y => by
    have := ((near_self (ε := ε) (x := z) le_rfl).mul h0 h1 (s x y)).round h0 h1 (A.mul_err _ _)
    rw [← abs_mul] at this
    simpa using this
  have d := ((m u.x q.x c.x).add h0 h1 (m u.y q.y c.y)).round h0 h1 (A.add_err _ _)
  have r1 := (norm_rel h0 h1 A u.x u.y).mul h0 h1 (normSub_rel h0 h1 A c q) U.le V.le
  have r0 := r1.nonneg h0 h1 (mul_pos U V).le
  have r2 := rel_of_err h0 h1 r0 (by
    have := A.mul_err (A.norm u.x u.y) (A.norm (A.sub q.x c.x) (A.sub q.y c.y))
    rwa [abs_of_nonneg r0] at this)
  have r := r2.trans h0 h1 r1
  have n := (d.div h0 h1 r (mul_pos U V)).round h0 h1 (A.div_err _ _)
  have hm : (|u.x * (q.x - c.x)| + |u.y * (q.y - c.y)|) /
      (Real.sqrt (u.x ^ 2 + u.y ^ 2) * Real.sqrt ((q.x - c.x) ^ 2 + (q.y - c.y) ^ 2)) ≤ 1 := by
    rw [div_le_one (mul_pos U V)]
    exact abs_dot_le _ _ _ _
  have g := grow_pow_one h0 h1 10
  have n1 : |A.cosTheta u c q - cosBetween u c q| ≤ (grow ε ^ 10 - 1) * _ := n.1
  exact ⟨n1.trans (mul_le_of_le_one_right (by linarith) hm), n.2.trans hm⟩

theorem clip_near {x y : ℝ} (h : |y| ≤ 1) : |clip x (-1) 1 - y| ≤ |x - y| ∧ |clip x (-1) 1| ≤ 1 := by
  have hy := abs_le.1 h
  have c1 : -1 ≤ clip x (-1) 1 ∧ clip x (-1) 1 ≤ 1 := by
    unfold clip
    exact ⟨by simp, by simp⟩
  refine ⟨?_, abs_le.2 c1⟩
  unfold clip
  rcases le_total x (-1) with h1 | h1
  · rw [abs_of_nonpos (by linarith : x - y ≤ 0), abs_le]
    constructor <;> simp [h1] <;> linarith
  · rcases le_total x 1 with h2 | h2
    · simp [h1, h2]
    · rw [abs_of_nonneg (by linarith : 0 ≤ x - y), abs_le]
      constructor <;> simp [h2, h1] <;> linarith

theorem arccos_near {x y s : ℝ} (hx : |x| ≤ 1) (hy : |y| ≤ 1) (hs : 0 < s) (h : s ≤ Real.sin (Real.arccos y)) :
    |Real.arccos x - Real.arccos y| ≤ Real.pi * (|x - y| / s) := by
  have p0 := Real.pi_pos
  have key : ∀ a b : ℝ, 0 ≤ b → b ≤ a → a ≤ Real.pi → s ≤ Real.sin a + Real.sin b →
      a - b ≤ Real.pi * ((Real.cos b - Real.cos a) / s) := fun a b h1 h2 h3 h4 => by
    have c := cos_sub_sin h1 h2 h3
    have d0 : 0 ≤ (a - b) / Real.pi := div_nonneg (by linarith) p0.le
    have c' := (mul_le_mul_of_nonneg_left h4 d0).trans c
    have : (a - b) / Real.pi ≤ (Real.cos b - Real.cos a) / s := by rwa [le_div_iff₀ hs]
    rw [div_le_iff₀ p0] at this
    linarith
  have hx' := abs_le.1 hx
  have hy' := abs_le.1 hy
  have cx := Real.cos_arccos hx'.1 hx'.2
  have cy := Real.cos_arccos hy'.1 hy'.2
  have sx := Real.sin_nonneg_of_nonneg_of_le_pi (Real.arccos_nonneg x) (Real.arccos_le_pi x)
  rcases le_total (Real.arccos y) (Real.arccos x) with o | o
  · have k := key _ _ (Real.arccos_nonneg y) o (Real.arccos_le_pi x) (by linarith)
    rw [cx, cy] at k
    rw [abs_of_nonneg (by linarith)]
    refine k.trans (mul_le_mul_of_nonneg_left (div_le_div_of_nonneg_right ?_ hs.le) p0.le)
    rw [abs_sub_comm]; exact le_abs_self _
  · have k := key _ _ (Real.arccos_nonneg x) o (Real.arccos_le_pi y) (by linarith)
    rw [cx, cy] at k
    rw [abs_of_nonpos (by linarith)]
    refine le_trans (by linarith) (k.trans (mul_le_mul_of_nonneg_left (div_le_div_of_nonneg_right ?_ hs.le) p0.le))
    exact le_abs_self _

theorem arccos_root {x y : ℝ} (hx : |x| ≤ 1) (hy : |y| ≤ 1) :
    |Real.arccos x - Real.arccos y| ≤ Real.pi * Real.sqrt (|x - y| / 2) := by
  have p0 := Real.pi_pos
  have key : ∀ a b : ℝ, 0 ≤ b → b ≤ a → a ≤ Real.pi →
      a - b ≤ Real.pi * Real.sqrt (|Real.cos a - Real.cos b| / 2) := fun a b h1 h2 h3 => by
    have c := cos_sub_sq h1 h2 h3
    have : (a - b) / Real.pi ≤ Real.sqrt (|Real.cos a - Real.cos b| / 2) := by
      apply Real.le_sqrt_of_sq_le
      rw [abs_sub_comm]
      linarith [le_abs_self (Real.cos b - Real.cos a)]
    rw [div_le_iff₀ p0] at this
    linarith
  have hx' := abs_le.1 hx
  have hy' := abs_le.1 hy
  have cx := Real.cos_arccos hx'.1 hx'.2
  have cy := Real.cos_arccos hy'.1 hy'.2
  rcases le_total (Real.arccos y) (Real.arccos x) with o | o
  · have k := key _ _ (Real.arccos_nonneg y) o (Real.arccos_le_pi x)
    rw [cx, cy] at k
    rwa [abs_of_nonneg (by linarith)]
  · have k := key _ _ (Real.arccos_nonneg x) o (Real.arccos_le_pi y)
    rw [cx, cy, abs_sub_comm] at k
    rw [abs_of_nonpos (by linarith)]
    linarith

/-- Rounding of `arccos` and of the conversion to degrees. -/
theorem degrees_near (h0 : 0 ≤ ε) (A : LightArith ε) {y θ δ : ℝ} (hy : |y| ≤ 1)
    (h : |Real.arccos y - θ| ≤ Real.pi * δ) :
    |A.rad2deg (A.acos y) - rad2deg θ| ≤ 180 * (2 * ε + ε ^ 2) + 180 * δ := by
  have p0 := Real.pi_pos
  have a0 := Real.arccos_nonneg y
  have a1 := Real.arccos_le_pi y
  have e1 := A.acos_err y hy
  rw [abs_of_nonneg a0] at e1
  have e1' := abs_le.1 (e1.trans (mul_le_mul_of_nonneg_left a1 h0))
  have ep : 0 ≤ ε * Real.pi := mul_nonneg h0 p0.le
  have e2 : |A.acos y| ≤ (1 + ε) * Real.pi := by rw [abs_le]; constructor <;> linarith [e1'.1, e1'.2]
  have e3 : |rad2deg (A.acos y)| ≤ (1 + ε) * 180 := by
    unfold rad2deg
    rw [abs_div, abs_mul, abs_of_pos p0, abs_of_pos (by norm_num : (0 : ℝ) < 180), div_le_iff₀ p0]
    linarith
  have e4 := A.rad2deg_err (A.acos y)
  have e5 : |rad2deg (A.acos y) - rad2deg θ| ≤ 180 * (ε + δ) := by
    unfold rad2deg
    rw [show A.acos y * 180 / Real.pi - θ * 180 / Real.pi = (A.acos y - θ) * 180 / Real.pi by ring, abs_div, abs_mul,
      abs_of_pos p0, abs_of_pos (by norm_num : (0 : ℝ) < 180), div_le_iff₀ p0]
    have h' := abs_le.1 h
    have : |A.acos y - θ| ≤ ε * Real.pi + Real.pi * δ := by
      rw [abs_le]; constructor <;> linarith [e1'.1, e1'.2, h'.1, h'.2]
    linarith
  have t := abs_add_le (A.rad2deg (A.acos y) - rad2deg (A.acos y)) (rad2deg (A.acos y) - rad2deg θ)
  rw [sub_add_sub_cancel] at t
  linarith [mul_le_mul_of_nonneg_left e3 h0]

theorem aoiAngle_cos {u c q : Pt} (h : |cosBetween u c q| ≤ 1) :
    aoiAngle u c q = rad2deg (Real.arccos (cosBetween u c q)) := by
  have h' := abs_le.1 h
  have : clip (cosBetween u c q) (-1) 1 = cosBetween u c q := by
    unfold clip; rw [max_eq_left h'.1, min_eq_left h'.2]
  unfold aoiAngle
  rw [← this]
  rfl

/-- The sine from the cross product. -/
theorem sin_between {u c q : Pt} (hu : u.x ≠ 0 ∨ u.y ≠ 0) (hq : q.x - c.x ≠ 0 ∨ q.y - c.y ≠ 0) {s : ℝ} (hs : 0 < s)
    (h : s * (Real.sqrt (u.x ^ 2 + u.y ^ 2) * Real.sqrt ((q.x - c.x) ^ 2 + (q.y - c.y) ^ 2))
      ≤ |u.x * (q.y - c.y) - u.y * (q.x - c.x)|) : s ≤ Real.sin (Real.arccos (cosBetween u c q)) := by
  have U := root_pos hu
  have V := root_pos hq
  have U2 := Real.sq_sqrt (by positivity : 0 ≤ u.x ^ 2 + u.y ^ 2)
  have V2 := Real.sq_sqrt (by positivity : 0 ≤ (q.x - c.x) ^ 2 + (q.y - c.y) ^ 2)
  rw [Real.sin_arccos]
  apply Real.le_sqrt_of_sq_le
  unfold cosBetween
  set a := Real.sqrt (u.x ^ 2 + u.y ^ 2)
  set b := Real.sqrt ((q.x - c.x) ^ 2 + (q.y - c.y) ^ 2)
  have w := mul_pos U V
  have h2 := pow_le_pow_left₀ (mul_pos hs w).le h 2
  rw [sq_abs] at h2
  have e : (u.x * (q.x - c.x) + u.y * (q.y - c.y)) ^ 2 + (u.x * (q.y - c.y) - u.y * (q.x - c.x)) ^ 2
      = (a * b) ^ 2 := by rw [mul_pow, U2, V2]; ring
  rw [div_pow, le_sub_iff_add_le, ← le_sub_iff_add_le', div_le_iff₀ (pow_pos w 2)]
  linarith

/-- C113: computed AOI angles of points that are not in the direction of the surface. -/
theorem C113_angle (h0 : 0 ≤ ε) (h1 : ε < 1) (A : LightArith ε) {u c q : Pt} (hu : u.x ≠ 0 ∨ u.y ≠ 0)
    (hq : q.x - c.x ≠ 0 ∨ q.y - c.y ≠ 0) {s : ℝ} (hs : 0 < s)
    (h : s * (Real.sqrt (u.x ^ 2 + u.y ^ 2) * Real.sqrt ((q.x - c.x) ^ 2 + (q.y - c.y) ^ 2))
      ≤ |u.x * (q.y - c.y) - u.y * (q.x - c.x)|) :
    |A.aoiAngle u c q - aoiAngle u c q| ≤ 180 * (2 * ε + ε ^ 2) + 180 * ((grow ε ^ 10 - 1) / s) := by
  have n := cosTheta_near h0 h1 A.toArith hu hq
  have k := clip_near (x := A.cosTheta u c q) n.2
  rw [aoiAngle_cos n.2]
  refine degrees_near h0 A k.2 ((arccos_near k.2 n.2 hs (sin_between hu hq hs h)).trans ?_)
  exact mul_le_mul_of_nonneg_left (div_le_div_of_nonneg_right (k.1.trans n.1) hs.le) Real.pi_pos.le

/-- C113: computed AOI angles of all points. -/
theorem C113_always (h0 : 0 ≤ ε) (h1 : ε < 1) (A : LightArith ε) {u c q : Pt} (hu : u.x ≠ 0 ∨ u.y ≠ 0)
    (hq : q.x - c.x ≠ 0 ∨ q.y - c.y ≠ 0) :
    |A.aoiAngle u c q - aoiAngle u c q| ≤ 180 * (2 * ε + ε ^ 2) + 180 * Real.sqrt ((grow ε ^ 10 - 1) / 2) := by
  have n := cosTheta_near h0 h1 A.toArith hu hq
  have k := clip_near (x := A.cosTheta u c q) n.2
  rw [aoiAngle_cos n.2]
  refine degrees_near h0 A k.2 ((arccos_root k.2 n.2).trans ?_)
  exact mul_le_mul_of_nonneg_left (Real.sqrt_le_sqrt (div_le_div_of_nonneg_right (k.1.trans n.1) (by norm_num)))
    Real.pi_pos.le

/-- C113: computed view factors with AOI losses between a surface and the line between two points. -/
theorem C113_points {τ d φ : ℝ} (h0 : 0 ≤ ε) (h1 : ε < 1) (A : LightArith ε) {n : ℕ} (hn : 0 < n) (T : SumTree)
    (hT : T.leaves = Multiset.range n) (f f' : ℝ → ℝ) (hf : ∀ x, 0 ≤ x → x ≤ 180 → 0 ≤ f x ∧ f x ≤ d)
    (hφ : ∀ k < n, |f' (A.aoiMid n k) - f ((k + 1 / 2) * (180 / n))| ≤ φ)
    {u c b1 b2 : Pt} (hu : u.x ≠ 0 ∨ u.y ≠ 0) {s : ℝ} (hs : 0 < s)
    (hb : ∀ q ∈ [b1, b2], (q.x - c.x ≠ 0 ∨ q.y - c.y ≠ 0) ∧
      s * (Real.sqrt (u.x ^ 2 + u.y ^ 2) * Real.sqrt ((q.x - c.x) ^ 2 + (q.y - c.y) ^ 2))
        ≤ |u.x * (q.y - c.y) - u.y * (q.x - c.x)|)
    (hg : (grow ε ^ 5 - 1) * 180 ≤ τ) (hg' : 180 * (2 * ε + ε ^ 2) + 180 * ((grow ε ^ 10 - 1) / s) ≤ τ)
    (h4 : 4 * τ < 180 / n) (hw : 2 * TOL ≤ |aoiAngle u c b2 - aoiAngle u c b1|)
    (hτ : TOL ≤ (1 - ε) * (2 * TOL - 2 * τ)) :
    |A.vfAoiPoints T (A.aoiTable f' n) u c b1 b2 - vfAoiAngles f n (aoiAngle u c b1) (aoiAngle u c b2)|
      ≤ d * (Real.pi / n) + n * integrandErr ε d φ + (grow ε ^ n - 1) * (d + n * integrandErr ε d φ) := by
  have e : ∀ q ∈ [b1, b2], |A.aoiAngle u c q - aoiAngle u c q| ≤ τ := fun q hq =>
    (C113_angle h0 h1 A hu (hb q hq).1 hs (hb q hq).2).trans hg'
  exact C112_angles h0 h1 A.toTrigArith hn T hT f f' hf hφ hg h4 _ _ _ _ (e b1 (by simp)) (e b2 (by simp)) hw hτ

/-- C113: computed AOI angles of ground points that another row may hide, unless the ground point, the other row and the
centre of the surface are almost on a line. -/
theorem C113_obstructed (h0 : 0 ≤ ε) (h1 : ε < 1) (A : LightArith ε) {u c g o : Pt} (left : Bool)
    (hu : u.x ≠ 0 ∨ u.y ≠ 0) (hc : g.y < c.y) (ho : g.y < o.y)
    (hm : 10 * (grow ε - 1) < |angleX g c - angleX g o|) {s : ℝ} (hs : 0 < s)
    (hb : ∀ q ∈ [g, o], (q.x - c.x ≠ 0 ∨ q.y - c.y ≠ 0) ∧
      s * (Real.sqrt (u.x ^ 2 + u.y ^ 2) * Real.sqrt ((q.x - c.x) ^ 2 + (q.y - c.y) ^ 2))
        ≤ |u.x * (q.y - c.y) - u.y * (q.x - c.x)|) :
    |A.aoiAngleObstr u c g o left - aoiAngleObstr u c g o left|
      ≤ 180 * (2 * ε + ε ^ 2) + 180 * ((grow ε ^ 10 - 1) / s) := by
  have a1 := abs_le.1 (A.angle_err h0 h1 hc)
  have a2 := abs_le.1 (A.angle_err h0 h1 ho)
  have iff : A.angle g c < A.angle g o ↔ angleX g c < angleX g o := by
    rcases lt_abs.1 hm with h | h <;> constructor <;> intro h' <;> linarith [a1.1, a1.2, a2.1, a2.2]
  have iff' : A.angle g c > A.angle g o ↔ angleX g c > angleX g o := by
    rcases lt_abs.1 hm with h | h <;> constructor <;> intro h' <;> linarith [a1.1, a1.2, a2.1, a2.2]
  have e : ∀ q ∈ [g, o], |A.aoiAngle u c q - aoiAngle u c q| ≤ _ := fun q hq =>
    C113_angle h0 h1 A hu (hb q hq).1 hs (hb q hq).2
  unfold LightArith.aoiAngleObstr aoiAngleObstr
  cases left
  · simp only [Bool.false_eq_true, if_false, iff]
    split_ifs
    · exact e o (by simp)
    · exact e g (by simp)
  · simp only [if_true, iff']
    split_ifs
    · exact e o (by simp)
    · exact e g (by simp)

theorem demo_angles : aoiAngle ⟨1, 0⟩ ⟨0, 0⟩ ⟨0, 1⟩ = 90 ∧ aoiAngle ⟨1, 0⟩ ⟨0, 0⟩ ⟨1, 1⟩ = 45 := by
  have p0 := Real.pi_pos
  constructor
  · have e : cosBetween ⟨1, 0⟩ ⟨0, 0⟩ ⟨0, 1⟩ = 0 := by simp [cosBetween]
    rw [aoiAngle_cos (by rw [e]; simp), e, Real.arccos_zero]
    unfold rad2deg
    field_simp
    norm_num
  · have e : cosBetween ⟨1, 0⟩ ⟨0, 0⟩ ⟨1, 1⟩ = Real.cos (Real.pi / 4) := by
      have r := Real.mul_self_sqrt (by norm_num : (0 : ℝ) ≤ 2)
      have r0 : (0 : ℝ) < Real.sqrt 2 := by positivity
      rw [Real.cos_pi_div_four]
      simp only [cosBetween]
      norm_num
      field_simp
      linarith
    rw [aoiAngle_cos (by rw [e]; exact Real.abs_cos_le_one _), e, Real.arccos_cos (by linarith) (by linarith)]
    unfold rad2deg
    field_simp
    norm_num

/-- Witness for C113: the wedge between 45 and 90 degrees and a point in the direction of the surface, in an arithmetic
in which all results are too large. -/
theorem C113_demo :
    let A := tooLargeLight (1 / 2 ^ 53) (by norm_num)
    let f' : ℝ → ℝ := fun _ => 9 / 10 + 1 / 10 ^ 12
    |A.aoiAngle ⟨1, 0⟩ ⟨0, 0⟩ ⟨1, 1⟩ - 45| ≤ 1 / 10 ^ 11 ∧
    |A.aoiAngle ⟨1, 0⟩ ⟨0, 0⟩ ⟨1, 0⟩ - aoiAngle ⟨1, 0⟩ ⟨0, 0⟩ ⟨1, 0⟩| ≤ 1 / 10 ^ 4 ∧
    |A.vfAoiPoints (inOrder 299) (A.aoiTable f' 300) ⟨1, 0⟩ ⟨0, 0⟩ ⟨0, 1⟩ ⟨1, 1⟩
      - vfAoiAngles (fun _ => 9 / 10) 300 90 45| ≤ 1 / 100 := by
  intro A f'
  have two : Real.sqrt 2 ≤ 2 := by
    rw [Real.sqrt_le_left (by norm_num)]; norm_num
  have hb : ∀ q ∈ [(⟨0, 1⟩ : Pt), ⟨1, 1⟩], (q.x - (⟨0, 0⟩ : Pt).x ≠ 0 ∨ q.y - (⟨0, 0⟩ : Pt).y ≠ 0) ∧
      1 / 2 * (Real.sqrt ((⟨1, 0⟩ : Pt).x ^ 2 + (⟨1, 0⟩ : Pt).y ^ 2)
          * Real.sqrt ((q.x - (⟨0, 0⟩ : Pt).x) ^ 2 + (q.y - (⟨0, 0⟩ : Pt).y) ^ 2))
        ≤ |(⟨1, 0⟩ : Pt).x * (q.y - (⟨0, 0⟩ : Pt).y) - (⟨1, 0⟩ : Pt).y * (q.x - (⟨0, 0⟩ : Pt).x)| := by
    intro q hq
    simp only [List.mem_cons, List.not_mem_nil, or_false] at hq
    rcases hq with rfl | rfl
    · refine ⟨Or.inr (by norm_num), by norm_num⟩
    · refine ⟨Or.inl (by norm_num), ?_⟩
      norm_num
      linarith
  have hs : 180 * (2 * (1 / 2 ^ 53) + (1 / 2 ^ 53) ^ 2) + 180 * ((grow (1 / 2 ^ 53) ^ 10 - 1) / (1 / 2))
      ≤ (1 / 10 ^ 11 : ℝ) := by norm_num [grow]
  refine ⟨?_, ?_, ?_⟩
  · have h := C113_angle (ε := 1 / 2 ^ 53) (by norm_num) (by norm_num) A (u := ⟨1, 0⟩) (c := ⟨0, 0⟩) (q := ⟨1, 1⟩)
      (Or.inl (by norm_num)) (hb _ (by simp)).1 (s := 1 / 2) (by norm_num) (hb _ (by simp)).2
    rw [demo_angles.2] at h
    exact h.trans hs
  · have h := C113_always (ε := 1 / 2 ^ 53) (by norm_num) (by norm_num) A (u := ⟨1, 0⟩) (c := ⟨0, 0⟩) (q := ⟨1, 0⟩)
      (Or.inl (by norm_num)) (Or.inl (by norm_num))
    refine h.trans ?_
    have r : Real.sqrt ((grow (1 / 2 ^ 53) ^ 10 - 1) / 2) ≤ 1 / 10 ^ 7 := by
      rw [Real.sqrt_le_left (by norm_num)]
      norm_num [grow]
    norm_num at r ⊢
    linarith
  · have hg : grow (1 / 2 ^ 53) ^ 300 - 1 ≤ 1 / 10 ^ 7 := by
      have g1 : grow (1 / 2 ^ 53) ^ 100 ≤ 1 + 1 / 10 ^ 8 := by norm_num [grow]
      have g2 := pow_le_pow_left₀ (pow_nonneg (by norm_num [grow]) _) g1 3
      rw [← pow_mul] at g2
      have g3 : ((1 : ℝ) + 1 / 10 ^ 8) ^ 3 - 1 ≤ 1 / 10 ^ 7 := by norm_num
      linarith
    have hg0 := grow_pow_one (ε := 1 / 2 ^ 53) (by norm_num) (by norm_num) 300
    have hi := integrandErr_small
    have hs' : (grow (1 / 2 ^ 53) ^ 300 - 1) * (9 / 10 + (300 : ℕ) * integrandErr (1 / 2 ^ 53) (9 / 10) (1 / 10 ^ 12))
        ≤ 1 / 10 ^ 7 := by
      have h1 : 9 / 10 + ((300 : ℕ) : ℝ) * integrandErr (1 / 2 ^ 53) (9 / 10) (1 / 10 ^ 12) ≤ 1 := by
        push_cast; linarith
      have := mul_le_mul_of_nonneg_left h1 (by linarith : 0 ≤ grow (1 / 2 ^ 53) ^ 300 - 1)
      linarith
    have h := C113_points (ε := 1 / 2 ^ 53) (τ := 1 / 10 ^ 9) (φ := 1 / 10 ^ 12) (d := 9 / 10) (by norm_num) (by norm_num)
      A (n := 300) (by norm_num) (inOrder 299) (by rw [inOrder_leaves]) (fun _ => 9 / 10) f' (fun _ _ _ => by norm_num)
      (fun k _ => by rw [abs_le]; constructor <;> norm_num [f']) (u := ⟨1, 0⟩) (c := ⟨0, 0⟩) (b1 := ⟨0, 1⟩)
      (b2 := ⟨1, 1⟩) (Or.inl (by norm_num)) (s := 1 / 2) (by norm_num) hb (by norm_num [grow])
      (hs.trans (by norm_num)) (by norm_num)
      (by rw [demo_angles.1, demo_angles.2]; norm_num [TOL]) (by norm_num [TOL])
    rw [demo_angles.1, demo_angles.2] at h
    refine h.trans ?_
    have hp := Real.pi_lt_d2
    generalize (grow (1 / 2 ^ 53) ^ 300 - 1) * (9 / 10 + (300 : ℕ) * integrandErr (1 / 2 ^ 53) (9 / 10) (1 / 10 ^ 12))
      = t at hs' ⊢
    generalize integrandErr (1 / 2 ^ 53) (9 / 10) (1 / 10 ^ 12) = κ at hi ⊢
    norm_num at hs' hi ⊢
    linarith

/-- Witness for `C113_obstructed`: a point on the ground that another row hides. -/
theorem C113_obstructed_demo :
    let A := tooLargeLight (1 / 2 ^ 53) (by norm_num)
    angleX ⟨0, 0⟩ ⟨1, 1⟩ < angleX ⟨0, 0⟩ ⟨0, 1 / 2⟩ ∧
    |A.aoiAngleObstr ⟨1, 0⟩ ⟨1, 1⟩ ⟨0, 0⟩ ⟨0, 1 / 2⟩ false - aoiAngle ⟨1, 0⟩ ⟨1, 1⟩ ⟨0, 1 / 2⟩| ≤ 1 / 10 ^ 11 := by
  intro A
  have p := Real.pi_gt_three
  have x1 : angleX ⟨0, 0⟩ ⟨1, 1⟩ = Real.pi / 4 := by
    unfold angleX arctan2
    have e : (⟨(1 : ℝ) - 0, (1 : ℝ) - 0⟩ : ℂ)
        = (Real.sqrt 2 : ℝ) * (Real.cos (Real.pi / 4) + Real.sin (Real.pi / 4) * Complex.I) := by
      have r := Real.mul_self_sqrt (by norm_num : (0 : ℝ) ≤ 2)
      rw [Real.cos_pi_div_four, Real.sin_pi_div_four]
      apply Complex.ext <;> simp <;> linarith
    rw [e, Complex.ofReal_cos, Complex.ofReal_sin,
      Complex.arg_mul_cos_add_sin_mul_I (by positivity) ⟨by linarith, by linarith⟩]
  have x2 : angleX ⟨0, 0⟩ ⟨0, 1 / 2⟩ = Real.pi / 2 := by
    unfold angleX arctan2
    rw [Complex.arg_eq_pi_div_two_iff]
    constructor <;> norm_num
  have lt : angleX ⟨0, 0⟩ ⟨1, 1⟩ < angleX ⟨0, 0⟩ ⟨0, 1 / 2⟩ := by rw [x1, x2]; linarith
  refine ⟨lt, ?_⟩
  have h := C113_obstructed (ε := 1 / 2 ^ 53) (by norm_num) (by norm_num) A (u := ⟨1, 0⟩) (c := ⟨1, 1⟩) (g := ⟨0, 0⟩)
    (o := ⟨0, 1 / 2⟩) false (Or.inl (by norm_num)) (by norm_num) (by norm_num)
    (by
      rw [x1, x2, abs_of_neg (by linarith)]
      have : 10 * (grow (1 / 2 ^ 53) - 1) < 1 / 2 := by norm_num [grow]
      linarith) (s := 1 / 4) (by norm_num)
    (by
      intro q hq
      simp only [List.mem_cons, List.not_mem_nil, or_false] at hq
      rcases hq with rfl | rfl
      · refine ⟨Or.inl (by norm_num), ?_⟩
        have : Real.sqrt 2 ≤ 2 := by rw [Real.sqrt_le_left (by norm_num)]; norm_num
        norm_num
        linarith
      · refine ⟨Or.inl (by norm_num), ?_⟩
        have : Real.sqrt (1 + 1 / 4) ≤ 2 := by rw [Real.sqrt_le_left (by norm_num)]; norm_num
        have e : ((0 : ℝ) - 1) ^ 2 + (1 / 2 - 1) ^ 2 = 1 + 1 / 4 := by norm_num
        simp only [e]
        rw [show |(1 : ℝ) * (1 / 2 - 1) - 0 * (0 - 1)| = 1 / 2 by norm_num [abs_of_neg]]
        rw [show Real.sqrt ((1 : ℝ) ^ 2 + 0 ^ 2) = 1 by norm_num]
        linarith)
  have e : aoiAngleObstr ⟨1, 0⟩ ⟨1, 1⟩ ⟨0, 0⟩ ⟨0, 1 / 2⟩ false = aoiAngle ⟨1, 0⟩ ⟨1, 1⟩ ⟨0, 1 / 2⟩ := by
    unfold aoiAngleObstr
    simp only [Bool.false_eq_true, if_false, lt, if_true]
  rw [e] at h
  exact h.trans (by norm_num [grow])

end PVF

import Verif.Model.Rounded
import Verif.Spec.Rounded
import Verif.Lemmas.Strings
import Mathlib.Analysis.SpecialFunctions.Trigonometric.Bounds
import Mathlib.Analysis.Real.Pi.Bounds

/-! # Propagation of rounding errors -/

namespace PVF

section
variable {ε : ℝ} (h0 : 0 ≤ ε) (h1 : ε < 1)
include h0 h1

theorem grow_ge : 1 + ε ≤ grow ε := by
  unfold grow
  rw [le_div_iff₀ (by linarith)]
  nlinarith

theorem grow_one : 1 ≤ grow ε := by have := grow_ge h0 h1; linarith

theorem grow_pow_one (k : ℕ) : 1 ≤ grow ε ^ k := one_le_pow₀ (grow_one h0 h1)

theorem grow_mono {j k : ℕ} (h : j ≤ k) : grow ε ^ j ≤ grow ε ^ k :=
  pow_le_pow_right₀ (grow_one h0 h1) h

theorem grow_inv : (grow ε)⁻¹ = 1 - ε := by unfold grow; simp

end

/-- A positive number with a relative error. -/
def Rel (ε : ℝ) (k : ℕ) (x' x : ℝ) : Prop := x ≤ grow ε ^ k * x' ∧ x' ≤ grow ε ^ k * x

/-- A number `x` with an error that is small in comparison with `m`. -/
def Near (ε : ℝ) (k : ℕ) (x' x m : ℝ) : Prop := |x' - x| ≤ (grow ε ^ k - 1) * m ∧ |x| ≤ m

section
variable {ε : ℝ} (h0 : 0 ≤ ε) (h1 : ε < 1)
include h0 h1

theorem rel_of_err {x' x : ℝ} (hx : 0 ≤ x) (h : |x' - x| ≤ ε * x) : Rel ε 1 x' x := by
  rw [abs_le] at h
  have hg := grow_ge h0 h1
  have hg1 := grow_one h0 h1
  have e : grow ε * (1 - ε) = 1 := by unfold grow; field_simp [show (1 : ℝ) - ε ≠ 0 by linarith]
  unfold Rel
  rw [pow_one]
  constructor
  · calc x = grow ε * ((1 - ε) * x) := by rw [← mul_assoc, e, one_mul]
      _ ≤ grow ε * x' := by
        apply mul_le_mul_of_nonneg_left _ (by linarith)
        linarith [h.1]
  · calc x' ≤ (1 + ε) * x := by linarith [h.2]
      _ ≤ grow ε * x := mul_le_mul_of_nonneg_right hg hx

theorem Rel.nonneg {k : ℕ} {x' x : ℝ} (h : Rel ε k x' x) (hx : 0 ≤ x) : 0 ≤ x' := by
  have hg := grow_pow_one h0 h1 k
  by_contra hc
  have := h.1
  nlinarith

theorem Rel.mono {j k : ℕ} (hjk : j ≤ k) {x' x : ℝ} (h : Rel ε j x' x) (hx : 0 ≤ x) :
    Rel ε k x' x := by
  have h' := h.nonneg h0 h1 hx
  have hg := grow_mono h0 h1 hjk
  exact ⟨h.1.trans (mul_le_mul_of_nonneg_right hg h'), h.2.trans (mul_le_mul_of_nonneg_right hg hx)⟩

theorem Rel.trans {j k : ℕ} {x y z : ℝ} (h : Rel ε j x y) (h' : Rel ε k y z) : Rel ε (j + k) x z := by
  have hj : 0 ≤ grow ε ^ j := zero_le_one.trans (grow_pow_one h0 h1 j)
  have hk : 0 ≤ grow ε ^ k := zero_le_one.trans (grow_pow_one h0 h1 k)
  unfold Rel
  rw [pow_add]
  constructor
  · calc z ≤ grow ε ^ k * y := h'.1
      _ ≤ grow ε ^ k * (grow ε ^ j * x) := mul_le_mul_of_nonneg_left h.1 hk
      _ = _ := by ring
  · calc x ≤ grow ε ^ j * y := h.2
      _ ≤ grow ε ^ j * (grow ε ^ k * z) := mul_le_mul_of_nonneg_left h'.2 hj
      _ = _ := by ring

theorem Rel.add {k : ℕ} {x' x y' y : ℝ} (h : Rel ε k x' x) (h' : Rel ε k y' y) :
    Rel ε k (x' + y') (x + y) :=
  ⟨by rw [mul_add]; exact add_le_add h.1 h'.1, by rw [mul_add]; exact add_le_add h.2 h'.2⟩

theorem Rel.mul {j k : ℕ} {x' x y' y : ℝ} (h : Rel ε j x' x) (h' : Rel ε k y' y) (hx : 0 ≤ x)
    (hy : 0 ≤ y) : Rel ε (j + k) (x' * y') (x * y) := by
  have hj : 0 ≤ grow ε ^ j := zero_le_one.trans (grow_pow_one h0 h1 j)
  have hx' := h.nonneg h0 h1 hx
  have hy' := h'.nonneg h0 h1 hy
  unfold Rel
  rw [pow_add]
  constructor
  · calc x * y ≤ (grow ε ^ j * x') * (grow ε ^ k * y') := mul_le_mul h.1 h'.1 hy (by positivity)
      _ = _ := by ring
  · calc x' * y' ≤ (grow ε ^ j * x) * (grow ε ^ k * y) := mul_le_mul h.2 h'.2 hy' (by positivity)
      _ = _ := by ring

theorem Rel.sqrt {k : ℕ} {x' x : ℝ} (h : Rel ε (2 * k) x' x) :
    Rel ε k (Real.sqrt x') (Real.sqrt x) := by
  have hk : 0 ≤ grow ε ^ k := zero_le_one.trans (grow_pow_one h0 h1 k)
  have e : grow ε ^ (2 * k) = (grow ε ^ k) ^ 2 := by rw [← pow_mul, mul_comm]
  unfold Rel at h ⊢
  rw [e] at h
  have s : ∀ z, Real.sqrt ((grow ε ^ k) ^ 2 * z) = grow ε ^ k * Real.sqrt z := by
    intro z
    rw [Real.sqrt_mul (sq_nonneg _), Real.sqrt_sq hk]
  exact ⟨by rw [← s]; exact Real.sqrt_le_sqrt h.1, by rw [← s]; exact Real.sqrt_le_sqrt h.2⟩

theorem Rel.near {k : ℕ} {x' x : ℝ} (h : Rel ε k x' x) (hx : 0 ≤ x) : Near ε k x' x x := by
  have hg := grow_pow_one h0 h1 k
  have hx' := h.nonneg h0 h1 hx
  refine ⟨?_, (abs_of_nonneg hx).le⟩
  rw [abs_le]
  constructor
  · by_cases hc : x' ≤ x
    · have := h.1
      nlinarith
    · nlinarith
  · linarith [h.2]

theorem Near.mono {j k : ℕ} (hjk : j ≤ k) {x' x m : ℝ} (h : Near ε j x' x m) : Near ε k x' x m := by
  have hm : 0 ≤ m := (abs_nonneg x).trans h.2
  refine ⟨h.1.trans (mul_le_mul_of_nonneg_right ?_ hm), h.2⟩
  linarith [grow_mono h0 h1 hjk]

/-- A rounded sum or difference. -/
theorem Near.round {k : ℕ} {z z' y m : ℝ} (h : Near ε k z' y m) (hz : |z - z'| ≤ ε * |z'|) :
    Near ε (k + 1) z y m := by
  have hm : 0 ≤ m := (abs_nonneg y).trans h.2
  have hg := grow_pow_one h0 h1 k
  have hge := grow_ge h0 h1
  refine ⟨?_, h.2⟩
  have e1 : |z'| ≤ grow ε ^ k * m := by
    have := abs_add_le (z' - y) y
    rw [sub_add_cancel] at this
    linarith [h.1, h.2]
  have e2 : |z - y| ≤ |z - z'| + |z' - y| := abs_sub_le _ _ _
  have e3 : ε * |z'| ≤ ε * (grow ε ^ k * m) := mul_le_mul_of_nonneg_left e1 h0
  have e4 : (1 + ε) * (grow ε ^ k * m) ≤ grow ε * (grow ε ^ k * m) :=
    mul_le_mul_of_nonneg_right hge (by positivity)
  rw [pow_succ]
  nlinarith [h.1]

theorem Near.add {k : ℕ} {x' x m y' y m' : ℝ} (h : Near ε k x' x m) (h' : Near ε k y' y m') :
    Near ε k (x' + y') (x + y) (m + m') := by
  refine ⟨?_, (abs_add_le _ _).trans (add_le_add h.2 h'.2)⟩
  rw [show x' + y' - (x + y) = (x' - x) + (y' - y) by ring, mul_add]
  exact (abs_add_le _ _).trans (add_le_add h.1 h'.1)

theorem Near.sub {k : ℕ} {x' x m y' y m' : ℝ} (h : Near ε k x' x m) (h' : Near ε k y' y m') :
    Near ε k (x' - y') (x - y) (m + m') := by
  refine ⟨?_, (abs_sub _ _).trans (add_le_add h.2 h'.2)⟩
  rw [show x' - y' - (x - y) = (x' - x) - (y' - y) by ring, mul_add]
  exact (abs_sub _ _).trans (add_le_add h.1 h'.1)

theorem Near.abs {k : ℕ} {x' x m : ℝ} (h : Near ε k x' x m) : Near ε k |x'| |x| m :=
  ⟨(abs_abs_sub_abs_le _ _).trans h.1, by rw [abs_abs]; exact h.2⟩

theorem Near.div {j k : ℕ} {x' x m y' y : ℝ} (h : Near ε j x' x m) (h' : Rel ε k y' y) (hy : 0 < y) :
    Near ε (j + k) (x' / y') (x / y) (m / y) := by
  have hm : 0 ≤ m := (abs_nonneg x).trans h.2
  have hj := grow_pow_one h0 h1 j
  have hk := grow_pow_one h0 h1 k
  have hy' : 0 < y' := by
    by_contra hc
    have := h'.1
    nlinarith
  refine ⟨?_, by rw [abs_div, abs_of_pos hy]; gcongr; exact h.2⟩
  have e : x' / y' - x / y = (x' - x) / y' + x * (1 / y' - 1 / y) := by field_simp; ring
  have a1 : 1 / y' ≤ grow ε ^ k * (1 / y) := by
    rw [div_le_iff₀ hy', mul_one_div, div_mul_eq_mul_div, le_div_iff₀ hy]
    linarith [h'.1]
  have a2 : 1 / y ≤ grow ε ^ k * (1 / y') := by
    rw [div_le_iff₀ hy, mul_one_div, div_mul_eq_mul_div, le_div_iff₀ hy']
    linarith [h'.2]
  have hiy : 0 < 1 / y := by positivity
  have hiy' : 0 < 1 / y' := by positivity
  have b1 : |1 / y' - 1 / y| ≤ (grow ε ^ k - 1) * (1 / y) := by
    have : Rel ε k (1 / y') (1 / y) := ⟨a2, a1⟩
    exact (this.near h0 h1 hiy.le).1
  have b2 : |(x' - x) / y'| ≤ (grow ε ^ j - 1) * m * (grow ε ^ k * (1 / y)) := by
    rw [abs_div, abs_of_pos hy', div_eq_mul_one_div]
    exact mul_le_mul h.1 a1 hiy'.le (by nlinarith)
  have b3 : |x * (1 / y' - 1 / y)| ≤ m * ((grow ε ^ k - 1) * (1 / y)) := by
    rw [abs_mul]
    exact mul_le_mul h.2 b1 (abs_nonneg _) hm
  rw [e]
  refine (abs_add_le _ _).trans ((add_le_add b2 b3).trans (le_of_eq ?_))
  rw [pow_add]
  ring

end

namespace Arith
variable {ε : ℝ} (h0 : 0 ≤ ε) (h1 : ε < 1) (A : Arith ε)
include h0 h1

theorem add_rel {k : ℕ} {x' x y' y : ℝ} (h : Rel ε k x' x) (h' : Rel ε k y' y) (hx : 0 ≤ x)
    (hy : 0 ≤ y) : Rel ε (k + 1) (A.add x' y') (x + y) := by
  have hs : 0 ≤ x' + y' := add_nonneg (h.nonneg h0 h1 hx) (h'.nonneg h0 h1 hy)
  have := rel_of_err h0 h1 hs (by have := A.add_err x' y'; rwa [abs_of_nonneg hs] at this)
  rw [add_comm k 1]
  exact this.trans h0 h1 (h.add h0 h1 h')

theorem sq_rel (x y : ℝ) : Rel ε 3 (A.mul (A.sub x y) (A.sub x y)) ((x - y) ^ 2) := by
  have hs : 0 ≤ A.sub x y * A.sub x y := mul_self_nonneg _
  have e1 := rel_of_err h0 h1 hs (by
    have := A.mul_err (A.sub x y) (A.sub x y); rwa [abs_of_nonneg hs] at this)
  have e2 : Rel ε 1 |A.sub x y| |x - y| := by
    refine rel_of_err h0 h1 (abs_nonneg _) ((abs_abs_sub_abs_le _ _).trans (A.sub_err x y))
  have e3 := e2.mul h0 h1 e2 (abs_nonneg _) (abs_nonneg _)
  rw [abs_mul_abs_self, abs_mul_abs_self] at e3
  have := e1.trans h0 h1 e3
  rwa [← sq] at this

/-- A computed distance has a relative error of three roundings. -/
theorem dist_rel (p q : Pt) : Rel ε 3 (A.dist p q) (distPt p q) := by
  unfold dist distPt
  have e1 := A.sq_rel h0 h1 q.y p.y
  have e2 := A.sq_rel h0 h1 q.x p.x
  have e3 := A.add_rel h0 h1 e1 e2 (sq_nonneg _) (sq_nonneg _)
  have hn := e3.nonneg h0 h1 (by positivity)
  have e4 := rel_of_err h0 h1 (Real.sqrt_nonneg _) (A.sqrt_err _ hn)
  exact e4.trans h0 h1 (Rel.sqrt h0 h1 (k := 2) e3)

end Arith

/-! ## Angles -/

theorem arctan2_sin (y x : ℝ) :
    Real.sin (arctan2 y x) = y / Real.sqrt (y ^ 2 + x ^ 2) := by
  unfold arctan2
  rw [Complex.sin_arg, Complex.norm_def, Complex.normSq_apply]
  congr 2
  ring

theorem arctan2_cos {y x : ℝ} (hy : 0 < y) :
    Real.cos (arctan2 y x) = x / Real.sqrt (y ^ 2 + x ^ 2) := by
  unfold arctan2
  rw [Complex.cos_arg (by intro h; have := congrArg Complex.im h; simp at this; linarith),
    Complex.norm_def, Complex.normSq_apply]
  congr 2
  ring

theorem arctan2_range {y x : ℝ} (hy : 0 < y) : 0 < arctan2 y x ∧ arctan2 y x < Real.pi := by
  unfold arctan2
  constructor
  · refine lt_of_le_of_ne (Complex.arg_nonneg_iff.2 hy.le) fun h => ?_
    have := Complex.arg_eq_zero_iff.1 h.symm
    simp at this
    linarith
  · refine lt_of_le_of_ne (Complex.arg_le_pi _) fun h => ?_
    have := Complex.arg_eq_pi_iff.1 h
    simp at this
    linarith

/-- Angles of vectors whose components have small relative errors. -/
theorem arctan2_close {ε y x y' x' : ℝ} (h0 : 0 ≤ ε) (h1 : ε < 1) (hy : 0 < y)
    (ey : |y' - y| ≤ ε * y) (ex : |x' - x| ≤ ε * |x|) :
    |arctan2 y' x' - arctan2 y x| ≤ Real.pi / 2 * (ε / (1 - ε)) := by
  have hy' : 0 < y' := by
    rw [abs_le] at ey
    nlinarith [ey.1]
  have hxx : 0 ≤ x' * x := by
    have := abs_le.1 ex
    rcases le_total 0 x with h | h
    · rw [abs_of_nonneg h] at this
      have : 0 ≤ x' := by nlinarith [this.1]
      exact mul_nonneg this h
    · rw [abs_of_nonpos h] at this
      have : x' ≤ 0 := by nlinarith [this.2]
      exact mul_nonneg_of_nonpos_of_nonpos this h
  set n := Real.sqrt (y ^ 2 + x ^ 2) with hn
  set n' := Real.sqrt (y' ^ 2 + x' ^ 2) with hn'
  have pn : 0 < n := Real.sqrt_pos.2 (by positivity)
  have pn' : 0 < n' := Real.sqrt_pos.2 (by positivity)
  have sn : n ^ 2 = y ^ 2 + x ^ 2 := Real.sq_sqrt (by positivity)
  have hnn : (1 - ε) * n ≤ n' := by
    apply Real.le_sqrt_of_sq_le
    rw [mul_pow, sn]
    have a1 : (1 - ε) * y ≤ y' := by have := (abs_le.1 ey).1; linarith
    have a2 : (1 - ε) * |x| ≤ |x'| := by
      have := abs_sub_abs_le_abs_sub x x'
      rw [abs_sub_comm] at this
      linarith
    have b1 : ((1 - ε) * y) ^ 2 ≤ y' ^ 2 :=
      pow_le_pow_left₀ (mul_nonneg (by linarith) hy.le) a1 2
    have b2 : ((1 - ε) * |x|) ^ 2 ≤ |x'| ^ 2 :=
      pow_le_pow_left₀ (mul_nonneg (by linarith) (abs_nonneg x)) a2 2
    rw [mul_pow, sq_abs] at b2
    rw [sq_abs] at b2
    rw [mul_pow] at b1
    linarith
  set d := arctan2 y' x' - arctan2 y x with hd
  have sd : Real.sin d = (y' * x - x' * y) / (n' * n) := by
    rw [hd, Real.sin_sub, arctan2_sin, arctan2_sin, arctan2_cos hy, arctan2_cos hy', ← hn, ← hn']
    field_simp
  have cd : 0 < Real.cos d := by
    rw [hd, Real.cos_sub, arctan2_sin, arctan2_sin, arctan2_cos hy, arctan2_cos hy', ← hn, ← hn']
    have : x' / n' * (x / n) + y' / n' * (y / n) = (x' * x + y' * y) / (n' * n) := by field_simp
    rw [this]
    have := mul_pos hy' hy
    positivity
  have dr : |d| < Real.pi := by
    have r1 := arctan2_range (x := x) hy
    have r2 := arctan2_range (x := x') hy'
    rw [abs_lt]
    constructor <;> linarith [r1.1, r1.2, r2.1, r2.2]
  have d2 : |d| ≤ Real.pi / 2 := by
    by_contra hc
    push Not at hc
    have := Real.cos_nonpos_of_pi_div_two_le_of_le hc.le (by linarith [Real.pi_pos])
    rw [Real.cos_abs] at this
    linarith
  have key := Real.mul_abs_le_abs_sin d2
  have num : |y' * x - x' * y| ≤ ε * n ^ 2 := by
    rw [show y' * x - x' * y = (y' - y) * x - (x' - x) * y by ring]
    refine (abs_sub _ _).trans ?_
    rw [abs_mul, abs_mul, abs_of_pos hy, sn]
    have e1 := mul_le_mul_of_nonneg_right ey (abs_nonneg x)
    have e2 := mul_le_mul_of_nonneg_right ex hy.le
    have e3 : 2 * (y * |x|) ≤ y ^ 2 + x ^ 2 := by
      have := sq_nonneg (y - |x|)
      rw [sub_sq, sq_abs] at this
      linarith
    have e4 := mul_le_mul_of_nonneg_left e3 h0
    nlinarith
  have sb : |Real.sin d| ≤ ε / (1 - ε) := by
    rw [sd, abs_div, abs_of_pos (mul_pos pn' pn), div_le_div_iff₀ (mul_pos pn' pn) (by linarith)]
    have e1 := mul_le_mul_of_nonneg_right num (show 0 ≤ 1 - ε by linarith)
    have e2 := mul_le_mul_of_nonneg_left (mul_le_mul_of_nonneg_right hnn pn.le) h0
    nlinarith
  have hpi := Real.pi_pos
  have : |d| ≤ Real.pi / 2 * |Real.sin d| := by
    have := mul_le_mul_of_nonneg_left key (show 0 ≤ Real.pi / 2 by positivity)
    rwa [← mul_assoc, show Real.pi / 2 * (2 / Real.pi) = 1 by field_simp, one_mul] at this
  exact this.trans (mul_le_mul_of_nonneg_left sb (by positivity))

/-- Which of two directions is further to the left. -/
theorem angle_lt_iff {g a b : Pt} (ha : g.y < a.y) (hb : g.y < b.y) :
    angleX g a < angleX g b ↔ 0 < (b.y - g.y) * (a.x - g.x) - (b.x - g.x) * (a.y - g.y) := by
  have ha' : 0 < a.y - g.y := by linarith
  have hb' : 0 < b.y - g.y := by linarith
  have ra := arctan2_range (x := a.x - g.x) ha'
  have rb := arctan2_range (x := b.x - g.x) hb'
  set na := Real.sqrt ((a.y - g.y) ^ 2 + (a.x - g.x) ^ 2) with hna
  set nb := Real.sqrt ((b.y - g.y) ^ 2 + (b.x - g.x) ^ 2) with hnb
  have pa : 0 < na := Real.sqrt_pos.2 (by positivity)
  have pb : 0 < nb := Real.sqrt_pos.2 (by positivity)
  have hs : Real.sin (angleX g b - angleX g a) * (na * nb)
      = (b.y - g.y) * (a.x - g.x) - (b.x - g.x) * (a.y - g.y) := by
    unfold angleX
    rw [Real.sin_sub, arctan2_sin, arctan2_sin, arctan2_cos ha', arctan2_cos hb', ← hna, ← hnb]
    field_simp
  rw [← hs]
  change arctan2 _ _ < arctan2 _ _ ↔ 0 < Real.sin (arctan2 _ _ - arctan2 _ _) * _
  constructor
  · intro h
    exact mul_pos (Real.sin_pos_of_pos_of_lt_pi (by linarith) (by linarith [ra.1, rb.2]))
      (mul_pos pa pb)
  · intro h
    by_contra hc
    have : Real.sin (arctan2 (b.y - g.y) (b.x - g.x) - arctan2 (a.y - g.y) (a.x - g.x)) ≤ 0 :=
      Real.sin_nonpos_of_nonpos_of_neg_pi_le (by linarith) (by linarith [ra.2, rb.1])
    nlinarith [mul_pos pa pb]

/-- If two points are seen from a third one below them in nearly the same direction, the way over
the lower one is not much of a detour. -/
theorem detour {g o q : Pt} (ho : g.y < o.y) (hq : o.y ≤ q.y) :
    distPt g o + distPt o q ≤ distPt q g
      + 2 * (|angleX g q - angleX g o| * distPt g o * distPt g q / (q.y - g.y)) := by
  have hqy : 0 < q.y - g.y := by linarith
  have hoy : 0 < o.y - g.y := by linarith
  set t := (o.y - g.y) / (q.y - g.y) with ht
  have ht0 : 0 ≤ t := by positivity
  have ht1 : t ≤ 1 := by rw [ht, div_le_one hqy]; linarith
  set w := wayPt g q t with hw
  have wy : w.y = o.y := by
    rw [hw, ht]; simp only [wayPt]; field_simp; ring
  have wx : w.x = g.x + t * (q.x - g.x) := rfl
  have e1 := distPt_way_left (a := g) (p := q) ht0
  have e2 := distPt_way_right (a := g) (p := q) ht1
  have t1 := distPt_triangle g w o
  have t2 := distPt_triangle o w q
  have dw : distPt w o = |o.x - w.x| := by
    unfold distPt
    rw [wy, sub_self, zero_pow two_ne_zero, zero_add, Real.sqrt_sq_eq_abs]
  have pgo : 0 < distPt g o := Real.sqrt_pos.2 (by positivity)
  have pgq : 0 < distPt g q := Real.sqrt_pos.2 (by positivity)
  have hs : Real.sin (angleX g q - angleX g o) * distPt g o * distPt g q / (q.y - g.y)
      = o.x - w.x := by
    unfold angleX
    rw [Real.sin_sub, arctan2_sin, arctan2_sin, arctan2_cos hqy, arctan2_cos hoy]
    have d1 : Real.sqrt ((o.y - g.y) ^ 2 + (o.x - g.x) ^ 2) = distPt g o := rfl
    have d2 : Real.sqrt ((q.y - g.y) ^ 2 + (q.x - g.x) ^ 2) = distPt g q := rfl
    rw [d1, d2, wx, ht]
    field_simp
    ring
  have hb : |o.x - w.x| ≤ |angleX g q - angleX g o| * distPt g o * distPt g q / (q.y - g.y) := by
    rw [← hs, abs_div, abs_mul, abs_mul, abs_of_pos pgo, abs_of_pos pgq, abs_of_pos hqy]
    have := Real.abs_sin_le_abs (x := angleX g q - angleX g o)
    exact div_le_div_of_nonneg_right (mul_le_mul_of_nonneg_right
      (mul_le_mul_of_nonneg_right this pgo.le) pgq.le) hqy.le
  rw [distPt_comm q g]
  have : distPt g q = t * distPt g q + (1 - t) * distPt g q := by ring
  rw [distPt_comm o w] at t2
  rw [← hw] at e1 e2
  linarith

/-- The same if the obstruction may be a little higher than the other point. -/
theorem detour_slack {g o q : Pt} {σ : ℝ} (ho : g.y < o.y) (hg : g.y < q.y) (hσ : 0 ≤ σ)
    (hq : o.y ≤ q.y + σ) :
    distPt g o + distPt o q ≤ distPt q g
      + 2 * (|angleX g q - angleX g o| * distPt g o * distPt g q / (q.y - g.y))
      + 2 * (σ * distPt g o / (o.y - g.y)) := by
  have hoy : 0 < o.y - g.y := by linarith
  have hqy : 0 < q.y - g.y := by linarith
  have pgo := distPt_nonneg g o
  have pgq := distPt_nonneg g q
  rcases le_or_gt o.y q.y with h | h
  · have := detour ho h
    have : 0 ≤ σ * distPt g o / (o.y - g.y) := by positivity
    linarith
  · set t := (q.y - g.y) / (o.y - g.y) with ht
    have ht0 : 0 ≤ t := by positivity
    have ht1 : t ≤ 1 := by rw [ht, div_le_one hoy]; linarith
    set w := wayPt g o t with hw
    have wy : w.y = q.y := by
      rw [hw, ht]; simp only [wayPt]; field_simp; ring
    have wx : w.x - g.x = t * (o.x - g.x) := by simp only [hw, wayPt]; ring
    have wy' : w.y - g.y = t * (o.y - g.y) := by simp only [hw, wayPt]; ring
    have hwg : g.y < w.y := by rw [wy]; exact hg
    have ang : angleX g w = angleX g o := by
      apply le_antisymm
      · rw [← not_lt, angle_lt_iff ho hwg, wx, wy']
        exact not_lt.2 (le_of_eq (by ring))
      · rw [← not_lt, angle_lt_iff hwg ho, wx, wy']
        exact not_lt.2 (le_of_eq (by ring))
    have e1 := distPt_way_left (a := g) (p := o) ht0
    have e2 := distPt_way_right (a := g) (p := o) ht1
    rw [← hw] at e1 e2
    have d := detour hwg wy.le
    rw [ang] at d
    have tri := distPt_triangle o w q
    rw [distPt_comm o w] at tri
    have m : |angleX g q - angleX g o| * distPt g w * distPt g q / (q.y - g.y)
        ≤ |angleX g q - angleX g o| * distPt g o * distPt g q / (q.y - g.y) := by
      refine div_le_div_of_nonneg_right (mul_le_mul_of_nonneg_right (mul_le_mul_of_nonneg_left ?_
        (abs_nonneg _)) pgq) hqy.le
      rw [e1]; nlinarith
    have s : (1 - t) * distPt g o ≤ σ * distPt g o / (o.y - g.y) := by
      have : 1 - t = (o.y - q.y) / (o.y - g.y) := by rw [ht]; field_simp; ring
      rw [this, div_mul_eq_mul_div]
      exact div_le_div_of_nonneg_right (mul_le_mul_of_nonneg_right (by linarith) pgo) hoy.le
    have : distPt g o = t * distPt g o + (1 - t) * distPt g o := by ring
    linarith

namespace Arith
variable {ε : ℝ} (h0 : 0 ≤ ε) (h1 : ε < 1) (A : Arith ε)
include h0 h1

/-- A computed angle. -/
theorem angle_err {p q : Pt} (h : p.y < q.y) :
    |A.angle p q - angleX p q| ≤ 5 * (grow ε - 1) := by
  have hy : 0 < q.y - p.y := by linarith
  have e1 := A.sub_err q.y p.y
  have e2 := A.sub_err q.x p.x
  rw [abs_of_pos hy] at e1
  have c1 := arctan2_close h0 h1 hy e1 e2
  have c2 := A.atan2_err (A.sub q.y p.y) (A.sub q.x p.x)
  have hy' : 0 < A.sub q.y p.y := by
    have := (abs_le.1 e1).1
    nlinarith
  have r := arctan2_range (x := A.sub q.x p.x) hy'
  rw [abs_of_pos r.1] at c2
  have hg : grow ε - 1 = ε / (1 - ε) := by
    unfold grow
    have : (1 : ℝ) - ε ≠ 0 := by linarith
    field_simp
    ring
  have hge := grow_ge h0 h1
  have hpi := Real.pi_lt_d2
  have hpi0 := Real.pi_pos
  rw [← hg] at c1
  have c3 : ε * arctan2 (A.sub q.y p.y) (A.sub q.x p.x) ≤ (grow ε - 1) * Real.pi :=
    mul_le_mul (by linarith) r.2.le r.1.le (by linarith)
  unfold angle angleX
  refine (abs_sub_le _ _ _).trans ((add_le_add (c2.trans c3) c1).trans ?_)
  nlinarith

end Arith
end PVF

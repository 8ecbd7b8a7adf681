import Verif.Lemmas.RoundedVF

/-! # Rounding errors of the coordinates of rows -/

namespace PVF
section
variable {ε : ℝ} (h0 : 0 ≤ ε) (h1 : ε < 1)
include h0 h1

theorem Near.mul {j k : ℕ} {x' x m y' y n : ℝ} (h : Near ε j x' x m) (h' : Near ε k y' y n) :
    Near ε (j + k) (x' * y') (x * y) (m * n) := by
  have hm : 0 ≤ m := (abs_nonneg x).trans h.2
  have hn : 0 ≤ n := (abs_nonneg y).trans h'.2
  have hk := grow_pow_one h0 h1 k
  have hx' : |x'| ≤ grow ε ^ j * m := by
    have := abs_add_le (x' - x) x
    rw [sub_add_cancel] at this
    linarith [h.1, h.2]
  refine ⟨?_, by rw [abs_mul]; exact mul_le_mul h.2 h'.2 (abs_nonneg _) hm⟩
  rw [show x' * y' - x * y = x' * (y' - y) + (x' - x) * y by ring]
  refine (abs_add_le _ _).trans ?_
  rw [abs_mul, abs_mul]
  have e1 := mul_le_mul hx' h'.1 (abs_nonneg _) ((abs_nonneg _).trans hx')
  have e2 := mul_le_mul h.1 h'.2 (abs_nonneg _) ((abs_nonneg _).trans h.1)
  refine (add_le_add e1 e2).trans (le_of_eq ?_)
  ring

omit h0 h1 in
theorem near_self {x m : ℝ} (h : |x| ≤ m) : Near ε 0 x x m := by
  refine ⟨?_, h⟩
  simp

end

namespace Arith
variable {ε : ℝ} (h0 : 0 ≤ ε) (h1 : ε < 1) (A : Arith ε)
include h0 h1

/-- One computed coordinate. -/
theorem coord_err {k : ℕ} {r' r m η t' t x : ℝ} (hr : Near ε k r' r m) (ht : |t' - t| ≤ η)
    (ht1 : |t| ≤ 1) :
    |A.add (A.mul r' t') x - (r * t + x)| ≤ (grow ε ^ (k + 2) - 1) * (m * (1 + η) + |x|) + m * η := by
  have hm : 0 ≤ m := (abs_nonneg r).trans hr.2
  have ht' : |t'| ≤ 1 + η := by
    have := abs_add_le (t' - t) t
    rw [sub_add_cancel] at this
    linarith
  have n1 := (hr.mul h0 h1 (near_self ht')).round h0 h1 (A.mul_err _ _)
  have n2 := ((n1.add h0 h1 ((near_self (le_refl |x|)).mono h0 h1 (Nat.zero_le _))).round h0 h1
    (A.add_err _ _)).1
  refine (abs_sub_le _ (r * t' + x) _).trans (add_le_add n2 ?_)
  rw [show r * t' + x - (r * t + x) = r * (t' - t) by ring, abs_mul]
  exact mul_le_mul hr.2 ht (abs_nonneg _) hm

omit h0 h1 in
theorem dist_le_of {a b : Pt} {E F : ℝ} (hx : |b.x - a.x| ≤ E) (hy : |b.y - a.y| ≤ F) :
    distPt a b ≤ E + F := by
  have hE := (abs_nonneg _).trans hx
  have hF := (abs_nonneg _).trans hy
  unfold distPt
  rw [Real.sqrt_le_left (by linarith)]
  have e1 := sq_le_sq' (by linarith [abs_le.1 hx |>.1]) (abs_le.1 hx).2
  have e2 := sq_le_sq' (by linarith [abs_le.1 hy |>.1]) (abs_le.1 hy).2
  nlinarith

/-- One end of a row or segment. -/
theorem end_err {k : ℕ} {r' r m η cs cs' sn sn' : ℝ} {c : Pt} (hr : Near ε k r' r m)
    (hc : |cs' - cs| ≤ η) (hc1 : |cs| ≤ 1) (hs : |sn' - sn| ≤ η) (hs1 : |sn| ≤ 1) :
    distPt ⟨r * cs + c.x, r * sn + c.y⟩ ⟨A.add (A.mul r' cs') c.x, A.add (A.mul r' sn') c.y⟩
      ≤ (grow ε ^ (k + 2) - 1) * (2 * m * (1 + η) + |c.x| + |c.y|) + 2 * m * η :=
  (dist_le_of (A.coord_err h0 h1 hr hc hc1) (A.coord_err h0 h1 hr hs hs1)).trans
    (le_of_eq (by ring))

/-- The computed radius of a row. -/
theorem radius_near {w : ℝ} (hw : 0 ≤ w) : Near ε 1 (A.div w 2) (w / 2) (w / 2) :=
  (near_self (le_of_eq (abs_of_nonneg (show 0 ≤ w / 2 by linarith)))).round h0 h1 (A.div_err _ _)

/-- The computed radius of the end of a segment. -/
theorem segRadius_near {w : ℝ} (hw : 0 ≤ w) (cut : ℕ) {i : ℝ} (hi : 0 ≤ i) (hic : i ≤ cut) :
    Near ε 3 (A.sub (A.div w 2) (A.mul i (A.div w cut))) (w / 2 - i * (w / cut)) (3 / 2 * w) := by
  have hq : 0 ≤ w / cut := by positivity
  have n1 := (near_self (ε := ε) (le_of_eq (abs_of_nonneg hq))).round h0 h1 (A.div_err w cut)
  have n2 := ((near_self (ε := ε) (le_of_eq (abs_of_nonneg hi))).mul h0 h1 n1).round h0 h1
    (A.mul_err _ _)
  have n3 := (((A.radius_near h0 h1 hw).mono h0 h1 (show 1 ≤ 2 by norm_num)).sub h0 h1 n2).round
    h0 h1 (A.sub_err _ _)
  have hle : w / 2 + i * (w / cut) ≤ 3 / 2 * w := by
    rcases Nat.eq_zero_or_pos cut with h | h
    · subst h
      simp only [Nat.cast_zero, div_zero, mul_zero, add_zero]
      linarith
    · have hc : (0 : ℝ) < cut := by exact_mod_cast h
      have : i * (w / cut) ≤ w := by
        rw [← mul_div_assoc, div_le_iff₀ hc, mul_comm w]
        exact mul_le_mul_of_nonneg_right hic hw
      linarith
  refine ⟨n3.1.trans (mul_le_mul_of_nonneg_left hle ?_), n3.2.trans hle⟩
  exact sub_nonneg.2 (grow_pow_one h0 h1 _)

end Arith
end PVF

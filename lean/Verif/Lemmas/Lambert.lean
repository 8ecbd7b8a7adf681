import Verif.Spec.RayView
import Mathlib.MeasureTheory.Integral.IntervalIntegral.FundThmCalculus
import Mathlib.Analysis.SpecialFunctions.Integrals.Basic
import Mathlib.Analysis.SpecialFunctions.Trigonometric.Inverse
import Mathlib.Analysis.SpecialFunctions.Sqrt
import Mathlib.Tactic.Linarith
import Mathlib.Tactic.FieldSimp
import Mathlib.Tactic.Positivity
import Mathlib.Tactic.LinearCombination

/-! # Integrals over directions and along strings -/

namespace PVF
open Real MeasureTheory

/-- Directions between two sines. -/
theorem cos_integral_between {Q : ℝ → Prop} [DecidablePred Q] {s1 s2 : ℝ} (h1 : -1 ≤ s1)
    (h12 : s1 ≤ s2) (h2 : s2 ≤ 1)
    (hin : ∀ a, -(π / 2) < a → a < π / 2 → s1 < sin a → sin a < s2 → Q a)
    (hout : ∀ a, -(π / 2) < a → a < π / 2 → Q a → s1 ≤ sin a ∧ sin a ≤ s2) :
    ∫ a in (-(π / 2))..(π / 2), (if Q a then cos a else 0) = s2 - s1 := by
  set a1 := arcsin s1 with ha1
  set a2 := arcsin s2 with ha2
  have l1 : -(π / 2) ≤ a1 := neg_pi_div_two_le_arcsin _
  have l2 : a2 ≤ π / 2 := arcsin_le_pi_div_two _
  have l12 : a1 ≤ a2 := monotone_arcsin h12
  have e1 : sin a1 = s1 := sin_arcsin h1 (h12.trans h2)
  have e2 : sin a2 = s2 := sin_arcsin (h1.trans h12) h2
  have hpi : -(π / 2) ≤ π / 2 := by linarith [pi_pos]
  have hae : ∀ᵐ a ∂(volume : Measure ℝ), a ∉ ({a1, a2, π / 2} : Set ℝ) :=
    Set.Countable.ae_notMem (Set.toFinite _).countable _
  have hc : ∫ a in (-(π / 2))..(π / 2), (if Q a then cos a else 0)
      = ∫ a in (-(π / 2))..(π / 2), (Set.Ioc a1 a2).indicator cos a := by
    apply intervalIntegral.integral_congr_ae
    filter_upwards [hae] with a ha hIoc
    rw [Set.uIoc_of_le hpi] at hIoc
    simp only [Set.mem_insert_iff, Set.mem_singleton_iff, not_or] at ha
    obtain ⟨n1, n2, n3⟩ := ha
    have b1 : -(π / 2) < a := hIoc.1
    have b2 : a < π / 2 := lt_of_le_of_ne hIoc.2 n3
    by_cases hq : Q a
    · rw [if_pos hq, Set.indicator_of_mem]
      obtain ⟨q1, q2⟩ := hout a b1 b2 hq
      constructor
      · apply lt_of_le_of_ne _ (Ne.symm n1)
        rw [ha1]; rw [arcsin_le_iff_le_sin' ⟨b1.le, b2⟩]; exact q1
      · rw [ha2, le_arcsin_iff_sin_le' ⟨b1, b2.le⟩]; exact q2
    · rw [if_neg hq, Set.indicator_of_notMem]
      rintro ⟨q1, q2⟩
      apply hq
      refine hin a b1 b2 ?_ ?_
      · rw [← e1]; exact sin_lt_sin_of_lt_of_le_pi_div_two l1 b2.le q1
      · rw [← e2]; exact sin_lt_sin_of_lt_of_le_pi_div_two b1.le l2 (lt_of_le_of_ne q2 n2)
  rw [hc, intervalIntegral.integral_of_le hpi, setIntegral_indicator measurableSet_Ioc,
    Set.inter_eq_right.2 (Set.Ioc_subset_Ioc l1 l2), ← intervalIntegral.integral_of_le l12,
    integral_cos, e1, e2]

theorem cos_integral_none {Q : ℝ → Prop} [DecidablePred Q]
    (h : ∀ a, -(π / 2) < a → a < π / 2 → ¬ Q a) :
    ∫ a in (-(π / 2))..(π / 2), (if Q a then cos a else 0) = 0 := by
  have := cos_integral_between (Q := Q) (s1 := 0) (s2 := 0) (by norm_num) le_rfl (by norm_num)
    (fun a _ _ h1 h2 => absurd h1 (not_lt.2 h2.le)) (fun a h1 h2 h3 => absurd h3 (h a h1 h2))
  rw [this, sub_zero]

/-- Sine of the angle between the second axis and the vector with components `E` and `h`. -/
noncomputable def sn (E h : ℝ) : ℝ := E / √(E ^ 2 + h ^ 2)

theorem sn_polar {E h : ℝ} (hh : 0 ≤ h) (h0 : E ≠ 0 ∨ h ≠ 0) :
    ∃ R a, 0 < R ∧ -(π / 2) ≤ a ∧ a ≤ π / 2 ∧ E = R * sin a ∧ h = R * cos a ∧ sn E h = sin a ∧
      (0 < h → -(π / 2) < a ∧ a < π / 2) := by
  set R := √(E ^ 2 + h ^ 2) with hR
  have hpos : 0 < E ^ 2 + h ^ 2 := by
    rcases h0 with h0 | h0 <;> positivity
  have Rp : 0 < R := Real.sqrt_pos.2 hpos
  have Rsq : R ^ 2 = E ^ 2 + h ^ 2 := Real.sq_sqrt hpos.le
  have b : (E / R) ^ 2 + (h / R) ^ 2 = 1 := by field_simp; exact Rsq.symm
  have hb : -1 ≤ E / R ∧ E / R ≤ 1 := by
    constructor <;> nlinarith [sq_nonneg (h / R)]
  have es : sin (arcsin (E / R)) = E / R := sin_arcsin hb.1 hb.2
  have ec : cos (arcsin (E / R)) = h / R := by
    rw [cos_arcsin]
    have : 1 - (E / R) ^ 2 = (h / R) ^ 2 := by linarith
    rw [this, Real.sqrt_sq (div_nonneg hh Rp.le)]
  refine ⟨R, arcsin (E / R), Rp, neg_pi_div_two_le_arcsin _, arcsin_le_pi_div_two _, ?_, ?_, ?_, ?_⟩
  · rw [es]; field_simp
  · rw [ec]; field_simp
  · rw [es]; rfl
  · intro hp
    have hcos : 0 < cos (arcsin (E / R)) := by rw [ec]; positivity
    constructor
    · refine lt_of_le_of_ne (neg_pi_div_two_le_arcsin _) fun h => ?_
      rw [← h, cos_neg, cos_pi_div_two] at hcos
      exact lt_irrefl _ hcos
    · refine lt_of_le_of_ne (arcsin_le_pi_div_two _) fun h => ?_
      rw [h, cos_pi_div_two] at hcos
      exact lt_irrefl _ hcos

theorem sin_sub_pos_iff {a b : ℝ} (h1 : -π < a - b) (h2 : a - b < π) : 0 < sin (a - b) ↔ b < a := by
  constructor
  · intro h
    by_contra hc
    have := sin_nonpos_of_nonpos_of_neg_pi_le (x := a - b) (by linarith) h1.le
    linarith
  · intro h
    exact sin_pos_of_pos_of_lt_pi (by linarith) h2

/-- Comparing directions of two vectors in the upper half plane by their cross product. -/
theorem sn_lt {E1 h1 E2 h2 : ℝ} (n1 : 0 ≤ h1) (n2 : 0 ≤ h2) (z1 : E1 ≠ 0 ∨ h1 ≠ 0)
    (z2 : E2 ≠ 0 ∨ h2 ≠ 0) (hp : 0 < h1 ∨ 0 < h2) :
    sn E1 h1 < sn E2 h2 ↔ E1 * h2 < E2 * h1 := by
  obtain ⟨R1, a1, p1, l1, u1, e1, c1, s1, o1⟩ := sn_polar n1 z1
  obtain ⟨R2, a2, p2, l2, u2, e2, c2, s2, o2⟩ := sn_polar n2 z2
  have hd : E2 * h1 - E1 * h2 = R1 * R2 * sin (a2 - a1) := by
    rw [e1, e2, c1, c2, sin_sub]; ring
  have b : -π < a2 - a1 ∧ a2 - a1 < π := by
    rcases hp with hp | hp
    · have := o1 hp; constructor <;> linarith
    · have := o2 hp; constructor <;> linarith
  have m : sin a1 < sin a2 ↔ a1 < a2 := by
    constructor
    · intro h; by_contra hc
      have := sin_le_sin_of_le_of_le_pi_div_two l2 u1 (not_lt.1 hc)
      linarith
    · exact fun h => sin_lt_sin_of_lt_of_le_pi_div_two l1 u2 h
  rw [s1, s2, m, ← sin_sub_pos_iff b.1 b.2]
  have hR := mul_pos p1 p2
  constructor
  · intro h; have := mul_pos hR h; linarith
  · intro h
    by_contra hc
    have := mul_nonpos_of_nonneg_of_nonpos hR.le (not_lt.1 hc)
    linarith

theorem sn_le {E1 h1 E2 h2 : ℝ} (n1 : 0 ≤ h1) (n2 : 0 ≤ h2) (z1 : E1 ≠ 0 ∨ h1 ≠ 0)
    (z2 : E2 ≠ 0 ∨ h2 ≠ 0) (hp : 0 < h1 ∨ 0 < h2) :
    sn E1 h1 ≤ sn E2 h2 ↔ E1 * h2 ≤ E2 * h1 := by
  rw [← not_lt, ← not_lt, sn_lt n2 n1 z2 z1 hp.symm]

theorem sn_sin_cos {l a : ℝ} (hl : 0 < l) : sn (l * sin a) (l * cos a) = sin a := by
  unfold sn
  have : (l * sin a) ^ 2 + (l * cos a) ^ 2 = l ^ 2 := by
    linear_combination l ^ 2 * sin_sq_add_cos_sq a
  rw [this, Real.sqrt_sq hl.le]; field_simp

theorem cos_pos' {a : ℝ} (h1 : -(π / 2) < a) (h2 : a < π / 2) : 0 < cos a := cos_pos_of_mem_Ioo ⟨h1, h2⟩

/-- Comparing a vector with a direction. -/
theorem sn_lt_sin {E h a : ℝ} (n : 0 ≤ h) (z : E ≠ 0 ∨ h ≠ 0) (h1 : -(π / 2) < a) (h2 : a < π / 2) :
    sn E h < sin a ↔ E * cos a < h * sin a := by
  have hc := cos_pos' h1 h2
  have := sn_lt (E2 := 1 * sin a) (h2 := 1 * cos a) n (by linarith) z
    (Or.inr (by linarith)) (Or.inr (by linarith))
  rw [sn_sin_cos one_pos] at this
  rw [this, one_mul, one_mul, mul_comm (sin a)]

theorem sin_lt_sn {E h a : ℝ} (n : 0 ≤ h) (z : E ≠ 0 ∨ h ≠ 0) (h1 : -(π / 2) < a) (h2 : a < π / 2) :
    sin a < sn E h ↔ h * sin a < E * cos a := by
  have hc := cos_pos' h1 h2
  have := sn_lt (E1 := 1 * sin a) (h1 := 1 * cos a) (by linarith) n
    (Or.inr (by linarith)) z (Or.inl (by linarith))
  rw [sn_sin_cos one_pos] at this
  rw [this, one_mul, one_mul, mul_comm (sin a)]

theorem sn_bounds {E h : ℝ} (n : 0 ≤ h) (z : E ≠ 0 ∨ h ≠ 0) : -1 ≤ sn E h ∧ sn E h ≤ 1 := by
  obtain ⟨R, a, _, _, _, _, _, e, _⟩ := sn_polar n z
  rw [e]; exact ⟨neg_one_le_sin a, sin_le_one a⟩

/-- Length of a straight string from a moving point. -/
theorem hasDerivAt_string (E h t : ℝ) (z : E - t ≠ 0 ∨ h ≠ 0) :
    HasDerivAt (fun u => √((E - u) ^ 2 + h ^ 2)) (-(sn (E - t) h)) t := by
  have hpos : 0 < (E - t) ^ 2 + h ^ 2 := by rcases z with z | z <;> positivity
  have h1 : HasDerivAt (fun u => (E - u) ^ 2 + h ^ 2) (-(2 * (E - t))) t := by
    have h2 : HasDerivAt (fun u : ℝ => E - u) (-1) t := by simpa using (hasDerivAt_id t).const_sub E
    refine ((h2.pow 2).add_const (h ^ 2)).congr_deriv ?_
    push_cast; ring
  have := h1.sqrt hpos.ne'
  convert this using 1
  unfold sn
  field_simp

theorem continuousAt_sn (E h t : ℝ) (z : E - t ≠ 0 ∨ h ≠ 0) :
    ContinuousAt (fun u => sn (E - u) h) t := by
  have hpos : 0 < (E - t) ^ 2 + h ^ 2 := by rcases z with z | z <;> positivity
  unfold sn
  refine ContinuousAt.div (by fun_prop) (by fun_prop) (Real.sqrt_pos.2 hpos).ne'

/-- A function that is at every point one of two, whose values and derivatives agree at `t`. -/
theorem hasDerivAt_of_either {f A B : ℝ → ℝ} {d t : ℝ} (hf : ∀ u, f u = A u ∨ f u = B u)
    (hAB : A t = B t) (hA : HasDerivAt A d t) (hB : HasDerivAt B d t) : HasDerivAt f d t := by
  have ft : f t = A t := by rcases hf t with h | h <;> simp [h, hAB]
  rw [hasDerivAt_iff_isLittleO] at hA hB ⊢
  rw [Asymptotics.isLittleO_iff] at hA hB ⊢
  intro c hc
  filter_upwards [hA hc, hB hc] with u h1 h2
  rcases hf u with h | h
  · rw [h, ft]; exact h1
  · rw [h, ft, hAB]; exact h2

/-- A string that is bent around an obstruction where `0 < q`. -/
theorem hasDerivAt_bent {f A B q : ℝ → ℝ} {a b t : ℝ} (hf1 : ∀ u, 0 < q u → f u = A u)
    (hf2 : ∀ u, q u ≤ 0 → f u = B u) (hq : ContinuousAt q t)
    (hA : HasDerivAt A a t) (hB : HasDerivAt B b t) (h0 : q t = 0 → A t = B t ∧ a = b) :
    HasDerivAt f (if 0 < q t then a else b) t := by
  rcases lt_trichotomy (q t) 0 with h | h | h
  · rw [if_neg (not_lt.2 h.le)]
    refine hB.congr_of_eventuallyEq ?_
    filter_upwards [hq.eventually (gt_mem_nhds h)] with u hu
    exact hf2 u (le_of_lt hu)
  · rw [if_neg (by linarith)]
    obtain ⟨h1, h2⟩ := h0 h
    refine hasDerivAt_of_either (A := A) (B := B) (fun u => ?_) h1 (h2 ▸ hA) hB
    by_cases hu : 0 < q u
    · exact Or.inl (hf1 u hu)
    · exact Or.inr (hf2 u (not_lt.1 hu))
  · rw [if_pos h]
    refine hA.congr_of_eventuallyEq ?_
    filter_upwards [hq.eventually (lt_mem_nhds h)] with u hu
    exact hf1 u hu

/-- Fundamental theorem for a function with continuous derivative. -/
theorem integral_neg_deriv {f s : ℝ → ℝ} {a b : ℝ} (hab : a ≤ b)
    (hd : ∀ t, a ≤ t → t ≤ b → HasDerivAt f (-(s t)) t)
    (hs : ∀ t, a ≤ t → t ≤ b → ContinuousAt s t) :
    ∫ t in a..b, s t = f a - f b := by
  have hc : ContinuousOn s (Set.uIcc a b) := by
    intro t ht
    rw [Set.uIcc_of_le hab] at ht
    exact (hs t ht.1 ht.2).continuousWithinAt
  have h1 : ∫ t in a..b, -(s t) = f b - f a := by
    refine intervalIntegral.integral_eq_sub_of_hasDerivAt (fun t ht => ?_) hc.neg.intervalIntegrable
    rw [Set.uIcc_of_le hab] at ht
    exact hd t ht.1 ht.2
  rw [intervalIntegral.integral_neg] at h1
  linarith

end PVF

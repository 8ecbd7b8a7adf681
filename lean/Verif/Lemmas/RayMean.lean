import Verif.Lemmas.RayStrings

/-! # Mean share of light between surfaces, and mirror images -/

namespace PVF
open Real MeasureTheory

/-! ## Lines, orientation and mirror images -/

theorem meanShare_flip (A B n : Pt) (Q : Pt → Pt → Prop) :
    meanShare ⟨A, B⟩ n Q = meanShare ⟨B, A⟩ n Q := by
  unfold meanShare
  have e : ∀ s, lerp A B s = lerp B A (1 - s) := by
    intro s; simp only [lerp, Pt.mk.injEq]; constructor <;> ring
  simp only [e]
  rw [intervalIntegral.integral_comp_sub_left (fun s => lightShare n (Q (lerp B A s))) 1]
  norm_num

theorem mirB_mirB (left : Bool) (P : Pt) : mirB left (mirB left P) = P := by
  cases left
  · simp [mirB, Pt.mir]
  · simp [mirB]

theorem mirB_lerp (left : Bool) (A B : Pt) (s : ℝ) :
    mirB left (lerp A B s) = lerp (mirB left A) (mirB left B) s := by
  cases left
  · simp only [mirB, Pt.mir, lerp, Bool.false_eq_true, if_false, Pt.mk.injEq]
    exact ⟨by ring, trivial⟩
  · simp [mirB]

theorem mirB_along (left : Bool) (X d : Pt) (l : ℝ) :
    mirB left (along X d l) = along (mirB left X) (mirB left d) l := by
  cases left
  · simp only [mirB, Pt.mir, along, Bool.false_eq_true, if_false, Pt.mk.injEq]
    exact ⟨by ring, trivial⟩
  · simp [mirB]

open Classical in
theorem lightShare_mir (left : Bool) (n : Pt) (Q : Pt → Prop) :
    lightShare (mirB left n) Q = lightShare n (fun d => Q (mirB left d)) := by
  cases left
  · unfold lightShare
    congr 1
    have e : ∀ a, turn (mirB false n) a = mirB false (turn n (-a)) := by
      intro a
      simp only [turn, mirB, Pt.mir, Bool.false_eq_true, if_false, cos_neg, sin_neg, Pt.mk.injEq]
      constructor <;> ring
    have := intervalIntegral.integral_comp_neg (a := -(π / 2)) (b := π / 2)
      (fun a => if Q (mirB false (turn n a)) then cos a else 0)
    rw [neg_neg] at this
    rw [← this]
    simp only [e, cos_neg]
  · rfl

theorem meanShare_mir (left : Bool) (A : Line) (n : Pt) {Q Q' : Pt → Pt → Prop}
    (h : ∀ X d, Q X d ↔ Q' (mirB left X) (mirB left d)) :
    meanShare A n Q = meanShare ⟨mirB left A.b1, mirB left A.b2⟩ (mirB left n) Q' := by
  unfold meanShare
  congr 1
  funext s
  rw [lightShare_mir]
  congr 1
  funext d
  rw [← mirB_lerp]
  exact propext (h _ _)

theorem arrives_mir {left : Bool} {S S' T T' : Pt → Prop} {m : Pt}
    (hS : ∀ Y, S Y ↔ S' (mirB left Y)) (hT : ∀ Y, T Y ↔ T' (mirB left Y)) (X d : Pt) :
    Arrives S T m X d ↔ Arrives S' T' (mirB left m) (mirB left X) (mirB left d) := by
  have e : ∀ l, along (mirB left X) (mirB left d) l = mirB left (along X d l) := fun l =>
    (mirB_along left X d l).symm
  unfold Arrives
  simp only [e, ← hS, ← hT]
  have : (mirB left d).x * (mirB left m).x + (mirB left d).y * (mirB left m).y
      = d.x * m.x + d.y * m.y := by
    cases left
    · simp only [mirB, Pt.mir, Bool.false_eq_true, if_false]; ring
    · rfl
  rw [this]

/-! ## Means over a row and over the ground -/

theorem lerp_vp (p : ArrayParams) (left : Bool) (rot : ℝ) (r : ℕ) (a b s : ℝ) :
    lerp (vp p left rot r a) (vp p left rot r b) s = vp p left rot r (a + (b - a) * s) := by
  simp only [vp_eq, lerp, Pt.mk.injEq]; constructor <;> ring

theorem lerp_gp (a b s : ℝ) : lerp (gp a) (gp b) s = gp (a + (b - a) * s) := by
  simp only [gp, lerp, Pt.mk.injEq]; constructor <;> ring

theorem mean_of_points {A : ℝ → Pt} {a b : ℝ} (hab : a < b)
    (hA : ∀ s, lerp (A a) (A b) s = A (a + (b - a) * s)) {n : Pt} {Q : Pt → Pt → Prop} {F : ℝ → ℝ}
    (hF : ∀ t, a < t → t < b → lightShare n (Q (A t)) = F t) :
    meanShare ⟨A a, A b⟩ n Q = (∫ t in a..b, F t) / (b - a) := by
  unfold meanShare
  have hba : b - a ≠ 0 := by linarith
  simp only [hA]
  rw [intervalIntegral.integral_comp_add_mul (fun t => lightShare n (Q (A t))) hba a]
  simp only [mul_zero, add_zero, mul_one, add_sub_cancel, smul_eq_mul]
  rw [div_eq_inv_mul]
  congr 1
  apply intervalIntegral.integral_congr_ae
  have hae : ∀ᵐ t ∂(volume : Measure ℝ), t ∉ ({b} : Set ℝ) :=
    Set.Countable.ae_notMem (Set.toFinite _).countable _
  filter_upwards [hae] with t ht hI
  rw [Set.uIoc_of_le hab.le] at hI
  exact hF t hI.1 (lt_of_le_of_ne hI.2 ht)

theorem mean_pv_gnd {p : ArrayParams} {rot : ℝ} (h : Physical p rot) (hf : FlatApart p rot)
    {left : Bool} {r : ℕ} (hr : r < p.nRows) {a b : ℝ} (ha : 0 ≤ a) (hab : a < b)
    (hb : b ≤ p.width) {y1 y2 : ℝ}
    (hy : y1 ≤ y2) (h1 : 0 < gH p left rot r y1) (h2 : 0 ≤ gH p left rot r y2) :
    meanShare ⟨vp p left rot r a, vp p left rot r b⟩ (nu left rot)
      (Arrives (mSolid p left rot) (gndSeg y1 y2) ⟨0, 1⟩)
      = (phi p left rot r a b y2 - phi p left rot r a b y1) / (2 * (b - a)) := by
  rw [mean_of_points (A := fun t => vp p left rot r t) hab (lerp_vp p left rot r a b)
    (F := fun t => (sg p left rot r t y1 - sg p left rot r t y2) / 2)
    (fun t l1 l2 => pv_gnd_point h hf hr (by linarith) (by linarith) hy h1 h2)]
  have ho : ∀ t, t ≤ b → -(p.distance * upX left rot) - t ≠ 0 ∨ p.distance * upY rot ≠ 0 :=
    fun t ht => obs_ne h hf (ht.trans hb) h1
  have hp2 : 0 < gH p left rot r y2 ∨ 0 < p.distance * upY rot := by
    by_cases h0 : rot = 0
    · left
      have := h1
      unfold gH at this ⊢
      rw [h0, upY_zero] at this ⊢
      linarith
    · exact Or.inr (mul_pos h.distance (upY_pos h.lo h.hi h0))
  obtain ⟨i1, e1⟩ := integral_sg h ha hab.le h1.le (Or.inl h1) ho
  obtain ⟨i2, e2⟩ := integral_sg h ha hab.le h2 hp2 ho
  rw [intervalIntegral.integral_div, intervalIntegral.integral_sub i1 i2, e1, e2]
  have : b - a ≠ 0 := by linarith
  field_simp
  ring

theorem mean_gnd_pv {p : ArrayParams} {rot : ℝ} (h : Physical p rot) (hf : FlatApart p rot)
    {left : Bool} {r : ℕ} (hr : r < p.nRows) {a b : ℝ} (ha : 0 ≤ a) (hab : a < b)
    (hb : b ≤ p.width) {y1 y2 : ℝ}
    (hy : y1 < y2) (h1 : 0 < gH p left rot r y1) (h2 : 0 ≤ gH p left rot r y2) :
    meanShare ⟨gp y1, gp y2⟩ ⟨0, 1⟩
      (Arrives (mSolid p left rot) (rowSeg p left rot r a b) (nu left rot))
      = (phi p left rot r a b y2 - phi p left rot r a b y1) / (2 * (y2 - y1)) := by
  rw [mean_of_points (A := gp) hy (lerp_gp y1 y2)
    (F := fun x => (sv p left rot r x a - sv p left rot r x b) / 2)
    (fun x l1 l2 => gnd_pv_point h hf hr ha hab hb ?_)]
  · obtain ⟨i1, e1⟩ := integral_sv h left r ha hy.le
    obtain ⟨i2, e2⟩ := integral_sv h left r (ha.trans hab.le) hy.le
    rw [intervalIntegral.integral_div, intervalIntegral.integral_sub i1 i2, e1, e2]
    have : y2 - y1 ≠ 0 := by linarith
    unfold phi
    field_simp
    ring
  · have e1 : gH p left rot r x = gH p left rot r y2 + upY rot * (y2 - x) := by unfold gH; ring
    have e2 : gH p left rot r x = gH p left rot r y1 - upY rot * (x - y1) := by unfold gH; ring
    rcases eq_or_lt_of_le h.upY_nonneg with h0 | h0
    · rw [e2, ← h0]; linarith
    · rw [e1]; have := mul_pos h0 (sub_pos.2 l2); linarith

theorem mean_pv_pv {p : ArrayParams} {rot : ℝ} (h : Physical p rot) (hf : FlatApart p rot)
    {left : Bool} {r : ℕ} (hr : r < p.nRows) (hn : HasNb left p.nRows r) {a b : ℝ} (ha : 0 ≤ a)
    (hab : a < b) (hb : b ≤ p.width) {a' b' : ℝ} (ha' : 0 ≤ a') (hab' : a' ≤ b')
    (hb' : b' ≤ p.width) :
    meanShare ⟨vp p left rot r a, vp p left rot r b⟩ (nu left rot)
      (Arrives (mSolid p left rot) (rowSeg p left rot (nb left r) a' b') ⟨upY rot, -upX left rot⟩)
      = (kdist p left rot r a b b' - kdist p left rot r a b a') / (2 * (b - a)) := by
  by_cases h0 : rot = 0
  · rw [mean_of_points (A := fun t => vp p left rot r t) hab (lerp_vp p left rot r a b)
      (F := fun t => 0)
      (fun t l1 l2 => pv_pv_point_zero h hr (nb_lt hn hr) (Or.inr h0) (by linarith) (by linarith)
        ha' hb')]
    have hw := hf h0
    have hc : upX left rot = 1 ∨ upX left rot = -1 := by
      rw [h0, upX_zero]; cases left <;> simp
    have hk : kdist p left rot r a b b' = kdist p left rot r a b a' := by
      unfold kdist
      have e := fun t t' => (distPt_comm (vp p left rot r t) (vp p left rot (nb left r) t')).trans
        (dist_row_row hn t t')
      have hv : upY rot = 0 := by rw [h0, upY_zero]
      rw [e, e, e, e, hv]
      simp only [mul_zero, ne_eq, OfNat.ofNat_ne_zero, not_false_eq_true, zero_pow, add_zero,
        Real.sqrt_sq_eq_abs]
      rcases hc with hc | hc <;> rw [hc]
      · rw [abs_of_nonpos (by linarith), abs_of_nonpos (by linarith), abs_of_nonpos (by linarith),
          abs_of_nonpos (by linarith)]; ring
      · rw [abs_of_nonneg (by linarith), abs_of_nonneg (by linarith), abs_of_nonneg (by linarith),
          abs_of_nonneg (by linarith)]; ring
    rw [hk]; simp
  · rw [mean_of_points (A := fun t => vp p left rot r t) hab (lerp_vp p left rot r a b)
      (F := fun t => (sr p left rot t b' - sr p left rot t a') / 2)
      (fun t l1 l2 => pv_pv_point h h0 hn (by linarith) ha' hab')]
    obtain ⟨i1, e1⟩ := integral_sr (t' := a') h h0 hn hab.le
    obtain ⟨i2, e2⟩ := integral_sr (t' := b') h h0 hn hab.le
    rw [intervalIntegral.integral_div, intervalIntegral.integral_sub i2 i1, e1, e2]
    have : b - a ≠ 0 := by linarith
    field_simp

theorem mean_zero {A : Line} {n : Pt} {Q : Pt → Pt → Prop}
    (h : ∀ s, 0 < s → s < 1 → lightShare n (Q (lerp A.b1 A.b2 s)) = 0) : meanShare A n Q = 0 := by
  unfold meanShare
  have : ∫ s in (0:ℝ)..1, lightShare n (Q (lerp A.b1 A.b2 s)) = ∫ s in (0:ℝ)..1, (0:ℝ) := by
    apply intervalIntegral.integral_congr_ae
    have hae : ∀ᵐ t ∂(volume : Measure ℝ), t ∉ ({1} : Set ℝ) :=
      Set.Countable.ae_notMem (Set.toFinite _).countable _
    filter_upwards [hae] with t ht hI
    rw [Set.uIoc_of_le zero_le_one] at hI
    exact h t hI.1 (lt_of_le_of_ne hI.2 ht)
  rw [this]; simp

end PVF

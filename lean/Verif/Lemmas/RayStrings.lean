import Verif.Lemmas.RayPoint2

/-! # Integrals of directions are lengths of strings -/

namespace PVF
open Real

theorem dist_gnd_row (p : ArrayParams) (left : Bool) (rot : ℝ) (r : ℕ) (x t : ℝ) :
    distPt (gp x) (vp p left rot r t)
      = √((gE p left rot r x - t) ^ 2 + (gH p left rot r x) ^ 2) := by
  rw [distPt, vp_eq]
  congr 1
  have s := up_sq left rot
  unfold gE gH gp
  simp only
  linear_combination (t ^ 2 - (lowX p left rot r - x) ^ 2 - lowY p rot ^ 2) * s

theorem dist_row_row {p : ArrayParams} {left : Bool} {rot : ℝ} {n r : ℕ} (hn : HasNb left n r)
    (t t' : ℝ) : distPt (vp p left rot (nb left r) t') (vp p left rot r t)
      = √((t' - p.distance * upX left rot - t) ^ 2 + (p.distance * upY rot) ^ 2) := by
  rw [distPt, vp_nb hn, vp_eq]
  congr 1
  have s := up_sq left rot
  simp only
  linear_combination ((t - t') ^ 2 - p.distance ^ 2) * s

/-- If the obstruction is exactly in line, the bent string is straight. -/
theorem straight {x : ℝ} {P O : Pt} (hO : 0 < O.y) (hOP : O.y ≤ P.y)
    (h : (O.x - x) * P.y = (P.x - x) * O.y) :
    distPt (gp x) O + distPt O P = distPt (gp x) P := by
  have hP : 0 < P.y := hO.trans_le hOP
  have e : O = wayPt (gp x) P (O.y / P.y) := by
    ext
    · simp only [wayPt, gp]; field_simp; linarith
    · simp only [wayPt, gp]; field_simp; ring
  have a1 := distPt_way_left (a := gp x) (p := P) (t := O.y / P.y) (by positivity)
  have a2 := distPt_way_right (a := gp x) (p := P) (t := O.y / P.y) (by rw [div_le_one hP]; exact hOP)
  rw [← e] at a1 a2
  rw [a1, a2]; ring

/-- The direction from a row to a ground point, integrated along the row. -/
theorem integral_sg {p : ArrayParams} {rot : ℝ} (h : Physical p rot) {left : Bool} {r : ℕ}
    {a b x : ℝ} (ha : 0 ≤ a) (hab : a ≤ b) (hx : 0 ≤ gH p left rot r x)
    (hpos : 0 < gH p left rot r x ∨ 0 < p.distance * upY rot)
    (ho : ∀ t, t ≤ b → -(p.distance * upX left rot) - t ≠ 0 ∨ p.distance * upY rot ≠ 0) :
    IntervalIntegrable (fun t => sg p left rot r t x) MeasureTheory.volume a b ∧
    ∫ t in a..b, sg p left rot r t x = - phi p left rot r a b x := by
  have hDv : 0 ≤ p.distance * upY rot := mul_nonneg h.distance.le h.upY_nonneg
  have gne : ∀ t, 0 ≤ t → gE p left rot r x - t ≠ 0 ∨ gH p left rot r x ≠ 0 := fun t ht =>
    gnd_ne h left r ht x
  have cont : ∀ t, a ≤ t → t ≤ b → ContinuousAt (fun t => sg p left rot r t x) t := by
    intro t h1 h2
    unfold sg
    refine (continuousAt_sn _ _ _ (gne t (ha.trans h1))).min ?_
    unfold so
    split_ifs
    · exact continuousAt_sn _ _ _ (ho t h2)
    · exact continuousAt_const
  refine ⟨?_, ?_⟩
  · apply ContinuousOn.intervalIntegrable
    intro t ht
    rw [Set.uIcc_of_le hab] at ht
    exact (cont t ht.1 ht.2).continuousWithinAt
  by_cases hn : HasNb left p.nRows r
  · set q : ℝ → ℝ := fun t => (gE p left rot r x - t) * (p.distance * upY rot)
      - (-(p.distance * upX left rot) - t) * gH p left rot r x with hq
    set A : ℝ → ℝ := fun t => distPt (gp x) (vp p left rot (nb left r) 0)
      + √((-(p.distance * upX left rot) - t) ^ 2 + (p.distance * upY rot) ^ 2) with hA
    set B : ℝ → ℝ := fun t => √((gE p left rot r x - t) ^ 2 + (gH p left rot r x) ^ 2) with hB
    set f : ℝ → ℝ := fun t => if 0 < q t then A t else B t with hf
    have hs : ∀ t, 0 ≤ t → strO (obs p left rot r) (vp p left rot r t) x = f t := by
      intro t ht
      unfold obs
      rw [if_pos hn]
      simp only [strO, strL, hf, hq, hA, hB]
      have c := (cot_frame h (x := x) hn ht).1
      have e := dist_row_row (p := p) (rot := rot) hn t 0
      rw [zero_sub] at e
      rw [dist_gnd_row p left rot r x t, e]
      by_cases hc : cot x (vp p left rot r t) < cot x (vp p left rot (nb left r) 0)
      · rw [if_pos hc, if_pos (by linarith [c.1 hc])]
      · rw [if_neg hc, if_neg (fun h' => hc (c.2 (by linarith)))]
    have hd : ∀ t, a ≤ t → t ≤ b → HasDerivAt f (-(sg p left rot r t x)) t := by
      intro t h1 h2
      have t0 := ha.trans h1
      have lt_iff := sn_lt hDv hx (ho t h2) (gne t t0) hpos.symm
      have dA : HasDerivAt A (-(sn (-(p.distance * upX left rot) - t) (p.distance * upY rot))) t :=
        (hasDerivAt_string _ _ t (ho t h2)).const_add _
      have dB : HasDerivAt B (-(sn (gE p left rot r x - t) (gH p left rot r x))) t :=
        hasDerivAt_string _ _ t (gne t t0)
      have hqc : ContinuousAt q t := by rw [hq]; fun_prop
      have key := hasDerivAt_bent (f := f) (q := q) (fun u hu => by simp only [hf]; rw [if_pos hu])
        (fun u hu => by simp only [hf]; rw [if_neg (not_lt.2 hu)]) hqc dA dB (fun h0 => ?_)
      · convert key using 1
        unfold sg so
        rw [if_pos hn]
        by_cases hc : 0 < q t
        · rw [if_pos hc]
          congr 1
          exact min_eq_right (lt_iff.2 (by simp only [hq] at hc; linarith)).le
        · rw [if_neg hc]
          congr 1
          refine min_eq_left (not_lt.1 fun h' => hc ?_)
          have := lt_iff.1 h'
          simp only [hq]; linarith
      · simp only [hq] at h0
        constructor
        · simp only [hA, hB]
          have e := dist_row_row (p := p) (rot := rot) hn t 0
          rw [zero_sub] at e
          rw [← dist_gnd_row p left rot r x t, ← e]
          refine straight (vp_y_pos h left _ le_rfl) (vp_y_le h left _ _ t0) ?_
          have c1 := (cot_frame h (x := x) hn t0).1
          have c2 := (cot_frame h (x := x) hn t0).2
          rw [cot_lt_cot (vp_y_pos h left r t0) (vp_y_pos h left _ le_rfl)] at c1
          rw [cot_lt_cot (vp_y_pos h left _ le_rfl) (vp_y_pos h left r t0)] at c2
          apply le_antisymm
          · exact not_lt.1 fun h' => absurd (c1.1 h') (by linarith)
          · exact not_lt.1 fun h' => absurd (c2.1 h') (by linarith)
        · congr 1
          apply le_antisymm
          · rw [sn_le hDv hx (ho t h2) (gne t t0) hpos.symm]; linarith
          · rw [sn_le hx hDv (gne t t0) (ho t h2) hpos]; linarith
    rw [integral_neg_deriv hab hd cont]
    unfold phi
    rw [hs a ha, hs b (ha.trans hab)]
    ring
  · have hd : ∀ t, a ≤ t → t ≤ b → HasDerivAt
        (fun t => √((gE p left rot r x - t) ^ 2 + (gH p left rot r x) ^ 2))
        (-(sg p left rot r t x)) t := by
      intro t h1 h2
      have t0 := ha.trans h1
      have : sg p left rot r t x = sn (gE p left rot r x - t) (gH p left rot r x) := by
        unfold sg so
        rw [if_neg hn]
        exact min_eq_left (sn_bounds hx (gne t t0)).2
      rw [this]
      exact hasDerivAt_string _ _ t (gne t t0)
    rw [integral_neg_deriv hab hd cont]
    unfold phi obs
    rw [if_neg hn]
    simp only [strO]
    rw [dist_gnd_row, dist_gnd_row]
    ring

theorem dist_gp (x : ℝ) (P : Pt) : distPt (gp x) P = √((P.x - x) ^ 2 + P.y ^ 2) := by
  rw [distPt]; congr 1; simp only [gp]; ring

/-- The direction from a ground point to a point of a row, integrated along the ground. -/
theorem integral_sv {p : ArrayParams} {rot : ℝ} (h : Physical p rot) (left : Bool) (r : ℕ)
    {t y1 y2 : ℝ} (ht : 0 ≤ t) (hy : y1 ≤ y2) :
    IntervalIntegrable (fun x => sv p left rot r x t) MeasureTheory.volume y1 y2 ∧
    ∫ x in y1..y2, sv p left rot r x t
      = strO (obs p left rot r) (vp p left rot r t) y1
        - strO (obs p left rot r) (vp p left rot r t) y2 := by
  set P := vp p left rot r t with hP
  have pP : 0 < P.y := vp_y_pos h left r ht
  have cq : ∀ (Q : Pt), 0 < Q.y → ∀ x, ContinuousAt (fun x => sq x Q) x := fun Q hQ x =>
    continuousAt_sn Q.x Q.y x (Or.inr hQ.ne')
  have cont : ∀ x, y1 ≤ x → x ≤ y2 → ContinuousAt (fun x => sv p left rot r x t) x := by
    intro x _ _
    unfold sv
    refine (cq P pP x).max ?_
    unfold sqo
    split_ifs
    · exact cq _ (vp_y_pos h left _ le_rfl) x
    · exact continuousAt_const
  refine ⟨?_, ?_⟩
  · apply ContinuousOn.intervalIntegrable
    intro t ht
    rw [Set.uIcc_of_le hy] at ht
    exact (cont t ht.1 ht.2).continuousWithinAt
  refine integral_neg_deriv hy (f := fun x => strO (obs p left rot r) P x) ?_ cont
  intro x _ _
  have dB : ∀ (Q : Pt), 0 < Q.y → HasDerivAt (fun x => distPt (gp x) Q) (-(sq x Q)) x := by
    intro Q hQ
    simp only [dist_gp]
    exact hasDerivAt_string Q.x Q.y x (Or.inr hQ.ne')
  by_cases hn : HasNb left p.nRows r
  · set O := vp p left rot (nb left r) 0 with hO
    have pO : 0 < O.y := vp_y_pos h left _ le_rfl
    have eo : obs p left rot r = some O := by unfold obs; rw [if_pos hn]
    rw [eo]
    simp only [strO]
    set q : ℝ → ℝ := fun x => (O.x - x) * P.y - (P.x - x) * O.y with hq
    have hqc : ContinuousAt q x := by rw [hq]; fun_prop
    have qiff : ∀ u, cot u P < cot u O ↔ 0 < q u := by
      intro u; rw [cot_lt_cot pP pO]; simp only [hq]; constructor <;> intro h <;> linarith
    have key := hasDerivAt_bent (f := fun u => strL P O u) (q := q)
      (A := fun u => distPt (gp u) O + distPt O P) (B := fun u => distPt (gp u) P)
      (fun u hu => by simp only [strL]; rw [if_pos ((qiff u).2 hu)])
      (fun u hu => by simp only [strL]; rw [if_neg (fun h' => absurd ((qiff u).1 h') (not_lt.2 hu))])
      hqc ((dB O pO).add_const _) (dB P pP) (fun h0 => ?_)
    · convert key using 1
      unfold sv sqo
      rw [if_pos hn]
      by_cases hc : 0 < q x
      · rw [if_pos hc]
        congr 1
        exact max_eq_right ((sq_lt pP pO).2 ((qiff x).2 hc)).le
      · rw [if_neg hc]
        congr 1
        exact max_eq_left (not_lt.1 fun h' => hc ((qiff x).1 ((sq_lt pP pO).1 h')))
    · have h0' : (O.x - x) * P.y = (P.x - x) * O.y := by simp only [hq] at h0; linarith
      refine ⟨straight pO (vp_y_le h left _ _ ht) h0', ?_⟩
      congr 1
      apply le_antisymm
      · rw [sq_le pO pP, cot_le_cot pO pP]; exact h0'.le
      · rw [sq_le pP pO, cot_le_cot pP pO]; exact h0'.ge
  · have eo : obs p left rot r = none := by unfold obs; rw [if_neg hn]
    rw [eo]
    simp only [strO]
    have : sv p left rot r x t = sq x P := by
      unfold sv sqo
      rw [if_neg hn]
      exact max_eq_left (sq_bounds pP).1
    rw [this]
    exact dB P pP

/-- The direction to a point of the next row, integrated along the row. -/
theorem integral_sr {p : ArrayParams} {rot : ℝ} (h : Physical p rot) (h0 : rot ≠ 0) {left : Bool}
    {n r : ℕ} (hn : HasNb left n r) {a b t' : ℝ} (hab : a ≤ b) :
    IntervalIntegrable (fun t => sr p left rot t t') MeasureTheory.volume a b ∧
    ∫ t in a..b, sr p left rot t t' = kdist p left rot r a b t' := by
  have hDv : p.distance * upY rot ≠ 0 := (mul_pos h.distance (upY_pos h.lo h.hi h0)).ne'
  have cont : ∀ t, a ≤ t → t ≤ b → ContinuousAt (fun t => sr p left rot t t') t := fun t _ _ =>
    continuousAt_sn _ _ _ (Or.inr hDv)
  refine ⟨?_, ?_⟩
  · apply ContinuousOn.intervalIntegrable
    intro t ht
    rw [Set.uIcc_of_le hab] at ht
    exact (cont t ht.1 ht.2).continuousWithinAt
  rw [integral_neg_deriv (s := fun t => sr p left rot t t') hab
    (fun t _ _ => hasDerivAt_string _ _ t (Or.inr hDv)) cont]
  unfold kdist
  rw [distPt_comm, dist_row_row hn, distPt_comm, dist_row_row hn]

end PVF

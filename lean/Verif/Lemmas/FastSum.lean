import Verif.Lemmas.Fast

/-! # Fast mode: sums of view factors -/

namespace PVF

/-- The end of the ground in the direction of a view. -/
noncomputable def endX (left : Bool) : ℝ := if left then MIN_X else MAX_X

theorem dphi_all (p : ArrayParams) (left : Bool) (rot : ℝ) (r : ℕ) (a b : ℝ) {z : ℝ}
    (hz : InGround z) :
    dphi p left rot r a b (clipTo left z MIN_X) (clipTo left z MAX_X)
      = phi p left rot r a b (sx left z) - phi p left rot r a b (sx left (endX left)) := by
  unfold dphi clipTo sx endX
  cases left
  · simp [max_eq_right hz.1, max_eq_left hz.2]
  · simp [min_eq_left hz.1, min_eq_right hz.2]

section
variable {p : ArrayParams} {rot : Rot} {sun : Pt} (h : Physical p rot.deg) (hf : FlatOk rot)
    {r : ℕ} (hr : r < p.nRows)
include h hf hr

/-- Both ends of the part of the ground that a view goes to are on its side, or there is no such
part. -/
theorem zone_onSide (left : Bool) :
    let z := (fitGeom p rot sun).ground.zoneHi r
    (OnSide p left rot.deg r z ∧ OnSide p left rot.deg r (endX left)) ∨ z = endX left := by
  intro z
  have hz : InGround z := (fitGeom p rot sun).ground.zoneHi_inGround r
  cases left
  · rcases eq_or_lt_of_le hz.2 with e | e
    · exact Or.inr (by simp [endX, e])
    · refine Or.inl ⟨onSide_right h hf hr le_rfl e, ?_⟩
      simp only [endX, Bool.false_eq_true, if_false]
      exact onSide_right h hf hr e.le e
  · rcases eq_or_lt_of_le hz.1 with e | e
    · exact Or.inr (by simp [endX, e])
    · refine Or.inl ⟨onSide_left h hr le_rfl e, ?_⟩
      simp only [endX, if_true]
      exact onSide_left h hr e.le e

/-- A row with a neighbour sees less ground than the opening between the lower ends of both rows. -/
theorem zone_phi_le {left : Bool} (hn : HasNb left p.nRows r) {a b : ℝ} (ha : 0 ≤ a) (hab : a ≤ b) :
    phi p left rot.deg r a b (sx left ((fitGeom p rot sun).ground.zoneHi r))
      - phi p left rot.deg r a b (sx left (endX left))
      ≤ (b - a) + kdist p left rot.deg r a b 0 := by
  have hk0 := abs_le.1 (kdist_abs p left rot.deg r hab 0)
  rcases zone_onSide (sun := sun) h hf hr left with ⟨ox, oy⟩ | e
  · have u := phi_upper h ha hab ox
    rw [dist_vp_self p left rot.deg r hab] at u
    have l := phi_lower_nb h hn ha hab oy
    have : kdist p left rot.deg r a b 0 = distPt (vp p left rot.deg (nb left r) 0) (vp p left rot.deg r a)
        - distPt (vp p left rot.deg (nb left r) 0) (vp p left rot.deg r b) := by
      rw [kdist, distPt_comm, distPt_comm (vp p left rot.deg r b)]
    rw [this]; linarith
  · rw [e, sub_self]; linarith [hk0.1]

end

/-- Seen from the point where its line meets the ground, a row is a single point. -/
theorem phi_cut {p : ArrayParams} {rot : ℝ} (h : Physical p rot) (hr0 : rot ≠ 0) {left : Bool}
    {r : ℕ} {a b x : ℝ} (ha : 0 ≤ a) (hab : a ≤ b)
    (hx : upX left rot * lowY p rot = upY rot * (lowX p left rot r - sx left x)) :
    phi p left rot r a b (sx left x) = b - a := by
  have hu := upY_pos h.lo h.hi hr0
  have hl := h.lowY_pos
  set τ := lowY p rot / upY rot with hτ
  have hτ0 : 0 < τ := div_pos hl hu
  have hunit : upX left rot ^ 2 + upY rot ^ 2 = 1 := by
    have := cosd_sq_add_sind_sq rot
    unfold upX upY sx
    cases left <;> split_ifs <;> linarith
  have hg : gp (sx left x) = vp p left rot r (-τ) := by
    rw [vp_eq]
    have e1 : lowY p rot = τ * upY rot := by rw [hτ]; field_simp
    have e2 : lowX p left rot r - sx left x = τ * upX left rot := by
      have : upY rot * (lowX p left rot r - sx left x) = upY rot * (τ * upX left rot) := by
        rw [← hx, e1]; ring
      exact mul_left_cancel₀ hu.ne' this
    simp only [gp]
    congr 1
    · linarith
    · rw [e1]; ring
  have hstr : ∀ t, 0 ≤ t → strO (obs p left rot r) (vp p left rot r t) (sx left x) = t + τ := by
    intro t ht
    have hd : distPt (gp (sx left x)) (vp p left rot r t) = t + τ := by
      rw [hg, dist_vp_self p left rot r (by linarith)]; ring
    unfold obs
    split_ifs with hn
    · simp only [strO, strL]
      rw [if_neg, hd]
      rw [not_lt, cot_le_cot (vp_y_pos h left _ le_rfl) (vp_y_pos h left _ ht), vp_nb hn, vp_eq]
      simp only
      have hD := h.distance
      nlinarith [mul_pos hD hl, mul_nonneg ht hu.le, mul_nonneg (mul_nonneg ht hu.le) hD.le]
    · exact hd
  unfold phi
  rw [hstr b (ha.trans hab), hstr a ha]; ring

/-- What lies behind the end of the ground. -/
theorem phi_end_le {p : ArrayParams} {rot : ℝ} {left : Bool}
    {r : ℕ} (hn : HasNb left p.nRows r) {a b x : ℝ} :
    phi p left rot r a b (sx left x) + kdist p left rot r a b 0
      ≤ distPt (gp (sx left x)) (vp p left rot (nb left r) 0)
        + distPt (vp p left rot (nb left r) 0) (vp p left rot r a)
        - distPt (gp (sx left x)) (vp p left rot r a) := by
  unfold phi obs kdist
  rw [if_pos hn]
  simp only [strO]
  set O := vp p left rot (nb left r) 0
  set X := sx left x
  have h1 : strL (vp p left rot r b) O X ≤ distPt (gp X) O + distPt O (vp p left rot r b) := by
    unfold strL; split_ifs
    · exact le_rfl
    · exact distPt_triangle _ _ _
  have h2 : distPt (gp X) (vp p left rot r a) ≤ strL (vp p left rot r a) O X := by
    unfold strL; split_ifs
    · exact distPt_triangle _ _ _
    · exact le_rfl
  rw [distPt_comm (vp p left rot r a) O, distPt_comm (vp p left rot r b) O]
  linarith

/-- Nothing is missing if the end of the ground does not see the surface. -/
theorem phi_end_eq {p : ArrayParams} {rot : ℝ} (h : Physical p rot) {left : Bool}
    {r : ℕ} (hn : HasNb left p.nRows r) {a b x : ℝ} (ha : 0 ≤ a) (hab : a ≤ b)
    (ho : OnSide p left rot r x)
    (hx : cot (sx left x) (vp p left rot r a) ≤ cot (sx left x) (vp p left rot (nb left r) 0)) :
    phi p left rot r a b (sx left x) + kdist p left rot r a b 0 = 0 := by
  have hb := cot_vp h ho ha hab
  have hO := vp_y_pos h left (nb left r) (le_refl 0)
  have key : ∀ t, 0 ≤ t → cot (sx left x) (vp p left rot r t)
      ≤ cot (sx left x) (vp p left rot (nb left r) 0) →
      strL (vp p left rot r t) (vp p left rot (nb left r) 0) (sx left x)
      = distPt (gp (sx left x)) (vp p left rot (nb left r) 0)
        + distPt (vp p left rot (nb left r) 0) (vp p left rot r t) := by
    intro t ht hc
    unfold strL
    split_ifs with hlt
    · rfl
    · have heq := le_antisymm hc (not_lt.1 hlt)
      set P := vp p left rot r t
      set O := vp p left rot (nb left r) 0
      have hP : 0 < P.y := vp_y_pos h left r ht
      have hOP : O.y ≤ P.y := vp_y_le h left _ _ ht
      have hw : O = wayPt (gp (sx left x)) P (O.y / P.y) := by
        unfold cot at heq
        have hxe : P.x - sx left x = (O.x - sx left x) / O.y * P.y := by
          rw [← heq]; field_simp
        ext
        · simp only [wayPt, gp]; rw [hxe]; field_simp; ring
        · simp only [wayPt, gp]; field_simp; ring
      have t0 : 0 ≤ O.y / P.y := (div_pos hO hP).le
      have t1 : O.y / P.y ≤ 1 := (div_le_one hP).2 hOP
      have e1 := distPt_way_left (a := gp (sx left x)) (p := P) t0
      have e2 := distPt_way_right (a := gp (sx left x)) (p := P) t1
      rw [← hw] at e1 e2
      rw [e1, e2]; ring
  unfold phi obs kdist
  rw [if_pos hn]
  simp only [strO]
  rw [key a ha hx, key b (ha.trans hab) (hb.trans hx), distPt_comm (vp p left rot r a),
    distPt_comm (vp p left rot r b)]
  ring

end PVF

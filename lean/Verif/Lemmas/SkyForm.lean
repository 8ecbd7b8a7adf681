import Verif.Lemmas.FastPart

/-! # Closed forms of the view factors to the sky -/

namespace PVF

section
variable {p : ArrayParams} {rot : Rot} {sun : Pt} (h : Physical p rot.deg)
    (hf : FlatOk rot) (ho : (fitGeom p rot sun).ground.Ordered) (emp : SurfRef → Prop)
    {r : ℕ} {s : RowSide} {k : ℕ} {sh : Bool}
    (ha : SurfRef.pv r s k sh ∈ allRefs p)
    (hemp : ∀ x, emp x → ((fitGeom p rot sun).coords x).length < TOL)
    (hlen : TOL < ((fitGeom p rot sun).coords (.pv r s k sh)).length)
    (hsl : NoSliver p (fitGeom p rot sun))
include h hf ho ha hemp hlen hsl

/-- The view factor to the whole ground. -/
theorem ground_sum :
    let g := fitGeom p rot sun
    let a := SurfRef.pv r s k sh
    let left := faceL rot.deg s
    let ph := phi p left rot.deg r (pvIv p rot sun r s k sh).1 (pvIv p rot sun r s k sh).2
    partSum p (entryVF p g emp a) SurfRef.isGround
      = (ph (sx left (g.ground.zoneHi r)) - ph (sx left (endX left))) / (2 * (g.coords a).length) := by
  intro g a left ph
  rw [partSum_ground, ← dphi_all p left rot.deg r _ _ (g.ground.zoneHi_inGround r)]
  exact gnd_total_sum h hf ho emp ha hemp hlen hsl

/-- The same if the line of the row meets the ground within its extent. -/
theorem ground_sum_cut (h0 : rot.deg ≠ 0) {c : ℝ} (hcg : InGround c)
    (hc : Aligned ⟨c, 0⟩ (fullRowCoords (rowCenter p r) p.width rot.deg).b1
      (fullRowCoords (rowCenter p r) p.width rot.deg).b2) :
    let g := fitGeom p rot sun
    let a := SurfRef.pv r s k sh
    let left := faceL rot.deg s
    let ph := phi p left rot.deg r (pvIv p rot sun r s k sh).1 (pvIv p rot sun r s k sh).2
    partSum p (entryVF p g emp a) SurfRef.isGround
      = ((g.coords a).length - ph (sx left (endX left))) / (2 * (g.coords a).length) ∧
    OnSide p left rot.deg r (endX left) := by
  intro g a left ph
  obtain ⟨hr, hk⟩ := mem_allRefs_pv.1 ha
  obtain ⟨ia, iab, ib⟩ := pv_iv_bounds (rot := rot) (sun := sun) hk sh h.width.le
  have h1 := ground_sum h hf ho emp ha hemp hlen hsl
  simp only at h1
  obtain ⟨c1, c2⟩ := aligned_cut h h0 hc
  have hz : (fitGeom p rot sun).ground.zoneHi r = c := by
    rw [zoneHi_fit p rot sun hr, c1]
    simp only [XR.clipped]
    rw [min_eq_left hcg.2, max_eq_right hcg.1]
  rw [hz, phi_cut h h0 ia iab (c2 _),
    ← length_pv (rot := rot) (sun := sun) hk sh h.width.le h.lo h.hi] at h1
  refine ⟨h1, ?_⟩
  rcases zone_onSide (sun := sun) h hf hr left with ⟨-, oy⟩ | e
  · exact oy
  · rw [← e, hz]; exact (c2 left).le

omit hf ho in
open Classical in
/-- The view factor to the rows. -/
theorem rows_total (hseg : 0 < p.nSeg (nb (faceL rot.deg s) r) s.other) :
    let g := fitGeom p rot sun
    let a := SurfRef.pv r s k sh
    let left := faceL rot.deg s
    let K := kdist p left rot.deg r (pvIv p rot sun r s k sh).1 (pvIv p rot sun r s k sh).2
    partSum p (entryVF p g emp a) (fun b => !b.isGround)
      = if HasNb left p.nRows r then (K p.width - K 0) / (2 * (g.coords a).length) else 0 := by
  intro g a left K
  have t1 := pv_part_sum h emp ha hemp hlen hsl (fun _ => true)
  have e1 := partSum_rows p (entryVF p g emp a) (fun _ => true)
  simp only [Bool.and_true] at e1
  simp only at t1
  rw [e1, t1]
  split_ifs with hn
  · congr 1
    have := side_telescope p.width rot.deg hseg
      (sideShade p (arctan2 sun.y sun.x) rot.deg (nb left r) s.other) K
    rw [← this]
    congr 1
    apply List.map_congr_left
    intro k' _
    simp [pvIv, K, left]
  · rfl

end

/-- A row without neighbour sees no rows. -/
theorem rows_total_edge {p : ArrayParams} {rot : Rot} {sun : Pt} (h : Physical p rot.deg)
    (emp : SurfRef → Prop) {r : ℕ} {s : RowSide} {k : ℕ} {sh : Bool}
    (ha : SurfRef.pv r s k sh ∈ allRefs p)
    (hemp : ∀ x, emp x → ((fitGeom p rot sun).coords x).length < TOL)
    (hlen : TOL < ((fitGeom p rot sun).coords (.pv r s k sh)).length)
    (hsl : NoSliver p (fitGeom p rot sun)) (hn : ¬ HasNb (faceL rot.deg s) p.nRows r) :
    partSum p (entryVF p (fitGeom p rot sun) emp (.pv r s k sh)) (fun b => !b.isGround) = 0 := by
  have t1 := pv_part_sum h emp ha hemp hlen hsl (fun _ => true)
  have e1 := partSum_rows p (entryVF p (fitGeom p rot sun) emp (.pv r s k sh)) (fun _ => true)
  simp only [Bool.and_true] at e1
  simp only at t1
  rw [e1, t1, if_neg hn]

theorem cauchy2 (a b c d : ℝ) : (a * c + b * d) ^ 2 ≤ (a ^ 2 + b ^ 2) * (c ^ 2 + d ^ 2) := by
  nlinarith [sq_nonneg (a * d - b * c)]

/-- The difference between the length of a ray and its horizontal part, for flat rays. -/
theorem flat_ray {X y d ρ : ℝ} (hX : 0 < X) (hy : 0 ≤ y) (hyX : y ≤ ρ * X) (hd0 : 0 ≤ d)
    (hd : d ^ 2 = X ^ 2 + y ^ 2) : X ≤ d ∧ (d - X) ^ 2 + y ^ 2 ≤ (ρ * d) ^ 2 := by
  have hXd : X ≤ d := by
    by_contra hc
    nlinarith [sq_nonneg y]
  refine ⟨hXd, ?_⟩
  have hρ : 0 ≤ ρ := by
    by_contra hc
    nlinarith
  have hy2 : y ^ 2 ≤ ρ ^ 2 * X ^ 2 := by
    have := mul_self_le_mul_self hy hyX
    nlinarith
  have h1 : 2 * (d - X) ≤ ρ ^ 2 * X := by
    have h2 : (d - X) * (d + X) ≤ ρ ^ 2 * X ^ 2 := by nlinarith
    have h3 : (d - X) * (2 * X) ≤ (d - X) * (d + X) :=
      mul_le_mul_of_nonneg_left (by linarith) (by linarith)
    have : X * (2 * (d - X)) ≤ X * (ρ ^ 2 * X) := by nlinarith
    exact le_of_mul_le_mul_left this hX
  have h4 : 2 * (d - X) ≤ ρ ^ 2 * d :=
    h1.trans (mul_le_mul_of_nonneg_left hXd (sq_nonneg ρ))
  have h5 : (d - X) ^ 2 + y ^ 2 = d * (2 * (d - X)) := by nlinarith
  rw [h5]
  calc d * (2 * (d - X)) ≤ d * (ρ ^ 2 * d) := mul_le_mul_of_nonneg_left h4 hd0
    _ = (ρ * d) ^ 2 := by ring

/-- Seen from far away, distances differ by their horizontal parts. -/
theorem far_view {x D Y : ℝ} {P Q : Pt} (hD : 0 < D) (hP : D ≤ P.x - x) (hQ : D ≤ Q.x - x)
    (hP0 : 0 ≤ P.y) (hQ0 : 0 ≤ Q.y) (hPY : P.y ≤ Y) (hQY : Q.y ≤ Y) :
    |distPt (gp x) Q - distPt (gp x) P - (Q.x - P.x)| ≤ distPt P Q * (Y / D) := by
  have hsq : ∀ A B : Pt, distPt A B ^ 2 = (B.x - A.x) ^ 2 + (B.y - A.y) ^ 2 := by
    intro A B
    unfold distPt
    rw [Real.sq_sqrt (by positivity)]
    ring
  have hY : 0 ≤ Y := hP0.trans hPY
  set ρ := Y / D with hρ
  have hρ0 : 0 ≤ ρ := by positivity
  have hr : ∀ y X, y ≤ Y → D ≤ X → y ≤ ρ * X := by
    intro y X h1 h2
    calc y ≤ Y := h1
      _ = ρ * D := by rw [hρ]; field_simp
      _ ≤ ρ * X := mul_le_mul_of_nonneg_left h2 hρ0
  have e1 := hsq (gp x) P
  have e2 := hsq (gp x) Q
  have e3 := hsq P Q
  simp only [gp, sub_zero] at e1 e2
  set d1 := distPt (gp x) P
  set d2 := distPt (gp x) Q
  set l := distPt P Q
  have n1 : 0 ≤ d1 := distPt_nonneg _ _
  have n2 : 0 ≤ d2 := distPt_nonneg _ _
  have n3 : 0 ≤ l := distPt_nonneg _ _
  change d1 ^ 2 = _ at e1
  change d2 ^ 2 = _ at e2
  obtain ⟨p1, p2⟩ := flat_ray (by linarith) hP0 (hr _ _ hPY hP) n1 e1
  obtain ⟨q1, q2⟩ := flat_ray (by linarith) hQ0 (hr _ _ hQY hQ) n2 e2
  set X1 := P.x - x
  set X2 := Q.x - x
  have hx : Q.x - P.x = X2 - X1 := by simp only [X1, X2]; ring
  rw [hx] at e3 ⊢
  have hS : 0 < d1 + d2 := by linarith
  -- the sum of the two rays
  have hcross : (d1 - X1) * (d2 - X2) + P.y * Q.y ≤ (ρ * d1) * (ρ * d2) := by
    apply abs_le_of_sq_le_sq' _ (by positivity) |>.2
    have cs : ((d1 - X1) * (d2 - X2) + P.y * Q.y) ^ 2
        ≤ ((d1 - X1) ^ 2 + P.y ^ 2) * ((d2 - X2) ^ 2 + Q.y ^ 2) := cauchy2 _ _ _ _
    calc _ ≤ _ := cs
      _ ≤ (ρ * d1) ^ 2 * (ρ * d2) ^ 2 := mul_le_mul p2 q2 (by positivity) (by positivity)
      _ = _ := by ring
  have hsum : (d1 - X1 + (d2 - X2)) ^ 2 + (P.y + Q.y) ^ 2 ≤ (ρ * (d1 + d2)) ^ 2 := by linarith
  have hN : (d2 - d1 - (X2 - X1)) * (d1 + d2)
      = -(X2 - X1) * (d1 - X1 + (d2 - X2)) + (Q.y - P.y) * (P.y + Q.y) := by
    linear_combination e2 - e1
  have hN2 : ((d2 - d1 - (X2 - X1)) * (d1 + d2)) ^ 2 ≤ (l * ρ * (d1 + d2)) ^ 2 := by
    rw [hN]
    calc _ ≤ ((X2 - X1) ^ 2 + (Q.y - P.y) ^ 2)
          * ((d1 - X1 + (d2 - X2)) ^ 2 + (P.y + Q.y) ^ 2) := by
          rw [← neg_sq (X2 - X1)]
          exact cauchy2 _ _ _ _
      _ ≤ l ^ 2 * (ρ * (d1 + d2)) ^ 2 := by
          rw [e3]; exact mul_le_mul_of_nonneg_left hsum (by positivity)
      _ = _ := by ring
  have := sq_le_sq.1 hN2
  rw [abs_mul, abs_of_pos hS, abs_of_nonneg (by positivity : 0 ≤ l * ρ * (d1 + d2))] at this
  exact le_of_mul_le_mul_right this hS

end PVF

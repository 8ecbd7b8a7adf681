import Verif.Lemmas.View
import Verif.Lemmas.Short
import Verif.Lemmas.GroundGeom

/-! # View factors of the matrix in terms of strings -/

namespace PVF

/-- Does the side of a row look to the left? -/
noncomputable def faceL (rot : ℝ) (s : RowSide) : Bool :=
  open Classical in decide (s = .front ↔ 0 < rot)

theorem tPt_y {p : ArrayParams} {rot : ℝ} (r : ℕ) (t : ℝ) :
    (tPt (rowCenter p r) p.width rot t).y = lowY p rot + t * upY rot := by
  have := vp_eq p true rot r t
  simp only [vp, mirB, if_true] at this
  rw [this]

theorem upY_pos {rot : ℝ} (h0 : -180 < rot) (h1 : rot < 180) (h : rot ≠ 0) : 0 < upY rot := by
  rw [upY_eq_abs h0 h1, abs_pos]
  rcases lt_or_gt_of_ne h with h | h
  · exact (sind_neg_of_neg h h0).ne
  · exact (sind_pos h h1).ne'

theorem pv_iv_bounds {p : ArrayParams} {rot : Rot} {sun : Pt} {r : ℕ} {s : RowSide} {k : ℕ}
    (hk : k < p.nSeg r s) (sh : Bool) (hw : 0 ≤ p.width) :
    0 ≤ (pvIv p rot sun r s k sh).1 ∧ (pvIv p rot sun r s k sh).1 ≤ (pvIv p rot sun r s k sh).2 ∧
      (pvIv p rot sun r s k sh).2 ≤ p.width :=
  ⟨(tIv_bounds hw _ _ hk sh).1, tIv_le hw _ _ _ _ _, (tIv_bounds hw _ _ hk sh).2⟩

theorem pv_highest_lowest {p : ArrayParams} {rot : Rot} {sun : Pt} (h : Physical p rot.deg) {r : ℕ}
    {s : RowSide} {k : ℕ} (hk : k < p.nSeg r s) (sh : Bool) :
    ((fitGeom p rot sun).coords (.pv r s k sh)).highest
      = tPt (rowCenter p r) p.width rot.deg (pvIv p rot sun r s k sh).2 ∧
    ((fitGeom p rot sun).coords (.pv r s k sh)).lowest
      = tPt (rowCenter p r) p.width rot.deg (pvIv p rot sun r s k sh).1 := by
  rw [coords_pv_t hk sh h.width.le h.lo h.hi]
  obtain ⟨_, hle, _⟩ := pv_iv_bounds (rot := rot) (sun := sun) hk sh h.width.le
  set a := (pvIv p rot sun r s k sh).1
  set b := (pvIv p rot sun r s k sh).2
  unfold Line.highest Line.lowest
  split_ifs with h0 h1 h1
  · exact ⟨rfl, rfl⟩
  · exfalso
    apply h1
    simp only [tPt_y, h0, upY, sind_zero]; simp
  · have hp := upY_pos h.lo h.hi h0
    simp only [tPt_y] at h1
    have : a = b := le_antisymm hle (by nlinarith)
    rw [this]; exact ⟨rfl, rfl⟩
  · exact ⟨rfl, rfl⟩

theorem full_lowest {p : ArrayParams} {rot : ℝ} (h : Physical p rot) (r : ℕ) :
    (fullRowCoords (rowCenter p r) p.width rot).lowest = tPt (rowCenter p r) p.width rot 0 := by
  rw [fullRowCoords_eq]
  unfold tPt Line.lowest rowPt
  have hw := h.width
  split_ifs with h1 h2 h2
  · have := sind_pos h2 h.hi
    simp only at h1
    nlinarith
  · simp
  · simp
  · rcases eq_or_lt_of_le (not_lt.1 h2) with h3 | h3
    · simp [h3, sind_zero] at h1
    · have := sind_neg_of_neg h3 h.lo
      simp only at h1
      nlinarith

theorem dist_gp_vp (p : ArrayParams) (left : Bool) (rot : ℝ) (r : ℕ) (t x : ℝ) :
    distPt (gp (sx left x)) (vp p left rot r t) = distPt (gp x) (tPt (rowCenter p r) p.width rot t) := by
  rw [gp_sx, vp, distPt_mirB]

/-- The case distinctions on side, direction and tilt. -/
theorem facing_select (rot : ℝ) (s : RowSide) (left : Bool) (v : ℝ) :
    (open Classical in
      if left then
        (if decide (s = .back) then (if rot > 0 then 0 else v) else (if rot > 0 then v else 0))
      else
        (if decide (s = .back) then (if rot > 0 then v else 0) else (if rot > 0 then 0 else v)))
    = if left = faceL rot s then v else 0 := by
  unfold faceL
  cases left <;> cases s <;> by_cases h : 0 < rot <;> simp [h]

theorem noObstr_iff (left : Bool) (n r : ℕ) :
    ((left = true ∧ r = 0) ∨ (¬ left = true ∧ r = n - 1)) ↔ ¬ HasNb left n r := by
  unfold HasNb
  cases left <;> simp

theorem nb_eq (left : Bool) (r : ℕ) : (if left = true then r - 1 else r + 1) = nb left r := by
  cases left <;> rfl

/-- View factor from a PV surface to a ground surface. -/
theorem pvGnd_val {p : ArrayParams} {rot : Rot} {sun : Pt} (h : Physical p rot.deg) {r : ℕ}
    {s : RowSide} {k : ℕ} (hk : k < p.nSeg r s) (sh : Bool) {x1 x2 : ℝ} {z : ℕ}
    (hd : 0 ≤ dphi p (decide (z ≤ r)) rot.deg r (pvIv p rot sun r s k sh).1
      (pvIv p rot sun r s k sh).2 x1 x2) :
    let g := fitGeom p rot sun
    (pvGndVF p g r s (g.coords (.pv r s k sh)) ⟨gp x1, gp x2⟩ z).1
      = if decide (z ≤ r) = faceL rot.deg s then
          (if (g.coords (.pv r s k sh)).length > TOL then
            dphi p (decide (z ≤ r)) rot.deg r (pvIv p rot sun r s k sh).1
              (pvIv p rot sun r s k sh).2 x1 x2 / (2 * (g.coords (.pv r s k sh)).length) else 0)
        else 0 := by
  intro g
  have hrot : g.rot.deg = rot.deg := rfl
  simp only [pvGndVF, vfPvGnd, hrot]
  refine (facing_select rot.deg s (decide (z ≤ r)) _).trans ?_
  congr 1
  obtain ⟨hi, lo⟩ := pv_highest_lowest (sun := sun) h hk sh
  obtain ⟨ha, hab, hb⟩ := pv_iv_bounds (rot := rot) (sun := sun) hk sh h.width.le
  have hco := coords_pv_t (sun := sun) hk sh h.width.le h.lo h.hi
  set A := g.coords (.pv r s k sh) with hA
  change A.highest = _ at hi
  change A.lowest = _ at lo
  change A = _ at hco
  set a := (pvIv p rot sun r s k sh).1
  set b := (pvIv p rot sun r s k sh).2
  set left := decide (z ≤ r) with hleft
  clear_value left
  rw [nb_eq]
  by_cases hn : HasNb left p.nRows r
  · have hno : ¬ ((left = true ∧ r = 0) ∨ (¬ left = true ∧ r = p.nRows - 1)) := by
      rw [noObstr_iff]; exact not_not.2 hn
    rw [if_neg hno]
    have hfull : (g.row (nb left r)).full = fullRowCoords (rowCenter p (nb left r)) p.width rot.deg := rfl
    rw [hi, lo, hfull, full_lowest h]
    unfold vfHottelGnd
    have hpos : ∀ (j : ℕ) {t : ℝ}, 0 ≤ t → 0 < (tPt (rowCenter p j) p.width rot.deg t).y := by
      intro j t ht
      have := vp_y_pos h true j ht
      simpa [vp, mirB] using this
    have e : ∀ {t : ℝ}, 0 ≤ t → ∀ x, hottelString (tPt (rowCenter p r) p.width rot.deg t) (gp x)
        (tPt (rowCenter p (nb left r)) p.width rot.deg 0) left
        = strL (vp p left rot.deg r t) (vp p left rot.deg (nb left r) 0) (sx left x) := fun ht x =>
      hottelString_eq left (hpos _ ht) (hpos _ le_rfl) x
    rw [e ha, e ha, e (ha.trans hab), e (ha.trans hab)]
    have hnum : dphi p left rot.deg r a b x1 x2
        = (if left then strL (vp p left rot.deg r b) (vp p left rot.deg (nb left r) 0) (sx left x2)
            else strL (vp p left rot.deg r b) (vp p left rot.deg (nb left r) 0) (sx left x1))
          + (if left then strL (vp p left rot.deg r a) (vp p left rot.deg (nb left r) 0) (sx left x1)
            else strL (vp p left rot.deg r a) (vp p left rot.deg (nb left r) 0) (sx left x2))
          - (if left then strL (vp p left rot.deg r b) (vp p left rot.deg (nb left r) 0) (sx left x1)
            else strL (vp p left rot.deg r b) (vp p left rot.deg (nb left r) 0) (sx left x2))
          - (if left then strL (vp p left rot.deg r a) (vp p left rot.deg (nb left r) 0) (sx left x2)
            else strL (vp p left rot.deg r a) (vp p left rot.deg (nb left r) 0) (sx left x1)) := by
      unfold dphi phi obs
      rw [if_pos hn]
      simp only [strO]
      cases left <;> simp [sx] <;> ring
    rw [hnum]
  · have hno : (left = true ∧ r = 0) ∨ (¬ left = true ∧ r = p.nRows - 1) := (noObstr_iff _ _ _).2 hn
    rw [if_pos hno]
    unfold vfSurfSurf
    have hnum : |distPt A.b1 (gp x2) + distPt A.b2 (gp x1) - (distPt A.b1 (gp x1) + distPt A.b2 (gp x2))|
        = dphi p left rot.deg r a b x1 x2 := by
      rw [← abs_of_nonneg hd]
      unfold dphi phi obs
      rw [if_neg hn]
      simp only [strO]
      have e := fun t x => dist_gp_vp p left rot.deg r t x
      rw [hco]
      have cm := fun t x => distPt_comm (tPt (rowCenter p r) p.width rot.deg t) (gp x)
      by_cases h0 : rot.deg = 0
      · rw [if_pos h0]
        simp only [cm]
        cases left
        · simp only [sx, Bool.false_eq_true, if_false] at e ⊢
          rw [e, e, e, e, ← abs_neg]
          congr 1; ring
        · simp only [sx, if_true] at e ⊢
          rw [e, e, e, e]
          congr 1; ring
      · rw [if_neg h0]
        simp only [cm]
        cases left
        · simp only [sx, Bool.false_eq_true, if_false] at e ⊢
          rw [e, e, e, e]
          congr 1; ring
        · simp only [sx, if_true] at e ⊢
          rw [e, e, e, e, ← abs_neg]
          congr 1; ring
    simp only [hnum]

/-- The other direction. -/
theorem pvGnd_val2 (p : ArrayParams) (g : StepGeom) (r : ℕ) (s : RowSide) (A B : Line) (z : ℕ) :
    (pvGndVF p g r s A B z).2
      = if B.length > TOL then (pvGndVF p g r s A B z).1 * A.length / B.length else 0 := rfl

/-- Difference of the distances from a point of the next row to the ends of a surface. -/
noncomputable def kdist (p : ArrayParams) (left : Bool) (rot : ℝ) (r : ℕ) (a b t : ℝ) : ℝ :=
  distPt (vp p left rot r a) (vp p left rot (nb left r) t)
    - distPt (vp p left rot r b) (vp p left rot (nb left r) t)

theorem kdist_mono {p : ArrayParams} {left : Bool} {rot : ℝ} {n r : ℕ} (hn : HasNb left n r)
    {a b a' b' : ℝ} (hab : a ≤ b) (hab' : a' ≤ b') :
    kdist p left rot r a b a' ≤ kdist p left rot r a b b' := by
  unfold kdist
  linarith [trapezoid (p := p) (rot := rot) hn hab hab']

theorem kdist_abs (p : ArrayParams) (left : Bool) (rot : ℝ) (r : ℕ) {a b : ℝ} (hab : a ≤ b) (t : ℝ) :
    |kdist p left rot r a b t| ≤ b - a := by
  unfold kdist
  rw [← dist_vp_self p left rot r hab, abs_le]
  have t1 := distPt_triangle (vp p left rot r a) (vp p left rot r b) (vp p left rot (nb left r) t)
  have t2 := distPt_triangle (vp p left rot r b) (vp p left rot r a) (vp p left rot (nb left r) t)
  rw [distPt_comm (vp p left rot r b) (vp p left rot r a)] at t2
  constructor <;> linarith

/-- Crossed strings between two PV surfaces of neighbouring rows. -/
theorem vfSurfSurf_pv {p : ArrayParams} {rot : Rot} {sun : Pt} (h : Physical p rot.deg)
    {left : Bool} {n r : ℕ} (hn : HasNb left n r) {s s' : RowSide} {k k' : ℕ}
    (hk : k < p.nSeg r s) (hk' : k' < p.nSeg (nb left r) s') (sh sh' : Bool) (w : ℝ) :
    let g := fitGeom p rot sun
    let v := kdist p left rot.deg r (pvIv p rot sun r s k sh).1 (pvIv p rot sun r s k sh).2
        (pvIv p rot sun (nb left r) s' k' sh').2
      - kdist p left rot.deg r (pvIv p rot sun r s k sh).1 (pvIv p rot sun r s k sh).2
        (pvIv p rot sun (nb left r) s' k' sh').1
    vfSurfSurf (g.coords (.pv r s k sh)) (g.coords (.pv (nb left r) s' k' sh')) w
      = (if w > TOL then v / (2 * w) else 0) ∧
    vfSurfSurf (g.coords (.pv (nb left r) s' k' sh')) (g.coords (.pv r s k sh)) w
      = (if w > TOL then v / (2 * w) else 0) ∧ 0 ≤ v := by
  intro g v
  obtain ⟨ha, hab, hb⟩ := pv_iv_bounds (rot := rot) (sun := sun) hk sh h.width.le
  obtain ⟨ha', hab', hb'⟩ := pv_iv_bounds (rot := rot) (sun := sun) hk' sh' h.width.le
  have hv : 0 ≤ v := sub_nonneg.2 (kdist_mono hn hab hab')
  have c1 : g.coords (.pv r s k sh) = _ := coords_pv_t (sun := sun) hk sh h.width.le h.lo h.hi
  have c2 : g.coords (.pv (nb left r) s' k' sh') = _ :=
    coords_pv_t (sun := sun) hk' sh' h.width.le h.lo h.hi
  have e : ∀ t t', distPt (vp p left rot.deg r t) (vp p left rot.deg (nb left r) t')
      = distPt (tPt (rowCenter p r) p.width rot.deg t)
          (tPt (rowCenter p (nb left r)) p.width rot.deg t') := fun t t' => distPt_mirB _ _ _
  have cm := fun t t' => distPt_comm (tPt (rowCenter p (nb left r)) p.width rot.deg t')
    (tPt (rowCenter p r) p.width rot.deg t)
  refine ⟨?_, ?_, hv⟩
  · have hnum : ∀ A B : Line, A = g.coords (.pv r s k sh) → B = g.coords (.pv (nb left r) s' k' sh') →
        |distPt A.b1 B.b2 + distPt A.b2 B.b1 - (distPt A.b1 B.b1 + distPt A.b2 B.b2)| = v := by
      rintro A B rfl rfl
      conv_rhs => rw [← abs_of_nonneg hv]
      rw [c1, c2]
      simp only [v, kdist, e]
      split_ifs <;> simp only <;> congr 1 <;> ring
    simp only [vfSurfSurf, hnum _ _ rfl rfl]
  · have hnum : ∀ A B : Line, A = g.coords (.pv r s k sh) → B = g.coords (.pv (nb left r) s' k' sh') →
        |distPt B.b1 A.b2 + distPt B.b2 A.b1 - (distPt B.b1 A.b1 + distPt B.b2 A.b2)| = v := by
      rintro A B rfl rfl
      conv_rhs => rw [← abs_of_nonneg hv]
      rw [c1, c2]
      simp only [v, kdist, e]
      split_ifs <;> simp only [cm] <;> congr 1 <;> ring
    simp only [vfSurfSurf, hnum _ _ rfl rfl]

/-- View factor from a PV surface to a PV surface. -/
theorem pvPv_val {p : ArrayParams} {rot : Rot} {sun : Pt} (h : Physical p rot.deg)
    (emp : SurfRef → Prop) {r r' : ℕ} {s s' : RowSide} {k k' : ℕ} {sh sh' : Bool}
    (ha : SurfRef.pv r s k sh ∈ allRefs p) (hb : SurfRef.pv r' s' k' sh' ∈ allRefs p) :
    let g := fitGeom p rot sun
    let left := faceL rot.deg s
    let v := kdist p left rot.deg r (pvIv p rot sun r s k sh).1 (pvIv p rot sun r s k sh).2
        (pvIv p rot sun r' s' k' sh').2
      - kdist p left rot.deg r (pvIv p rot sun r s k sh).1 (pvIv p rot sun r s k sh).2
        (pvIv p rot sun r' s' k' sh').1
    0 ≤ entryVF p g emp (.pv r s k sh) (.pv r' s' k' sh') ∧
    (¬ (HasNb left p.nRows r ∧ r' = nb left r ∧ s' ≠ s) →
      entryVF p g emp (.pv r s k sh) (.pv r' s' k' sh') = 0) ∧
    ((HasNb left p.nRows r ∧ r' = nb left r ∧ s' ≠ s) →
      (g.coords (.pv r s k sh)).length > TOL →
      entryVF p g emp (.pv r s k sh) (.pv r' s' k' sh')
        ≤ v / (2 * (g.coords (.pv r s k sh)).length)) := by
  intro g left v
  obtain ⟨hr, hk⟩ := mem_allRefs_pv.1 ha
  obtain ⟨hr', hk'⟩ := mem_allRefs_pv.1 hb
  have hT := TOL_pos
  have hrot : g.rot.deg = rot.deg := rfl
  by_cases hnb : HasNb left p.nRows r ∧ r' = nb left r ∧ s' ≠ s
  · obtain ⟨hn, rfl, hs⟩ := hnb
    obtain ⟨q1, q2, q3⟩ := vfSurfSurf_pv (sun := sun) h hn hk hk' sh sh'
      (g.coords (.pv r s k sh)).length
    obtain ⟨_, q2', _⟩ := vfSurfSurf_pv (sun := sun) h hn hk hk' sh sh'
      (g.coords (.pv (nb left r) s' k' sh')).length
    change vfSurfSurf (g.coords (.pv r s k sh)) (g.coords (.pv (nb left r) s' k' sh')) _
      = (if _ then v / _ else 0) at q1
    change vfSurfSurf (g.coords (.pv (nb left r) s' k' sh')) (g.coords (.pv r s k sh)) _
      = (if _ then v / _ else 0) at q2'
    change 0 ≤ v at q3
    set lA := (g.coords (.pv r s k sh)).length with hlA
    set lB := (g.coords (.pv (nb left r) s' k' sh')).length with hlB
    refine ⟨?_, fun hc => absurd ⟨hn, rfl, hs⟩ hc, fun _ hlen => ?_⟩
    all_goals
      simp only [entryVF]
      by_cases he : emp (.pv r s k sh) ∨ emp (.pv (nb left r) s' k' sh')
      · simp only [if_pos he]
        first
        | exact div_nonneg q3 (by linarith)
        | exact le_rfl
      rw [if_neg he]
      have hle : left = faceL rot.deg s := rfl
      clear_value left
      cases left
      · have c1 : nb false r = r + 1 ∧ s ≠ s' := ⟨rfl, hs.symm⟩
        rw [if_pos c1]
        have sel : (vfPvPv (g.coords (.pv r s k sh)) (g.coords (.pv (nb false r) s' k' sh'))
            (g.rot.deg > 0) (decide (s = .front))).1
            = vfSurfSurf (g.coords (.pv r s k sh)) (g.coords (.pv (nb false r) s' k' sh')) lA := by
          unfold faceL at hle
          simp only [vfPvPv, hrot]
          cases s <;> by_cases h0 : 0 < rot.deg <;> simp [h0] at hle ⊢ <;> rfl
        rw [sel, q1]
        first
        | (rw [if_pos hlen])
        | (split_ifs
           · exact div_nonneg q3 (by linarith)
           · exact le_rfl)
      · have c0 : ¬ (nb true r = r + 1 ∧ s ≠ s') := by simp only [nb, if_true]; omega
        have c1 : r = nb true r + 1 ∧ s ≠ s' := by
          simp only [HasNb, if_true] at hn
          simp only [nb, if_true]
          exact ⟨by omega, hs.symm⟩
        rw [if_neg c0, if_pos c1]
        have sel : (vfPvPv (g.coords (.pv (nb true r) s' k' sh')) (g.coords (.pv r s k sh))
            (g.rot.deg > 0) (decide (s' = .front))).2
            = if lA > TOL then vfSurfSurf (g.coords (.pv (nb true r) s' k' sh'))
                (g.coords (.pv r s k sh)) lB * lB / lA else 0 := by
          unfold faceL at hle
          simp only [vfPvPv, hrot]
          cases s <;> cases s' <;> by_cases h0 : 0 < rot.deg <;> simp [h0] at hle hs ⊢ <;> rfl
        rw [sel, q2']
        first
        | (rw [if_pos hlen]
           split_ifs with hB
           · have : 0 < lB := hT.trans hB
             have : 0 < lA := hT.trans hlen
             apply le_of_eq; field_simp
           · rw [zero_mul, zero_div]; exact div_nonneg q3 (by linarith))
        | (split_ifs with h1 h2
           · have : 0 < lB := hT.trans h2
             have : 0 < lA := hT.trans h1
             positivity
           · simp
           · exact le_rfl)
  · have hz : entryVF p g emp (.pv r s k sh) (.pv r' s' k' sh') = 0 := by
      simp only [entryVF]
      split_ifs with he c1 c2
      · rfl
      · by_cases hl : left = false
        · exfalso; apply hnb
          refine ⟨?_, ?_, c1.2.symm⟩
          · rw [hl]; simp only [HasNb, Bool.false_eq_true, if_false]; omega
          · rw [hl]; exact c1.1
        · have hl : faceL rot.deg s = true := by simpa using hl
          unfold faceL at hl
          simp only [vfPvPv, hrot]
          cases s <;> by_cases h0 : 0 < rot.deg <;> simp [h0] at hl ⊢
      · by_cases hl : left = true
        · exfalso; apply hnb
          refine ⟨?_, ?_, c2.2.symm⟩
          · rw [hl]; simp only [HasNb, if_true]; omega
          · rw [hl]; simp only [nb, if_true]; omega
        · have hl : faceL rot.deg s = false := by simpa using hl
          have hs := c2.2
          unfold faceL at hl
          simp only [vfPvPv, hrot]
          cases s <;> cases s' <;> by_cases h0 : 0 < rot.deg <;> simp [h0] at hl hs ⊢
      · rfl
    exact ⟨hz.ge, fun _ => hz, fun hc => absurd hc hnb⟩

end PVF

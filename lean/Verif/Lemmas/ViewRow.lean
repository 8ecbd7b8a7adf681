import Verif.Lemmas.ViewSum
import Verif.Props.Ground
import Mathlib.Algebra.BigOperators.Field
import Mathlib.Tactic.IntervalCases

/-! # The view factors of a surface add up to at most one -/

namespace PVF

open Classical in
/-- Sum of the view factors to the rows. -/
theorem pv_pv_sum {p : ArrayParams} {rot : Rot} {sun : Pt} (h : Physical p rot.deg)
    (emp : SurfRef → Prop) {r : ℕ}
    {s : RowSide} {k : ℕ} {sh : Bool} (ha : SurfRef.pv r s k sh ∈ allRefs p)
    (hlen : ((fitGeom p rot sun).coords (.pv r s k sh)).length > TOL) :
    let g := fitGeom p rot sun
    let left := faceL rot.deg s
    let f := entryVF p g emp (.pv r s k sh)
    let K := kdist p left rot.deg r (pvIv p rot sun r s k sh).1 (pvIv p rot sun r s k sh).2
    ((List.range p.nRows).map fun i =>
          ((sideRefs p i .front).map f).sum + ((sideRefs p i .back).map f).sum).sum
      ≤ if HasNb left p.nRows r then (K p.width - K 0) / (2 * (g.coords (.pv r s k sh)).length)
        else 0 := by
  intro g left f K
  obtain ⟨hr, hk⟩ := mem_allRefs_pv.1 ha
  obtain ⟨ia, iab, ib⟩ := pv_iv_bounds (rot := rot) (sun := sun) hk sh h.width.le
  set len := (g.coords (.pv r s k sh)).length with hlendef
  have hlen0 : 0 < len := TOL_pos.trans hlen
  have hside0 : ∀ i s', i < p.nRows → ¬ (HasNb left p.nRows r ∧ i = nb left r ∧ s' ≠ s) →
      ((sideRefs p i s').map f).sum = 0 := by
    intro i s' hi hnot
    rw [sum_sideRefs]
    apply list_sum_zero
    intro k' hk'
    have hk'' := List.mem_range.1 hk'
    have e1 := (pvPv_val (sun := sun) h emp ha (mem_allRefs_pv.2 ⟨hi, hk''⟩ : SurfRef.pv i s' k' false ∈ _)).2.1 hnot
    have e2 := (pvPv_val (sun := sun) h emp ha (mem_allRefs_pv.2 ⟨hi, hk''⟩ : SurfRef.pv i s' k' true ∈ _)).2.1 hnot
    change f _ = 0 at e1 e2
    rw [e1, e2, add_zero]
  split_ifs with hn
  · have hKm : K 0 ≤ K p.width := kdist_mono hn iab h.width.le
    have hV : 0 ≤ (K p.width - K 0) / (2 * len) := div_nonneg (by linarith) (by linarith)
    have hside : ∀ s', s' ≠ s → nb left r < p.nRows →
        ((sideRefs p (nb left r) s').map f).sum ≤ (K p.width - K 0) / (2 * len) := by
      intro s' hs hi
      have := sum_side_telescope (p := p) (rot := rot) (sun := sun) (i := nb left r) (s := s')
        (f := f) (A := fun t => K t / (2 * len)) (by
          show K 0 / (2 * len) ≤ K p.width / (2 * len)
          gcongr) (by
          intro k' sh' hk'
          have := (pvPv_val (sun := sun) h emp ha
            (mem_allRefs_pv.2 ⟨hi, hk'⟩ : SurfRef.pv (nb left r) s' k' sh' ∈ _)).2.2
              ⟨hn, rfl, hs⟩ hlen
          rw [sub_div] at this
          exact this)
      rw [sub_div]; exact this
    have hterm : ∀ i ∈ List.range p.nRows,
        ((sideRefs p i .front).map f).sum + ((sideRefs p i .back).map f).sum
          ≤ if i = nb left r then (K p.width - K 0) / (2 * len) else 0 := by
      intro i hi
      have hi' := List.mem_range.1 hi
      split_ifs with hin
      · subst hin
        cases s with
        | front =>
          rw [hside0 _ .front hi' (by simp), zero_add]
          exact hside .back (by simp) hi'
        | back =>
          rw [hside0 _ .back hi' (by simp), add_zero]
          exact hside .front (by simp) hi'
      · rw [hside0 _ _ hi' (by simp [hin]), hside0 _ _ hi' (by simp [hin]), add_zero]
    refine (list_sum_le hterm).trans ?_
    rw [List.sum_map_ite_eq]
    have hcount : (List.range p.nRows).count (nb left r) ≤ 1 :=
      List.nodup_iff_count_le_one.1 List.nodup_range _
    interval_cases (List.range p.nRows).count (nb left r)
    · simpa using hV
    · simp
  · apply le_of_eq
    apply list_sum_zero
    intro i hi
    have hi' := List.mem_range.1 hi
    rw [hside0 _ _ hi' (by simp [hn]), hside0 _ _ hi' (by simp [hn]), add_zero]

open Classical in
/-- The view factors of a PV surface add up to at most one. -/
theorem pv_row_sum {p : ArrayParams} {rot : Rot} {sun : Pt} (h : Physical p rot.deg)
    (hf : FlatOk rot) (ho : (fitGeom p rot sun).ground.Ordered) (emp : SurfRef → Prop) {r : ℕ}
    {s : RowSide} {k : ℕ} {sh : Bool} (ha : SurfRef.pv r s k sh ∈ allRefs p)
    (hlen : ((fitGeom p rot sun).coords (.pv r s k sh)).length > TOL) :
    ((allRefs p).map (entryVF p (fitGeom p rot sun) emp (.pv r s k sh))).sum ≤ 1 := by
  set g := fitGeom p rot sun with hg
  obtain ⟨hr, hk⟩ := mem_allRefs_pv.1 ha
  obtain ⟨ia, iab, ib⟩ := pv_iv_bounds (rot := rot) (sun := sun) hk sh h.width.le
  set a := (pvIv p rot sun r s k sh).1 with hadef
  set b := (pvIv p rot sun r s k sh).2 with hbdef
  have hlab : (g.coords (.pv r s k sh)).length = b - a := by
    rw [hg, length_pv (rot := rot) (sun := sun) hk sh h.width.le h.lo h.hi]
  have hT := TOL_pos
  have hba : 0 < b - a := by rw [← hlab]; linarith
  have hp := pv_pv_sum (sun := sun) h emp ha hlen
  have g1 := pv_gnd_sum h hf ho emp ha hlen true
  have g2 := pv_gnd_sum h hf ho emp ha hlen false
  simp only [← hg, ← hadef, ← hbdef, hlab] at hp g1 g2
  rw [sum_allRefs, ← ((C20_partition p r hr).map _).sum_eq, List.map_append, List.sum_append]
  set left := faceL rot.deg s with hleft
  set ph := phi p left rot.deg r a b with hph
  set K := kdist p left rot.deg r a b with hK
  -- ground part
  have hG : ((gndRefsSide p true r).map (entryVF p g emp (.pv r s k sh))).sum
      + ((gndRefsSide p false r).map (entryVF p g emp (.pv r s k sh))).sum
      ≤ ((if HasNb left p.nRows r then K 0 else (b - a)) + (b - a)) / (2 * (b - a)) := by
    have key : ∀ x y, (OnSide p left rot.deg r x ∧ OnSide p left rot.deg r y) ∨ x = y →
        (ph (sx left x) - ph (sx left y)) / (2 * (b - a)) ≤
          ((if HasNb left p.nRows r then K 0 else (b - a)) + (b - a)) / (2 * (b - a)) := by
      intro x y hxy
      apply div_le_div_of_nonneg_right _ (by linarith)
      have hk0 := abs_le.1 (kdist_abs p left rot.deg r iab 0)
      rw [← hK] at hk0
      rcases hxy with ⟨ox, oy⟩ | rfl
      · have u := phi_upper h ia iab ox
        rw [dist_vp_self p left rot.deg r iab] at u
        split_ifs with hn
        · have l := phi_lower_nb h hn ia iab oy
          have : K 0 = distPt (vp p left rot.deg (nb left r) 0) (vp p left rot.deg r a)
              - distPt (vp p left rot.deg (nb left r) 0) (vp p left rot.deg r b) := by
            rw [hK, kdist, distPt_comm, distPt_comm (vp p left rot.deg r b)]
          rw [this]; linarith
        · have l := phi_lower (p := p) (rot := rot.deg) (a := a) (b := b) (x := sx left y) hn
          rw [dist_vp_self p left rot.deg r iab] at l
          linarith
      · rw [sub_self]
        split_ifs <;> linarith [hk0.1]
    cases hl : left
    · rw [hl] at g1 g2
      simp only [Bool.true_eq_false, if_false, if_true, Bool.false_eq_true] at g1 g2
      refine (add_le_add g1 g2).trans ?_
      rw [zero_add]
      have := key (g.ground.zoneHi r) MAX_X (by
        rcases eq_or_lt_of_le (g.ground.zoneHi_inGround r).2 with e | e
        · exact Or.inr e
        · refine Or.inl ?_
          rw [hl]
          exact ⟨onSide_right h hf hr le_rfl e, onSide_right h hf hr e.le e⟩)
      rw [hph, hl] at this
      simp only [sx, Bool.false_eq_true, if_false] at this
      exact this
    · rw [hl] at g1 g2
      simp only [Bool.false_eq_true, if_false, if_true] at g1 g2
      refine (add_le_add g1 g2).trans ?_
      rw [add_zero]
      have := key (g.ground.zoneHi r) MIN_X (by
        rcases eq_or_lt_of_le (g.ground.zoneHi_inGround r).1 with e | e
        · exact Or.inr e.symm
        · refine Or.inl ?_
          rw [hl]
          exact ⟨onSide_left h hr le_rfl e, onSide_left h hr e.le e⟩)
      rw [hph, hl] at this
      simp only [sx, if_true] at this
      exact this
  refine (add_le_add hG hp).trans ?_
  have hkw := abs_le.1 (kdist_abs p left rot.deg r iab p.width)
  rw [← hK] at hkw
  split_ifs with hn
  · rw [← add_div, div_le_one (by linarith)]; linarith [hkw.2]
  · rw [add_zero, div_le_one (by linarith)]; linarith

/-! ## Ground surfaces -/

theorem gnd_row_nonneg {p : ArrayParams} {rot : Rot} {sun : Pt} (h : Physical p rot.deg)
    (hf : FlatOk rot) (ho : (fitGeom p rot sun).ground.Ordered) (emp : SurfRef → Prop)
    {sh : Bool} {e z : ℕ} (ha : SurfRef.gnd sh e z ∈ allRefs p) {b : SurfRef}
    (hb : b ∈ allRefs p) : 0 ≤ entryVF p (fitGeom p rot sun) emp (.gnd sh e z) b := by
  match b with
  | .gnd _ _ _ => simp [entryVF]
  | .pv r s k sh' =>
    have := pvGnd_bound h hf ho hb ha
    simp only [entryVF]
    split_ifs
    · exact le_rfl
    · rw [pvGnd_val2]
      split_ifs
      · exact div_nonneg (mul_nonneg this.2.1 (Line.length_nonneg _)) (Line.length_nonneg _)
      · exact le_rfl

/-- The lower end of a row is never hidden by the neighbour. -/
theorem strO_low {p : ArrayParams} {rot : ℝ} (h : Physical p rot) (left : Bool) (r : ℕ) (x : ℝ) :
    strO (obs p left rot r) (vp p left rot r 0) x = distPt (gp x) (vp p left rot r 0) := by
  unfold obs
  split_ifs with hn
  · simp only [strO, strL]
    rw [if_neg]
    rw [not_lt, cot_le_cot (vp_y_pos h left _ le_rfl) (vp_y_pos h left _ le_rfl), vp_nb hn, vp_eq]
    have := h.lowY_pos
    have := h.distance
    simp only
    nlinarith [mul_pos h.lowY_pos h.distance]
  · rfl

/-- Growth of the distance to a point of a row over a ground interval, seen in the viewing
direction. -/
noncomputable def dDist (p : ArrayParams) (left : Bool) (rot : ℝ) (r : ℕ) (t x1 x2 : ℝ) : ℝ :=
  if left then distPt (gp x2) (vp p left rot r t) - distPt (gp x1) (vp p left rot r t)
  else distPt (gp (-x1)) (vp p left rot r t) - distPt (gp (-x2)) (vp p left rot r t)

theorem dDist_abs (p : ArrayParams) (left : Bool) (rot : ℝ) (r : ℕ) (t : ℝ) {x1 x2 : ℝ}
    (hx : x1 ≤ x2) : |dDist p left rot r t x1 x2| ≤ x2 - x1 := by
  unfold dDist
  cases left
  · simp only [Bool.false_eq_true, if_false]
    have := dist_gp_lip (vp p false rot r t) (neg_le_neg hx)
    linarith
  · simp only [if_true]
    exact dist_gp_lip _ hx

theorem dDist_flip (p : ArrayParams) (rot : ℝ) (r : ℕ) (t x1 x2 : ℝ) :
    dDist p false rot r t x1 x2 = - dDist p true rot r t x1 x2 := by
  have e : ∀ x, distPt (gp (-x)) (vp p false rot r t) = distPt (gp x) (vp p true rot r t) := by
    intro x
    have := gp_sx false x
    simp only [sx, Bool.false_eq_true, if_false] at this
    rw [this]
    unfold vp
    rw [distPt_mirB]; rfl
  simp only [dDist, Bool.false_eq_true, if_false, if_true, e]
  ring

theorem dphi_le_direct {p : ArrayParams} {rot : ℝ} (h : Physical p rot) (left : Bool) (r : ℕ)
    {x1 x2 : ℝ} (hx : x1 ≤ x2) :
    dphi p left rot r 0 p.width x1 x2
      ≤ dDist p left rot r p.width x1 x2 - dDist p left rot r 0 x1 x2 := by
  unfold dphi phi dDist
  simp only [strO_low h]
  cases left
  · simp only [Bool.false_eq_true, if_false]
    linarith [strO_le_direct (obs_spec h false r r h.width.le) (neg_le_neg hx)]
  · simp only [if_true]
    linarith [strO_le_direct (obs_spec h true r r h.width.le) hx]

theorem dphi_le_nb {p : ArrayParams} {rot : ℝ} (h : Physical p rot) {left : Bool} {r : ℕ}
    (hn : HasNb left p.nRows r) {x1 x2 : ℝ} (hx : x1 ≤ x2) :
    dphi p left rot r 0 p.width x1 x2
      ≤ dDist p left rot (nb left r) 0 x1 x2 - dDist p left rot r 0 x1 x2 := by
  unfold dphi phi dDist
  simp only [strO_low h]
  unfold obs
  rw [if_pos hn]
  simp only [strO]
  have l := fun {x y : ℝ} (hxy : x ≤ y) => strL_le_obstr (vp_y_pos h left (nb left r) le_rfl)
    (vp_y_le h left (nb left r) r h.width.le) hxy
  cases left
  · simp only [Bool.false_eq_true, if_false]
    linarith [l (neg_le_neg hx)]
  · simp only [if_true]
    linarith [l hx]

/-- Rows further right are approached more, or left less, by moving to the right. -/
theorem dDist_row_mono {p : ArrayParams} {rot : ℝ} (h : Physical p rot) {t : ℝ} (ht : 0 ≤ t)
    (r : ℕ) {x1 x2 : ℝ} (hx : x1 ≤ x2) :
    dDist p true rot (r + 1) t x1 x2 ≤ dDist p true rot r t x1 x2 := by
  have hy : ∀ r, 0 < (vp p true rot r t).y := fun r => vp_y_pos h true r ht
  have c : ∀ x, cot x (vp p true rot r t) ≤ cot x (vp p true rot (r + 1) t) := by
    intro x
    rw [cot_le_cot (hy _) (hy _)]
    have e : (vp p true rot r t).y = (vp p true rot (r + 1) t).y := by rw [vp_eq, vp_eq]
    rw [e]
    apply mul_le_mul_of_nonneg_right _ (hy _).le
    rw [vp_eq, vp_eq]
    simp only [lowX, sx, if_true]
    push_cast
    linarith [h.distance]
  have := four_point hx (hy (r + 1)) (hy r) (c x1) (c x2)
  simp only [dDist, if_true]
  linarith

/-- All rows together hide at most the whole sky from a ground interval. -/
theorem rows_sum {p : ArrayParams} {rot : ℝ} (h : Physical p rot) {z : ℕ} (hz : z ≤ p.nRows)
    {x1 x2 : ℝ} (hx : x1 ≤ x2) :
    ∑ i ∈ Finset.range p.nRows, dphi p (decide (z ≤ i)) rot i 0 p.width x1 x2
      ≤ 2 * (x2 - x1) := by
  obtain ⟨m, hm⟩ := Nat.exists_eq_add_of_le hz
  rw [hm, Finset.sum_range_add]
  have hR : ∀ i ∈ Finset.range z, dphi p (decide (z ≤ i)) rot i 0 p.width x1 x2
      = dphi p false rot i 0 p.width x1 x2 := by
    intro i hi
    have := Finset.mem_range.1 hi
    rw [decide_eq_false (by omega)]
  have hL : ∀ j ∈ Finset.range m, dphi p (decide (z ≤ z + j)) rot (z + j) 0 p.width x1 x2
      = dphi p true rot (z + j) 0 p.width x1 x2 := by
    intro j _
    rw [decide_eq_true (by omega)]
  rw [Finset.sum_congr rfl hR, Finset.sum_congr rfl hL]
  have d := fun left r t => abs_le.1 (dDist_abs p left rot r t hx)
  -- right group
  have hRs : ∀ z', z = z' + 1 → ∑ i ∈ Finset.range z, dphi p false rot i 0 p.width x1 x2
      ≤ dDist p false rot z' p.width x1 x2 - dDist p false rot 0 0 x1 x2 := by
    rintro z' rfl
    rw [Finset.sum_range_succ]
    have a1 := dphi_le_direct h false z' hx
    have a2 : ∑ i ∈ Finset.range z', dphi p false rot i 0 p.width x1 x2
        ≤ ∑ i ∈ Finset.range z',
          (dDist p false rot (i + 1) 0 x1 x2 - dDist p false rot i 0 x1 x2) := by
      refine Finset.sum_le_sum fun i hi => ?_
      have hi' := Finset.mem_range.1 hi
      exact dphi_le_nb h (left := false) (r := i) (by simp [HasNb]; omega) hx
    rw [Finset.sum_range_sub (fun i => dDist p false rot i 0 x1 x2)] at a2
    linarith
  -- left group
  have hLs : ∀ m', m = m' + 1 → ∑ j ∈ Finset.range m, dphi p true rot (z + j) 0 p.width x1 x2
      ≤ dDist p true rot z p.width x1 x2 - dDist p true rot (z + m') 0 x1 x2 := by
    rintro m' rfl
    rw [Finset.sum_range_succ']
    have a1 := dphi_le_direct h true z hx
    have a2 : ∑ j ∈ Finset.range m', dphi p true rot (z + (j + 1)) 0 p.width x1 x2
        ≤ ∑ j ∈ Finset.range m',
          (dDist p true rot (z + j) 0 x1 x2 - dDist p true rot (z + (j + 1)) 0 x1 x2) := by
      refine Finset.sum_le_sum fun j _ => ?_
      exact dphi_le_nb h (left := true) (r := z + (j + 1)) (by simp [HasNb]) hx
    rw [Finset.sum_range_sub' (fun j => dDist p true rot (z + j) 0 x1 x2)] at a2
    simp only [add_zero] at a2 ⊢
    linarith
  rcases Nat.eq_zero_or_eq_succ_pred z with hz0 | hz1
  · rcases Nat.eq_zero_or_eq_succ_pred m with hm0 | hm1
    · rw [hz0, hm0]; simp; linarith
    · have := hLs _ hm1
      have e1 := d true z p.width
      have e2 := d true (z + m.pred) 0
      have : ∑ i ∈ Finset.range z, dphi p false rot i 0 p.width x1 x2 = 0 := by rw [hz0]; simp
      rw [this]
      linarith [e1.2, e2.1]
  · have r1 := hRs _ hz1
    have e1 := d false z.pred p.width
    have e2 := d false 0 0
    rcases Nat.eq_zero_or_eq_succ_pred m with hm0 | hm1
    · have : ∑ j ∈ Finset.range m, dphi p true rot (z + j) 0 p.width x1 x2 = 0 := by
        rw [hm0]; simp
      rw [this]
      linarith [e1.2, e2.1]
    · have l1 := hLs _ hm1
      have e3 := d true (z + m.pred) 0
      have mono := dDist_row_mono h h.width.le z.pred hx
      have hzz : z.pred + 1 = z := hz1.symm
      rw [hzz] at mono
      have f1 := dDist_flip p rot z.pred p.width x1 x2
      linarith [e2.1, e3.1]

/-- The view factors of a ground surface add up to at most one. -/
theorem gnd_row_sum {p : ArrayParams} {rot : Rot} {sun : Pt} (h : Physical p rot.deg)
    (hf : FlatOk rot) (ho : (fitGeom p rot sun).ground.Ordered) (emp : SurfRef → Prop)
    {sh : Bool} {e z : ℕ} (ha : SurfRef.gnd sh e z ∈ allRefs p)
    (hlen : ((fitGeom p rot sun).coords (.gnd sh e z)).length > TOL) :
    ((allRefs p).map (entryVF p (fitGeom p rot sun) emp (.gnd sh e z))).sum ≤ 1 := by
  set g := fitGeom p rot sun with hg
  obtain ⟨he, hz⟩ := mem_allRefs_gnd.1 ha
  obtain ⟨x1, x2, hc, hle, hz1, hz2⟩ := gnd_interval (rot := rot) (sun := sun) h.distance.le ho ha
  have hlx : (g.coords (.gnd sh e z)).length = x2 - x1 := by
    rw [hg, hc]
    simp [Line.length, gp, Real.sqrt_sq_eq_abs]
    exact hle
  have hlt : x1 < x2 := by have := TOL_pos; rw [hlx] at hlen; linarith
  set f := entryVF p g emp (.gnd sh e z) with hfdef
  rw [sum_allRefs]
  have h0 : ((groundRefs p).map f).sum = 0 := by
    apply list_sum_zero
    intro b hb
    obtain ⟨sh', e', z', rfl, _⟩ := mem_groundRefs.1 hb
    simp [hfdef, entryVF]
  rw [h0, zero_add]
  have hrow : ∀ i ∈ List.range p.nRows,
      ((sideRefs p i .front).map f).sum + ((sideRefs p i .back).map f).sum
        ≤ dphi p (decide (z ≤ i)) rot.deg i 0 p.width x1 x2 / (2 * (x2 - x1)) := by
    intro i hi
    have hi' := List.mem_range.1 hi
    obtain ⟨o1, o2⟩ := gnd_onSide h hf hi' hlt hz1 hz2
    set left := decide (z ≤ i) with hleft
    have zero : ∀ s, left ≠ faceL rot.deg s → ((sideRefs p i s).map f).sum = 0 := by
      intro s hs
      rw [sum_sideRefs]
      apply list_sum_zero
      intro k hk
      have hk' := List.mem_range.1 hk
      have zz : ∀ sh', f (.pv i s k sh') = 0 := by
        intro sh'
        have := (pvGnd_bound h hf ho
          (mem_allRefs_pv.2 ⟨hi', hk'⟩ : SurfRef.pv i s k sh' ∈ _) ha).2.2.1 hs
        simp only [hfdef, entryVF]
        split_ifs
        · rfl
        · rw [pvGnd_val2, hg, this]; simp
      rw [zz, zz, add_zero]
    have nz : ∀ s, ((sideRefs p i s).map f).sum
        ≤ dphi p left rot.deg i 0 p.width x1 x2 / (2 * (x2 - x1)) := by
      intro s
      set S : ℝ → ℝ := fun t => if left then
          strO (obs p left rot.deg i) (vp p left rot.deg i t) x2
            - strO (obs p left rot.deg i) (vp p left rot.deg i t) x1
        else strO (obs p left rot.deg i) (vp p left rot.deg i t) (-x1)
            - strO (obs p left rot.deg i) (vp p left rot.deg i t) (-x2) with hS
      have hSd : ∀ a b, S b - S a = dphi p left rot.deg i a b x1 x2 := by
        intro a b
        simp only [hS, dphi, phi]
        split_ifs <;> ring
      have t := sum_side_telescope (p := p) (rot := rot) (sun := sun) (i := i) (s := s)
        (f := f) (A := fun t => S t / (2 * (x2 - x1))) (by
          have := dphi_nonneg h le_rfl h.width.le hlt.le o1 o2
          rw [← hSd] at this
          show S 0 / (2 * (x2 - x1)) ≤ S p.width / (2 * (x2 - x1))
          apply div_le_div_of_nonneg_right _ (by linarith)
          linarith) (by
          intro k sh' hk
          have q := pvGnd_bound h hf ho
            (mem_allRefs_pv.2 ⟨hi', hk⟩ : SurfRef.pv i s k sh' ∈ _) ha
          simp only [hc, gp, ← hleft] at q
          obtain ⟨q0, _, _, q3, _⟩ := q
          rw [← sub_div, hSd]
          have hpos : 0 < x2 - x1 := by linarith
          simp only [hfdef, entryVF]
          split_ifs
          · exact div_nonneg q0 (by linarith)
          · rw [pvGnd_val2, if_pos hlen, hlx, div_le_div_iff₀ hpos (by linarith)]
            rw [hg, hc]
            simp only [gp]
            nlinarith)
      rw [← sub_div, hSd] at t
      exact t
    have hface : faceL rot.deg .front = left ∧ faceL rot.deg .back ≠ left ∨
        faceL rot.deg .back = left ∧ faceL rot.deg .front ≠ left := by
      unfold faceL
      by_cases h0 : 0 < rot.deg <;> cases left <;> simp [h0]
    rcases hface with ⟨_, hb⟩ | ⟨_, hb⟩
    · rw [zero .back hb.symm, add_zero]; exact nz .front
    · rw [zero .front hb.symm, zero_add]; exact nz .back
  refine (list_sum_le hrow).trans ?_
  have hs := rows_sum h (show z ≤ p.nRows by omega) hle
  have : ((List.range p.nRows).map fun i =>
      dphi p (decide (z ≤ i)) rot.deg i 0 p.width x1 x2 / (2 * (x2 - x1))).sum
      = (∑ i ∈ Finset.range p.nRows, dphi p (decide (z ≤ i)) rot.deg i 0 p.width x1 x2)
        / (2 * (x2 - x1)) := by
    rw [Finset.sum_div, ← List.sum_toFinset _ List.nodup_range, List.toFinset_range]
  rw [this, div_le_one (by linarith)]
  exact hs

end PVF

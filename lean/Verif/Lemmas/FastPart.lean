import Verif.Props.Fast

/-! # Fast mode: comparison with parts of the rows of the view factor matrix -/

namespace PVF

/-- Sum of a function over the surfaces of a part. -/
def partSum (p : ArrayParams) (f : SurfRef → ℝ) (part : SurfRef → Bool) : ℝ :=
  ((allRefs p).map fun b => if part b then f b else 0).sum

theorem partSum_shadows (p : ArrayParams) (f : SurfRef → ℝ) :
    partSum p f (fun b => b.isGround && b.isShaded)
      = ((List.range p.nRows).map fun e =>
          ((List.range (p.nRows + 1)).map fun z => f (.gnd true e z)).sum).sum := by
  unfold partSum
  rw [sum_allRefs]
  have h0 : ((List.range p.nRows).map fun i =>
      ((sideRefs p i .front).map fun b => if (b.isGround && b.isShaded) = true then f b else 0).sum
      + ((sideRefs p i .back).map fun b =>
        if (b.isGround && b.isShaded) = true then f b else 0).sum).sum = 0 := by
    apply list_sum_zero
    intro i _
    simp [sum_sideRefs, SurfRef.isGround]
  rw [h0, add_zero]
  unfold groundRefs
  rw [List.map_append, List.sum_append, sum_map_flatMap, sum_map_flatMap]
  simp [SurfRef.isGround, SurfRef.isShaded, Function.comp_def]

theorem partSum_ground (p : ArrayParams) (f : SurfRef → ℝ) :
    partSum p f SurfRef.isGround = ((groundRefs p).map f).sum := by
  unfold partSum
  rw [sum_allRefs]
  have h0 : ((List.range p.nRows).map fun i =>
      ((sideRefs p i .front).map fun b => if b.isGround = true then f b else 0).sum
      + ((sideRefs p i .back).map fun b => if b.isGround = true then f b else 0).sum).sum = 0 := by
    apply list_sum_zero
    intro i _
    simp [sum_sideRefs, SurfRef.isGround]
  rw [h0, add_zero]
  congr 1
  apply List.map_congr_left
  intro b hb
  have : b.isGround = true := by
    simp only [groundRefs, List.mem_append, List.mem_flatMap, List.mem_map] at hb
    rcases hb with ⟨e, -, z, -, rfl⟩ | ⟨e, -, z, -, rfl⟩ <;> rfl
  rw [if_pos this]

theorem partSum_rows (p : ArrayParams) (f : SurfRef → ℝ) (sel : Bool → Bool) :
    partSum p f (fun b => !b.isGround && sel b.isShaded)
      = ((List.range p.nRows).map fun i => ([RowSide.front, .back].map fun s' =>
          ((List.range (p.nSeg i s')).map fun k' => ([false, true].map fun sh' =>
            if sel sh' then f (.pv i s' k' sh') else 0).sum).sum).sum).sum := by
  unfold partSum
  rw [sum_allRefs]
  have h0 : ((groundRefs p).map fun b => if (!b.isGround && sel b.isShaded) = true then f b
      else 0).sum = 0 := by
    apply list_sum_zero
    intro b hb
    have : b.isGround = true := by
      simp only [groundRefs, List.mem_append, List.mem_flatMap, List.mem_map] at hb
      rcases hb with ⟨e, -, z, -, rfl⟩ | ⟨e, -, z, -, rfl⟩ <;> rfl
    simp [this]
  rw [h0, zero_add]
  congr 1
  apply List.map_congr_left
  intro i _
  simp [sum_sideRefs, SurfRef.isGround, SurfRef.isShaded]

section
variable {p : ArrayParams} {rot : Rot} {sun : Pt} (h : Physical p rot.deg)
    (hf : FlatOk rot) (ho : (fitGeom p rot sun).ground.Ordered) (emp : SurfRef → Prop)
    {r : ℕ} {k : ℕ} {sh : Bool}
    (ha : SurfRef.pv r .back k sh ∈ allRefs p)
    (hemp : ∀ x, emp x → ((fitGeom p rot sun).coords x).length < TOL)
    (hsl : NoSliver p (fitGeom p rot sun))
include h hf ho ha hemp hsl

omit h hf ho ha hemp hsl in
theorem partSum_short {p : ArrayParams} {g : StepGeom} {a : SurfRef} (emp : SurfRef → Prop)
    (hl : ¬ (g.coords a).length > TOL) (part : SurfRef → Bool) :
    partSum p (entryVF p g emp a) part = 0 := by
  apply list_sum_zero
  intro b _
  rw [entryVF_short_row p g emp a b hl]
  simp

/-- The view factor to the ground shadows is the same in both modes. -/
theorem fast_shadows_eq :
    let g := fitGeom p rot sun
    let a := SurfRef.pv r .back k sh
    (fastVF p g r (g.coords a)).toGndShaded
      = partSum p (entryVF p g emp a) fun b => b.isGround && b.isShaded := by
  intro g a
  have hfs : (fastVF p g r (g.coords a)).toGndShaded
      = ((List.range p.nRows).map fun e => vfToShadow (g.coords a) r p.nRows (g.rot.deg > 0) g.row
          (coordsLeftOfCut (g.elem true e) (g.ground.cuts.getD (pyIdx p.nRows r) .posInf))
          (coordsRightOfCut (g.elem true e) (g.ground.cuts.getD (pyIdx p.nRows r) .posInf))
          (g.coords a).length).sum := rfl
  by_cases hl : (g.coords a).length > TOL
  · rw [hfs, partSum_shadows]
    congr 1
    apply List.map_congr_left
    intro e he
    have he' : e < if true then p.nRows else p.nRows + 1 := by simpa using he
    have h1 := (fast_each (sun := sun) h ha hf (g.elem_inGround true e) (elem_ordered ho he')).1
    have h2 := gnd_elem_sum h hf ho emp ha hemp hl hsl he'
    simp only at h1 h2
    rw [h2]
    rw [if_pos hl] at h1
    exact h1
  · rw [partSum_short emp hl]
    obtain ⟨-, z, -⟩ := C28_short p g r (g.coords a) (not_lt.1 hl)
    exact z

omit hf ho in
/-- The view factor to the rows is the same in both modes. -/
theorem fast_rows_eq (hseg : ∀ i < p.nRows, 0 < p.nFront i) :
    let g := fitGeom p rot sun
    let a := SurfRef.pv r .back k sh
    (fastVF p g r (g.coords a)).toPvrowTotal
      = partSum p (entryVF p g emp a) (fun b => !b.isGround) ∧
    (fastVF p g r (g.coords a)).toPvrowShaded
      = partSum p (entryVF p g emp a) (fun b => !b.isGround && b.isShaded) := by
  intro g a
  obtain ⟨hr, hk⟩ := mem_allRefs_pv.1 ha
  by_cases hl : (g.coords a).length > TOL
  · obtain ⟨r1, r2⟩ := fast_row (sun := sun) h ha
    have t1 := pv_part_sum h emp ha hemp hl hsl (fun _ => true)
    have t2 := pv_part_sum h emp ha hemp hl hsl id
    simp only at t1 t2
    have e1 := partSum_rows p (entryVF p g emp a) (fun _ => true)
    have e2 := partSum_rows p (entryVF p g emp a) id
    simp only [Bool.and_true, id] at e1 e2
    simp only [id] at t2
    rw [e1, e2]
    rw [t1, t2]
    change (fastVF p g r (g.coords a)).toPvrowTotal = _ at r1
    change (fastVF p g r (g.coords a)).toPvrowShaded = _ at r2
    by_cases hn : HasNb (faceL rot.deg .back) p.nRows r
    · have hnr : nb (faceL rot.deg .back) r < p.nRows := by
        unfold HasNb at hn; unfold nb
        split_ifs at hn ⊢ <;> omega
      have hs := hseg _ hnr
      rw [if_pos ⟨hn, hl⟩] at r1 r2
      rw [r1, r2, if_pos hn, if_pos hn]
      set K := kdist p (faceL rot.deg .back) rot.deg r (pvIv p rot sun r .back k sh).1
        (pvIv p rot sun r .back k sh).2
      set j := nb (faceL rot.deg .back) r
      have hs' : 0 < p.nSeg j RowSide.back.other := hs
      constructor
      · congr 1
        have := side_telescope p.width rot.deg hs'
          (sideShade p (arctan2 sun.y sun.x) rot.deg j RowSide.back.other) K
        rw [← this]
        congr 1
        apply List.map_congr_left
        intro k' _
        simp [pvIv]
      · congr 1
        obtain ⟨hL, hL0, hLw⟩ := front_shade (sun := sun) h j
        by_cases h0 : rot.deg = 0
        · rw [hL, if_pos (Or.inl h0)]
          symm
          rw [sub_self]
          apply list_sum_zero
          intro k' _
          simp [pvIv, tIv, h0]
        · have hnz : ¬ (rot.deg = 0 ∨ p.nSeg j .front = 0) := by
            rintro (h' | h')
            · exact h0 h'
            · have : p.nSeg j .front = p.nFront j := rfl
              omega
          rw [if_neg hnz] at hL
          rw [hL] at hL0 hLw
          rw [hL, ← shaded_telescope p.width rot.deg hs' hL0 hLw h0 K]
          congr 1
          apply List.map_congr_left
          intro k' _
          simp [pvIv, RowSide.other]
    · rw [if_neg (by simp [hn])] at r1 r2
      rw [r1, r2, if_neg hn, if_neg hn]
      exact ⟨rfl, rfl⟩
  · rw [partSum_short emp hl, partSum_short emp hl]
    obtain ⟨-, -, -, z1, z2, -⟩ := C28_short p g r (g.coords a) (not_lt.1 hl)
    exact ⟨z1, z2⟩

/-- The full-mode view factor to the whole ground. -/
theorem full_ground (hlen : TOL < ((fitGeom p rot sun).coords (.pv r .back k sh)).length) :
    let g := fitGeom p rot sun
    let a := SurfRef.pv r .back k sh
    let left := faceL rot.deg .back
    let ph := phi p left rot.deg r (pvIv p rot sun r .back k sh).1 (pvIv p rot sun r .back k sh).2
    partSum p (entryVF p g emp a) SurfRef.isGround
      = (ph (sx left (g.ground.zoneHi r)) - ph (sx left (endX left))) / (2 * (g.coords a).length) := by
  intro g a left ph
  rw [partSum_ground, ← dphi_all p left rot.deg r _ _ (g.ground.zoneHi_inGround r)]
  exact gnd_total_sum h hf ho emp ha hemp hlen hsl

theorem full_ground_le :
    let g := fitGeom p rot sun
    let a := SurfRef.pv r .back k sh
    partSum p (entryVF p g emp a) SurfRef.isGround ≤ (fastVF p g r (g.coords a)).toGndTotal := by
  intro g a
  by_cases hl : (g.coords a).length > TOL
  · have h1 := fast_gnd_le h hf ho ha hl
    have h2 := gnd_total_sum h hf ho emp ha hemp hl hsl
    simp only at h1 h2
    rw [partSum_ground]
    exact h2.trans_le h1
  · rw [partSum_short emp hl]
    obtain ⟨z, -⟩ := C28_short p g r (g.coords a) (not_lt.1 hl)
    exact z.ge

/-- A row without a neighbour on the side that its back looks to. -/
theorem full_ground_edge (hn : ¬ HasNb (faceL rot.deg .back) p.nRows r)
    (hx : ∀ x, cutPointX (fullRowCoords (rowCenter p r) p.width rot.deg) rot = .fin x →
      if faceL rot.deg .back then MIN_X ≤ x else x ≤ MAX_X) :
    let g := fitGeom p rot sun
    let a := SurfRef.pv r .back k sh
    partSum p (entryVF p g emp a) SurfRef.isGround = (fastVF p g r (g.coords a)).toGndTotal := by
  intro g a
  obtain ⟨hr, hk⟩ := mem_allRefs_pv.1 ha
  obtain ⟨ia, iab, ib⟩ := pv_iv_bounds (rot := rot) (sun := sun) hk sh h.width.le
  by_cases hl : (g.coords a).length > TOL
  · have h1 := full_ground h hf ho emp ha hemp hsl hl
    have h2 := fast_gnd_edge (sun := sun) h ha hn
    simp only at h1 h2
    rw [if_pos hl, edgeCut_clipped (by
        rw [cutPointX_row]
        split_ifs with h0 h0'
        · simp
        · exact absurd (hf h0) h0'
        · simp) (by
        intro hleft
        rw [cutPointX_row]
        split_ifs with h0 h0'
        · have : faceL rot.deg .back = true := by rw [faceL_back, h0]; simp
          rw [this] at hleft; cases hleft
        · simp
        · simp) hx] at h2
    rw [h1, zoneHi_fit p rot sun hr]
    change _ = (fastVF p g r (g.coords a)).toGndTotal
    change (fastVF p g r (g.coords a)).toGndTotal = _ at h2
    rw [h2, abs_of_nonneg]
    · rfl
    · have := zone_onSide (sun := sun) h hf hr (faceL rot.deg .back)
      have hle : endX (faceL rot.deg .back) = (if faceL rot.deg .back then MIN_X else MAX_X) := rfl
      rw [← hle, ← zoneHi_fit p rot sun hr, sub_nonneg]
      rcases this with ⟨ox, oy⟩ | e
      · have hz := g.ground.zoneHi_inGround r
        generalize faceL rot.deg .back = left at ox oy
        cases left
        · have := dphi_nonneg h ia iab (x1 := g.ground.zoneHi r) (x2 := endX false)
            (by simpa [endX] using hz.2) ox oy
          simp only [dphi, Bool.false_eq_true, if_false] at this
          simp only [sx, Bool.false_eq_true, if_false]
          linarith!
        · have := dphi_nonneg h ia iab (x1 := endX true) (x2 := g.ground.zoneHi r)
            (by simpa [endX] using hz.1) oy ox
          simp only [dphi, if_true] at this
          simp only [sx, if_true]
          linarith!
      · rw [e]
  · rw [partSum_short emp hl]
    obtain ⟨z, -⟩ := C28_short p g r (g.coords a) (not_lt.1 hl)
    exact z.symm

omit h hf ho ha hemp hsl in
/-- The point where the line of a row meets the ground. -/
theorem aligned_cut (h : Physical p rot.deg) (h0 : rot.deg ≠ 0) {c : ℝ}
    (hc : Aligned ⟨c, 0⟩ (fullRowCoords (rowCenter p r) p.width rot.deg).b1
      (fullRowCoords (rowCenter p r) p.width rot.deg).b2) :
    cutPointX (fullRowCoords (rowCenter p r) p.width rot.deg) rot = .fin c ∧
    ∀ left, upX left rot.deg * lowY p rot.deg
      = upY rot.deg * (lowX p left rot.deg r - sx left c) := by
  have hs : sind rot.deg ≠ 0 := by
    rcases lt_or_gt_of_ne h0 with h' | h'
    · exact (sind_neg_of_neg h' h.lo).ne
    · exact (sind_pos h' h.hi).ne'
  have hw := h.width
  rw [fullRowCoords_eq] at hc
  simp only [Aligned, rowPt, rowCenter, X_ORIGIN, Y_GROUND] at hc
  have key : (r * p.distance - c) * sind rot.deg = p.height * cosd rot.deg := by
    have : p.width * ((r * p.distance - c) * sind rot.deg)
        = p.width * (p.height * cosd rot.deg) := by linarith
    exact mul_left_cancel₀ hw.ne' this
  constructor
  · rw [cutPointX_row, if_neg h0]
    congr 1
    field_simp
    linarith
  · intro left
    unfold upX upY lowX lowY upX upY sx
    cases left <;> split_ifs <;> first | linarith | (simp; linarith)

/-- A row with a neighbour on the side that its back looks to. -/
theorem full_ground_nb (hn : HasNb (faceL rot.deg .back) p.nRows r) (h0 : rot.deg ≠ 0) {c : ℝ}
    (hcg : InGround c)
    (hc : Aligned ⟨c, 0⟩ (fullRowCoords (rowCenter p r) p.width rot.deg).b1
      (fullRowCoords (rowCenter p r) p.width rot.deg).b2) :
    let g := fitGeom p rot sun
    let a := SurfRef.pv r .back k sh
    let left := faceL rot.deg .back
    let O := tPt (rowCenter p (nb left r)) p.width rot.deg 0
    let P := tPt (rowCenter p r) p.width rot.deg (pvIv p rot sun r .back k sh).1
    let E := gp (endX left)
    (fastVF p g r (g.coords a)).toGndTotal - partSum p (entryVF p g emp a) SurfRef.isGround
      ≤ (distPt E O + distPt O P - distPt E P) / (2 * (g.coords a).length) ∧
    ((∃ x, InGround x ∧ Aligned ⟨x, 0⟩ O P) →
      (fastVF p g r (g.coords a)).toGndTotal = partSum p (entryVF p g emp a) SurfRef.isGround) := by
  intro g a left O P E
  obtain ⟨hr, hk⟩ := mem_allRefs_pv.1 ha
  obtain ⟨ia, iab, ib⟩ := pv_iv_bounds (rot := rot) (sun := sun) hk sh h.width.le
  have hlen0 : 0 ≤ 2 * (g.coords a).length := by
    have := Line.length_nonneg (g.coords a); linarith
  by_cases hl : (g.coords a).length > TOL
  · have h1 := full_ground h hf ho emp ha hemp hsl hl
    have h2 := fast_gnd_nb (sun := sun) h ha hn
    simp only at h1 h2
    rw [if_pos hl] at h2
    change (fastVF p g r (g.coords a)).toGndTotal = _ at h2
    change partSum p (entryVF p g emp a) SurfRef.isGround = _ at h1
    obtain ⟨c1, c2⟩ := aligned_cut h h0 hc
    have hz : g.ground.zoneHi r = c := by
      change (fitGeom p rot sun).ground.zoneHi r = c
      rw [zoneHi_fit p rot sun hr, c1]
      simp only [XR.clipped]
      rw [min_eq_left hcg.2, max_eq_right hcg.1]
    change _ = (_ - _) / _ at h1
    have hz' : (fitGeom p rot sun).ground.zoneHi r = c := hz
    rw [hz', phi_cut h h0 ia iab (c2 _)] at h1
    have hE : phi p left rot.deg r (pvIv p rot sun r .back k sh).1 (pvIv p rot sun r .back k sh).2
        (sx left (endX left)) + kdist p left rot.deg r (pvIv p rot sun r .back k sh).1
          (pvIv p rot sun r .back k sh).2 0
        = ((fastVF p g r (g.coords a)).toGndTotal - partSum p (entryVF p g emp a) SurfRef.isGround)
          * (2 * (g.coords a).length) := by
      have hp : 2 * (g.coords a).length ≠ 0 := by have := TOL_pos; linarith
      rw [h1, h2, ← sub_div, div_mul_cancel₀ _ hp]
      ring
    have hgp : gp (sx left (endX left)) = mirB left E := by
      change _ = mirB left (gp (endX left))
      generalize left = l
      cases l <;> simp [mirB, sx, gp, Pt.mir]
    constructor
    · rw [le_div_iff₀ (by have := TOL_pos; linarith), ← hE]
      have := phi_end_le (p := p) (rot := rot.deg) hn (a := (pvIv p rot sun r .back k sh).1)
        (b := (pvIv p rot sun r .back k sh).2) (x := endX left)
      refine this.trans (le_of_eq ?_)
      change distPt (gp (sx left (endX left))) (mirB left O) + distPt (mirB left O) (mirB left P)
        - distPt (gp (sx left (endX left))) (mirB left P) = _
      rw [hgp, distPt_mirB, distPt_mirB, distPt_mirB]
    · rintro ⟨x, hx, hal⟩
      have hos : OnSide p left rot.deg r (endX left) := by
        rcases zone_onSide (sun := sun) h hf hr left with ⟨-, oy⟩ | e
        · exact oy
        · rw [← e]
          change OnSide p left rot.deg r (g.ground.zoneHi r)
          rw [hz]; exact (c2 left).le
      have hO : 0 < O.y := by
        have := vp_y_pos h true (nb left r) (le_refl 0); exact this
      have hOP : O.y ≤ P.y := by
        have := vp_y_le h true (nb left r) r ia; exact this
      have := phi_end_eq h hn ia iab hos (by
        rw [cot_le_cot (vp_y_pos h left _ ia) (vp_y_pos h left _ le_rfl)]
        change ((mirB left P).x - sx left (endX left)) * (mirB left O).y
          ≤ ((mirB left O).x - sx left (endX left)) * (mirB left P).y
        simp only [Aligned, sub_zero] at hal
        clear hE hgp
        clear_value O P
        revert hal hO hOP
        generalize left = l
        intro hO hOP hal
        cases l
        · simp only [mirB, sx, endX, Pt.mir, Bool.false_eq_true, if_false]
          nlinarith [mul_le_mul_of_nonneg_left hOP (sub_nonneg.2 hx.2)]
        · simp only [mirB, sx, endX, if_true]
          nlinarith [mul_le_mul_of_nonneg_left hOP (sub_nonneg.2 hx.1)])
      rw [hE] at this
      rcases mul_eq_zero.1 this with h' | h'
      · linarith
      · exfalso; have := TOL_pos; linarith
  · rw [partSum_short emp hl]
    obtain ⟨z, -⟩ := C28_short p g r (g.coords a) (not_lt.1 hl)
    rw [z]
    refine ⟨?_, fun _ => rfl⟩
    rw [sub_zero]
    apply div_nonneg _ hlen0
    linarith [distPt_triangle E O P]

end

end PVF

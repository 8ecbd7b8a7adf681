import Verif.Lemmas.FastPart
import Verif.Props.Energy
import Verif.Spec.Pieces

/-! # Sums over the segments of a side -/

namespace PVF

/-- What the shaded or illuminated parts of all segments of a side add up to. -/
noncomputable def ends (w rot L : ℝ) (sh : Bool) (A : ℝ → ℝ) : ℝ :=
  if rot = 0 then (if sh then 0 else A w - A 0) else if sh then A L - A 0 else A w - A L

theorem ends_sum (w rot : ℝ) {n : ℕ} (hn : 0 < n) {L : ℝ} (h0 : 0 ≤ L) (hL : L ≤ w) (sh : Bool)
    (A : ℝ → ℝ) :
    ((List.range n).map fun k => A (tIv w rot n L k sh).2 - A (tIv w rot n L k sh).1).sum
      = ends w rot L sh A := by
  by_cases hr : rot = 0
  · unfold ends
    rw [if_pos hr]
    cases sh
    · have := tSeg_telescope w rot hn A
      simp only [tIv, hr, if_true, Bool.false_eq_true, if_false] at this ⊢
      exact this
    · simp [tIv, hr]
  · have h1 := shaded_telescope w rot hn h0 hL hr A
    unfold ends
    rw [if_neg hr]
    cases sh
    · have h2 := side_telescope w rot hn L A
      rw [List.sum_map_add, h1] at h2
      simp only [Bool.false_eq_true, if_false]
      linarith
    · simpa using h1

section
variable {p : ArrayParams} {rot : Rot} {sun : Pt} (h : Physical p rot.deg)
include h

/-- The same for the surfaces of an array. -/
theorem piece_ends {r : ℕ} {s : RowSide} (hn : 0 < p.nSeg r s) (sh : Bool) (A : ℝ → ℝ) :
    ((List.range (p.nSeg r s)).map fun k =>
      A (pvIv p rot sun r s k sh).2 - A (pvIv p rot sun r s k sh).1).sum
      = ends p.width rot.deg (sideShade p (arctan2 sun.y sun.x) rot.deg r s) sh A := by
  obtain ⟨hL0, hLw⟩ := sideShade_bounds h.width.le (arctan2 sun.y sun.x) rot.deg r s
  exact ends_sum p.width rot.deg hn hL0 hLw sh A

/-- String difference to a ground interval, as a function of the position on the row. -/
noncomputable def gndStr (p : ArrayParams) (left : Bool) (rot : ℝ) (r : ℕ) (x1 x2 t : ℝ) : ℝ :=
  (if left then strO (obs p left rot r) (vp p left rot r t) x2
      - strO (obs p left rot r) (vp p left rot r t) x1
    else strO (obs p left rot r) (vp p left rot r t) (-x1)
      - strO (obs p left rot r) (vp p left rot r t) (-x2)) / 2

omit h in
theorem dphi_gndStr (p : ArrayParams) (left : Bool) (rot : ℝ) (r : ℕ) (a b x1 x2 : ℝ) :
    dphi p left rot r a b x1 x2 / 2
      = gndStr p left rot r x1 x2 b - gndStr p left rot r x1 x2 a := by
  unfold dphi phi gndStr
  split_ifs <;> ring

/-- Half the distance of two points of neighbouring rows. -/
noncomputable def rowStr (p : ArrayParams) (left : Bool) (rot : ℝ) (r : ℕ) (a t : ℝ) : ℝ :=
  - distPt (vp p left rot r a) (vp p left rot (nb left r) t) / 2

omit h in
theorem kdist_rowStr (p : ArrayParams) (left : Bool) (rot : ℝ) (r : ℕ) (a b t : ℝ) :
    kdist p left rot r a b t / 2 = rowStr p left rot r b t - rowStr p left rot r a t := by
  unfold kdist rowStr; ring

variable (emp : SurfRef → Prop)
    (hemp : ∀ x, emp x → ((fitGeom p rot sun).coords x).length < TOL)
    (hsl : NoSliver p (fitGeom p rot sun))
include hemp hsl

/-- Light from a PV surface to a ground surface. -/
theorem pvGnd_weighted (hf : FlatOk rot) (ho : (fitGeom p rot sun).ground.Ordered) {r : ℕ}
    {s : RowSide} {k : ℕ} {sh sh' : Bool} {e z : ℕ}
    (ha : SurfRef.pv r s k sh ∈ allRefs p) (hb : SurfRef.gnd sh' e z ∈ allRefs p) :
    let g := fitGeom p rot sun
    let A := if decide (z ≤ r) = faceL rot.deg s then gndStr p (decide (z ≤ r)) rot.deg r
      (g.coords (.gnd sh' e z)).b1.x (g.coords (.gnd sh' e z)).b2.x else 0
    (g.coords (.pv r s k sh)).length * entryVF p g emp (.pv r s k sh) (.gnd sh' e z)
      = A (pvIv p rot sun r s k sh).2 - A (pvIv p rot sun r s k sh).1 := by
  intro g A
  obtain ⟨hr, hk⟩ := mem_allRefs_pv.1 ha
  rcases hsl _ ha with h0 | hl
  · have : (pvIv p rot sun r s k sh).2 = (pvIv p rot sun r s k sh).1 := by
      rw [length_pv hk sh h.width.le h.lo h.hi] at h0; linarith
    rw [this, sub_self]
    change (g.coords _).length = 0 at h0
    rw [h0, zero_mul]
  · have := pvGnd_exact h hf ho emp ha hb hemp hl (hsl _ hb)
    simp only at this
    have h0 : 0 < (g.coords (.pv r s k sh)).length := TOL_pos.trans hl
    change entryVF p g emp _ _ = if _ then _ / (2 * (g.coords _).length) else 0 at this
    rw [this]
    simp only [A]
    split_ifs with hc
    · rw [← dphi_gndStr]
      change _ * (dphi p _ rot.deg r _ _ (g.coords _).b1.x (g.coords _).b2.x / _) = _
      field_simp
    · simp

/-- Light from a PV surface to a PV surface. -/
theorem pvPv_weighted {r r' : ℕ} {s s' : RowSide} {k k' : ℕ} {sh sh' : Bool}
    (ha : SurfRef.pv r s k sh ∈ allRefs p) (hb : SurfRef.pv r' s' k' sh' ∈ allRefs p) :
    let g := fitGeom p rot sun
    let left := faceL rot.deg s
    let A := open Classical in if HasNb left p.nRows r ∧ r' = nb left r ∧ s' ≠ s then
      rowStr p left rot.deg r else 0
    let i := pvIv p rot sun r s k sh
    let i' := pvIv p rot sun r' s' k' sh'
    (g.coords (.pv r s k sh)).length * entryVF p g emp (.pv r s k sh) (.pv r' s' k' sh')
      = (A i.2 i'.2 - A i.2 i'.1) - (A i.1 i'.2 - A i.1 i'.1) := by
  intro g left A i i'
  obtain ⟨hr, hk⟩ := mem_allRefs_pv.1 ha
  by_cases hc : HasNb left p.nRows r ∧ r' = nb left r ∧ s' ≠ s
  · have hA : A = rowStr p left rot.deg r := if_pos hc
    rw [hA]
    rcases hsl _ ha with h0 | hl
    · have : i.2 = i.1 := by
        rw [length_pv hk sh h.width.le h.lo h.hi] at h0; simp only [i]; linarith
      rw [this, sub_self]
      change (g.coords _).length = 0 at h0
      rw [h0, zero_mul]
    · have := pvPv_exact h emp ha hb hemp hl (hsl _ hb) hc.1 hc.2.1 hc.2.2
      simp only at this
      have h0 : 0 < (g.coords (.pv r s k sh)).length := TOL_pos.trans hl
      change entryVF p g emp _ _ = (kdist p left _ _ i.1 i.2 i'.2 - kdist p left _ _ i.1 i.2 i'.1)
        / (2 * (g.coords _).length) at this
      rw [this]
      have e1 := kdist_rowStr p left rot.deg r i.1 i.2 i'.2
      have e2 := kdist_rowStr p left rot.deg r i.1 i.2 i'.1
      have : (g.coords (.pv r s k sh)).length
          * ((kdist p left rot.deg r i.1 i.2 i'.2 - kdist p left rot.deg r i.1 i.2 i'.1)
            / (2 * (g.coords (.pv r s k sh)).length))
          = kdist p left rot.deg r i.1 i.2 i'.2 / 2 - kdist p left rot.deg r i.1 i.2 i'.1 / 2 := by
        field_simp
      rw [this, e1, e2]; ring
  · have hA : A = 0 := if_neg hc
    rw [(pvPv_val (sun := sun) h emp ha hb).2.1 hc, hA]
    simp

end

section
variable {p : ArrayParams} {rot : Rot} {sun : Pt} (h : Physical p rot.deg)
    (hf : FlatOk rot) {r : ℕ} (hr : r < p.nRows)
include h hf hr

omit h hf hr in
theorem distPt_tPt (c : Pt) (w rot a b : ℝ) :
    distPt (tPt c w rot a) (tPt c w rot b) = |b - a| := by
  have := length_tPt c w rot a b
  unfold Line.length at this
  unfold distPt
  rw [← this]

/-- The ground that fast mode takes for an edge row counts positively. -/
theorem edge_nonneg (sun : Pt) (hn : ¬ HasNb (faceL rot.deg .back) p.nRows r) {a b : ℝ} (ha : 0 ≤ a)
    (hab : a ≤ b) :
    let left := faceL rot.deg .back
    let c := cutPointX (fullRowCoords (rowCenter p r) p.width rot.deg) rot
    0 ≤ phi p left rot.deg r a b (sx left (edgeCut left c))
      - phi p left rot.deg r a b (sx left (endX left)) := by
  intro left c
  have hle : left = faceL rot.deg .back := rfl
  by_cases he : edgeCut left c = c.clipped
  · have hz : c.clipped = (fitGeom p rot sun).ground.zoneHi r := (zoneHi_fit p rot sun hr).symm
    rw [he, hz]
    rcases zone_onSide (sun := sun) h hf hr left with ⟨ox, oy⟩ | e
    · have hz := (fitGeom p rot sun).ground.zoneHi_inGround r
      clear_value left
      cases left
      · have := dphi_nonneg h ha hab (x1 := (fitGeom p rot sun).ground.zoneHi r) (x2 := endX false)
          (by simpa [endX] using hz.2) ox oy
        simp only [dphi, Bool.false_eq_true, if_false] at this
        simp only [sx, Bool.false_eq_true, if_false]
        linarith!
      · have := dphi_nonneg h ha hab (x1 := endX true) (x2 := (fitGeom p rot sun).ground.zoneHi r)
          (by simpa [endX] using hz.1) oy ox
        simp only [dphi, if_true] at this
        simp only [sx, if_true]
        linarith!
    · rw [e, sub_self]
  · -- the cut point is where the line of the row meets the ground
    have hc : ∃ t0 < 0, gp (edgeCut left c) = tPt (rowCenter p r) p.width rot.deg t0 := by
      have hcr := cutPointX_row p rot r
      change c = _ at hcr
      by_cases h0 : rot.deg = 0
      · exfalso; apply he
        have : left = true := by rw [hle, faceL, h0]; simp
        rw [if_pos h0, if_pos (hf h0)] at hcr
        rw [hcr, this]; rfl
      · rw [if_neg h0] at hcr
        set x := r * p.distance + (-(p.width / 2) * cosd rot.deg
              - (-(p.width / 2) * sind rot.deg + p.height) * cosd rot.deg / sind rot.deg) with hx
        have hex : edgeCut left c = x := by
          rw [hcr] at he ⊢
          clear_value left
          cases left
          · simp only [edgeCut, Bool.false_eq_true, if_false, maxMinX, XR.clipped] at he ⊢
            rcases le_total x MAX_X with hx' | hx'
            · rw [min_eq_left hx'] at he; exact absurd rfl he
            · exact max_eq_right (MIN_lt_MAX.le.trans hx')
          · simp only [edgeCut, if_true, minMaxX, XR.clipped] at he ⊢
            rcases le_total MIN_X x with hx' | hx'
            · rw [max_eq_right (le_min hx' MIN_lt_MAX.le), min_comm] at he; exact absurd rfl he
            · exact min_eq_right (hx'.trans MIN_lt_MAX.le)
        have hab := h.above
        by_cases hp : 0 < rot.deg
        · have hs : 0 < sind rot.deg := sind_pos hp h.hi
          rw [abs_of_pos hs] at hab
          refine ⟨-((-(p.width / 2) * sind rot.deg + p.height) / sind rot.deg), ?_, ?_⟩
          · rw [neg_lt_zero]; apply div_pos _ hs; linarith
          · rw [hex, hx]
            simp only [gp, tPt, hp, if_true, rowPt, rowCenter, X_ORIGIN, Y_GROUND, Pt.mk.injEq]
            constructor <;> field_simp <;> ring
        · have hneg : rot.deg < 0 := lt_of_le_of_ne (not_lt.1 hp) h0
          have hs : sind rot.deg < 0 := sind_neg_of_neg hneg h.lo
          have hs' := hs.ne
          rw [abs_of_neg hs] at hab
          refine ⟨((p.width / 2) * sind rot.deg + p.height) / sind rot.deg, ?_, ?_⟩
          · apply div_neg_of_pos_of_neg _ hs; linarith
          · rw [hex, hx]
            simp only [gp, tPt, hp, if_false, rowPt, rowCenter, X_ORIGIN, Y_GROUND, Pt.mk.injEq]
            constructor <;> field_simp <;> ring
    obtain ⟨t0, ht0, hg⟩ := hc
    rw [← ddist_gp p left rot.deg r hn, ← ddist_gp p left rot.deg r hn, hg]
    have := (abs_le.1 (ddist_abs p rot.deg r hab (gp (endX left)))).2
    unfold ddist at this ⊢
    rw [distPt_tPt, distPt_tPt, abs_of_neg (by linarith), abs_of_neg (by linarith)]
    linarith

end

section
variable {p : ArrayParams} {rot : Rot} {sun : Pt} (h : Physical p rot.deg) (hf : FlatOk rot)
    (ho : (fitGeom p rot sun).ground.Ordered)
    {r : ℕ} {k : ℕ} {sh : Bool} (ha : SurfRef.pv r .back k sh ∈ allRefs p)
    (hl : ((fitGeom p rot sun).coords (.pv r .back k sh)).length = 0 ∨
      TOL < ((fitGeom p rot sun).coords (.pv r .back k sh)).length)
include h ha hl

theorem weigh {v : ℝ} {D : ℝ} {A : ℝ → ℝ}
    (hv : v = if ((fitGeom p rot sun).coords (.pv r .back k sh)).length > TOL then
      D / (2 * ((fitGeom p rot sun).coords (.pv r .back k sh)).length) else 0)
    (hD : D / 2 = A (pvIv p rot sun r .back k sh).2 - A (pvIv p rot sun r .back k sh).1) :
    ((fitGeom p rot sun).coords (.pv r .back k sh)).length * v
      = A (pvIv p rot sun r .back k sh).2 - A (pvIv p rot sun r .back k sh).1 := by
  obtain ⟨hr, hk⟩ := mem_allRefs_pv.1 ha
  rcases hl with h0 | hl
  · have : (pvIv p rot sun r .back k sh).2 = (pvIv p rot sun r .back k sh).1 := by
      rw [length_pv hk sh h.width.le h.lo h.hi] at h0; linarith
    rw [this, sub_self, h0, zero_mul]
  · rw [if_pos hl] at hv
    have h0 : ((fitGeom p rot sun).coords (.pv r .back k sh)).length ≠ 0 :=
      (TOL_pos.trans hl).ne'
    rw [hv, ← hD]
    field_simp

/-- Ground shadows in fast mode. -/
noncomputable def fastEachPart (p : ArrayParams) (g : StepGeom) (r e : ℕ) : ℝ → ℝ :=
  let left := faceL g.rot.deg .back
  gndStr p left g.rot.deg r (clipTo left (g.ground.zoneHi r) (g.ground.shadowEl e).b1.x)
    (clipTo left (g.ground.zoneHi r) (g.ground.shadowEl e).b2.x)

include hf ho in
theorem fast_each_weighted {e : ℕ} (he : e < p.nRows) :
    let g := fitGeom p rot sun
    let i := pvIv p rot sun r .back k sh
    (g.coords (.pv r .back k sh)).length
        * (fastVF p g r (g.coords (.pv r .back k sh))).toEachGndShadow.getD e 0
      = fastEachPart p g r e i.2 - fastEachPart p g r e i.1 := by
  intro g i
  have h1 := fast_each (sun := sun) h ha hf (g.elem_inGround true e)
    (elem_ordered ho (sh := true) (by simpa using he))
  refine weigh h ha hl (D := dphi p (faceL rot.deg .back) rot.deg r i.1 i.2
      (clipTo (faceL rot.deg .back) (g.ground.zoneHi r) (g.ground.shadowEl e).b1.x)
      (clipTo (faceL rot.deg .back) (g.ground.zoneHi r) (g.ground.shadowEl e).b2.x)) ?_ ?_
  · refine Eq.trans ?_ h1.1
    simp only [fastVF]
    rw [List.getD_eq_getElem?_getD, List.getElem?_map, List.getElem?_range he]
    rfl
  · rw [dphi_gndStr]; rfl

/-- All ground in fast mode. -/
noncomputable def fastGndPart (p : ArrayParams) (g : StepGeom) (r : ℕ) (t : ℝ) : ℝ :=
  open Classical in
  let left := faceL g.rot.deg .back
  if HasNb left p.nRows r then t / 2 + rowStr p left g.rot.deg r t 0
  else (strO (obs p left g.rot.deg r) (vp p left g.rot.deg r t)
      (sx left (edgeCut left (cutPointX (fullRowCoords (rowCenter p r) p.width g.rot.deg) g.rot)))
    - strO (obs p left g.rot.deg r) (vp p left g.rot.deg r t) (sx left (endX left))) / 2

include hf in
theorem fast_gnd_weighted :
    let g := fitGeom p rot sun
    let i := pvIv p rot sun r .back k sh
    (g.coords (.pv r .back k sh)).length
        * (fastVF p g r (g.coords (.pv r .back k sh))).toGndTotal
      = fastGndPart p g r i.2 - fastGndPart p g r i.1 := by
  intro g i
  obtain ⟨hr, hk⟩ := mem_allRefs_pv.1 ha
  obtain ⟨ia, iab, ib⟩ := pv_iv_bounds (rot := rot) (sun := sun) hk sh h.width.le
  by_cases hn : HasNb (faceL rot.deg .back) p.nRows r
  · refine weigh h ha hl (fast_gnd_nb h ha hn) ?_
    have := kdist_rowStr p (faceL rot.deg .back) rot.deg r i.1 i.2 0
    have e : ∀ t, fastGndPart p g r t = t / 2 + rowStr p (faceL rot.deg .back) rot.deg r t 0 :=
      fun t => if_pos hn
    rw [e, e, add_div]
    change _ + kdist p (faceL rot.deg .back) rot.deg r i.1 i.2 0 / 2 = _
    rw [this]
    ring
  · refine weigh h ha hl (fast_gnd_edge h ha hn) ?_
    have e : ∀ t, fastGndPart p g r t = _ := fun t => if_neg hn
    have := edge_nonneg h hf hr sun hn ia iab
    simp only at this
    change |_ - phi p _ _ _ _ _ (sx _ (endX _))| / 2 = _
    rw [abs_of_nonneg this, e, e]
    unfold phi
    simp only [i, show g.rot = rot from rfl]
    ring

/-- The next row in fast mode, up to the distance `L` from its lower end. -/
noncomputable def fastRowPart (p : ArrayParams) (g : StepGeom) (r : ℕ) (L : ℝ) (t : ℝ) : ℝ :=
  open Classical in
  let left := faceL g.rot.deg .back
  if HasNb left p.nRows r then rowStr p left g.rot.deg r t L - rowStr p left g.rot.deg r t 0 else 0

theorem fast_row_weighted (hcut : ∀ r < p.nRows, ∀ s, 0 < p.nSeg r s) :
    let g := fitGeom p rot sun
    let i := pvIv p rot sun r .back k sh
    let v := fastVF p g r (g.coords (.pv r .back k sh))
    let L := if rot.deg = 0 then 0 else sideShade p (arctan2 sun.y sun.x) rot.deg
      (nb (faceL rot.deg .back) r) .front
    (g.coords (.pv r .back k sh)).length * v.toPvrowTotal
      = fastRowPart p g r p.width i.2 - fastRowPart p g r p.width i.1 ∧
    (g.coords (.pv r .back k sh)).length * v.toPvrowShaded
      = fastRowPart p g r L i.2 - fastRowPart p g r L i.1 := by
  intro g i v L
  obtain ⟨hr, hk⟩ := mem_allRefs_pv.1 ha
  obtain ⟨h1, h2⟩ := fast_row (sun := sun) h ha
  by_cases hn : HasNb (faceL rot.deg .back) p.nRows r
  · have hnlt : nb (faceL rot.deg .back) r < p.nRows := by
      generalize faceL rot.deg .back = left at hn
      cases left <;> simp [HasNb, nb] at hn ⊢ <;> omega
    have hL := (front_shade (sun := sun) h (nb (faceL rot.deg .back) r)).1
    have hseg : p.nSeg (nb (faceL rot.deg .back) r) .front ≠ 0 := (hcut _ hnlt _).ne'
    simp only [hseg, or_false] at hL
    have e : ∀ x t, fastRowPart p g r x t = rowStr p (faceL rot.deg .back) rot.deg r t x
        - rowStr p (faceL rot.deg .back) rot.deg r t 0 := fun x t => if_pos hn
    simp only [hn, true_and] at h1 h2
    have key : ∀ x, (kdist p (faceL rot.deg .back) rot.deg r i.1 i.2 x
        - kdist p (faceL rot.deg .back) rot.deg r i.1 i.2 0) / 2
        = fastRowPart p g r x i.2 - fastRowPart p g r x i.1 := by
      intro x
      rw [e, e, sub_div, kdist_rowStr, kdist_rowStr]
      ring
    refine ⟨weigh h ha hl h1 (key _), weigh h ha hl h2 ?_⟩
    rw [hL]
    exact key _
  · have e : ∀ x t, fastRowPart p g r x t = 0 := fun x t => if_neg hn
    simp only [hn, false_and, if_false] at h1 h2
    change v.toPvrowTotal = 0 at h1
    change v.toPvrowShaded = 0 at h2
    rw [h1, h2, e, e, e, e]
    simp

end

end PVF

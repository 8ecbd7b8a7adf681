import Verif.Lemmas.RoundedSegment
import Verif.Props.Moved

/-!
# Accuracy of the whole computed scene
-/

namespace PVF

/-- C98: the computed shaded lengths of all rows are close to the exact ones, unless the sun is so close
to the plane of the rows that the errors decide which side it shines on. -/
theorem C98_shade {ε η B K : ℝ} (h0 : 0 ≤ ε) (h1 : ε < 1) (A : Arith ε) (p : ArrayParams)
    (alpha rot : ℝ) (T : Trig) (hB : ArraySize p B) (hT : TrigNear rot alpha T η K)
    (hm : 1 < p.nRows → shadeErr ε η B K < |shadingDelta p.distance alpha rot|) (i : ℕ) :
    |(A.rowShadedLengths p T rot i).1 - (rowShadedLengths p alpha rot i).1| ≤ shadeErr ε η B K ∧
    |(A.rowShadedLengths p T rot i).2 - (rowShadedLengths p alpha rot i).2| ≤ shadeErr ε η B K :=
  (A.rowShaded_near ((abs_nonneg _).trans (A.tmp_near h0 h1 hB hT).1) hB.width_pos.le
    (A.interrow_near h0 h1 hB hT hm) i).1

/-- C98: all coordinates of the computed scene are close to the exact ones. -/
theorem C98_coords {ε η B K w : ℝ} (h0 : 0 ≤ ε) (h1 : ε < 1) (A : Arith ε) (p : ArrayParams)
    (rot : Rot) (sun : Pt) (T : Trig) (hB : ArraySize p B)
    (hT : TrigNear rot.deg (arctan2 sun.y sun.x) T η K) (hsgn : 0 < rot.deg * sind rot.deg)
    (hm : 1 < p.nRows → shadeErr ε η B K < |shadingDelta p.distance (arctan2 sun.y sun.x) rot.deg|)
    (hf : ∀ x, x = (interrowShading p (arctan2 sun.y sun.x) rot.deg).1 ∨
      x = (interrowShading p (arctan2 sun.y sun.x) rot.deg).2 → shadeErr ε η B K < |x - TOL|)
    (hw : w ≤ p.width)
    (hlong : ∀ r s k sh, SurfRef.pv r s k sh ∈ surfaces p →
      ((fitGeom p rot sun).coords (.pv r s k sh)).length = 0 ∨
      w ≤ ((fitGeom p rot sun).coords (.pv r s k sh)).length)
    (hτ : 2 * sceneErr ε η B K |sind rot.deg| < w * |sind rot.deg|) :
    CoordsNear p (fitGeom p rot sun) (A.fitGeom p rot sun T) (sceneErr ε η B K |sind rot.deg|) := by
  set alpha := arctan2 sun.y sun.x with halpha
  set τ := sceneErr ε η B K |sind rot.deg| with hτd
  have hrot : rot.deg ≠ 0 := by intro h; simp [h] at hsgn
  have hsin : sind rot.deg ≠ 0 := by intro h; simp [h] at hsgn
  have hsp : 0 < |sind rot.deg| := abs_pos.2 hsin
  have hη : 0 ≤ η := (abs_nonneg _).trans hT.cs
  have hK : 0 ≤ K := (abs_nonneg _).trans hT.cotRot_le
  have hB0 : 0 < B := hB.width_pos.trans_le hB.width
  have sl := A.interrow_near h0 h1 hB hT hm
  have es0 : 0 ≤ shadeErr ε η B K := (abs_nonneg _).trans sl.1
  have e0 : 0 ≤ endErr ε η B := by
    have := grow_pow_one h0 h1 5
    unfold endErr
    exact add_nonneg (mul_nonneg (by linarith) (by positivity)) (by positivity)
  have g0 : 0 ≤ groundErr ε η B K := by
    have := grow_pow_one h0 h1 3
    unfold groundErr
    exact add_nonneg (add_nonneg (mul_nonneg (by linarith) (by positivity)) (by positivity))
      (by positivity)
  have t1 : 2 * (endErr ε η B + shadeErr ε η B K) * (1 + 1 / |sind rot.deg|) ≤ τ := by
    rw [hτd]; unfold sceneErr; linarith
  have q0 : 0 ≤ 2 * (endErr ε η B + shadeErr ε η B K) * (1 + 1 / |sind rot.deg|) := by positivity
  have t2 : groundErr ε η B K ≤ τ := by
    rw [hτd]; unfold sceneErr; linarith
  have t3 : endErr ε η B + endErr ε η B ≤ τ := by
    have : 0 ≤ 2 * (endErr ε η B + shadeErr ε η B K) * (1 / |sind rot.deg|) := by positivity
    linarith
  -- surfaces of rows
  have pv : ∀ r s k sh, SurfRef.pv r s k sh ∈ surfaces p →
      (distPt ((fitGeom p rot sun).coords (.pv r s k sh)).b1
          ((A.fitGeom p rot sun T).coords (.pv r s k sh)).b1 ≤ τ ∧
        distPt ((fitGeom p rot sun).coords (.pv r s k sh)).b2
          ((A.fitGeom p rot sun T).coords (.pv r s k sh)).b2 ≤ τ) ∧
      ((fitGeom p rot sun).coords (.pv r s k sh)).length * |sind rot.deg|
        = |((fitGeom p rot sun).coords (.pv r s k sh)).b1.y
          - ((fitGeom p rot sun).coords (.pv r s k sh)).b2.y| := by
    intro r s k sh ha
    obtain ⟨hr, hk⟩ := mem_allRefs_pv.1 (mem_surfaces.1 ha)
    obtain ⟨⟨n1, n2⟩, ⟨a1, a2⟩, b1, b2⟩ := A.rowShaded_near es0 hB.width_pos.le sl r
    cases s with
    | front =>
      have hk : k < p.nFront r := hk
      have ex : (fitGeom p rot sun).coords (.pv r .front k sh)
          = if sh then (sideSegment (rowCenter p r) p.width rot.deg (p.nFront r)
              (rowShadedLengths p alpha rot.deg r).1 k).shaded
            else (sideSegment (rowCenter p r) p.width rot.deg (p.nFront r)
              (rowShadedLengths p alpha rot.deg r).1 k).illum := by
        change (if sh then (((List.range (p.nFront r)).map (sideSegment _ _ _ _ _)).getD k default).shaded
          else (((List.range (p.nFront r)).map (sideSegment _ _ _ _ _)).getD k default).illum) = _
        simp [List.getD_eq_getElem?_getD, List.getElem?_range hk]
        rfl
      have ex' : (A.fitGeom p rot sun T).coords (.pv r .front k sh)
          = if sh then (A.sideSegment (A.rowCenter p r) p.width rot.deg T (p.nFront r)
              (A.rowShadedLengths p T rot.deg r).1 k).shaded
            else (A.sideSegment (A.rowCenter p r) p.width rot.deg T (p.nFront r)
              (A.rowShadedLengths p T rot.deg r).1 k).illum := by
        change (if sh then (((List.range (p.nFront r)).map (A.sideSegment _ _ _ _ _ _)).getD k
            default).shaded
          else (((List.range (p.nFront r)).map (A.sideSegment _ _ _ _ _ _)).getD k default).illum) = _
        simp [List.getD_eq_getElem?_getD, List.getElem?_range hk]
      obtain ⟨⟨i1, i2⟩, s1, s2⟩ := A.sideSegment_near h0 h1 hB hT hsgn hr hk n1 a1 a2
      rw [ex, ex']
      refine ⟨?_, sideSegment_tilt _ _ _ _ _ _ hrot sh⟩
      cases sh
      · exact ⟨i1.trans t1, i2.trans t1⟩
      · exact ⟨s1.trans t1, s2.trans t1⟩
    | back =>
      have hk : k < p.nBack r := hk
      have ex : (fitGeom p rot sun).coords (.pv r .back k sh)
          = if sh then (sideSegment (rowCenter p r) p.width rot.deg (p.nBack r)
              (rowShadedLengths p alpha rot.deg r).2 k).shaded
            else (sideSegment (rowCenter p r) p.width rot.deg (p.nBack r)
              (rowShadedLengths p alpha rot.deg r).2 k).illum := by
        change (if sh then (((List.range (p.nBack r)).map (sideSegment _ _ _ _ _)).getD k default).shaded
          else (((List.range (p.nBack r)).map (sideSegment _ _ _ _ _)).getD k default).illum) = _
        simp [List.getD_eq_getElem?_getD, List.getElem?_range hk]
        rfl
      have ex' : (A.fitGeom p rot sun T).coords (.pv r .back k sh)
          = if sh then (A.sideSegment (A.rowCenter p r) p.width rot.deg T (p.nBack r)
              (A.rowShadedLengths p T rot.deg r).2 k).shaded
            else (A.sideSegment (A.rowCenter p r) p.width rot.deg T (p.nBack r)
              (A.rowShadedLengths p T rot.deg r).2 k).illum := by
        change (if sh then (((List.range (p.nBack r)).map (A.sideSegment _ _ _ _ _ _)).getD k
            default).shaded
          else (((List.range (p.nBack r)).map (A.sideSegment _ _ _ _ _ _)).getD k default).illum) = _
        simp [List.getD_eq_getElem?_getD, List.getElem?_range hk]
      obtain ⟨⟨i1, i2⟩, s1, s2⟩ := A.sideSegment_near h0 h1 hB hT hsgn hr hk n2 b1 b2
      rw [ex, ex']
      refine ⟨?_, sideSegment_tilt _ _ _ _ _ _ hrot sh⟩
      cases sh
      · exact ⟨i1.trans t1, i2.trans t1⟩
      · exact ⟨s1.trans t1, s2.trans t1⟩
  -- the ground
  have flag : (A.fitGeom p rot sun T).ground.flagOverlap ↔ (fitGeom p rot sun).ground.flagOverlap := by
    have one : ∀ {x x' : ℝ}, |x' - x| ≤ shadeErr ε η B K → shadeErr ε η B K < |x - TOL| →
        (x' > TOL ↔ x > TOL) := by
      intro x x' h1 h2
      obtain ⟨l, u⟩ := abs_le.1 h1
      rcases lt_abs.1 h2 with h | h <;> constructor <;> intro _ <;> linarith
    exact or_congr (one sl.1 (hf _ (Or.inl rfl))) (one sl.2 (hf _ (Or.inr rfl)))
  obtain ⟨gs, gi⟩ := ground_near g0 (g := (fitGeom p rot sun).ground)
    (g' := (A.fitGeom p rot sun T).ground) rfl flag
    (fun i hi => (A.shadow_near h0 h1 hB hT hi).1)
  have cuts : List.Forall₂ (XRNear (groundErr ε η B K)) (fitGeom p rot sun).ground.cuts
      (A.fitGeom p rot sun T).ground.cuts := by
    change List.Forall₂ _ ((List.range p.nRows).map _) ((List.range p.nRows).map _)
    rw [List.forall₂_map_left_iff, List.forall₂_map_right_iff, List.forall₂_same]
    exact fun i hi => (A.shadow_near h0 h1 hB hT (List.mem_range.1 hi)).2
  refine ⟨Iff.rfl, fun a ha => ?_, fun r s k sh ha => ?_, fun r hr => ?_⟩
  · match a with
    | .pv r s k sh => exact (pv r s k sh ha).1
    | .gnd true e z =>
      have he : e < p.nRows := by simpa using (mem_allRefs_gnd.1 (mem_surfaces.1 ha)).1
      have d := (cutSurfaces_near g0 (gs e he) cuts z).dist
      exact ⟨d.1.trans t2, d.2.trans t2⟩
    | .gnd false e z =>
      have he : e ≤ p.nRows :=
        Nat.lt_succ_iff.1 (by simpa using (mem_allRefs_gnd.1 (mem_surfaces.1 ha)).1)
      have d := (cutSurfaces_near g0 (gi e he) cuts z).dist
      exact ⟨d.1.trans t2, d.2.trans t2⟩
  · obtain ⟨n, t⟩ := pv r s k sh ha
    refine highest_near n ((hlong r s k sh ha).imp_right fun h => ?_)
    rw [← t]
    exact hτ.trans_le (mul_le_mul_of_nonneg_right h hsp.le)
  · obtain ⟨⟨x1, y1⟩, x2, y2⟩ := A.full_near h0 h1 hB hT hr
    refine (highest_near (l := fullRowCoords (rowCenter p r) p.width rot.deg)
      (l' := A.fullRowCoords (A.rowCenter p r) p.width T.cs T.sn T.cs180 T.sn180)
      ⟨(Arith.dist_le_of x1 y1).trans t3, (Arith.dist_le_of x2 y2).trans t3⟩ (Or.inr ?_)).2
    refine hτ.trans_le ((mul_le_mul_of_nonneg_right hw hsp.le).trans (le_of_eq ?_))
    unfold fullRowCoords
    dsimp only
    rw [sind_half_turn, show p.width / 2 * -sind rot.deg + (rowCenter p r).y
      - (p.width / 2 * sind rot.deg + (rowCenter p r).y) = -(p.width * sind rot.deg) by ring,
      abs_neg, abs_mul, abs_of_pos hB.width_pos]

theorem distPt_y {x y : Pt} {τ : ℝ} (h : distPt x y ≤ τ) : |x.y - y.y| ≤ τ := by
  refine le_trans ?_ h
  unfold distPt
  rw [abs_sub_comm]
  exact Real.abs_le_sqrt (by nlinarith [sq_nonneg (y.x - x.x)])

/-- The exact end that belongs to an end of a surface with errors. -/
theorem CoordsNear.end {p : ArrayParams} {g g' : StepGeom} {τ : ℝ} (hn : CoordsNear p g g' τ)
    {a : SurfRef} (ha : a ∈ surfaces p) {x : Pt} (hx : x = (g'.coords a).b1 ∨ x = (g'.coords a).b2) :
    ∃ y, (y = (g.coords a).b1 ∨ y = (g.coords a).b2) ∧ distPt y x ≤ τ := by
  rcases hx with rfl | rfl
  · exact ⟨_, Or.inl rfl, (hn.ends a ha).1⟩
  · exact ⟨_, Or.inr rfl, (hn.ends a ha).2⟩

/-- C98: with small errors of all coordinates the lower edges of all rows stay about equally high and
above the ground. -/
theorem C98_above {c σ τ : ℝ} (p : ArrayParams) (g g' : StepGeom) (hn : CoordsNear p g g' τ)
    (hτ : 0 ≤ τ) (hr : RowsAbove p g c σ) (hc : σ + 4 * τ < c) :
    RowsAbove p g' (c - 2 * τ) (σ + 2 * τ) := by
  refine ⟨by linarith [hr.slack], by linarith, fun r s k sh ha x hx r' hr' => ?_,
    fun sh e z ha x hx r hr' => ?_⟩
  · obtain ⟨y, hy, hd⟩ := hn.end ha hx
    have := hr.low r s k sh ha y hy r' hr'
    have d1 := abs_le.1 (distPt_y hd)
    have d2 := abs_le.1 (distPt_y (hn.edge r' hr'))
    linarith [d1.1, d1.2, d2.1, d2.2]
  · obtain ⟨y, hy, hd⟩ := hn.end ha hx
    have := hr.above sh e z ha y hy r hr'
    have d1 := abs_le.1 (distPt_y hd)
    have d2 := abs_le.1 (distPt_y (hn.edge r hr'))
    linarith [d1.1, d1.2, d2.1, d2.2]

/-- The length of a surface with errors. -/
theorem CoordsNear.length {p : ArrayParams} {g g' : StepGeom} {τ : ℝ} (hn : CoordsNear p g g' τ)
    {a : SurfRef} (ha : a ∈ surfaces p) : |(g'.coords a).length - (g.coords a).length| ≤ 2 * τ := by
  have := distPt_lip (g.coords a).b1 (g.coords a).b2 (g'.coords a).b1 (g'.coords a).b2
  obtain ⟨e1, e2⟩ := hn.ends a ha
  have e : (g'.coords a).length - (g.coords a).length
    = distPt (g'.coords a).b1 (g'.coords a).b2 - distPt (g.coords a).b1 (g.coords a).b2 := rfl
  rw [e]; linarith

/-- C98: with small errors of all coordinates a scene keeps its size, and surfaces without length stay
too short to count. -/
theorem C98_size {D w τ : ℝ} (p : ArrayParams) (g g' : StepGeom) (emp : SurfRef → Prop)
    (hn : CoordsNear p g g' τ) (hτ : 0 ≤ τ) (hs : SceneSize p g emp D w)
    (hlong : ∀ a ∈ surfaces p, (g.coords a).length = 0 ∨ w ≤ (g.coords a).length)
    (hτT : 4 * τ ≤ TOL) (hw : 2 * TOL ≤ w - 2 * τ) :
    SceneSize p g emp (D + 2 * τ) (w - 2 * τ) ∧ SceneSize p g' emp (D + 2 * τ) (w - 2 * τ) := by
  have comm : ∀ x y : Pt, distPt x y = distPt y x := fun x y => by
    unfold distPt; congr 1; ring
  have hsz := hs.size
  refine ⟨⟨hw, by linarith, fun a ha => (hs.long a ha).imp_right fun h => by linarith,
    fun a ha b hb h1 h2 x hx y hy => (hs.near a ha b hb h1 h2 x hx y hy).trans (by linarith),
    fun a ha h1 x hx r hr => (hs.near_low a ha h1 x hx r hr).trans (by linarith)⟩,
    ⟨hw, by linarith, fun a ha => ?_, fun a ha b hb h1 h2 x hx y hy => ?_,
      fun a ha h1 x hx r hr => ?_⟩⟩
  · have l := abs_le.1 (hn.length ha)
    rcases hlong a ha with h | h
    · rw [h] at l; exact Or.inl (by linarith [l.2])
    · exact Or.inr (by linarith [l.1])
  · obtain ⟨x0, hx0, dx⟩ := hn.end ha hx
    obtain ⟨y0, hy0, dy⟩ := hn.end hb hy
    have := hs.near a ha b hb h1 h2 x0 hx0 y0 hy0
    have t1 := distPt_triangle x x0 y
    have t2 := distPt_triangle x0 y0 y
    rw [comm x x0] at t1
    linarith
  · obtain ⟨x0, hx0, dx⟩ := hn.end ha hx
    have := hs.near_low a ha h1 x0 hx0 r hr
    have t1 := distPt_triangle x x0 (g'.row r).full.lowest
    have t2 := distPt_triangle x0 (g.row r).full.lowest (g'.row r).full.lowest
    have := hn.edge r hr
    rw [comm x x0] at t1
    linarith

/-- C98: with small errors of all coordinates the same surfaces are empty, if the errors do not add up to
the tolerance over all time steps. -/
theorem C98_empty {ι : Type*} [Fintype ι] {w τ : ℝ} (p : ArrayParams) (g g' : ι → StepGeom)
    (hn : ∀ t, CoordsNear p (g t) (g' t) τ)
    (hlong : ∀ t, ∀ a ∈ surfaces p, ((g t).coords a).length = 0 ∨ w ≤ ((g t).coords a).length)
    (hτ : Fintype.card ι * (2 * τ) < TOL) (hw : TOL ≤ w - 2 * τ) (hτ0 : 0 ≤ τ)
    (a : SurfRef) (ha : a ∈ surfaces p) : isEmptyTs g' a ↔ isEmptyTs g a := by
  have pos : ∀ (h : ι → StepGeom) (t : ι), 0 ≤ ((h t).coords a).length := fun h t =>
    Real.sqrt_nonneg _
  unfold isEmptyTs
  by_cases hz : ∀ t, ((g t).coords a).length = 0
  · have e1 : ∑ t, ((g t).coords a).length < TOL := by
      rw [Finset.sum_eq_zero fun t _ => hz t]; exact TOL_pos
    have e2 : ∑ t, ((g' t).coords a).length < TOL := by
      refine lt_of_le_of_lt (Finset.sum_le_sum (g := fun _ => 2 * τ) fun t _ => ?_) ?_
      · have := abs_le.1 ((hn t).length ha)
        rw [hz t] at this
        linarith [this.2]
      · rw [Finset.sum_const, nsmul_eq_mul, Finset.card_univ]; exact hτ
    exact ⟨fun _ => e1, fun _ => e2⟩
  · push Not at hz
    obtain ⟨t, ht⟩ := hz
    have l := (hlong t a ha).resolve_left ht
    have l' := abs_le.1 ((hn t).length ha)
    have s1 := Finset.single_le_sum (f := fun t => ((g t).coords a).length) (fun t _ => pos g t)
      (Finset.mem_univ t)
    have s2 := Finset.single_le_sum (f := fun t => ((g' t).coords a).length) (fun t _ => pos g' t)
      (Finset.mem_univ t)
    exact ⟨fun h => by linarith [l'.1], fun h => by linarith [l'.1]⟩

/-- Only whether surfaces of the array are empty matters. -/
theorem Arith.vfMatrix_congr {ε : ℝ} (A : Arith ε) (T : SumTree) (p : ArrayParams) (g : StepGeom)
    {emp emp' : SurfRef → Prop} (h : ∀ a ∈ allRefs p, emp a ↔ emp' a) :
    A.vfMatrix T p g emp = A.vfMatrix T p g emp' := by
  classical
  have fm : ∀ {α β : Type} (l : List α) (f f' : α → List β), (∀ x ∈ l, f x = f' x) →
      l.flatMap f = l.flatMap f' := fun l f f' hf => by
    rw [List.flatMap_def, List.flatMap_def, List.map_congr_left hf]
  have side : ∀ {r : ℕ} {s : RowSide} {a : SurfRef}, r < p.nRows → a ∈ sideRefs p r s →
      (emp a ↔ emp' a) := fun {r s a} hr ha => by
    obtain ⟨k, sh, rfl, hk⟩ := mem_sideRefs.1 ha
    exact h _ (mem_allRefs_pv.2 ⟨hr, hk⟩)
  have one : ∀ {r : ℕ} (isBack : Bool) {s : RowSide} {a : SurfRef}, r < p.nRows → a ∈ sideRefs p r s →
      A.asgPvGndSurf p g emp r isBack a = A.asgPvGndSurf p g emp' r isBack a := by
    intro r isBack s a hr ha
    have hg : ∀ isLeft : Bool, ∀ b ∈ gndRefsSide p isLeft r, (emp b ↔ emp' b) := fun isLeft b hb =>
      h b (gndRefsSide_subset hr hb)
    unfold Arith.asgPvGndSurf
    dsimp only
    simp only [side hr ha]
    congr 1
    refine congrArg₂ _ (fm _ _ _ fun b hb => ?_) (fm _ _ _ fun b hb => ?_) <;>
      simp only [hg _ b hb]
  have e1 : A.asgPvGnd p g emp = A.asgPvGnd p g emp' := by
    unfold Arith.asgPvGnd
    refine fm _ _ _ fun r hr => ?_
    have hr := List.mem_range.1 hr
    exact congrArg₂ _ (fm _ _ _ fun a ha => one false hr ha) (fm _ _ _ fun a ha => one true hr ha)
  have two : ∀ {r : ℕ} (fb : Bool), r + 1 < p.nRows →
      A.asgPvPvSides p g emp r fb = A.asgPvPvSides p g emp' r fb := by
    intro r fb hr
    unfold Arith.asgPvPvSides
    refine fm _ _ _ fun a ha => ?_
    simp only [side (by omega) ha]
    congr 1
    refine fm _ _ _ fun b hb => ?_
    simp only [side hr hb]
  have e2 : A.asgPvPv p g emp = A.asgPvPv p g emp' := by
    unfold Arith.asgPvPv
    refine fm _ _ _ fun r hr => ?_
    have hr := List.mem_range.1 hr
    rw [two true (by omega), two false (by omega)]
  unfold Arith.vfMatrix Arith.vfNoSky
  rw [e1, e2]

/-- C98: all view factors that are computed from the inputs of one time step with rounding errors in all
operations and errors of trigonometric functions are close to the exact ones. -/
theorem C98_computed {ι : Type*} [Fintype ι] {ε D w c τ : ℝ} (h0 : 0 ≤ ε) (h1 : ε ≤ 1 / 8)
    (A : Arith ε) (T : SumTree) (p : ArrayParams) (u : ι → StepIn) (t : ι) (g' : ι → StepGeom)
    (hp : PhysicalArray p) (hu : PhysicalStep p (u t))
    (hT : T.leaves = Multiset.range (nTsSurfaces p))
    (hs : SceneSize p (fitStep p (u t)) (isEmptyTs fun t => fitStep p (u t)) D w)
    (hlong : ∀ t, ∀ a ∈ surfaces p, ((fitStep p (u t)).coords a).length = 0 ∨
      w ≤ ((fitStep p (u t)).coords a).length)
    (hc : c ≤ p.height - p.width / 2 * sind (u t).surfaceTilt)
    (hn : ∀ t, CoordsNear p (fitStep p (u t)) (g' t) τ) (hτ : 0 ≤ τ)
    (hτT : 4 * τ ≤ TOL) (hτn : Fintype.card ι * (2 * τ) < TOL) (hτc : 4 * τ < c)
    (hw : 2 * TOL ≤ w - 2 * τ) (a : SurfRef) (ha : a ∈ surfaces p) :
    let F := A.vfMatrix T p (g' t) (isEmptyTs g')
    let E := entryBound ε (D + 2 * τ) (w - 2 * τ) (c - 2 * τ) (2 * τ)
      + entryMove (D + 2 * τ) (w - 2 * τ) (c - 2 * τ) (2 * τ) τ
    (∀ b ∈ surfaces p, |vfBetween p F a b - vfBetween p (tsVfMatrix p u t) a b| ≤ E) ∧
    ∑ b ∈ surfaces p, |vfBetween p F a b - vfBetween p (tsVfMatrix p u t) a b|
      + |vfToSky p F a - vfToSky p (tsVfMatrix p u t) a| ≤ rowErrors (nTsSurfaces p) ε E := by
  intro F E
  have he : A.vfMatrix T p (g' t) (isEmptyTs g')
      = A.vfMatrix T p (g' t) (isEmptyTs fun t => fitStep p (u t)) := by
    refine A.vfMatrix_congr T p (g' t) fun a ha => ?_
    exact C98_empty p (fun t => fitStep p (u t)) g' hn hlong hτn (by linarith [TOL_pos]) hτ a
      (mem_surfaces.2 ha)
  obtain ⟨s1, s2⟩ := C98_size p (fitStep p (u t)) (g' t) _ (hn t) hτ hs (hlong t) hτT hw
  have r := C98_above p (fitStep p (u t)) (g' t) (hn t) hτ
    ((C96_above p (u t) hp hu).weaken hc le_rfl (by linarith)) (by linarith)
  rw [zero_add] at r
  unfold F
  rw [he]
  exact C97_computed h0 h1 A T p u t (g' t) hp hu hT s1 s2 (by linarith) r (hn t) hτ
    (by linarith [TOL_pos]) a ha

/-- C98: the light that full mode returns, with rounding errors in all operations on coordinates and
view factors, errors of trigonometric functions and small residuals of the linear system, is close
to that of exact full mode. -/
theorem C98_full_mode {ι : Type*} [Fintype ι] {ε D w c τ : ℝ} (h0 : 0 ≤ ε) (h1 : ε ≤ 1 / 8)
    (A : Arith ε) (T : SumTree) (p : ArrayParams) (u : ι → StepIn) (s : ι → IrrStep)
    (aoi : ι → Option (List Asg)) (o : ι → FullOut) (hrun : runFullMode p u s aoi = some o)
    (hinv : ∀ t, InverseOk p (s t)) (t : ι) (g' : ι → StepGeom)
    (hp : PhysicalArray p) (hu : PhysicalStep p (u t))
    (hT : T.leaves = Multiset.range (nTsSurfaces p))
    (hs : SceneSize p (fitStep p (u t)) (isEmptyTs fun t => fitStep p (u t)) D w)
    (hlong : ∀ t, ∀ a ∈ surfaces p, ((fitStep p (u t)).coords a).length = 0 ∨
      w ≤ ((fitStep p (u t)).coords a).length)
    (hc : c ≤ p.height - p.width / 2 * sind (u t).surfaceTilt)
    (hn : ∀ t, CoordsNear p (fitStep p (u t)) (g' t) τ) (hτ : 0 ≤ τ)
    (hτT : 4 * τ ≤ TOL) (hτn : Fintype.card ι * (2 * τ) < TOL) (hτc : 4 * τ < c)
    (hw : 2 * TOL ≤ w - 2 * τ)
    (r : ℝ) (hr : ∀ a ∈ surfaces p, 0 ≤ (s t).rho a ∧ (s t).rho a ≤ r) (hr1 : r < 1)
    (e' q0' qinc' : SurfRef → ℝ) (sky' η₁ η₂ η₃ M : ℝ)
    (hsol : NearlySolved p (A.vfMatrix T p (g' t) (isEmptyTs g'))
      (fun a => ((s t).comp a).sum) (s t).rho (s t).sky e' q0' qinc' sky' η₁ η₂ η₃ M) :
    let E := entryBound ε (D + 2 * τ) (w - 2 * τ) (c - 2 * τ) (2 * τ)
      + entryMove (D + 2 * τ) (w - 2 * τ) (c - 2 * τ) (2 * τ) τ
    ∀ a ∈ surfaces p, |qinc' a - (o t).qinc a|
      ≤ (η₁ + η₂ + η₃ + rowErrors (nTsSurfaces p) ε E * M) / (1 - r) := fun a ha =>
  (C96_system p (tsVfMatrix p u t) _ _ e' _ _ _ q0' qinc' _ sky' r _ η₁ η₂ η₃ M
    (C06_radiosity p u s aoi o hrun hinv t).1 (C02_viewFactorsOk p u t hp hu) hr hr1
    (fun a ha => (C98_computed h0 h1 A T p u t g' hp hu hT hs hlong hc hn hτ hτT hτn hτc hw a ha).2)
    hsol a ha).1

theorem CoordsNear.mono {p : ArrayParams} {g g' : StepGeom} {τ τ' : ℝ} (hn : CoordsNear p g g' τ)
    (h : τ ≤ τ') : CoordsNear p g g' τ' :=
  ⟨hn.tilt, fun a ha => ⟨(hn.ends a ha).1.trans h, (hn.ends a ha).2.trans h⟩,
    fun r s k sh ha => ⟨(hn.high r s k sh ha).1.trans h, (hn.high r s k sh ha).2.trans h⟩,
    fun r hr => (hn.edge r hr).trans h⟩

/-- C98: all coordinates of the scene computed for one time step are close to the exact ones, for rows
that are not horizontal. -/
theorem C98_step {ε η B K w : ℝ} (h0 : 0 ≤ ε) (h1 : ε < 1) (A : Arith ε) (p : ArrayParams)
    (u : StepIn) (T : Trig) (hp : PhysicalArray p) (hu : PhysicalStep p u) (hB : ArraySize p B)
    (hT : TrigNear (fitStep p u).rot.deg (fitStep p u).alpha T η K)
    (hrot : (fitStep p u).rot.deg ≠ 0)
    (hm : 1 < p.nRows → shadeErr ε η B K
      < |shadingDelta p.distance (fitStep p u).alpha (fitStep p u).rot.deg|)
    (hf : ∀ x, x = (interrowShading p (fitStep p u).alpha (fitStep p u).rot.deg).1 ∨
      x = (interrowShading p (fitStep p u).alpha (fitStep p u).rot.deg).2 →
      shadeErr ε η B K < |x - TOL|)
    (hw : w ≤ p.width)
    (hlong : ∀ a ∈ surfaces p, ((fitStep p u).coords a).length = 0 ∨
      w ≤ ((fitStep p u).coords a).length)
    (hτ : 2 * sceneErr ε η B K |sind (fitStep p u).rot.deg| < w * |sind (fitStep p u).rot.deg|) :
    CoordsNear p (fitStep p u) (A.fitGeom p (fitStep p u).rot (fitStep p u).sun T)
      (sceneErr ε η B K |sind (fitStep p u).rot.deg|) := by
  have h := physical_of hp hu
  refine C98_coords h0 h1 A p _ _ T hB hT ?_ hm hf hw (fun r s k sh ha => hlong _ ha) hτ
  rcases lt_or_gt_of_ne hrot with hn | hn
  · exact mul_pos_of_neg_of_neg hn (sind_neg_of_neg hn h.lo)
  · exact mul_pos hn (sind_pos hn h.hi)

/-! ## Witness -/

/-- Computed values of trigonometric functions for vertical rows with the sun at 45 degrees: the cosine of
90 degrees is not 0. -/
noncomputable def vertTrig : Trig where
  cs := 1 / 2 ^ 54
  sn := 1
  cs180 := -(1 / 2 ^ 54)
  sn180 := -1
  tanSun := -1
  tanRot := 2 ^ 54
  sinTheta := 0
  cosTheta := 1
  tanBeta := -1 + 1 / 2 ^ 53

theorem vertTrig_near : TrigNear 90 (3 * Real.pi / 4) vertTrig (1 / 2 ^ 52) 1 := by
  have h3 : 3 * Real.pi / 4 = Real.pi - Real.pi / 4 := by ring
  have cot : Real.cos (3 * Real.pi / 4) / Real.sin (3 * Real.pi / 4) = -1 := by
    rw [h3, Real.cos_pi_sub, Real.sin_pi_sub, Real.cos_pi_div_four, Real.sin_pi_div_four]
    have : Real.sqrt 2 ≠ 0 := by simp
    field_simp
  have hb : Real.tan (deg2rad (90 - 90 + rad2deg (3 * Real.pi / 4))) = -1 := by
    have : deg2rad (90 - 90 + rad2deg (3 * Real.pi / 4)) = Real.pi - Real.pi / 4 := by
      unfold deg2rad rad2deg
      have := Real.pi_ne_zero
      field_simp
      ring
    rw [this, Real.tan_pi_sub, Real.tan_pi_div_four]
  have h0 : deg2rad (90 - 90) = 0 := by simp [deg2rad]
  constructor <;> simp only [vertTrig, cosd_half_turn, sind_half_turn, cosd_90, sind_90, cot, hb, h0,
    Real.sin_zero, Real.cos_zero] <;> norm_num

theorem vert_size : ArraySize vertArray 5 := by
  constructor <;> norm_num [vertArray, ArrayParams.distance]

/-- Witness for C98: two vertical rows whose scene is computed with operations that give numbers that are
too large by 2 ^ (-53) and a cosine of 90 degrees that is not 0: the stored place of the upper end of the
first row is wrong, all coordinates are right up to 1e-12 and all view factors up to 1e-4. -/
theorem C98_demo (t : Fin 3) :
    let A := tooLarge (1 / 2 ^ 53) (by norm_num)
    let g := fitStep vertArray vertStep
    let g' := A.fitGeom vertArray g.rot g.sun vertTrig
    (g'.row 0).full.b2.x ≠ (g.row 0).full.b2.x ∧
    CoordsNear vertArray g g' (1 / 10 ^ 12) ∧
    ∀ a ∈ surfaces vertArray, ∀ b ∈ surfaces vertArray,
      |vfBetween vertArray (A.vfMatrix (inOrder 24) vertArray g' (isEmptyTs fun _ : Fin 3 => g')) a b
        - vfBetween vertArray (tsVfMatrix vertArray (fun _ : Fin 3 => vertStep) t) a b|
        ≤ 1 / 10 ^ 4 := by
  intro A g g'
  have hrot : g.rot = ⟨90, false⟩ := vert_rot
  have hdeg : g.rot.deg = 90 := by rw [hrot]
  have hal : g.alpha = 3 * Real.pi / 4 := by
    have : g = _ := vert_fit
    rw [this]; exact vert_alpha
  have hlong : ∀ a ∈ surfaces vertArray, (g.coords a).length = 0 ∨ 1 / 2 ≤ (g.coords a).length :=
    vert_half
  have hd : shadingDelta vertArray.distance (3 * Real.pi / 4) 90 = 5 := by
    unfold shadingDelta
    have : deg2rad (90 - 90 + rad2deg (3 * Real.pi / 4)) = Real.pi - Real.pi / 4 := by
      unfold deg2rad rad2deg
      have := Real.pi_ne_zero
      field_simp
      ring
    simp only [this]
    rw [Real.tan_pi_sub, Real.tan_pi_div_four]
    have : deg2rad (90 - 90) = 0 := by simp [deg2rad]
    rw [this]
    norm_num [ArrayParams.distance, vertArray]
  have b1 : shadeErr (1 / 2 ^ 53) (1 / 2 ^ 52) 5 1 < 1 / 10 ^ 9 := by
    norm_num [shadeErr, grow]
  have b2 : sceneErr (1 / 2 ^ 53) (1 / 2 ^ 52) 5 1 1 ≤ 1 / 10 ^ 12 := by
    norm_num [sceneErr, shadeErr, endErr, groundErr, grow]
  have hn : CoordsNear vertArray g g' (1 / 10 ^ 12) := by
    have h := C98_step (ε := 1 / 2 ^ 53) (η := 1 / 2 ^ 52) (B := 5) (K := 1) (w := 1 / 2)
      (by norm_num) (by norm_num) A vertArray vertStep vertTrig vert_physicalArray vert_physicalStep
      vert_size (by
        change TrigNear g.rot.deg g.alpha _ _ _
        rw [hdeg, hal]; exact vertTrig_near)
      (by change g.rot.deg ≠ 0; rw [hdeg]; norm_num)
      (fun _ => by
        change _ < |shadingDelta vertArray.distance g.alpha g.rot.deg|
        rw [hdeg, hal, hd]
        norm_num at b1 ⊢
        linarith)
      (by
        change ∀ x, x = (interrowShading vertArray g.alpha g.rot.deg).1 ∨
          x = (interrowShading vertArray g.alpha g.rot.deg).2 → _
        rw [hdeg, hal, vert_interrow]
        intro x hx
        have : x = 0 := by rcases hx with rfl | rfl <;> rfl
        rw [this]
        refine b1.trans ?_
        norm_num [TOL])
      (by norm_num [vertArray]) hlong (by
        change 2 * sceneErr _ _ _ _ |sind g.rot.deg| < 1 / 2 * |sind g.rot.deg|
        rw [hdeg, sind_90, abs_one]
        norm_num at b2 ⊢
        linarith)
    refine h.mono ?_
    change sceneErr _ _ _ _ |sind g.rot.deg| ≤ _
    rw [hdeg, sind_90, abs_one]
    exact b2
  refine ⟨?_, hn, fun a ha b hb => ?_⟩
  · have e : (g.row 0).full.b2.x = 0 := by
      change vertArray.width / 2 * cosd g.rot.deg + (X_ORIGIN + (0 : ℕ) * vertArray.distance) = 0
      rw [hdeg, cosd_90]
      norm_num [X_ORIGIN]
    rw [e]
    have : (g'.row 0).full.b2.x
        = A.add (A.mul (A.div 2 2) (1 / 2 ^ 54)) (A.add X_ORIGIN (A.mul (0 : ℕ) (A.distance vertArray))) :=
      rfl
    rw [this]
    norm_num [A, tooLarge, X_ORIGIN]
  · have hc : vertArray.height - vertArray.width / 2 * sind vertStep.surfaceTilt = 1 / 2 := by
      norm_num [vertArray, vertStep, sind_90]
    refine ((C98_computed (ε := 1 / 2 ^ 53) (by norm_num) (by norm_num) A (inOrder 24) vertArray
      (fun _ : Fin 3 => vertStep) t (fun _ => g') vert_physicalArray vert_physicalStep
      (by rw [inOrder_leaves, vert_count]) (vert_sceneSize _) (fun _ => hlong) hc.ge (fun _ => hn)
      (by norm_num) (by norm_num [TOL]) (by norm_num [TOL]) (by norm_num) (by norm_num [TOL])
      a ha).1 b hb).trans ?_
    norm_num [entryBound, rowBound, grow, entryMove]

end PVF

import Verif.Lemmas.RoundedFast
import Verif.Props.RoundedTrig
import Verif.Props.FastFull

/-!
# Accuracy of fast mode
-/

namespace PVF

namespace Arith
variable {ε M w c σ τ : ℝ} (h0 : 0 ≤ ε) (h1 : ε ≤ 1 / 8) (A : Arith ε)

include h0 h1 in
/-- All view factors of fast mode, from lines and points that are close. -/
theorem fast_near (hτ : 0 ≤ τ) (hT : 2 * TOL ≤ w) (hσ : 0 ≤ σ) (hc : σ < c) (hD : w ≤ 4 * M)
    (hτw : 2 * τ + TOL < w) (hM : 100 ≤ M) {p : ArrayParams} {r : ℕ} {g g' : StepGeom} {pv pv' : Line}
    {shade shade' : ℕ → Pt} (S : FastScene p.nRows r g pv shade M w c σ)
    (S' : FastScene p.nRows r g' pv' shade' M w c σ)
    (N : FastPair p.nRows r g g' pv pv' shade shade' τ) (hr : r < p.nRows) {T : Trig} {Z : SumTree}
    (hZ : Z.leaves = Multiset.range p.nRows)
    (hs : ∀ j < p.nRows, PVF.shadedSideCoords (g.row j).center p.width
      (PVF.sideShadedLength (g.row j).front) (g.rot.deg > 0) g.rot.deg (g.row j).full.lowest
        = ⟨shade j, (g.row j).full.lowest⟩)
    (hs' : ∀ j < p.nRows, A.shadedSideCoords (g'.row j).center p.width
      (A.sideShadedLength (g'.row j).front) (g'.rot.deg > 0) T (g'.row j).full.lowest
        = ⟨shade' j, (g'.row j).full.lowest⟩)
    (hv : let v := PVF.fastVF p g r pv
      ∀ x ∈ v.toGndShaded :: v.toGndIllum :: v.toGndTotal :: v.toPvrowShaded :: v.toPvrowIllum
        :: v.toPvrowTotal :: v.toSky :: v.toEachGndShadow, 0 ≤ x ∧ x ≤ 1) :
    FastNear p.nRows ε (rowBound ε (4 * M) w c σ + rowMove (4 * M) w c σ τ)
      (A.fastVF Z p g' T r pv') (PVF.fastVF p g r pv) := by
  have h1' : ε < 1 := by linarith
  have hw : 0 < w := by have := TOL_pos; linarith
  set E := rowBound ε (4 * M) w c σ + rowMove (4 * M) w c σ τ with hE
  have E0 : 0 ≤ E := add_nonneg (rowBound_nonneg h0 h1 hw hσ hc hD) (rowMove_le hτ hT hσ hc hD).1
  have sh : ∀ e < p.nRows, _ := fun e he =>
    A.fast_shadow h0 h1 hτ hT hσ hc hD hτw hM S S' N hr he
  have gn := A.fast_gnd h0 h1 hτ hT hσ hc hD hτw hM S S' N hr
  have pr := A.fast_pvrow h0 h1 hτ hT hσ hc hD hτw S S' N hr hs hs'
  dsimp only at sh pr
  rw [← hE] at gn pr
  set v := PVF.fastVF p g r pv with hvd
  have le1 : ∀ x : ℝ, 0 ≤ x ∧ x ≤ 1 → |x| ≤ 1 := fun x hx => abs_le.2 ⟨by linarith [hx.1], hx.2⟩
  have m1 : |v.toGndIllum| ≤ 1 := le1 _ (hv _ (by simp))
  have m2 : |v.toPvrowIllum| ≤ 1 := le1 _ (hv _ (by simp))
  have m3 : |v.toSky| ≤ 1 := le1 _ (hv _ (by simp))
  have m4 : |1 - v.toGndTotal| ≤ 1 := by
    have := hv v.toGndTotal (by simp)
    exact le1 _ ⟨by linarith [this.2], by linarith [this.1]⟩
  have each : ∀ e < p.nRows, |PVF.vfToShadow pv r p.nRows (g.rot.deg > 0) g.row
      (coordsLeftOfCut (g.ground.shadowEl e) (g.ground.cuts.getD r .posInf))
      (coordsRightOfCut (g.ground.shadowEl e) (g.ground.cuts.getD r .posInf)) pv.length| ≤ 1 := by
    intro e he
    refine le1 _ (hv _ ?_)
    simp only [List.mem_cons, hvd, PVF.fastVF, pyIdx_nat, List.mem_map, List.mem_range]
    iterate 7 right
    exact ⟨e, he, rfl⟩
  have zs := A.vfSum_near h0 h1' hZ E0 sh each
  have d1 : |(A.fastVF Z p g' T r pv').toGndTotal - v.toGndTotal| ≤ E := by
    simpa only [hvd, PVF.fastVF, Arith.fastVF, pyIdx_nat] using gn
  have d2 : |(A.fastVF Z p g' T r pv').toGndShaded - v.toGndShaded| ≤ vfSumErr p.nRows ε E := by
    simpa only [hvd, PVF.fastVF, Arith.fastVF, pyIdx_nat] using zs
  have d3 : |(A.fastVF Z p g' T r pv').toPvrowTotal - v.toPvrowTotal| ≤ E := pr.1
  have d4 : |(A.fastVF Z p g' T r pv').toPvrowShaded - v.toPvrowShaded| ≤ E := pr.2
  refine ⟨?_, d2, d1, ?_, d3, d4, A.diff_near h0 d3 d4 m2, ?_⟩
  · simp only [hvd, PVF.fastVF, Arith.fastVF, pyIdx_nat]
    rw [List.forall₂_map_left_iff, List.forall₂_map_right_iff, List.forall₂_same]
    exact fun e he => sh e (List.mem_range.1 he)
  · rw [add_comm (vfSumErr _ _ _)]
    exact A.diff_near h0 d1 d2 m1
  · have e1 := A.diff_near h0 (x' := 1) (x := 1) (d := 0) (by simp) d1 m4
    rw [zero_add] at e1
    rw [add_comm E]
    exact A.diff_near h0 e1 d3 m3

end Arith

/-- The lower edges of all rows are equally high. -/
theorem lowest_y (p : ArrayParams) (u : StepIn) (hp : PhysicalArray p) (hu : PhysicalStep p u) (r : ℕ) :
    ((fitStep p u).row r).full.lowest.y = p.height - p.width / 2 * sind u.surfaceTilt := by
  have h := physical_of hp hu
  set rot := rotationFromTiltAzimuth u.surfaceAzimuth p.axisAzimuth u.surfaceTilt with hrot
  have := congrArg Pt.y (full_lowest h r)
  rw [tPt_y, zero_mul, add_zero] at this
  refine Eq.trans this ?_
  unfold lowY
  rw [upY_eq_abs h.lo h.hi, hrot, rotation_sind_abs u p hu.tilt_nonneg hu.tilt_lt]

theorem inside_tPt {p : ArrayParams} {B : ℝ} (hB : ArraySize p B) {r : ℕ} (hr : r < p.nRows) (rot : ℝ)
    {t : ℝ} (h0 : 0 ≤ t) (h1 : t ≤ p.width) :
    InBox (3 / 2 * B) (tPt (rowCenter p r) p.width rot t) := by
  have hw := hB.width_pos
  have hd : 0 ≤ p.distance := div_nonneg hw.le hB.gcr_pos.le
  have hx : |(rowCenter p r).x| ≤ B := by
    have := hB.place r hr
    unfold rowCenter
    simp only [X_ORIGIN, zero_add]
    rwa [abs_of_nonneg (by positivity)]
  have hy : |(rowCenter p r).y| ≤ B := by
    unfold rowCenter
    simp only [Y_GROUND, add_zero]
    exact hB.height
  have key : ∀ q, |q| ≤ p.width / 2 → InBox (3 / 2 * B) (rowPt (rowCenter p r) rot q) := by
    intro q hq
    have one : ∀ {x c : ℝ}, |x| ≤ 1 → |c| ≤ B → |q * x + c| ≤ 3 / 2 * B := by
      intro x c h1 h2
      refine (abs_add_le _ _).trans ?_
      rw [abs_mul]
      have := mul_le_mul hq h1 (abs_nonneg _) (by linarith)
      linarith [hB.width]
    exact ⟨one (Real.abs_cos_le_one _) hx, one (Real.abs_sin_le_one _) hy⟩
  unfold tPt
  split_ifs
  · exact key _ (abs_le.2 ⟨by linarith, by linarith⟩)
  · exact key _ (abs_le.2 ⟨by linarith, by linarith⟩)

theorem fastPointErr_ge {ε B K G : ℝ} {p : ArrayParams} {u : StepIn} (h0 : 0 ≤ ε)
    (hu : SunMargin p u K G) (hS : 20 * sineErr ε G * K ^ 3 ≤ 1) (hB : ArraySize p B) (N : ℕ) :
    sceneErr ε (trigErr ε K G) B K (1 / K) ≤ fastPointErr N ε (trigErr ε K G) B K := by
  obtain ⟨hK, hG, -⟩ := hu.facts
  have hS0 : 14 * ε ≤ sineErr ε G := by
    unfold sineErr
    have : 0 ≤ ε * (G / 16) := by positivity
    linarith
  have h1 : ε < 1 := by
    have : sineErr ε G * 1 ≤ sineErr ε G * K ^ 3 :=
      mul_le_mul_of_nonneg_left (one_le_pow₀ hK) (by linarith)
    linarith
  have hη0 : 0 ≤ trigErr ε K G := by
    unfold trigErr
    have : 0 ≤ sineErr ε G := by linarith
    positivity
  set η := trigErr ε K G
  have hB0 : 0 < B := hB.width_pos.trans_le hB.width
  have ge5 := grow_pow_one h0 h1 5
  have end0 : ∀ {b : ℝ}, 0 ≤ b → 0 ≤ endErr ε η b := fun {b} hb => by
    unfold endErr
    exact add_nonneg (mul_nonneg (by linarith) (by positivity)) (by positivity)
  have e0 := end0 hB0.le
  have s0 : 0 ≤ shadeErr ε η B K := by
    unfold shadeErr
    exact add_nonneg (mul_nonneg (by linarith) (by positivity)) (by positivity)
  have g0 : 0 ≤ groundErr ε η B K := by
    have := grow_pow_one h0 h1 3
    unfold groundErr
    exact add_nonneg (add_nonneg (mul_nonneg (by linarith) (by positivity)) (by positivity))
      (by positivity)
  set τ₀ := sceneErr ε η B K (1 / K) with hτ₀
  have hτ₀0 : 0 ≤ τ₀ := by rw [hτ₀]; unfold sceneErr; positivity
  have Ls0 : 0 ≤ lengthErr N ε B τ₀ := by
    have := grow_pow_one h0 h1 (N + 4)
    unfold lengthErr
    exact add_nonneg (mul_nonneg (by linarith) (by positivity)) (by positivity)
  have := end0 (show 0 ≤ B + lengthErr N ε B τ₀ by linarith)
  unfold fastPointErr shadeEndErr
  linarith

/-- View factors of fast mode for coordinates that are close to the exact ones. -/
theorem fast_view_factors {ε B K G w c : ℝ} (h0 : 0 ≤ ε) (A : TrigArith ε) (Z : SumTree)
    (p : ArrayParams) (u : StepIn) (hp : PhysicalArray p) (hst : PhysicalStep p u) (hB : ArraySize p B)
    (hu : SunMargin p u K G) (T : Trig) (sun' : Pt) (htr : TrigNear (fitStep p u).rot.deg (fitStep p u).alpha T
      (trigErr ε K G) K)
    (eg : A.fitStep p u = A.fitGeom p (fitStep p u).rot sun' T)
    (eT : T = { A.trig (A.fitStep p u).rot.deg (A.fitStep p u).alpha with tanRot := T.tanRot })
    (hn₀ : CoordsNear p (fitStep p u) (A.fitStep p u) (sceneErr ε (trigErr ε K G) B K (1 / K)))
    (hz : (fitStep p u).rot.deg = 0 → (fitStep p u).rot.negZero)
    (hS : 20 * sineErr ε G * K ^ 3 ≤ 1)
    (hd : shadeErr ε (trigErr ε K G) B K * K < p.distance)
    (hTOL : shadeErr ε (trigErr ε K G) B K < TOL)
    (hf : ∀ x, x = (interrowShading p (fitStep p u).alpha (fitStep p u).rot.deg).1 ∨
      x = (interrowShading p (fitStep p u).alpha (fitStep p u).rot.deg).2 → x = 0 ∨ 2 * TOL ≤ x)
    (hw : w ≤ p.width)
    (hlong : ∀ a ∈ surfaces p, ((fitStep p u).coords a).length = 0 ∨
      w ≤ ((fitStep p u).coords a).length)
    (hZ : Z.leaves = Multiset.range p.nRows)
    (hc : c ≤ p.height - p.width / 2 * sind u.surfaceTilt)
    (N : ℕ) (hN : ∀ j < p.nRows, p.nFront j ≤ N)
    (τ : ℝ) (hτd : τ = fastPointErr N ε (trigErr ε K G) B K) (hτ : 2 * K * τ < w)
    (hτT : 4 * τ ≤ TOL) (hτc : 4 * τ < c) (hw2 : 2 * TOL ≤ w - 2 * τ)
    (r k : ℕ) (sh : Bool) (ha : SurfRef.pv r .back k sh ∈ surfaces p) :
    FastNear p.nRows ε (stringErr ε (fastSize B K τ) w c τ)
      (A.fastVF Z p u r (.pv r .back k sh))
      (fastVF p (fitStep p u) r ((fitStep p u).coords (.pv r .back k sh))) := by
  obtain ⟨hK, hG, hy0, hy, hx1, hy1, hsq⟩ := hu.facts
  have hphys := physical_of hp hst
  have TP := TOL_pos
  set rot := rotationFromTiltAzimuth u.surfaceAzimuth p.axisAzimuth u.surfaceTilt with hrot
  set sun := solar2dVector u.solarZenith u.solarAzimuth p.axisAzimuth with hsun
  change TrigNear rot.deg (arctan2 sun.y sun.x) T _ K at htr
  change A.fitStep p u = A.fitGeom p rot sun' T at eg
  set η := trigErr ε K G with hη
  have hS0 : 14 * ε ≤ sineErr ε G := by
    unfold sineErr
    have : 0 ≤ ε * (G / 16) := by positivity
    linarith
  have hK0 : 0 < K := by linarith
  have h8 : ε ≤ 1 / 8 := by
    have : sineErr ε G * 1 ≤ sineErr ε G * K ^ 3 :=
      mul_le_mul_of_nonneg_left (one_le_pow₀ hK) (by linarith)
    linarith
  have h1 : ε < 1 := by linarith
  have hη0 : 0 ≤ η := (abs_nonneg _).trans htr.cs
  have hB0 : 0 < B := hB.width_pos.trans_le hB.width
  have ge5 := grow_pow_one h0 h1 5
  have end0 : ∀ {b : ℝ}, 0 ≤ b → 0 ≤ endErr ε η b := fun {b} hb => by
    unfold endErr
    exact add_nonneg (mul_nonneg (by linarith) (by positivity)) (by positivity)
  have e0 := end0 hB0.le
  have s0 : 0 ≤ shadeErr ε η B K := by
    unfold shadeErr
    exact add_nonneg (mul_nonneg (by linarith) (by positivity)) (by positivity)
  have g0 : 0 ≤ groundErr ε η B K := by
    have := grow_pow_one h0 h1 3
    unfold groundErr
    exact add_nonneg (add_nonneg (mul_nonneg (by linarith) (by positivity)) (by positivity))
      (by positivity)
  set τ₀ := sceneErr ε η B K (1 / K) with hτ₀
  have q0 : 0 ≤ 2 * (endErr ε η B + shadeErr ε η B K) * (1 + 1 / (1 / K)) := by positivity
  have hτ₀0 : 0 ≤ τ₀ := by rw [hτ₀]; unfold sceneErr; positivity
  have tg : groundErr ε η B K ≤ τ₀ := by rw [hτ₀]; unfold sceneErr; linarith
  have te : endErr ε η B + endErr ε η B ≤ τ₀ := by
    have : 0 ≤ 2 * (endErr ε η B + shadeErr ε η B K) * (1 / (1 / K)) := by positivity
    rw [hτ₀]; unfold sceneErr; linarith
  set Ls := lengthErr N ε B τ₀ with hLs
  have Ls0 : 0 ≤ Ls := by
    have := grow_pow_one h0 h1 (N + 4)
    rw [hLs]; unfold lengthErr
    exact add_nonneg (mul_nonneg (by linarith) (by positivity)) (by positivity)
  have hs2 : 2 * endErr ε η (B + Ls) + Ls = shadeEndErr N ε η B τ₀ := rfl
  have sh0 : 0 ≤ shadeEndErr N ε η B τ₀ := by
    rw [← hs2]
    have := end0 (show 0 ≤ B + Ls by linarith)
    linarith
  have hτs : τ = τ₀ + shadeEndErr N ε η B τ₀ := hτd
  have hle : τ₀ ≤ τ := by linarith
  have hτ0 : 0 ≤ τ := by linarith
  have hw0 : 0 < w := by linarith
  have hn := hn₀.mono hle
  obtain ⟨hr, hk⟩ := mem_allRefs_pv.1 (mem_surfaces.1 ha)
  -- the ground
  have hm : 1 < p.nRows → shadeErr ε η B K
      < |shadingDelta p.distance (arctan2 sun.y sun.x) rot.deg| := fun _ => hu.delta hp hst s0 hd
  have sl := A.toArith.interrow_near h0 h1 hB htr hm
  have flag : (A.fitStep p u).ground.flagOverlap ↔ (fitStep p u).ground.flagOverlap := by
    have one : ∀ {x x' : ℝ}, |x' - x| ≤ shadeErr ε η B K → (x = 0 ∨ 2 * TOL ≤ x) →
        (x' > TOL ↔ x > TOL) := by
      intro x x' h1 h2
      obtain ⟨l, u⟩ := abs_le.1 h1
      rcases h2 with h | h <;> constructor <;> intro _ <;> linarith
    rw [eg]
    exact or_congr (one sl.1 (hf _ (Or.inl rfl))) (one sl.2 (hf _ (Or.inr rfl)))
  obtain ⟨gs, -⟩ := ground_near hτ0 (g := (fitStep p u).ground) (g' := (A.fitStep p u).ground)
    (by rw [eg]; rfl) flag (fun i hi => by
      rw [eg]
      have := (A.toArith.shadow_near (rot := rot) h0 h1 hB htr hi).1
      exact ⟨this.1.trans (tg.trans hle), this.2.trans (tg.trans hle)⟩)
  have cutE : (fitStep p u).ground.cuts.getD r .posInf
      = cutPointX (fullRowCoords (rowCenter p r) p.width rot.deg) rot := by
    change ((List.range p.nRows).map _).getD r _ = _
    simp [List.getD_eq_getElem?_getD, List.getElem?_range hr]
    rfl
  have cutE' : (A.fitStep p u).ground.cuts.getD r .posInf
      = A.cutPointX (A.fullRowCoords (A.rowCenter p r) p.width T.cs T.sn T.cs180 T.sn180) rot
        T.tanRot := by
    rw [eg]
    change ((List.range p.nRows).map _).getD r _ = _
    simp [List.getD_eq_getElem?_getD, List.getElem?_range hr]
    rfl
  have cutN := (A.toArith.shadow_near (rot := rot) h0 h1 hB htr hr).2
  rw [← cutE, ← cutE'] at cutN
  have cutX : ∃ x, (fitStep p u).ground.cuts.getD r .posInf = .posInf ∨
      (fitStep p u).ground.cuts.getD r .posInf = .fin x ∧ |x| ≤ 3 / 2 * B * (1 + K) := by
    rw [cutE]
    unfold cutPointX
    by_cases hrot0 : rot.deg = 0
    · rw [if_pos hrot0, if_pos (show rot.negZero = true from hz hrot0)]
      exact ⟨0, Or.inl rfl⟩
    · rw [if_neg hrot0]
      refine ⟨_, Or.inr ⟨rfl, ?_⟩⟩
      obtain ⟨⟨mx, my⟩, -⟩ := Arith.full_size (rot := rot.deg) hB hr
      simp only [Y_GROUND, sub_zero, mul_div_assoc]
      refine (abs_sub _ _).trans ?_
      rw [abs_mul]
      have := mul_le_mul my htr.cotRot_le (abs_nonneg _) (by positivity)
      linarith
  obtain ⟨x, hx⟩ := cutX
  have cutX' : ∃ x', (A.fitStep p u).ground.cuts.getD r .posInf = .posInf ∨
      (A.fitStep p u).ground.cuts.getD r .posInf = .fin x' ∧ |x'| ≤ 3 / 2 * B * (1 + K) + τ := by
    rcases hx with hx | ⟨hx, hxM⟩ <;> rw [hx] at cutN
    · cases hc' : (A.fitStep p u).ground.cuts.getD r .posInf with
      | negInf => rw [hc'] at cutN; exact cutN.elim
      | posInf => exact ⟨0, Or.inl rfl⟩
      | fin x' => rw [hc'] at cutN; exact cutN.elim
    · cases hc' : (A.fitStep p u).ground.cuts.getD r .posInf with
      | negInf => rw [hc'] at cutN; exact cutN.elim
      | posInf => rw [hc'] at cutN; exact cutN.elim
      | fin x' =>
        rw [hc'] at cutN
        refine ⟨x', Or.inr ⟨rfl, ?_⟩⟩
        have e : |x' - x| ≤ τ := LE.le.trans cutN (tg.trans hle)
        have := abs_add_le (x' - x) x
        rw [sub_add_cancel] at this
        linarith
  have cutT : XRNear τ ((fitStep p u).ground.cuts.getD r .posInf)
      ((A.fitStep p u).ground.cuts.getD r .posInf) := by
    cases hc : (fitStep p u).ground.cuts.getD r .posInf <;>
      cases hc' : (A.fitStep p u).ground.cuts.getD r .posInf <;> rw [hc, hc'] at cutN
    · trivial
    · exact cutN.elim
    · exact cutN.elim
    · exact cutN.elim
    · exact LE.le.trans cutN (tg.trans hle)
    · exact cutN.elim
    · exact cutN.elim
    · exact cutN.elim
    · trivial
  obtain ⟨x', hx'⟩ := cutX'
  -- shaded parts of the rows
  have front : ∀ j < p.nRows, |A.sideShadedLength ((A.fitStep p u).row j).front
      - sideShadedLength ((fitStep p u).row j).front| ≤ Ls := by
    intro j hj
    have fr := (front_shade (sun := sun) hphys j).2
    refine A.toArith.shadedLength_err h0 h1 hτ₀0 (N := N) ?_ ?_ (fr.2.trans hB.width)
    · change ((List.range (p.nFront j)).map _).length ≤ N
      rw [List.length_map, List.length_range]
      exact hN j hj
    · have el : ∀ q < p.nFront j, |((A.fitStep p u).coords (.pv j .front q true)).length
          - ((fitStep p u).coords (.pv j .front q true)).length| ≤ 2 * τ₀ := fun q hq =>
        hn₀.length (mem_surfaces.2 (mem_allRefs_pv.2 ⟨hj, hq⟩))
      have c1 : ∀ q < p.nFront j, (fitStep p u).coords (.pv j .front q true)
          = (sideSegment (rowCenter p j) p.width rot.deg (p.nFront j)
              (rowShadedLengths p (arctan2 sun.y sun.x) rot.deg j).1 q).shaded := by
        intro q hq
        change (((List.range (p.nFront j)).map (sideSegment _ _ _ _ _)).getD q default).shaded = _
        simp [List.getD_eq_getElem?_getD, List.getElem?_range hq]
        rfl
      have c2 : ∀ q < p.nFront j, (A.fitStep p u).coords (.pv j .front q true)
          = (A.sideSegment (A.rowCenter p j) p.width rot.deg T (p.nFront j)
              (A.rowShadedLengths p T rot.deg j).1 q).shaded := by
        intro q hq
        rw [eg]
        change (((List.range (p.nFront j)).map (A.sideSegment _ _ _ _ _ _)).getD q
          default).shaded = _
        simp [List.getD_eq_getElem?_getD, List.getElem?_range hq]
      rw [eg]
      change List.Forall₂ _ ((List.range (p.nFront j)).map _) ((List.range (p.nFront j)).map _)
      rw [List.forall₂_map_left_iff, List.forall₂_map_right_iff, List.forall₂_same]
      intro q hq
      have hq := List.mem_range.1 hq
      have := el q hq
      rw [c1 q hq, c2 q hq] at this
      exact this
  set shade : ℕ → Pt := fun j => (shadedSideCoords ((fitStep p u).row j).center p.width
    (sideShadedLength ((fitStep p u).row j).front) ((fitStep p u).rot.deg > 0) (fitStep p u).rot.deg
    ((fitStep p u).row j).full.lowest).b1 with hshade
  set shade' : ℕ → Pt := fun j => (A.shadedSideCoords ((A.fitStep p u).row j).center p.width
    (A.sideShadedLength ((A.fitStep p u).row j).front) ((A.fitStep p u).rot.deg > 0) T
    ((A.fitStep p u).row j).full.lowest).b1 with hshade'
  have shN : ∀ j < p.nRows, distPt (shade j) (shade' j) ≤ τ := by
    intro j hj
    have fr := (front_shade (sun := sun) hphys j).2
    have := A.toArith.shadedSide_near h0 h1 hB htr hj fr.1 fr.2 (front j hj) (rot.deg > 0)
      ((fitStep p u).row j).full.lowest ((A.fitStep p u).row j).full.lowest
    have e : shade' j = (A.shadedSideCoords (A.rowCenter p j) p.width
        (A.sideShadedLength ((A.fitStep p u).row j).front) (rot.deg > 0) T
        ((A.fitStep p u).row j).full.lowest).b1 := by
      rw [hshade']
      dsimp only
      rw [show ((A.fitStep p u).row j).center = A.rowCenter p j by rw [eg]; rfl,
        show (A.fitStep p u).rot = rot by rw [eg]; rfl]
    rw [e]
    refine this.trans ?_
    rw [hs2]
    linarith
  -- sizes
  set M₀ := 100 + 3 / 2 * B * (1 + K) with hM₀
  have hB1 : 3 / 2 * B ≤ M₀ := by
    have : 0 ≤ 3 / 2 * B * K := by positivity
    rw [hM₀]; linarith
  have hBK : 3 / 2 * B * (1 + K) ≤ M₀ := by rw [hM₀]; linarith
  have hM100 : 100 ≤ M₀ + τ := by
    have : 0 ≤ 3 / 2 * B * (1 + K) := by positivity
    rw [hM₀]; linarith
  have hsize : fastSize B K τ = 4 * (M₀ + τ) := rfl
  have fullN : ∀ j < p.nRows, distPt ((fitStep p u).row j).full.b1 ((A.fitStep p u).row j).full.b1 ≤ τ ∧
      distPt ((fitStep p u).row j).full.b2 ((A.fitStep p u).row j).full.b2 ≤ τ := by
    intro j hj
    obtain ⟨⟨x1, y1⟩, x2, y2⟩ := A.toArith.full_near h0 h1 hB htr hj
    rw [eg]
    exact ⟨(Arith.dist_le_of x1 y1).trans (te.trans hle), (Arith.dist_le_of x2 y2).trans (te.trans hle)⟩
  have fullI : ∀ j < p.nRows, InBox M₀ ((fitStep p u).row j).full.b1 ∧
      InBox M₀ ((fitStep p u).row j).full.b2 := by
    intro j hj
    obtain ⟨⟨x1, y1⟩, x2, y2⟩ := Arith.full_size (rot := rot.deg) hB hj
    exact ⟨⟨x1.trans hB1, y1.trans hB1⟩, ⟨x2.trans hB1, y2.trans hB1⟩⟩
  have pvI : InBox M₀ ((fitStep p u).coords (.pv r .back k sh)).b1 ∧
      InBox M₀ ((fitStep p u).coords (.pv r .back k sh)).b2 := by
    have hcd : (fitStep p u).coords (.pv r .back k sh) = _ :=
      coords_pv_t (rot := rot) (sun := sun) hk sh hphys.width.le hphys.lo hphys.hi
    obtain ⟨b1, b2, b3⟩ := pv_iv_bounds (rot := rot) (sun := sun) hk sh hphys.width.le
    have i1 := (inside_tPt hB hr rot.deg b1 (b2.trans b3)).mono hB1
    have i2 := (inside_tPt hB hr rot.deg (b1.trans b2) b3).mono hB1
    rw [hcd]
    split_ifs
    exacts [⟨i2, i1⟩, ⟨i1, i2⟩]
  have shI : ∀ j < p.nRows, InBox M₀ (shade j) := by
    intro j hj
    have fr := (front_shade (sun := sun) hphys j).2
    have e : shade j = tPt (rowCenter p j) p.width rot.deg
        (sideShadedLength ((fitStep p u).row j).front) :=
      congrArg Line.b1 (shadedSideCoords_eq (sun := sun) hphys j _)
    rw [e]
    exact (inside_tPt hB hj _ fr.1 fr.2).mono hB1
  have low := (C96_above p u hp hst).weaken hc le_rfl (by linarith)
  have low' := C98_above p (fitStep p u) (A.fitStep p u) hn hτ0 low (by linarith)
  have up : ∀ j < p.nRows, c ≤ ((fitStep p u).row j).full.lowest.y := fun j _ => by
    rw [lowest_y p u hp hst]; exact hc
  have S : FastScene p.nRows r (fitStep p u) ((fitStep p u).coords (.pv r .back k sh)) shade (M₀ + τ)
      (w - 2 * τ) (c - 2 * τ) (2 * τ) := by
    refine ⟨?_, ⟨pvI.1.mono (by linarith), pvI.2.mono (by linarith)⟩, fun j hj =>
      ⟨(fullI j hj).1.mono (by linarith), (fullI j hj).2.mono (by linarith)⟩,
      fun j hj => (shI j hj).mono (by linarith), fun j hj => by linarith [up j hj], fun j hj => ?_,
      cut_bounds hM100 (hx.imp_right fun h => ⟨h.1, by linarith [h.2]⟩)⟩
    · rcases hlong _ ha with h | h
      · exact Or.inl (by linarith)
      · exact Or.inr (by linarith)
    · have l1 := low.low r .back k sh ha _ (Or.inl rfl) j hj
      have l2 := low.low r .back k sh ha _ (Or.inr rfl) j hj
      exact ⟨by linarith, by linarith⟩
  have S' : FastScene p.nRows r (A.fitStep p u) ((A.fitStep p u).coords (.pv r .back k sh)) shade'
      (M₀ + τ) (w - 2 * τ) (c - 2 * τ) (2 * τ) := by
    obtain ⟨n1, n2⟩ := hn.ends _ ha
    refine ⟨?_, ⟨pvI.1.near n1, pvI.2.near n2⟩, fun j hj =>
      ⟨(fullI j hj).1.near (fullN j hj).1, (fullI j hj).2.near (fullN j hj).2⟩,
      fun j hj => (shI j hj).near (shN j hj), fun j hj => ?_, fun j hj => ?_,
      cut_bounds hM100 (hx'.imp_right fun h => ⟨h.1, by linarith [h.2]⟩)⟩
    · have l := abs_le.1 (hn.length ha)
      rcases hlong _ ha with h | h
      · rw [h] at l; exact Or.inl (by linarith [l.2])
      · exact Or.inr (by linarith [l.1])
    · have := abs_le.1 (distPt_y (hn.edge j hj))
      linarith [up j hj, this.2]
    · have l1 := low'.low r .back k sh ha _ (Or.inl rfl) j hj
      have l2 := low'.low r .back k sh ha _ (Or.inr rfl) j hj
      exact ⟨by linarith, by linarith⟩
  have P : FastPair p.nRows r (fitStep p u) (A.fitStep p u) ((fitStep p u).coords (.pv r .back k sh))
      ((A.fitStep p u).coords (.pv r .back k sh)) shade shade' τ := by
    exact ⟨hn.tilt, hn.ends _ ha, hn.high r .back k sh ha, fullN, hn.edge, shN, gs, cutT⟩
  have res := A.toArith.fast_near h0 h8 hτ0 hw2 (by linarith) (by linarith)
    (show w - 2 * τ ≤ 4 * (M₀ + τ) by linarith [hB.width]) (by linarith) hM100
    S S' P hr (T := T) hZ (fun j _ => rfl) (fun j _ => rfl)
    (C28_range p u hp hst r k sh ha)
  have eV : A.fastVF Z p u r (.pv r .back k sh) = A.toArith.fastVF Z p (A.fitStep p u) T r
      ((A.fitStep p u).coords (.pv r .back k sh)) := by
    rw [eT]; rfl
  unfold stringErr
  rw [eV, hsize]
  exact res

/-- C100: all view factors of fast mode that are computed from the inputs of a time step, with rounding
errors in all operations and in trigonometric functions, are close to the exact ones. -/
theorem C100_view_factors {ε B K G w c : ℝ} (h0 : 0 ≤ ε) (A : TrigArith ε) (Z : SumTree)
    (p : ArrayParams) (u : StepIn) (hp : PhysicalArray p) (hst : PhysicalStep p u) (hB : ArraySize p B)
    (hu : StepMargin p u ε K G) (hS : 20 * sineErr ε G * K ^ 3 ≤ 1)
    (hd : shadeErr ε (trigErr ε K G) B K * K < p.distance)
    (hTOL : shadeErr ε (trigErr ε K G) B K < TOL)
    (hf : ∀ x, x = (interrowShading p (fitStep p u).alpha (fitStep p u).rot.deg).1 ∨
      x = (interrowShading p (fitStep p u).alpha (fitStep p u).rot.deg).2 → x = 0 ∨ 2 * TOL ≤ x)
    (hw : w ≤ p.width)
    (hlong : ∀ a ∈ surfaces p, ((fitStep p u).coords a).length = 0 ∨
      w ≤ ((fitStep p u).coords a).length)
    (hZ : Z.leaves = Multiset.range p.nRows)
    (hc : c ≤ p.height - p.width / 2 * sind u.surfaceTilt)
    (N : ℕ) (hN : ∀ j < p.nRows, p.nFront j ≤ N)
    (τ : ℝ) (hτd : τ = fastPointErr N ε (trigErr ε K G) B K) (hτ : 2 * K * τ < w)
    (hτT : 4 * τ ≤ TOL) (hτc : 4 * τ < c) (hw2 : 2 * TOL ≤ w - 2 * τ)
    (r k : ℕ) (sh : Bool) (ha : SurfRef.pv r .back k sh ∈ surfaces p) :
    FastNear p.nRows ε (stringErr ε (fastSize B K τ) w c τ)
      (A.fastVF Z p u r (.pv r .back k sh))
      (fastVF p (fitStep p u) r ((fitStep p u).coords (.pv r .back k sh))) := by
  have htr := C99_trig h0 A p u hst hu hS
  obtain ⟨hK, hG, hy0, hy, hx1, hy1, hsq⟩ := hu.facts
  have hle : sceneErr ε (trigErr ε K G) B K (1 / K) ≤ τ := by
    have := fastPointErr_ge h0 hu.sun hS hB N
    rw [hτd]; exact this
  have hKτ : 2 * K * sceneErr ε (trigErr ε K G) B K (1 / K) < w :=
    lt_of_le_of_lt (mul_le_mul_of_nonneg_left hle (by linarith)) hτ
  have eg : A.fitStep p u = A.fitGeom p (fitStep p u).rot
      (A.sun u.solarZenith u.solarAzimuth p.axisAzimuth)
      (A.trig (fitStep p u).rot.deg
        (A.atan2 (A.sun u.solarZenith u.solarAzimuth p.axisAzimuth).y
          (A.sun u.solarZenith u.solarAzimuth p.axisAzimuth).x)) := by
    unfold TrigArith.fitStep
    rw [C99_rotation h0 A p u hu]
    rfl
  refine fast_view_factors h0 A Z p u hp hst hB hu.sun _ _ htr eg (by rw [eg]; rfl)
    (C99_step h0 A p u hp hst hB hu hS hd hTOL hf hw hlong hKτ) (fun h => ?_) hS hd hTOL hf hw hlong hZ hc N
    hN τ hτd hτ hτT hτc hw2 r k sh ha
  have h2 := hu.tilt
  have h3 : |sind (fitStep p u).rot.deg| = sind u.surfaceTilt :=
    rotation_sind_abs u p hst.tilt_nonneg hst.tilt_lt
  rw [h, sind_zero, abs_zero] at h3
  rw [← h3, abs_zero, mul_zero] at h2
  linarith

/-- C100: everything that fast mode stores in a surface is as exact as its view factors, up to rounding
errors of the products and sums. -/
theorem C100_stored {ε E : ℝ} (h0 : 0 ≤ ε) (h1 : ε < 1) (A : Arith ε) (n : ℕ) (hn : 0 < n)
    (v v' : FastVF) (s : IrrStep) (a : SurfRef) (hE : 0 ≤ E) (hN : FastNear n ε E v' v)
    (hv : ∀ x ∈ [v.toGndShaded, v.toGndIllum, v.toPvrowShaded, v.toPvrowIllum, v.toSky], |x| ≤ 1) :
    let refl := v.toGndShaded * s.albedo * s.gndShaded
        + v.toGndIllum * s.albedo * s.gndIllum + v.toPvrowShaded * s.rhoFront * s.pvrowShaded
        + v.toPvrowIllum * s.rhoFront * s.pvrowIllum
    (A.fastSurface v' s a).viewFactors = v' ∧
    FastOutNear ε (fastErr n ε E) s a (A.fastSurface v' s a)
      { skyTerm := (s.comp a).sum
        qinc := refl + v.toSky * s.sky + (s.comp a).sum
        reflectionGndShaded := v.toGndShaded * s.albedo * s.gndShaded
        reflectionGndIllum := v.toGndIllum * s.albedo * s.gndIllum
        reflectionPvrowShaded := v.toPvrowShaded * s.rhoFront * s.pvrowShaded
        reflectionPvrowIllum := v.toPvrowIllum * s.rhoFront * s.pvrowIllum
        isotropic := v.toSky * s.sky
        reflection := refl
        viewFactors := v } := by
  intro refl
  set F := fastErr n ε E with hF
  set m := (s.comp a).length with hm
  have S0 : 0 ≤ vfSumErr n ε E := by
    have := grow_pow_one h0 h1 n
    unfold vfSumErr
    exact add_nonneg (by positivity) (mul_nonneg (by linarith) (by positivity))
  have dm : ∀ {d e : ℝ}, d ≤ e → diffErr ε d ≤ diffErr ε e := fun {d e} h => by
    unfold diffErr
    have := mul_le_mul_of_nonneg_left h h0
    linarith
  have dg : ∀ {d : ℝ}, 0 ≤ d → d ≤ diffErr ε d := fun {d} h => by
    unfold diffErr
    have : 0 ≤ ε * (1 + d) := by positivity
    linarith
  have ES : E ≤ vfSumErr n ε E := by
    have := grow_pow_one h0 h1 n
    have hn1 : (1 : ℝ) ≤ n := by exact_mod_cast hn
    unfold vfSumErr
    have : 0 ≤ (grow ε ^ n - 1) * (n * (1 + E)) := mul_nonneg (by linarith) (by positivity)
    nlinarith
  have dE := dg hE
  have f1 : vfSumErr n ε E ≤ F := le_trans (by linarith) (dg (by linarith))
  have f2 : diffErr ε (vfSumErr n ε E + E) ≤ F := dm (by linarith)
  have f3 : E ≤ F := ES.trans f1
  have f4 : diffErr ε (E + E) ≤ F := dm (by linarith)
  have f5 : diffErr ε (E + diffErr ε E) ≤ F := dm (by linarith)
  have F0 : 0 ≤ F := hE.trans f3
  have big : ∀ {x' x : ℝ}, |x' - x| ≤ F → |x| ≤ 1 → |x'| ≤ 1 + F := fun {x' x} h h' => by
    have := abs_add_le (x' - x) x
    rw [sub_add_cancel] at this
    linarith
  have term : ∀ {x' x y z : ℝ}, |x' - x| ≤ F → |x| ≤ 1 →
      Near ε 2 (A.mul (A.mul x' y) z) (x' * y * z) ((1 + F) * |y| * |z|) ∧
      |x' * y * z - x * y * z| ≤ F * (|y| * |z|) := by
    intro x' x y z h h'
    refine ⟨((((((near_self (big h h')).mul h0 h1 (near_self (le_refl |y|))).round h0 h1
      (A.mul_err _ _))).mul h0 h1 (near_self (le_refl |z|))).round h0 h1 (A.mul_err _ _)).mono h0 h1
      (by norm_num), ?_⟩
    rw [show x' * y * z - x * y * z = (x' - x) * (y * z) by ring, abs_mul, abs_mul]
    exact mul_le_mul_of_nonneg_right h (by positivity)
  obtain ⟨t1, u1⟩ := term (y := s.albedo) (z := s.gndShaded) (hN.gndShaded.trans f1) (hv _ (by simp))
  obtain ⟨t2, u2⟩ := term (y := s.albedo) (z := s.gndIllum) (hN.gndIllum.trans f2) (hv _ (by simp))
  obtain ⟨t3, u3⟩ := term (y := s.rhoFront) (z := s.pvrowShaded) (hN.pvrowShaded.trans f3)
    (hv _ (by simp))
  obtain ⟨t4, u4⟩ := term (y := s.rhoFront) (z := s.pvrowIllum) (hN.pvrowIllum.trans f4)
    (hv _ (by simp))
  have hsk := hN.sky.trans f5
  have t5 := ((near_self (big hsk (hv v.toSky (by simp)))).mul h0 h1
    (near_self (ε := ε) (le_refl |s.sky|))).round h0 h1 (A.mul_err _ _)
  have u5 : |v'.toSky * s.sky - v.toSky * s.sky| ≤ F * |s.sky| := by
    rw [← sub_mul, abs_mul]
    exact mul_le_mul_of_nonneg_right hsk (abs_nonneg _)
  have t6 := A.fold_near h0 h1 (s.comp a) (near_self (ε := ε) (x := 0) (m := 0) (by simp))
  rw [zero_add, zero_add, zero_add, ← hm] at t6
  have a1 := (t1.add h0 h1 t2).round h0 h1 (A.add_err _ _)
  have a2 := (a1.add h0 h1 (t3.mono h0 h1 (by norm_num))).round h0 h1 (A.add_err _ _)
  have a3 := (a2.add h0 h1 (t4.mono h0 h1 (by norm_num))).round h0 h1 (A.add_err _ _)
  have a4 := (a3.add h0 h1 (t5.mono h0 h1 (show 0 + 0 + 1 ≤ 5 by norm_num))).round h0 h1 (A.add_err _ _)
  have a5 := (((a4.mono h0 h1 (show 2 + 1 + 1 + 1 + 1 ≤ m + 6 by omega)).add h0 h1
    (t6.mono h0 h1 (show m ≤ m + 6 by omega))).round h0 h1 (A.add_err _ _)).1
  have fin : ∀ q q' x' x Λ Q : ℝ, |q - q'| ≤ (grow ε ^ (m + 7) - 1) * ((1 + F) * Λ + Q) →
      |q' - x| ≤ F * Λ → |q - x| ≤ (grow ε ^ (m + 7) - 1) * ((1 + F) * Λ + Q) + F * Λ :=
    fun q q' x' x Λ Q h h' => (abs_sub_le _ _ _).trans (add_le_add h h')
  have fin2 : ∀ {k : ℕ} {q q' x m l : ℝ}, Near ε k q q' m → m = (1 + F) * l → |q' - x| ≤ F * l →
      |q - x| ≤ lightErr k ε F l := fun {k q q' x m l} h hm h' =>
    (abs_sub_le _ _ _).trans (add_le_add (h.1.trans (by rw [hm])) h')
  have u6 : |v'.toGndShaded * s.albedo * s.gndShaded
        + v'.toGndIllum * s.albedo * s.gndIllum + v'.toPvrowShaded * s.rhoFront * s.pvrowShaded
        + v'.toPvrowIllum * s.rhoFront * s.pvrowIllum - refl| ≤ F * (fastLight s - |s.sky|) := by
    unfold fastLight
    obtain ⟨l1, r1⟩ := abs_le.1 u1
    obtain ⟨l2, r2⟩ := abs_le.1 u2
    obtain ⟨l3, r3⟩ := abs_le.1 u3
    obtain ⟨l4, r4⟩ := abs_le.1 u4
    rw [abs_le]
    constructor <;> linarith
  refine ⟨rfl, t6.1, fin2 t1 (by ring) u1, fin2 t2 (by ring) u2, fin2 t3 (by ring) u3,
    fin2 t4 (by ring) u4, fin2 t5 rfl u5, fin2 a3 (by unfold fastLight; ring) u6, ?_⟩
  refine fin _ (v'.toGndShaded * s.albedo * s.gndShaded
        + v'.toGndIllum * s.albedo * s.gndIllum + v'.toPvrowShaded * s.rhoFront * s.pvrowShaded
        + v'.toPvrowIllum * s.rhoFront * s.pvrowIllum + v'.toSky * s.sky + (s.comp a).sum) 0 _ _ _
      (le_trans a5 (le_of_eq ?_)) ?_
  · unfold fastLight; ring
  · unfold fastLight
    obtain ⟨l1, r1⟩ := abs_le.1 u1
    obtain ⟨l2, r2⟩ := abs_le.1 u2
    obtain ⟨l3, r3⟩ := abs_le.1 u3
    obtain ⟨l4, r4⟩ := abs_le.1 u4
    obtain ⟨l5, r5⟩ := abs_le.1 u5
    rw [abs_le]
    constructor <;> linarith

/-- What fast mode stores is close to the exact values if its view factors are. -/
theorem fast_stored {ε E K G : ℝ} (h0 : 0 ≤ ε) (A : TrigArith ε) (Z : SumTree)
    (p : ArrayParams) (u : StepIn) (s : IrrStep) (hp : PhysicalArray p) (hst : PhysicalStep p u)
    (hu : SunMargin p u K G) (hS : 20 * sineErr ε G * K ^ 3 ≤ 1)
    (r k : ℕ) (sh : Bool) (ha : SurfRef.pv r .back k sh ∈ surfaces p)
    (hv : FastNear p.nRows ε E (A.fastVF Z p u r (.pv r .back k sh))
      (fastVF p (fitStep p u) r ((fitStep p u).coords (.pv r .back k sh)))) :
    let a := SurfRef.pv r .back k sh
    FastOutNear ε (fastErr p.nRows ε E) s a
      (A.fastStep Z p u s r a) (fastSurface p (fitStep p u) s r a) := by
  intro a
  have hr := (mem_allRefs_pv.1 (mem_surfaces.1 ha)).1
  obtain ⟨hK, hG, -⟩ := hu.facts
  have h1 : ε < 1 := by
    have hS0 : 14 * ε ≤ sineErr ε G := by
      unfold sineErr
      have : 0 ≤ ε * (G / 16) := by positivity
      linarith
    have : sineErr ε G * 1 ≤ sineErr ε G * K ^ 3 :=
      mul_le_mul_of_nonneg_left (one_le_pow₀ hK) (by linarith)
    linarith
  have range := C28_range p u hp hst r k sh ha
  dsimp only at range
  have le1 : ∀ x : ℝ, 0 ≤ x ∧ x ≤ 1 → |x| ≤ 1 := fun x hx => abs_le.2 ⟨by linarith [hx.1], hx.2⟩
  have := C100_stored h0 h1 A.toArith p.nRows (by omega) _ _ s a ((abs_nonneg _).trans hv.gndTotal) hv
    (fun x hx => le1 x (range x (by
      simp only [List.mem_cons, List.not_mem_nil, or_false] at hx ⊢
      rcases hx with h | h | h | h | h <;> simp [h])))
  rw [← sumComponents_eq] at this
  exact this.2

/-- C100: everything that fast mode stores in a surface, when all from the inputs of the time step to
the sums is computed with rounding errors, is close to that of exact fast mode. -/
theorem C100_fast_mode {ε B K G w c : ℝ} (h0 : 0 ≤ ε) (A : TrigArith ε) (Z : SumTree)
    (p : ArrayParams) (u : StepIn) (s : IrrStep) (hp : PhysicalArray p) (hst : PhysicalStep p u)
    (hB : ArraySize p B)
    (hu : StepMargin p u ε K G) (hS : 20 * sineErr ε G * K ^ 3 ≤ 1)
    (hd : shadeErr ε (trigErr ε K G) B K * K < p.distance)
    (hTOL : shadeErr ε (trigErr ε K G) B K < TOL)
    (hf : ∀ x, x = (interrowShading p (fitStep p u).alpha (fitStep p u).rot.deg).1 ∨
      x = (interrowShading p (fitStep p u).alpha (fitStep p u).rot.deg).2 → x = 0 ∨ 2 * TOL ≤ x)
    (hw : w ≤ p.width)
    (hlong : ∀ a ∈ surfaces p, ((fitStep p u).coords a).length = 0 ∨
      w ≤ ((fitStep p u).coords a).length)
    (hZ : Z.leaves = Multiset.range p.nRows)
    (hc : c ≤ p.height - p.width / 2 * sind u.surfaceTilt)
    (N : ℕ) (hN : ∀ j < p.nRows, p.nFront j ≤ N)
    (τ : ℝ) (hτd : τ = fastPointErr N ε (trigErr ε K G) B K) (hτ : 2 * K * τ < w)
    (hτT : 4 * τ ≤ TOL) (hτc : 4 * τ < c) (hw2 : 2 * TOL ≤ w - 2 * τ)
    (r k : ℕ) (sh : Bool) (ha : SurfRef.pv r .back k sh ∈ surfaces p) :
    let a := SurfRef.pv r .back k sh
    FastOutNear ε (fastErr p.nRows ε (stringErr ε (fastSize B K τ) w c τ)) s a
      (A.fastStep Z p u s r a) (fastSurface p (fitStep p u) s r a) := by
  intro a
  exact fast_stored h0 A Z p u s hp hst hu.sun hS r k sh ha
    (C100_view_factors h0 A Z p u hp hst hB hu hS hd hTOL hf hw hlong hZ hc N hN τ hτd hτ hτT hτc hw2 r k
      sh ha)

/-! ## Witness -/

/-- Light for the example: ground and rows are brighter where they are not shaded. -/
noncomputable def vertLight : IrrStep where
  comp := fun _ => [100, 20, 5]
  compAbs := fun _ => [100, 20, 5]
  rho := fun _ => 1 / 4
  invRho := fun _ => 4
  totalPerez := fun _ => 500
  sky := 80
  albedo := 1 / 4
  rhoFront := 1 / 100
  gndShaded := 100
  gndIllum := 600
  pvrowShaded := 100
  pvrowIllum := 500

set_option maxHeartbeats 1600000 in
/-- Witness for C100: two vertical rows, of which the back of the first one is cut into two segments;
everything is computed from the angles of sun and rows with results that are too large by 2 ^ (-53).
All view factors of its upper back segment are right up to 2e-5, and the incident light is right up
to 0.05 W/m2, although the sum of the sky components is not exact. -/
theorem C100_demo :
    let A := tooLargeTrig (1 / 2 ^ 53) (by norm_num)
    let a := SurfRef.pv 0 .back 1 false
    FastNear 2 (1 / 2 ^ 53) (1 / 50000) (A.fastVF (inOrder 1) vertArray vertStep 0 a)
      (fastVF vertArray (fitStep vertArray vertStep) 0 ((fitStep vertArray vertStep).coords a)) ∧
    |(A.fastStep (inOrder 1) vertArray vertStep vertLight 0 a).qinc
      - (fastSurface vertArray (fitStep vertArray vertStep) vertLight 0 a).qinc| ≤ 1 / 20 ∧
    (A.fastStep (inOrder 1) vertArray vertStep vertLight 0 a).skyTerm
      ≠ (fastSurface vertArray (fitStep vertArray vertStep) vertLight 0 a).skyTerm := by
  intro A a
  have ha : a ∈ surfaces vertArray := mem_surfaces.2 (mem_allRefs_pv.2 ⟨by simp [vertArray], by
    simp [ArrayParams.nSeg, ArrayParams.nBack, vertArray]⟩)
  have hdeg : (fitStep vertArray vertStep).rot.deg = 90 := by
    have : (fitStep vertArray vertStep).rot = ⟨90, false⟩ := vert_rot
    rw [this]
  have hal : (fitStep vertArray vertStep).alpha = 3 * Real.pi / 4 := by
    have : fitStep vertArray vertStep = _ := vert_fit
    rw [this]; exact vert_alpha
  have hf : ∀ x, x = (interrowShading vertArray (fitStep vertArray vertStep).alpha
        (fitStep vertArray vertStep).rot.deg).1 ∨
      x = (interrowShading vertArray (fitStep vertArray vertStep).alpha
        (fitStep vertArray vertStep).rot.deg).2 → x = 0 ∨ 2 * TOL ≤ x := by
    rw [hdeg, hal, vert_interrow]
    rintro x (rfl | rfl) <;> exact Or.inl rfl
  have b1 : 20 * sineErr (1 / 2 ^ 53) 270 * (3 / 2) ^ 3 ≤ 1 := by norm_num [sineErr]
  have b2 : shadeErr (1 / 2 ^ 53) (trigErr (1 / 2 ^ 53) (3 / 2) 270) 5 (3 / 2) < 1 / 10 ^ 9 := by
    norm_num [shadeErr, grow, trigErr, sineErr]
  set τ := fastPointErr 1 (1 / 2 ^ 53) (trigErr (1 / 2 ^ 53) (3 / 2) 270) 5 (3 / 2) with hτ
  have b3 : τ ≤ 1 / 10 ^ 9 ∧ 0 ≤ τ := by
    rw [hτ]
    norm_num [fastPointErr, shadeEndErr, lengthErr, sceneErr, shadeErr, endErr, groundErr, grow, trigErr,
      sineErr]
  have hd : shadeErr (1 / 2 ^ 53) (trigErr (1 / 2 ^ 53) (3 / 2) 270) 5 (3 / 2) * (3 / 2)
      < vertArray.distance := by
    have : vertArray.distance = 5 := by norm_num [vertArray, ArrayParams.distance]
    rw [this]
    norm_num at b2 ⊢
    linarith
  have hT : shadeErr (1 / 2 ^ 53) (trigErr (1 / 2 ^ 53) (3 / 2) 270) 5 (3 / 2) < TOL :=
    b2.trans (by norm_num [TOL])
  have hc : vertArray.height - vertArray.width / 2 * sind vertStep.surfaceTilt = 1 / 2 := by
    norm_num [vertArray, vertStep, sind_90]
  have hE : stringErr (1 / 2 ^ 53) (fastSize 5 (3 / 2) τ) (1 / 2) (1 / 2) τ ≤ 1 / 50000 := by
    rw [hτ]
    norm_num [stringErr, fastSize, rowBound, rowMove, grow, fastPointErr, shadeEndErr, lengthErr, sceneErr,
      shadeErr, endErr, groundErr, trigErr, sineErr]
  have hn : ∀ j < vertArray.nRows, vertArray.nFront j ≤ 1 := by
    intro j _
    simp only [ArrayParams.nFront, vertArray]
    split_ifs <;> simp
  norm_num at b3
  have v := C100_view_factors (ε := 1 / 2 ^ 53) (w := 1 / 2) (by norm_num) A (inOrder 1) vertArray vertStep
    vert_physicalArray vert_physicalStep vert_size vert_margin b1 hd hT hf (by norm_num [vertArray])
    vert_half (by rw [inOrder_leaves]; rfl) hc.ge 1 hn τ hτ (by linarith [b3.1])
    (by norm_num [TOL]; linarith [b3.1]) (by linarith [b3.1]) (by norm_num [TOL]; linarith [b3.1]) 0 1
    false ha
  have q := C100_fast_mode (ε := 1 / 2 ^ 53) (w := 1 / 2) (by norm_num) A (inOrder 1) vertArray vertStep
    vertLight
    vert_physicalArray vert_physicalStep vert_size vert_margin b1 hd hT hf (by norm_num [vertArray])
    vert_half (by rw [inOrder_leaves]; rfl) hc.ge 1 hn τ hτ (by linarith [b3.1])
    (by norm_num [TOL]; linarith [b3.1]) (by linarith [b3.1]) (by norm_num [TOL]; linarith [b3.1]) 0 1
    false ha
  have nr : vertArray.nRows = 2 := rfl
  have gp : (0 : ℝ) < grow (1 / 2 ^ 53) ^ 2 - 1 := by norm_num [grow]
  have vm : vfSumErr 2 (1 / 2 ^ 53) (stringErr (1 / 2 ^ 53) (fastSize 5 (3 / 2) τ) (1 / 2) (1 / 2) τ)
      ≤ vfSumErr 2 (1 / 2 ^ 53) (1 / 50000) := by
    unfold vfSumErr
    have := mul_le_mul_of_nonneg_left (show (2 : ℕ) * (1 + stringErr (1 / 2 ^ 53) (fastSize 5 (3 / 2) τ)
      (1 / 2) (1 / 2) τ) ≤ (2 : ℕ) * (1 + (1 / 50000 : ℝ)) by push_cast; linarith) gp.le
    push_cast at this ⊢
    linarith
  have dm : ∀ {d e : ℝ}, d ≤ e → diffErr (1 / 2 ^ 53) d ≤ diffErr (1 / 2 ^ 53) e := fun {d e} h => by
    unfold diffErr
    have := mul_le_mul_of_nonneg_left h (show (0 : ℝ) ≤ 1 / 2 ^ 53 by norm_num)
    linarith
  rw [nr] at v q
  refine ⟨⟨v.each.imp fun _ _ h => h.trans hE, v.gndShaded.trans vm, v.gndTotal.trans hE,
    v.gndIllum.trans (dm (add_le_add vm hE)), v.pvrowTotal.trans hE, v.pvrowShaded.trans hE,
    v.pvrowIllum.trans (dm (add_le_add hE hE)), v.sky.trans (dm (add_le_add hE (dm hE)))⟩,
    q.qinc.trans ?_, ?_⟩
  · have fm : fastErr 2 (1 / 2 ^ 53) (stringErr (1 / 2 ^ 53) (fastSize 5 (3 / 2) τ) (1 / 2) (1 / 2) τ)
        ≤ 1 / 10000 :=
      (dm (add_le_add (add_le_add vm hE) (dm hE))).trans (by norm_num [diffErr, vfSumErr, grow])
    have l : fastLight vertLight = 261 := by
      norm_num [fastLight, vertLight, abs_of_pos]
    have l2 : ((vertLight.comp (.pv 0 .back 1 false)).map fun x => |x|).sum = 125 := by
      norm_num [vertLight, abs_of_pos]
    have l3 : (vertLight.comp (.pv 0 .back 1 false)).length = 3 := rfl
    rw [l, l2, l3]
    have g : grow (1 / 2 ^ 53) ^ (3 + 7) - 1 ≤ 1 / 10 ^ 10 := by norm_num [grow]
    have g0 : 0 ≤ grow (1 / 2 ^ 53) ^ (3 + 7) - 1 := by norm_num [grow]
    have := mul_le_mul g (show (1 + fastErr 2 (1 / 2 ^ 53) (stringErr (1 / 2 ^ 53)
      (fastSize 5 (3 / 2) τ) (1 / 2) (1 / 2) τ)) * 261 + 125 ≤ 1000 by linarith) (by
        have := (abs_nonneg _).trans v.gndTotal
        have : 0 ≤ fastErr 2 (1 / 2 ^ 53) (stringErr (1 / 2 ^ 53)
          (fastSize 5 (3 / 2) τ) (1 / 2) (1 / 2) τ) := by
          unfold fastErr diffErr vfSumErr
          have := gp.le
          positivity
        linarith) (by norm_num)
    norm_num at this fm ⊢
    linarith
  · change (1 + 1 / 2 ^ 53 : ℝ) * ((1 + 1 / 2 ^ 53) * ((1 + 1 / 2 ^ 53) * (0 + 100) + 20) + 5)
      ≠ 0 + 100 + 20 + 5
    norm_num

end PVF

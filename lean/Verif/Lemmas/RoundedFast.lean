import Verif.Spec.RoundedFast
import Verif.Lemmas.MovedMatrix
import Verif.Lemmas.RoundedSegment
import Verif.Lemmas.Fast

/-! # Rounding errors of fast mode -/

namespace PVF

/-! ## Sizes -/

/-- Both coordinates are at most `M`. -/
def InBox (M : ℝ) (x : Pt) : Prop := |x.x| ≤ M ∧ |x.y| ≤ M

theorem InBox.dist {M : ℝ} {x y : Pt} (hx : InBox M x) (hy : InBox M y) : distPt x y ≤ 4 * M := by
  obtain ⟨a1, a2⟩ := hx
  obtain ⟨b1, b2⟩ := hy
  refine (Arith.dist_le_of (E := 2 * M) (F := 2 * M) ?_ ?_).trans (by linarith)
  · exact (abs_sub _ _).trans (by linarith)
  · exact (abs_sub _ _).trans (by linarith)

theorem InBox.near {M τ : ℝ} {x y : Pt} (hx : InBox M x) (h : distPt x y ≤ τ) : InBox (M + τ) y := by
  have hs : (y.x - x.x) ^ 2 ≤ (y.y - x.y) ^ 2 + (y.x - x.x) ^ 2 := by linarith [sq_nonneg (y.y - x.y)]
  have hs' : (y.y - x.y) ^ 2 ≤ (y.y - x.y) ^ 2 + (y.x - x.x) ^ 2 := by linarith [sq_nonneg (y.x - x.x)]
  have e1 : |y.x - x.x| ≤ τ := (Real.abs_le_sqrt hs).trans h
  have e2 : |y.y - x.y| ≤ τ := (Real.abs_le_sqrt hs').trans h
  have t1 := abs_add_le (y.x - x.x) x.x
  have t2 := abs_add_le (y.y - x.y) x.y
  rw [sub_add_cancel] at t1 t2
  exact ⟨by linarith [hx.1], by linarith [hx.2]⟩

theorem InBox.mono {M M' : ℝ} {x : Pt} (hx : InBox M x) (h : M ≤ M') : InBox M' x :=
  ⟨hx.1.trans h, hx.2.trans h⟩

theorem inside_ground {M x : ℝ} (hM : 100 ≤ M) (hx : InGround x) : InBox M ⟨x, Y_GROUND⟩ := by
  obtain ⟨h1, h2⟩ := hx
  unfold MIN_X at h1
  unfold MAX_X at h2
  refine ⟨abs_le.2 ⟨by dsimp only; linarith, by dsimp only; linarith⟩, ?_⟩
  simp only [Y_GROUND, abs_zero]
  linarith

theorem inside_line {M : ℝ} {l : Line} (hM : 100 ≤ M) (h : LineInGround l) :
    InBox M l.b1 ∧ InBox M l.b2 := by
  obtain ⟨h1, h2, h3, h4⟩ := h
  have a := inside_ground hM h1
  have b := inside_ground hM h2
  rw [← h3] at a
  rw [← h4] at b
  exact ⟨a, b⟩

/-- What matters about a line on row `r` and the points that it sees. -/
structure FastScene (n r : ℕ) (g : StepGeom) (pv : Line) (shade : ℕ → Pt) (M w c σ : ℝ) : Prop where
  long : 2 * pv.length ≤ TOL ∨ w ≤ pv.length
  ends : InBox M pv.b1 ∧ InBox M pv.b2
  full : ∀ j < n, InBox M (g.row j).full.b1 ∧ InBox M (g.row j).full.b2
  shade : ∀ j < n, InBox M (shade j)
  above : ∀ j < n, c ≤ (g.row j).full.lowest.y
  low : ∀ j < n, (g.row j).full.lowest.y ≤ pv.b1.y + σ ∧ (g.row j).full.lowest.y ≤ pv.b2.y + σ
  cut : |minMaxX (g.ground.cuts.getD r .posInf)| ≤ M ∧ |maxMinX (g.ground.cuts.getD r .posInf)| ≤ M

theorem cut_bounds {c : XR} {M x : ℝ} (hM : 100 ≤ M) (h : c = .posInf ∨ c = .fin x ∧ |x| ≤ M) :
    |minMaxX c| ≤ M ∧ |maxMinX c| ≤ M := by
  have e1 : |MAX_X| ≤ M := by norm_num [MAX_X, abs_of_pos]; exact hM
  have e2 : |MIN_X| ≤ M := by norm_num [MIN_X, abs_of_pos]; exact hM
  rcases h with rfl | ⟨rfl, hx⟩
  · exact ⟨e1, e2⟩
  · exact ⟨(min_choice MAX_X x).elim (fun h => by rw [minMaxX, h]; exact e1)
      (fun h => by rw [minMaxX, h]; exact hx),
      (max_choice MIN_X x).elim (fun h => by rw [maxMinX, h]; exact e2)
      (fun h => by rw [maxMinX, h]; exact hx)⟩

/-- Two such lines in scenes with slightly different points. -/
structure FastPair (n r : ℕ) (g g' : StepGeom) (pv pv' : Line) (shade shade' : ℕ → Pt) (τ : ℝ) :
    Prop where
  tilt : 0 < g'.rot.deg ↔ 0 < g.rot.deg
  ends : distPt pv.b1 pv'.b1 ≤ τ ∧ distPt pv.b2 pv'.b2 ≤ τ
  high : distPt pv.highest pv'.highest ≤ τ ∧ distPt pv.lowest pv'.lowest ≤ τ
  full : ∀ j < n, distPt (g.row j).full.b1 (g'.row j).full.b1 ≤ τ ∧
    distPt (g.row j).full.b2 (g'.row j).full.b2 ≤ τ
  edge : ∀ j < n, distPt (g.row j).full.lowest (g'.row j).full.lowest ≤ τ
  shade : ∀ j < n, distPt (shade j) (shade' j) ≤ τ
  shadow : ∀ e < n, FlatNear τ (g.ground.shadowEl e) (g'.ground.shadowEl e)
  cut : XRNear τ (g.ground.cuts.getD r .posInf) (g'.ground.cuts.getD r .posInf)

theorem FastScene.edge {n r : ℕ} {g : StepGeom} {pv : Line} {shade : ℕ → Pt} {M w c σ : ℝ}
    (S : FastScene n r g pv shade M w c σ) {j : ℕ} (hj : j < n) : InBox M (g.row j).full.lowest := by
  rcases (g.row j).full.lowest_or with h | h <;> rw [h]
  exacts [(S.full j hj).1, (S.full j hj).2]

theorem FastScene.high {n r : ℕ} {g : StepGeom} {pv : Line} {shade : ℕ → Pt} {M w c σ : ℝ}
    (S : FastScene n r g pv shade M w c σ) : InBox M pv.highest ∧ InBox M pv.lowest ∧
    ∀ j < n, (g.row j).full.lowest.y ≤ pv.highest.y + σ ∧ (g.row j).full.lowest.y ≤ pv.lowest.y + σ := by
  obtain ⟨a, b⟩ := S.ends
  have l := S.low
  rcases pv.highest_or with h | h <;> rcases pv.lowest_or with h' | h' <;> rw [h, h'] <;>
    exact ⟨by assumption, by assumption, fun j hj => by
      obtain ⟨l1, l2⟩ := l j hj; exact ⟨by assumption, by assumption⟩⟩

namespace Arith
section
variable {ε M w c σ τ : ℝ} (h0 : 0 ≤ ε) (h1 : ε ≤ 1 / 8) (A : Arith ε) (hτ : 0 ≤ τ) (hT : 2 * TOL ≤ w)
  (hσ : 0 ≤ σ) (hc : σ < c) (hD : w ≤ 4 * M) (hτw : 2 * τ + TOL < w) (hM : 100 ≤ M)
  {n r : ℕ} {g g' : StepGeom} {pv pv' : Line} {shade shade' : ℕ → Pt}
  (S : FastScene n r g pv shade M w c σ) (S' : FastScene n r g' pv' shade' M w c σ)
  (N : FastPair n r g g' pv pv' shade shade' τ)
include h0 h1 hτ hT hσ hc hD hτw S S' N

theorem fast_surf {b b' : Line} (hb : InBox M b.b1 ∧ InBox M b.b2)
    (hb' : InBox M b'.b1 ∧ InBox M b'.b2) (eb : distPt b.b1 b'.b1 ≤ τ ∧ distPt b.b2 b'.b2 ≤ τ) :
    |A.surfSurf pv' b' (A.length pv') - vfSurfSurf pv b pv.length|
      ≤ rowBound ε (4 * M) w c σ + rowMove (4 * M) w c σ τ := by
  obtain ⟨a1, a2⟩ := S.ends
  obtain ⟨a1', a2'⟩ := S'.ends
  have e1 := (A.surfSurf_bound h0 h1 hT hσ hc hD S'.long (b := b')
    ⟨a1'.dist hb'.1, a2'.dist hb'.2, a1'.dist hb'.2, a2'.dist hb'.1⟩).1
  have e2 := (surfSurf_move hτ hT hσ hc hD S.long S'.long hτw N.ends eb
    ⟨a1.dist hb.1, a2.dist hb.2, a1.dist hb.2, a2.dist hb.1⟩).1
  exact (abs_sub_le _ _ _).trans (add_le_add e1 e2)

include hM in
theorem fast_hottel {G G' : Line} (hG : LineInGround G) (hG' : LineInGround G')
    (eG : distPt G.b1 G'.b1 ≤ τ ∧ distPt G.b2 G'.b2 ≤ τ) {j : ℕ} (hj : j < n) (s : Bool) :
    |A.hottelGnd pv'.highest pv'.lowest G'.b1 G'.b2 (g'.row j).full.lowest (A.length pv') s
        - vfHottelGnd pv.highest pv.lowest G.b1 G.b2 (g.row j).full.lowest pv.length s|
      ≤ rowBound ε (4 * M) w c σ + rowMove (4 * M) w c σ τ := by
  obtain ⟨i1, i2⟩ := inside_line hM hG
  obtain ⟨i1', i2'⟩ := inside_line hM hG'
  obtain ⟨hh, hl, hlow⟩ := S.high
  obtain ⟨hh', hl', hlow'⟩ := S'.high
  have o := S.edge hj
  have o' := S'.edge hj
  have ab : ∀ {l : Line}, LineInGround l → ∀ {y : ℝ}, c ≤ y → l.b1.y + c ≤ y ∧ l.b2.y + c ≤ y :=
    fun h y hy => by rw [h.2.2.1, h.2.2.2]; simp only [Y_GROUND]; constructor <;> linarith
  obtain ⟨g1, g2⟩ := ab hG (S.above j hj)
  obtain ⟨g1', g2'⟩ := ab hG' (S'.above j hj)
  have e1 := (A.hottelGnd_bound (s := s) h0 h1 hT hσ hc hD S'.long g1' g2' (hlow' j hj).1 (hlow' j hj).2
    (i1'.dist o') (i2'.dist o') (o'.dist hh') (o'.dist hl') (i1'.dist hh') (i1'.dist hl') (i2'.dist hh')
    (i2'.dist hl')).1
  have e2 := (hottelGnd_move (s := s) hτ hT hσ hc hD S.long S'.long hτw N.ends N.high.1 N.high.2 eG.1 eG.2
    (N.edge j hj) g1 g2 (hlow j hj).1 (hlow j hj).2 (i1.dist o) (i2.dist o) (o.dist hh) (o.dist hl)
    g1' g2' (hlow' j hj).1 (hlow' j hj).2 (i1'.dist o') (i2'.dist o')).1
  exact (abs_sub_le _ _ _).trans (add_le_add e1 e2)

include hM in
/-- View factors to shadows. -/
theorem fast_shadow (hr : r < n) {e : ℕ} (he : e < n) :
    let cut := g.ground.cuts.getD r .posInf
    let cut' := g'.ground.cuts.getD r .posInf
    |A.vfToShadow pv' r n (g'.rot.deg > 0) g'.row (coordsLeftOfCut (g'.ground.shadowEl e) cut')
          (coordsRightOfCut (g'.ground.shadowEl e) cut') (A.length pv')
        - PVF.vfToShadow pv r n (g.rot.deg > 0) g.row (coordsLeftOfCut (g.ground.shadowEl e) cut)
          (coordsRightOfCut (g.ground.shadowEl e) cut) pv.length|
      ≤ rowBound ε (4 * M) w c σ + rowMove (4 * M) w c σ τ := by
  classical
  intro cut cut'
  have s0 := shadowEl_inGround g.ground e
  have s0' := shadowEl_inGround g'.ground e
  have hl := coordsLeft_inGround s0 cut
  have hl' := coordsLeft_inGround s0' cut'
  have hr1 := coordsRight_inGround s0 cut
  have hr1' := coordsRight_inGround s0' cut'
  have fs := N.shadow e he
  have nl : FlatNear τ (coordsLeftOfCut (g.ground.shadowEl e) cut)
      (coordsLeftOfCut (g'.ground.shadowEl e) cut') :=
    ⟨⟨leftOfCutX_near fs.1.1 N.cut, leftOfCutX_near fs.1.2 N.cut⟩, fs.2⟩
  have nr : FlatNear τ (coordsRightOfCut (g.ground.shadowEl e) cut)
      (coordsRightOfCut (g'.ground.shadowEl e) cut') :=
    ⟨⟨rightOfCutX_near fs.1.1 N.cut, rightOfCutX_near fs.1.2 N.cut⟩, fs.2⟩
  have surf : ∀ {b b' : Line}, LineInGround b → LineInGround b' → FlatNear τ b b' → _ :=
    fun {b b'} hb hb' hn => A.fast_surf h0 h1 hτ hT hσ hc hD hτw S S' N (inside_line hM hb)
      (inside_line hM hb') hn.dist
  have hot : ∀ {b b' : Line}, LineInGround b → LineInGround b' → FlatNear τ b b' → ∀ {j : ℕ}, j < n →
      ∀ s, _ := fun {b b'} hb hb' hn {j} hj s =>
    A.fast_hottel h0 h1 hτ hT hσ hc hD hτw hM S S' N hb hb' hn.dist hj s
  unfold vfToShadow PVF.vfToShadow
  dsimp only
  have e1 : ((r : ℤ) = n - 1) ↔ r + 1 = n := by omega
  have e2 : ((r : ℤ) = 0) ↔ r = 0 := by omega
  simp only [gt_iff_lt, N.tilt, e1, e2]
  by_cases ht : 0 < g.rot.deg
  · simp only [if_pos ht]
    by_cases hn : r + 1 = n
    · simp only [if_pos hn]; exact surf hr1 hr1' nr
    · simp only [if_neg hn, pyIdx_succ]; exact hot hr1 hr1' nr (by omega) false
  · simp only [if_neg ht]
    by_cases hn : r = 0
    · simp only [if_pos hn]; exact surf hl hl' nl
    · simp only [if_neg hn, pyIdx_pred n hn]; exact hot hl hl' nl (by omega) true

include hM in
/-- View factors to the ground. -/
theorem fast_gnd (hr : r < n) :
    |A.vfToGnd pv' r n (g'.ground.cuts.getD r .posInf) (A.length pv') (g'.rot.deg > 0) g'.row
        - PVF.vfToGnd pv r n (g.ground.cuts.getD r .posInf) pv.length (g.rot.deg > 0) g.row|
      ≤ rowBound ε (4 * M) w c σ + rowMove (4 * M) w c σ τ := by
  classical
  have nc : |minMaxX (g'.ground.cuts.getD r .posInf) - minMaxX (g.ground.cuts.getD r .posInf)| ≤ τ ∧
      |maxMinX (g'.ground.cuts.getD r .posInf) - maxMinX (g.ground.cuts.getD r .posInf)| ≤ τ := by
    have h := N.cut
    cases hx : g.ground.cuts.getD r .posInf <;> cases hx' : g'.ground.cuts.getD r .posInf <;>
      rw [hx, hx'] at h
    · simp [minMaxX, maxMinX, hτ]
    · exact h.elim
    · exact h.elim
    · exact h.elim
    · exact ⟨min_near (const_near hτ) h, max_near (const_near hτ) h⟩
    · exact h.elim
    · exact h.elim
    · exact h.elim
    · simp [minMaxX, maxMinX, hτ]
  have d0 : ∀ y : Pt, distPt y y ≤ τ := fun y => by simpa [distPt] using hτ
  have surf : ∀ {b b' : Line}, InBox M b.b1 ∧ InBox M b.b2 → InBox M b'.b1 ∧ InBox M b'.b2 →
      distPt b.b1 b'.b1 ≤ τ ∧ distPt b.b2 b'.b2 ≤ τ → _ := fun {b b'} hb hb' hn =>
    A.fast_surf h0 h1 hτ hT hσ hc hD hτw S S' N hb hb' hn
  have flat : ∀ {a b : ℝ}, |b - a| ≤ τ → distPt ⟨a, Y_GROUND⟩ ⟨b, Y_GROUND⟩ ≤ τ := fun {a b} h => by
    have := dist_le_of (a := ⟨a, Y_GROUND⟩) (b := ⟨b, Y_GROUND⟩) h (le_of_eq (by simp : _ = (0 : ℝ)))
    linarith
  have lo : InBox M ⟨MIN_X, Y_GROUND⟩ := inside_ground hM ⟨le_rfl, by norm_num [MIN_X, MAX_X]⟩
  have hi : InBox M ⟨MAX_X, Y_GROUND⟩ := inside_ground hM ⟨by norm_num [MIN_X, MAX_X], le_rfl⟩
  unfold vfToGnd PVF.vfToGnd
  dsimp only
  have e1 : ((r : ℤ) = n - 1) ↔ r + 1 = n := by omega
  have e2 : ((r : ℤ) = 0) ↔ r = 0 := by omega
  simp only [gt_iff_lt, N.tilt, e1, e2, pyIdx_nat]
  by_cases ht : 0 < g.rot.deg
  · simp only [if_pos ht]
    by_cases hn : r + 1 = n
    · simp only [if_pos hn]
      exact surf ⟨⟨S.cut.2, lo.2⟩, hi⟩ ⟨⟨S'.cut.2, lo.2⟩, hi⟩ ⟨flat nc.2, d0 _⟩
    · simp only [if_neg hn, pyIdx_succ]
      have hj : r + 1 < n := by omega
      exact surf ⟨S.edge hr, S.edge hj⟩ ⟨S'.edge hr, S'.edge hj⟩ ⟨N.edge r hr, N.edge _ hj⟩
  · simp only [if_neg ht]
    by_cases hn : r = 0
    · simp only [if_pos hn]
      exact surf ⟨lo, ⟨S.cut.1, lo.2⟩⟩ ⟨lo, ⟨S'.cut.1, lo.2⟩⟩ ⟨d0 _, flat nc.1⟩
    · simp only [if_neg hn, pyIdx_pred n hn]
      have hj : r - 1 < n := by omega
      exact surf ⟨S.edge hj, S.edge hr⟩ ⟨S'.edge hj, S'.edge hr⟩ ⟨N.edge _ hj, N.edge r hr⟩

/-- View factors to the neighbouring row. -/
theorem fast_pvrow (hr : r < n) {width rotation : ℝ} {T : Trig}
    (hs : ∀ j < n, PVF.shadedSideCoords (g.row j).center width (PVF.sideShadedLength (g.row j).front)
      (g.rot.deg > 0) rotation (g.row j).full.lowest = ⟨shade j, (g.row j).full.lowest⟩)
    (hs' : ∀ j < n, A.shadedSideCoords (g'.row j).center width (A.sideShadedLength (g'.row j).front)
      (g'.rot.deg > 0) T (g'.row j).full.lowest = ⟨shade' j, (g'.row j).full.lowest⟩) :
    let v' := A.vfToPvrow pv' r n g'.row (A.length pv') (g'.rot.deg > 0) width T
    let v := PVF.vfToPvrow pv r n g.row pv.length (g.rot.deg > 0) width rotation
    |v'.1 - v.1| ≤ rowBound ε (4 * M) w c σ + rowMove (4 * M) w c σ τ ∧
    |v'.2 - v.2| ≤ rowBound ε (4 * M) w c σ + rowMove (4 * M) w c σ τ := by
  classical
  intro v' v
  have hw : 0 < w := by have := TOL_pos; linarith
  have E0 : 0 ≤ rowBound ε (4 * M) w c σ + rowMove (4 * M) w c σ τ :=
    add_nonneg (rowBound_nonneg h0 h1 hw hσ hc hD) (rowMove_le hτ hT hσ hc hD).1
  have surf : ∀ {b b' : Line}, InBox M b.b1 ∧ InBox M b.b2 → InBox M b'.b1 ∧ InBox M b'.b2 →
      distPt b.b1 b'.b1 ≤ τ ∧ distPt b.b2 b'.b2 ≤ τ → _ := fun {b b'} hb hb' hn =>
    A.fast_surf h0 h1 hτ hT hσ hc hD hτw S S' N hb hb' hn
  unfold v v' vfToPvrow PVF.vfToPvrow
  dsimp only
  have e1 : ((r : ℤ) = n - 1) ↔ r + 1 = n := by omega
  have e2 : ((r : ℤ) = 0) ↔ r = 0 := by omega
  simp only [e1, e2]
  have tl : (g'.rot.deg > 0) ↔ (g.rot.deg > 0) := N.tilt
  have main : ∀ j < n,
      |A.surfSurf pv' (g'.row j).full (A.length pv') - vfSurfSurf pv (g.row j).full pv.length|
        ≤ rowBound ε (4 * M) w c σ + rowMove (4 * M) w c σ τ ∧
      |A.surfSurf pv' (A.shadedSideCoords (g'.row j).center width (A.sideShadedLength (g'.row j).front)
          (g'.rot.deg > 0) T (g'.row j).full.lowest) (A.length pv')
        - vfSurfSurf pv (PVF.shadedSideCoords (g.row j).center width
          (PVF.sideShadedLength (g.row j).front) (g.rot.deg > 0) rotation (g.row j).full.lowest)
          pv.length| ≤ rowBound ε (4 * M) w c σ + rowMove (4 * M) w c σ τ := by
    intro j hj
    rw [hs j hj, hs' j hj]
    exact ⟨surf (S.full j hj) (S'.full j hj) (N.full j hj),
      surf ⟨S.shade j hj, S.edge hj⟩ ⟨S'.shade j hj, S'.edge hj⟩ ⟨N.shade j hj, N.edge j hj⟩⟩
  have z : |(0 : ℝ) - 0| ≤ rowBound ε (4 * M) w c σ + rowMove (4 * M) w c σ τ := by simpa using E0
  by_cases ht : g.rot.deg > 0
  · have ht' := tl.2 ht
    by_cases hn : r + 1 = n
    · rw [if_pos ht, if_pos ht', if_pos ht, if_pos ht', if_pos hn, if_pos hn]
      exact ⟨z, z⟩
    · rw [if_pos ht, if_pos ht', if_pos ht, if_pos ht', if_neg hn, if_neg hn, pyIdx_succ]
      exact main _ (by omega)
  · have ht' := fun h => ht (tl.1 h)
    by_cases hn : r = 0
    · rw [if_neg ht, if_neg ht', if_neg ht, if_neg ht', if_pos hn, if_pos hn]
      exact ⟨z, z⟩
    · rw [if_neg ht, if_neg ht', if_neg ht, if_neg ht', if_neg hn, if_neg hn, pyIdx_pred n hn]
      exact main _ (by omega)

end

/-! ## Sums and differences -/

section
variable {ε : ℝ} (h0 : 0 ≤ ε) (h1 : ε < 1) (A : Arith ε)
include h0

theorem diff_near {x' x y' y d e : ℝ} (hx : |x' - x| ≤ d) (hy : |y' - y| ≤ e) (h : |x - y| ≤ 1) :
    |A.sub x' y' - (x - y)| ≤ diffErr ε (d + e) := by
  have e1 : |x' - y' - (x - y)| ≤ d + e := by
    rw [show x' - y' - (x - y) = (x' - x) - (y' - y) by ring]
    exact (abs_sub _ _).trans (add_le_add hx hy)
  have e2 : |x' - y'| ≤ 1 + (d + e) := by
    have := abs_add_le (x' - y' - (x - y)) (x - y)
    rw [sub_add_cancel] at this
    linarith
  have e3 := (A.sub_err x' y').trans (mul_le_mul_of_nonneg_left e2 h0)
  have := abs_sub_le (A.sub x' y') (x' - y') (x - y)
  unfold diffErr
  linarith

include h1

theorem vfSum_near {n : ℕ} {f f' : ℕ → ℝ} {E : ℝ} {S : SumTree} (hS : S.leaves = Multiset.range n)
    (hE : 0 ≤ E) (hf : ∀ e < n, |f' e - f e| ≤ E) (h : ∀ e < n, |f e| ≤ 1) :
    |A.sum f' S - ((List.range n).map f).sum| ≤ vfSumErr n ε E := by
  have n1 := (A.sum_near h0 h1 f' S).2.1
  rw [hS, Multiset.card_range] at n1
  have hb : ∀ e < n, |f' e| ≤ 1 + E := fun e he => by
    have := abs_add_le (f' e - f e) (f e)
    rw [sub_add_cancel] at this
    linarith [hf e he, h e he]
  have c : ∀ q : ℕ → ℝ, ((Multiset.range n).map q).sum = ∑ e ∈ Finset.range n, q e := fun q => rfl
  have l : ((List.range n).map f).sum = ∑ e ∈ Finset.range n, f e := rfl
  rw [c, c] at n1
  rw [l]
  have s1 : ∑ e ∈ Finset.range n, |f' e| ≤ n * (1 + E) := by
    refine (Finset.sum_le_card_nsmul _ _ (1 + E) fun e he => hb e (Finset.mem_range.1 he)).trans ?_
    rw [Finset.card_range, nsmul_eq_mul]
  have s2 : |∑ e ∈ Finset.range n, f' e - ∑ e ∈ Finset.range n, f e| ≤ n * E := by
    rw [← Finset.sum_sub_distrib]
    refine (Finset.abs_sum_le_sum_abs _ _).trans ?_
    refine (Finset.sum_le_card_nsmul _ _ E fun e he => hf e (Finset.mem_range.1 he)).trans ?_
    rw [Finset.card_range, nsmul_eq_mul]
  have g := grow_pow_one h0 h1 n
  have := mul_le_mul_of_nonneg_left s1 (sub_nonneg.2 g)
  have := abs_sub_le (A.sum f' S) (∑ e ∈ Finset.range n, f' e) (∑ e ∈ Finset.range n, f e)
  unfold vfSumErr
  linarith

/-- Numbers that are added one after another. -/
theorem fold_near (l : List ℝ) : ∀ {acc x m : ℝ} {k : ℕ}, Near ε k acc x m →
    Near ε (k + l.length) (l.foldl (fun v c => A.add v c) acc) (x + l.sum) (m + (l.map fun c => |c|).sum) := by
  induction l with
  | nil => intro acc x m k h; simpa using h
  | cons c l ih =>
    intro acc x m k h
    have n1 := (h.add h0 h1 ((near_self (le_refl |c|)).mono h0 h1 (Nat.zero_le k))).round h0 h1
      (A.add_err acc c)
    have := ih n1
    rw [List.foldl_cons, List.sum_cons, List.map_cons, List.sum_cons, List.length_cons]
    convert this using 1 <;> ring

end

/-! ## The end of the shade of a whole side -/

section
variable {ε : ℝ} (h0 : 0 ≤ ε) (h1 : ε < 1) (A : Arith ε)
include h0 h1

theorem shadedLength_near (segs : List SegGeom) :
    Near ε (segs.length + 4) (A.sideShadedLength segs) (PVF.sideShadedLength segs)
      (PVF.sideShadedLength segs) := by
  have pos : ∀ s : SegGeom, 0 ≤ s.shaded.length := fun s => Real.sqrt_nonneg _
  have key : ∀ (l : List SegGeom) {acc x : ℝ} {k : ℕ}, 4 ≤ k → Near ε k acc x x →
      Near ε (k + l.length) (l.foldl (fun v s => A.add v (A.add 0 (A.length s.shaded))) acc)
        (x + (l.map fun s => s.shaded.length).sum) (x + (l.map fun s => s.shaded.length).sum) := by
    intro l
    induction l with
    | nil => intro acc x k _ h; simpa using h
    | cons s l ih =>
      intro acc x k hk h
      have r := (A.dist_rel h0 h1 s.shaded.b1 s.shaded.b2).near h0 h1 (pos s)
      change Near ε 3 (A.length s.shaded) s.shaded.length s.shaded.length at r
      have z : Near ε 3 (0 : ℝ) 0 0 := (near_self (by simp)).mono h0 h1 (by norm_num)
      have q := (z.add h0 h1 r).round h0 h1 (A.add_err _ _)
      rw [zero_add] at q
      have n1 := (h.add h0 h1 (q.mono h0 h1 hk)).round h0 h1 (A.add_err acc _)
      have := ih (by omega) n1
      rw [List.foldl_cons, List.map_cons, List.sum_cons, List.length_cons]
      convert this using 1 <;> ring
  have := key segs (acc := 0) (x := 0) le_rfl ((near_self (by simp)).mono h0 h1 (Nat.zero_le 4))
  rw [zero_add, Nat.add_comm] at this
  exact this

/-- Shaded lengths of sides with segments that are close. -/
theorem shadedLength_err {segs segs' : List SegGeom} {N : ℕ} {B τ : ℝ} (hτ : 0 ≤ τ)
    (hN : segs.length ≤ N)
    (hs : List.Forall₂ (fun s s' : SegGeom => |s'.shaded.length - s.shaded.length| ≤ 2 * τ) segs segs')
    (hB : PVF.sideShadedLength segs ≤ B) :
    |A.sideShadedLength segs' - PVF.sideShadedLength segs| ≤ lengthErr N ε B τ := by
  have sum : |PVF.sideShadedLength segs' - PVF.sideShadedLength segs| ≤ 2 * segs.length * τ := by
    clear hN hB
    unfold PVF.sideShadedLength
    induction hs with
    | nil => simp
    | cons h _ ih =>
      simp only [List.map_cons, List.sum_cons, List.length_cons]
      push_cast
      rw [abs_le] at *
      constructor <;> linarith [h.1, h.2, ih.1, ih.2]
  have hle : 2 * (segs.length : ℝ) * τ ≤ 2 * N * τ := by
    have : (segs.length : ℝ) ≤ N := by exact_mod_cast hN
    nlinarith
  have n := (A.shadedLength_near h0 h1 segs').mono h0 h1
    (show segs'.length + 4 ≤ N + 4 by rw [← hs.length_eq]; omega)
  have g := grow_pow_one h0 h1 (N + 4)
  have hb : PVF.sideShadedLength segs' ≤ B + 2 * N * τ := by linarith [(abs_le.1 sum).2]
  have := n.1.trans (mul_le_mul_of_nonneg_left hb (sub_nonneg.2 g))
  have := abs_sub_le (A.sideShadedLength segs') (PVF.sideShadedLength segs') (PVF.sideShadedLength segs)
  unfold lengthErr
  linarith

/-- The end of the shade. -/
theorem shadedSide_near {p : ArrayParams} {B rot alpha η K L L' Ls : ℝ} {T : Trig} (hB : ArraySize p B)
    (hT : TrigNear rot alpha T η K) {r : ℕ} (hr : r < p.nRows) (hL : 0 ≤ L) (hLw : L ≤ p.width)
    (hLL : |L' - L| ≤ Ls) (t : Prop) (low low' : Pt) :
    distPt (PVF.shadedSideCoords (PVF.rowCenter p r) p.width L t rot low).b1
      (A.shadedSideCoords (A.rowCenter p r) p.width L' t T low').b1 ≤ 2 * endErr ε η (B + Ls) + Ls := by
  classical
  have hLs : 0 ≤ Ls := (abs_nonneg _).trans hLL
  have hB' : ArraySize p (B + Ls) := ⟨hB.width_pos, by linarith [hB.width], hB.gcr_pos,
    by linarith [hB.height], by linarith [hB.distance], fun r hr => by linarith [hB.place r hr]⟩
  have c1 : ∀ x, |cosd x| ≤ 1 := fun x => Real.abs_cos_le_one _
  have s1 : ∀ x, |sind x| ≤ 1 := fun x => Real.abs_sin_le_one _
  obtain ⟨⟨X, hX, nx⟩, ⟨Y, hY, ny⟩⟩ := A.center_near h0 h1 hB' hr
  have n := ((((A.radius_near h0 h1 hB.width_pos.le).sub h0 h1
    ((near_self (le_refl |L'|)).mono h0 h1 (Nat.zero_le 1))).round h0 h1 (A.sub_err _ _))).mono h0 h1
    (show 1 + 1 ≤ 3 by norm_num)
  have hL' : |L'| ≤ B + Ls := by
    have := abs_add_le (L' - L) L
    rw [sub_add_cancel, abs_of_nonneg hL] at this
    linarith [hB.width]
  have hm : p.width / 2 + |L'| ≤ 3 / 2 * (B + Ls) := by linarith [hB.width]
  have turn : ∀ θ (c : Pt), distPt ⟨(p.width / 2 - L) * cosd θ + c.x, (p.width / 2 - L) * sind θ + c.y⟩
      ⟨(p.width / 2 - L') * cosd θ + c.x, (p.width / 2 - L') * sind θ + c.y⟩ ≤ Ls := by
    intro θ c
    refine le_trans (le_of_eq ?_) hLL
    unfold distPt
    rw [← Real.sqrt_sq_eq_abs]
    congr 1
    have : sind θ ^ 2 + cosd θ ^ 2 = 1 := Real.sin_sq_add_cos_sq _
    dsimp only
    linear_combination (L' - L) ^ 2 * this
  have two : ∀ {θ cs sn : ℝ}, |cs - cosd θ| ≤ η → |sn - sind θ| ≤ η →
      distPt ⟨(p.width / 2 - L) * cosd θ + (PVF.rowCenter p r).x,
          (p.width / 2 - L) * sind θ + (PVF.rowCenter p r).y⟩
        ⟨A.add (A.mul (A.sub (A.div p.width 2) L') cs) (A.rowCenter p r).x,
          A.add (A.mul (A.sub (A.div p.width 2) L') sn) (A.rowCenter p r).y⟩
        ≤ 2 * endErr ε η (B + Ls) + Ls := by
    intro θ cs sn hcs hsn
    have e := dist_le_of
      (a := ⟨(p.width / 2 - L') * cosd θ + (PVF.rowCenter p r).x,
        (p.width / 2 - L') * sind θ + (PVF.rowCenter p r).y⟩)
      (b := ⟨A.add (A.mul (A.sub (A.div p.width 2) L') cs) (A.rowCenter p r).x,
          A.add (A.mul (A.sub (A.div p.width 2) L') sn) (A.rowCenter p r).y⟩)
      (A.coord_near h0 h1 n hm nx hX hcs (c1 _)) (A.coord_near h0 h1 n hm ny hY hsn (s1 _))
    have := distPt_triangle ⟨(p.width / 2 - L) * cosd θ + (PVF.rowCenter p r).x,
        (p.width / 2 - L) * sind θ + (PVF.rowCenter p r).y⟩
      ⟨(p.width / 2 - L') * cosd θ + (PVF.rowCenter p r).x,
        (p.width / 2 - L') * sind θ + (PVF.rowCenter p r).y⟩
      ⟨A.add (A.mul (A.sub (A.div p.width 2) L') cs) (A.rowCenter p r).x,
          A.add (A.mul (A.sub (A.div p.width 2) L') sn) (A.rowCenter p r).y⟩
    have := turn θ (PVF.rowCenter p r)
    linarith
  unfold shadedSideCoords PVF.shadedSideCoords
  dsimp only
  by_cases ht : t
  · simp only [if_pos ht]; exact two hT.cs180 hT.sn180
  · simp only [if_neg ht]; exact two hT.cs hT.sn

end
end Arith
end PVF

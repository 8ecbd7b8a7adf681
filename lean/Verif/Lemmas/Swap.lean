import Verif.Spec.Swap
import Verif.Props.Shading
import Verif.Props.AOI
import Verif.Props.EndToEnd

/-! # Lemmas on calling the back of the modules their front -/

namespace PVF

/-- Rotation angles of the two descriptions. -/
structure Opposite (r r' : ℝ) : Prop where
  ne : r ≠ 0
  pos : 0 < r' ↔ r < 0
  neg : r' < 0 ↔ 0 < r
  half : r' = r + 180 ∨ r' = r - 180
  sin : sind r ≠ 0

theorem Opposite.cosd {r r' : ℝ} (h : Opposite r r') : cosd r' = - PVF.cosd r := by
  rcases h.half with e | e
  · rw [e, cosd_add_180]
  · have := cosd_add_180 (r - 180)
    rw [sub_add_cancel] at this
    rw [e, this, neg_neg]

theorem Opposite.sind {r r' : ℝ} (h : Opposite r r') : sind r' = - PVF.sind r := by
  rcases h.half with e | e
  · rw [e, sind_add_180]
  · have := sind_add_180 (r - 180)
    rw [sub_add_cancel] at this
    rw [e, this, neg_neg]

theorem Opposite.delta {r r' : ℝ} (h : Opposite r r') (d al : ℝ) :
    shadingDelta d al r' = - shadingDelta d al r := by
  have e1 : ∀ x, deg2rad (x - 180) = deg2rad x - Real.pi := by intro x; unfold deg2rad; ring
  have e2 : ∀ x, deg2rad (x + 180) = deg2rad x + Real.pi := by intro x; unfold deg2rad; ring
  have t1 : ∀ x, Real.tan (x - Real.pi) = Real.tan x := Real.tan_periodic.sub_eq
  have t2 : ∀ x, Real.tan (x + Real.pi) = Real.tan x := Real.tan_periodic
  unfold shadingDelta
  rcases h.half with e | e
  · have a1 : (90 : ℝ) - r' = (90 - r) - 180 := by rw [e]; ring
    have a2 : (90 : ℝ) - r' + rad2deg al = (90 - r + rad2deg al) - 180 := by rw [e]; ring
    simp only [a2]
    rw [a1, e1, e1, Real.sin_sub_pi, Real.cos_sub_pi, t1]; ring
  · have a1 : (90 : ℝ) - r' = (90 - r) + 180 := by rw [e]; ring
    have a2 : (90 : ℝ) - r' + rad2deg al = (90 - r + rad2deg al) + 180 := by rw [e]; ring
    simp only [a2]
    rw [a1, e2, e2, Real.sin_add_pi, Real.cos_add_pi, t2]; ring

theorem Opposite.shading {r r' : ℝ} (h : Opposite r r') (p : ArrayParams) (al : ℝ) :
    interrowShading p.swapSides al r' = ((interrowShading p al r).2, (interrowShading p al r).1) := by
  unfold interrowShading
  have e1 : p.swapSides.nRows = p.nRows := rfl
  have e2 : p.swapSides.distance = p.distance := rfl
  have e3 : p.swapSides.width = p.width := rfl
  rw [e1, e2, e3, h.delta]
  by_cases hn : p.nRows > 1
  · simp only [hn, if_true, sub_neg_eq_add, ← sub_eq_add_neg]
  · simp only [hn, if_false]

theorem Opposite.direct {r r' : ℝ} (h : Opposite r r') (p : ArrayParams) (al : ℝ) :
    hasDirectShading p.swapSides al r' ↔ hasDirectShading p al r := by
  unfold hasDirectShading
  rw [h.shading]
  exact Or.comm

theorem Opposite.rowShading {r r' : ℝ} (h : Opposite r r') (p : ArrayParams) (al : ℝ) (i : ℕ) :
    rowShadedLengths p.swapSides al r' i
      = ((rowShadedLengths p al r i).2, (rowShadedLengths p al r i).1) := by
  unfold rowShadedLengths
  rw [h.shading]
  have e1 : p.swapSides.nRows = p.nRows := rfl
  have hp : r' > 0 ↔ ¬ r > 0 := by
    rw [gt_iff_lt, h.pos, gt_iff_lt, not_lt]
    exact ⟨le_of_lt, fun hle => lt_of_le_of_ne hle h.ne⟩
  rw [e1]
  by_cases h0 : i = 0
  · by_cases hr : r > 0 <;> simp [h0, hp, hr]
  · by_cases h1 : i = p.nRows - 1
    · have h0' : ¬ p.nRows - 1 = 0 := h1 ▸ h0
      simp only [h0', h1, if_true, if_false]
      by_cases hr : r > 0 <;> simp [hp, hr]
    · simp only [h0, h1, if_false]

theorem Opposite.shadePoint {r r' : ℝ} (h : Opposite r r') (c : Pt) (w L : ℝ) :
    shadePoint c w r' L = PVF.shadePoint c w r L := by
  unfold PVF.shadePoint
  simp only [cosd_add_180, sind_add_180, h.cosd, h.sind]
  rcases lt_or_gt_of_ne h.ne with hr | hr
  · have h1 : r' ≥ 0 := (h.pos.2 hr).le
    have h2 : ¬ r ≥ 0 := not_le.2 hr
    simp only [h1, h2, if_true, if_false, neg_neg]
  · have h1 : ¬ r' ≥ 0 := not_le.2 (h.neg.2 hr)
    have h2 : r ≥ 0 := le_of_lt hr
    simp only [h1, h2, if_true, if_false]

theorem Opposite.segment {r r' : ℝ} (h : Opposite r r') (c : Pt) (w L : ℝ) {n k : ℕ} (hk : k < n) :
    (sideSegment c w r' n L (n - 1 - k)).illum = (sideSegment c w r n L k).illum ∧
    (sideSegment c w r' n L (n - 1 - k)).shaded = (sideSegment c w r n L k).shaded := by
  have hn : (n : ℝ) ≠ 0 := by exact_mod_cast (by omega : n ≠ 0)
  have hj : ((n - 1 - k : ℕ) : ℝ) = n - 1 - k := by
    rw [Nat.cast_sub (by omega), Nat.cast_sub (by omega), Nat.cast_one]
  have e1 : w / 2 - ((n - 1 - k : ℕ) : ℝ) * (w / n) = -(w / 2 - (k + 1) * (w / n)) := by
    rw [hj]; field_simp; ring
  have e2 : w / 2 - (((n - 1 - k : ℕ) : ℝ) + 1) * (w / n) = -(w / 2 - k * (w / n)) := by
    rw [hj]; field_simp; ring
  have a1 : ∀ x y : ℝ, - x * - y = x * y := fun x y => neg_mul_neg x y
  have h0 : r' ≠ 0 := by
    rcases lt_or_gt_of_ne h.ne with hr | hr
    · exact (h.pos.2 hr).ne'
    · exact (h.neg.2 hr).ne
  unfold sideSegment
  simp only [e1, e2, h.shadePoint, cosd_add_180, sind_add_180, h.cosd, h.sind, neg_neg, ne_eq, h0,
    h.ne, not_false_eq_true, and_true]
  rcases lt_or_gt_of_ne h.ne with hr | hr
  · have h1 : r' ≥ 0 := (h.pos.2 hr).le
    have h2 : ¬ r ≥ 0 := not_le.2 hr
    simp only [h1, h2, if_true, if_false, neg_mul, mul_neg, and_self]
  · have h1 : ¬ r' ≥ 0 := not_le.2 (h.neg.2 hr)
    have h2 : r ≥ 0 := le_of_lt hr
    simp only [h1, h2, if_true, if_false, neg_mul, mul_neg, and_self]

theorem opposite_rotation {p : ArrayParams} {u u' : StepIn} (h : SwappedStep u u')
    (ht : Tilted p u) :
    Opposite (rotationFromTiltAzimuth u.surfaceAzimuth p.axisAzimuth u.surfaceTilt).deg
      (rotationFromTiltAzimuth u'.surfaceAzimuth p.axisAzimuth u'.surfaceTilt).deg := by
  obtain ⟨k, hk⟩ := h.facing
  have hs : sind (u'.surfaceAzimuth - p.axisAzimuth) = - sind (u.surfaceAzimuth - p.axisAzimuth) := by
    have : u'.surfaceAzimuth - p.axisAzimuth
        = ((u.surfaceAzimuth - p.axisAzimuth) + 180) + 360 * (k : ℝ) := by rw [hk]; ring
    rw [this, ← sind_pyMod, pyMod_add_mul, sind_pyMod, sind_add_180]
  have hp := ht.pos
  have hl := ht.lt
  have n1 : u.surfaceTilt ≠ 0 := hp.ne'
  have n2 : (180 : ℝ) - u.surfaceTilt ≠ 0 := by linarith
  unfold rotationFromTiltAzimuth
  simp only [h.tilt, n1, n2, if_false, gt_iff_lt, pyMod_gt_iff, hs]
  rcases lt_or_gt_of_ne ht.across with hx | hx
  · have h2 : ¬ - sind (u.surfaceAzimuth - p.axisAzimuth) < 0 := by linarith
    simp only [hx, h2, if_true, if_false]
    refine ⟨n1, ⟨fun h => by linarith, fun h => by linarith⟩,
      ⟨fun h => by linarith, fun h => by linarith⟩, Or.inr (by ring), ?_⟩
    exact (sind_pos hp hl).ne'
  · have h1 : ¬ sind (u.surfaceAzimuth - p.axisAzimuth) < 0 := by linarith
    have h2 : - sind (u.surfaceAzimuth - p.axisAzimuth) < 0 := by linarith
    simp only [h1, h2, if_true, if_false]
    refine ⟨neg_ne_zero.2 n1, ⟨fun h => by linarith, fun h => by linarith⟩,
      ⟨fun h => by linarith, fun h => by linarith⟩, Or.inl (by ring), ?_⟩
    rw [sind_neg]
    exact neg_ne_zero.2 (sind_pos hp hl).ne'

/-! ## Names of surfaces -/

theorem nSeg_swap (p : ArrayParams) (i : ℕ) (s : RowSide) :
    p.swapSides.nSeg i s.swap = p.nSeg i s := by cases s <;> rfl

theorem side_swap_swap (s : RowSide) : s.swap.swap = s := by cases s <;> rfl

theorem swapSides_swapSides (p : ArrayParams) : p.swapSides.swapSides = p := rfl

theorem swap_mem {p : ArrayParams} {a : SurfRef} (ha : a ∈ allRefs p) :
    a.swap p ∈ allRefs p.swapSides := by
  cases a with
  | gnd sh e z => exact mem_allRefs_gnd.2 ((mem_allRefs_gnd (p := p)).1 ha)
  | pv i s k sh =>
    obtain ⟨h1, h2⟩ := mem_allRefs_pv.1 ha
    refine mem_allRefs_pv.2 ⟨h1, ?_⟩
    rw [nSeg_swap]
    omega

theorem swap_swap {p : ArrayParams} {a : SurfRef} (ha : a ∈ allRefs p) :
    (a.swap p).swap p.swapSides = a := by
  cases a with
  | gnd sh e z => rfl
  | pv i s k sh =>
    obtain ⟨h1, h2⟩ := mem_allRefs_pv.1 ha
    simp only [SurfRef.swap, side_swap_swap, nSeg_swap]
    congr 1
    omega

theorem sum_swap {p : ArrayParams} (f : SurfRef → ℝ) :
    ∑ b ∈ surfaces p.swapSides, f b = ∑ b ∈ surfaces p, f (b.swap p) := by
  refine (Finset.sum_bij' (fun b _ => b.swap p) (fun b _ => b.swap p.swapSides) ?_ ?_ ?_ ?_ ?_).symm
  · intro a ha; exact mem_surfaces.2 (swap_mem (mem_surfaces.1 ha))
  · intro a ha; exact mem_surfaces.2 (swap_mem (p := p.swapSides) (mem_surfaces.1 ha))
  · intro a ha; exact swap_swap (mem_surfaces.1 ha)
  · intro a ha; exact swap_swap (p := p.swapSides) (mem_surfaces.1 ha)
  · intro a _; rfl

/-! ## Geometry -/

/-- Two geometries of the same rows. -/
structure SameScene (p : ArrayParams) (g g' : StepGeom) : Prop where
  opposite : Opposite g.rot.deg g'.rot.deg
  sun : g'.sun = g.sun
  alpha : g'.alpha = g.alpha
  full : ∀ i, (g'.row i).full = ⟨(g.row i).full.b2, (g.row i).full.b1⟩
  highest : ∀ i, (g'.row i).full.highest = (g.row i).full.highest
  lowest : ∀ i, (g'.row i).full.lowest = (g.row i).full.lowest
  ground : g'.ground = g.ground
  coords : ∀ a ∈ allRefs p, g'.coords (a.swap p) = g.coords a

theorem Opposite.full {r r' : ℝ} (h : Opposite r r') (c : Pt) (w : ℝ) :
    fullRowCoords c w r' = ⟨(fullRowCoords c w r).b2, (fullRowCoords c w r).b1⟩ := by
  simp only [fullRowCoords, cosd_add_180, sind_add_180, h.cosd, h.sind, neg_neg]

theorem Opposite.extremes {r r' : ℝ} (h : Opposite r r') (c : Pt) (w : ℝ) :
    (fullRowCoords c w r').highest = (fullRowCoords c w r).highest ∧
    (fullRowCoords c w r').lowest = (fullRowCoords c w r).lowest := by
  rw [h.full]
  by_cases hw : w = 0
  · simp [fullRowCoords, hw]
  · have hne : (fullRowCoords c w r).b1.y ≠ (fullRowCoords c w r).b2.y := by
      simp only [fullRowCoords, sind_add_180]
      intro he
      have : w * PVF.sind r = 0 := by linarith
      rcases mul_eq_zero.1 this with h1 | h1
      · exact hw h1
      · exact h.sin h1
    generalize fullRowCoords c w r = l at hne
    obtain ⟨b1, b2⟩ := l
    simp only [Line.highest, Line.lowest] at hne ⊢
    rcases lt_or_gt_of_ne hne with h1 | h1
    · simp [h1, h1.not_gt, h1.le, h1.not_ge]
    · simp [h1, h1.not_gt, h1.le, h1.not_ge]

theorem Opposite.shadow {r r' : ℝ} (h : Opposite r r') (c : Pt) (w al : ℝ) :
    shadowXs (fullRowCoords c w r') al = shadowXs (fullRowCoords c w r) al := by
  rw [h.full]
  unfold shadowXs
  simp only
  split_ifs with h1 h2 h2
  · rw [le_antisymm h1 h2]
  · rfl
  · rfl
  · exact absurd (le_of_lt (not_le.1 h1)) h2

theorem Opposite.cut {r r' : Rot} (h : Opposite r.deg r'.deg) (c : Pt) (w : ℝ) :
    cutPointX (fullRowCoords c w r'.deg) r' = cutPointX (fullRowCoords c w r.deg) r := by
  have h0 : r'.deg ≠ 0 := by
    rcases lt_or_gt_of_ne h.ne with hr | hr
    · exact (h.pos.2 hr).ne'
    · exact (h.neg.2 hr).ne
  rw [h.full]
  unfold cutPointX
  rw [if_neg h0, if_neg h.ne, h.cosd, h.sind]
  simp only [fullRowCoords, cosd_add_180, sind_add_180]
  have := h.sin
  congr 1
  field_simp
  ring

/-- The entry of a pair (front, back). -/
def ofSide (x : ℝ × ℝ) : RowSide → ℝ
  | .front => x.1
  | .back => x.2

theorem same_scene {p : ArrayParams} {u u' : StepIn} (h : SwappedStep u u') (ht : Tilted p u) :
    SameScene p (fitStep p u) (fitStep p.swapSides u') := by
  have ho := opposite_rotation h ht
  have hsun : (fitStep p.swapSides u').sun = (fitStep p u).sun := by
    simp only [fitStep, fitGeom, h.zenith, h.sun]; rfl
  have hal : (fitStep p.swapSides u').alpha = (fitStep p u).alpha := by
    simp only [fitStep, fitGeom, h.zenith, h.sun]; rfl
  have hgnd : (fitStep p.swapSides u').ground = (fitStep p u).ground := by
    have hd := ho.direct p (fitStep p u).alpha
    have e1 : ∀ i, shadowXs ((fitStep p.swapSides u').row i).full (fitStep p.swapSides u').alpha
        = shadowXs ((fitStep p u).row i).full (fitStep p u).alpha := by
      intro i; rw [hal]; exact ho.shadow _ _ _
    have e2 : ∀ i, cutPointX ((fitStep p.swapSides u').row i).full (fitStep p.swapSides u').rot
        = cutPointX ((fitStep p u).row i).full (fitStep p u).rot := fun i => ho.cut _ _
    change groundFromRows _ (fitStep p.swapSides u').alpha (fitStep p.swapSides u').rot
      (fitStep p.swapSides u').row = groundFromRows _ (fitStep p u).alpha (fitStep p u).rot
      (fitStep p u).row
    unfold groundFromRows
    have e3 : hasDirectShading p.swapSides (fitStep p.swapSides u').alpha
        (fitStep p.swapSides u').rot.deg = hasDirectShading p (fitStep p u).alpha
        (fitStep p u).rot.deg := by
      rw [hal]; exact propext hd
    simp only [e1, e2, e3]
    rfl
  refine ⟨ho, hsun, hal, fun i => ho.full _ _, fun i => (ho.extremes _ _).1,
    fun i => (ho.extremes _ _).2, hgnd, ?_⟩
  intro a ha
  cases a with
  | gnd sh e z => cases sh <;> simp only [SurfRef.swap, StepGeom.coords, hgnd]
  | pv i s k sh =>
    obtain ⟨hi, hk⟩ := mem_allRefs_pv.1 ha
    have hrs := ho.rowShading p (fitStep p u).alpha i
    have key : ∀ n L, k < n →
        ((sideSegments (rowCenter p i) p.width (fitStep p.swapSides u').rot.deg n L).getD (n - 1 - k)
          default).illum = ((sideSegments (rowCenter p i) p.width (fitStep p u).rot.deg n L).getD k
          default).illum ∧
        ((sideSegments (rowCenter p i) p.width (fitStep p.swapSides u').rot.deg n L).getD (n - 1 - k)
          default).shaded = ((sideSegments (rowCenter p i) p.width (fitStep p u).rot.deg n L).getD k
          default).shaded := by
      intro n L hkn
      have h1 : n - 1 - k < n := by omega
      unfold sideSegments
      rw [List.getD_eq_getElem _ _ (by simpa using h1), List.getD_eq_getElem _ _ (by simpa using hkn)]
      simp only [List.getElem_map, List.getElem_range]
      exact ho.segment _ _ _ hkn
    have e1 : (fitStep p.swapSides u').side i s.swap
        = sideSegments (rowCenter p i) p.width (fitStep p.swapSides u').rot.deg (p.nSeg i s)
          (ofSide (rowShadedLengths p (fitStep p u).alpha (fitStep p u).rot.deg i) s) := by
      have : rowShadedLengths p.swapSides (fitStep p.swapSides u').alpha
          (fitStep p.swapSides u').rot.deg i
          = ((rowShadedLengths p (fitStep p u).alpha (fitStep p u).rot.deg i).2,
             (rowShadedLengths p (fitStep p u).alpha (fitStep p u).rot.deg i).1) := by
        rw [hal]; exact hrs
      cases s
      · change sideSegments _ _ _ _ (rowShadedLengths p.swapSides (fitStep p.swapSides u').alpha
          (fitStep p.swapSides u').rot.deg i).2 = _
        rw [this]; rfl
      · change sideSegments _ _ _ _ (rowShadedLengths p.swapSides (fitStep p.swapSides u').alpha
          (fitStep p.swapSides u').rot.deg i).1 = _
        rw [this]; rfl
    have e2 : (fitStep p u).side i s
        = sideSegments (rowCenter p i) p.width (fitStep p u).rot.deg (p.nSeg i s)
          (ofSide (rowShadedLengths p (fitStep p u).alpha (fitStep p u).rot.deg i) s) := by
      cases s <;> rfl
    simp only [SurfRef.swap, StepGeom.coords, e1, e2]
    obtain ⟨h1, h2⟩ := key (p.nSeg i s) _ hk
    rw [h1, h2]

/-! ## View factors -/

theorem SameScene.notPos {p : ArrayParams} {g g' : StepGeom} (h : SameScene p g g') :
    g'.rot.deg > 0 ↔ ¬ g.rot.deg > 0 := by
  rw [gt_iff_lt, h.opposite.pos, gt_iff_lt, not_lt]
  exact ⟨le_of_lt, fun hle => lt_of_le_of_ne hle h.opposite.ne⟩

theorem decide_swap_back (s : RowSide) : decide (s.swap = .back) = !decide (s = .back) := by
  cases s <;> rfl

theorem decide_swap_front (s : RowSide) : decide (s.swap = .front) = !decide (s = .front) := by
  cases s <;> rfl

theorem swap_ne_swap {s s' : RowSide} : s.swap ≠ s'.swap ↔ s ≠ s' := by
  cases s <;> cases s' <;> simp [RowSide.swap]

theorem SameScene.pvGnd {p : ArrayParams} {g g' : StepGeom} (h : SameScene p g g') (r : ℕ)
    (s : RowSide) (a b : Line) (z : ℕ) :
    pvGndVF p.swapSides g' r s.swap a b z = pvGndVF p g r s a b z := by
  have e1 : p.swapSides.nRows = p.nRows := rfl
  unfold pvGndVF vfPvGnd
  simp only [h.lowest, e1, h.notPos, decide_swap_back]
  by_cases hg : g.rot.deg > 0 <;> cases decide (s = .back) <;> cases decide (z ≤ r) <;> simp [hg]

theorem SameScene.pvPv {p : ArrayParams} {g g' : StepGeom} (h : SameScene p g g')
    (s : RowSide) (a b : Line) :
    vfPvPv a b (g'.rot.deg > 0) (decide (s.swap = .front))
      = vfPvPv a b (g.rot.deg > 0) (decide (s = .front)) := by
  unfold vfPvPv
  simp only [h.notPos, decide_swap_front]
  by_cases hg : g.rot.deg > 0 <;> cases decide (s = .front) <;> simp [hg]

theorem SameScene.entry {p : ArrayParams} {g g' : StepGeom} (h : SameScene p g g')
    {emp emp' : SurfRef → Prop} (he : ∀ a ∈ allRefs p, emp' (a.swap p) ↔ emp a) {a b : SurfRef}
    (ha : a ∈ allRefs p) (hb : b ∈ allRefs p) :
    entryVF p.swapSides g' emp' (a.swap p) (b.swap p) = entryVF p g emp a b := by
  classical
  have ea := propext (he a ha)
  have eb := propext (he b hb)
  have ca := h.coords a ha
  have cb := h.coords b hb
  cases a with
  | gnd sh e z =>
    cases b with
    | gnd sh' e' z' => rfl
    | pv i s k sh' =>
      simp only [SurfRef.swap] at ea eb ca cb ⊢
      simp only [entryVF, ca, cb, h.pvGnd]
      exact if_congr (by rw [ea, eb]) rfl rfl
  | pv i s k sh =>
    cases b with
    | gnd sh' e z =>
      simp only [SurfRef.swap] at ea eb ca cb ⊢
      simp only [entryVF, ca, cb, h.pvGnd]
      exact if_congr (by rw [ea, eb]) rfl rfl
    | pv i' s' k' sh' =>
      simp only [SurfRef.swap] at ea eb ca cb ⊢
      simp only [entryVF, ca, cb, h.pvPv, swap_ne_swap]
      exact if_congr (by rw [ea, eb]) rfl rfl

theorem SameScene.matrix {p : ArrayParams} {g g' : StepGeom} (h : SameScene p g g')
    {emp emp' : SurfRef → Prop} (he : ∀ a ∈ allRefs p, emp' (a.swap p) ↔ emp a) {a b : SurfRef}
    (ha : a ∈ surfaces p) (hb : b ∈ surfaces p) :
    vfBetween p.swapSides (vfMatrix p.swapSides g' emp') (a.swap p) (b.swap p)
      = vfBetween p (vfMatrix p g emp) a b := by
  have ha := mem_surfaces.1 ha
  have hb := mem_surfaces.1 hb
  unfold vfBetween
  rw [vfMatrix_eq (swap_mem ha) (swap_mem hb), vfMatrix_eq ha hb, h.entry he ha hb]

theorem SameScene.sky {p : ArrayParams} {g g' : StepGeom} (h : SameScene p g g')
    {emp emp' : SurfRef → Prop} (he : ∀ a ∈ allRefs p, emp' (a.swap p) ↔ emp a) {a : SurfRef}
    (ha : a ∈ surfaces p) :
    vfToSky p.swapSides (vfMatrix p.swapSides g' emp') (a.swap p)
      = vfToSky p (vfMatrix p g emp) a := by
  have ha := mem_surfaces.1 ha
  unfold vfToSky vfMatrix
  simp only [true_and, surfIndex_lt ha, surfIndex_lt (swap_mem ha), if_true, surfLen_eq ha,
    surfLen_eq (swap_mem ha), h.coords a ha]
  rw [sum_index', sum_index', sum_swap]
  have : ∑ b ∈ surfaces p, vfNoSky p.swapSides g' emp' (surfIndex p.swapSides (a.swap p))
      (surfIndex p.swapSides (b.swap p))
      = ∑ b ∈ surfaces p, vfNoSky p g emp (surfIndex p a) (surfIndex p b) :=
    Finset.sum_congr rfl fun b hb => by
      have hb := mem_surfaces.1 hb
      rw [vfNoSky_eq (swap_mem ha) (swap_mem hb), vfNoSky_eq ha hb, h.entry he ha hb]
  rw [this]

/-! ## View factors with AOI losses -/

theorem faoi_swap (m : AOIMethods) (s : RowSide) :
    m.swapSides.faoi (decide (s.swap = .back)) = m.faoi (decide (s = .back)) := by
  cases s <;> rfl

theorem SameScene.uVec {p : ArrayParams} {g g' : StepGeom} (h : SameScene p g g') (r : ℕ)
    (s : RowSide) : g'.uVec r s.swap = g.uVec r s := by
  unfold StepGeom.uVec
  rw [h.full]
  cases s <;> simp [RowSide.swap, uVector, sideNormal]

theorem SameScene.dummy {p : ArrayParams} {g g' : StepGeom} (h : SameScene p g g') (k : ℕ) :
    dummySky p.swapSides g' k = dummySky p g k := by
  have e1 : p.swapSides.nRows = p.nRows := rfl
  unfold dummySky
  simp only [h.highest, e1]

theorem SameScene.aoi {p : ArrayParams} {g g' : StepGeom} (h : SameScene p g g') (m : AOIMethods)
    {emp emp' : SurfRef → Prop} (he : ∀ a ∈ allRefs p, emp' (a.swap p) ↔ emp a) {a b : SurfRef}
    (ha : a ∈ allRefs p) (hb : b ∈ allRefs p) :
    aoiEntry m.swapSides p.swapSides g' emp' (a.swap p) (b.swap p) = aoiEntry m p g emp a b := by
  classical
  have ea := propext (he a ha)
  have eb := propext (he b hb)
  have ca := h.coords a ha
  have cb := h.coords b hb
  have e1 : p.swapSides.nRows = p.nRows := rfl
  have e2 : m.swapSides.nSections = m.nSections := rfl
  cases a with
  | gnd sh e z =>
    exact h.entry he ha hb
  | pv i s k sh =>
    cases b with
    | gnd sh' e z =>
      simp only [SurfRef.swap] at ea eb ca cb ⊢
      simp only [aoiEntry, aoiPvGndEntry, faoi_swap, ca, cb, h.uVec, e1, e2]
      simp only [vfAoiPvGnd, h.lowest, h.notPos, decide_swap_back]
      refine if_congr (by rw [ea, eb]) rfl ?_
      generalize m.faoi (decide (s = .back)) = f
      by_cases hg : g.rot.deg > 0 <;> cases decide (s = .back) <;> cases decide (z ≤ i) <;>
        simp [hg]
    | pv i' s' k' sh' =>
      simp only [SurfRef.swap] at ea eb ca cb ⊢
      have ef : s.swap = .front ↔ ¬ s = .front := by cases s <;> simp [RowSide.swap]
      simp only [aoiEntry, aoiPvPvEntry, ea, eb, ca, cb, h.notPos, swap_ne_swap, faoi_swap, h.uVec,
        e2, ef, not_iff_not]

theorem SameScene.aoiSky {p : ArrayParams} {g g' : StepGeom} (h : SameScene p g g')
    (m : AOIMethods) {emp emp' : SurfRef → Prop} {skyEmp skyEmp' : ℕ → Prop}
    (he : ∀ a ∈ allRefs p, emp' (a.swap p) ↔ emp a) (hs : ∀ k, skyEmp' k ↔ skyEmp k)
    {r k : ℕ} {s : RowSide} {sh : Bool} (ha : SurfRef.pv r s k sh ∈ allRefs p) :
    aoiSkyEntry m.swapSides p.swapSides g' emp' skyEmp' r s.swap ((SurfRef.pv r s k sh).swap p)
      = aoiSkyEntry m p g emp skyEmp r s (.pv r s k sh) := by
  have ea := propext (he _ ha)
  have ca := h.coords _ ha
  have e2 : m.swapSides.nSections = m.nSections := rfl
  have es : skyEmp' = skyEmp := funext fun k => propext (hs k)
  have ef : s.swap = .front ↔ ¬ s = .front := by cases s <;> simp [RowSide.swap]
  simp only [aoiSkyEntry, ea, ca, es, h.notPos, faoi_swap, h.uVec, e2, ef, not_iff_not, h.dummy]

end PVF

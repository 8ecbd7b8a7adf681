import Verif.Lemmas.ArrayGeom
import Verif.Spec.Geometry
import Verif.Props.Demo

/-! # PV rows and their sides: C21, C22, C26 -/

namespace PVF

/-! ## C26 -/

/-- C26: for every rotation, row `i` is centred at `(i * width / gcr, height)`, has length `width`,
its end points are at heights `height ± width/2 * sin(rotation)`, and it is the translate of row 0
by `i * width / gcr`. -/
theorem C26_row_position (p : ArrayParams) (u : StepIn) (i : ℕ) (hw : 0 ≤ p.width) :
    let g := fitStep p u
    let row := (g.row i).full
    row.centroid = ⟨i * (p.width / p.gcr), p.height⟩ ∧
    row.length = p.width ∧
    row.b1.y = p.height - p.width / 2 * sind g.rot.deg ∧
    row.b2.y = p.height + p.width / 2 * sind g.rot.deg ∧
    row.b2.x - row.b1.x = p.width * cosd g.rot.deg ∧
    row.b1 = ⟨(g.row 0).full.b1.x + i * (p.width / p.gcr), (g.row 0).full.b1.y⟩ ∧
    row.b2 = ⟨(g.row 0).full.b2.x + i * (p.width / p.gcr), (g.row 0).full.b2.y⟩ := by
  intro g row
  have hg : ∀ j, (g.row j).full = ⟨rowPt (rowCenter p j) g.rot.deg (-(p.width / 2)),
      rowPt (rowCenter p j) g.rot.deg (p.width / 2)⟩ := fun j => fullRowCoords_eq _ _ _
  have hrow : row = ⟨rowPt (rowCenter p i) g.rot.deg (-(p.width / 2)),
      rowPt (rowCenter p i) g.rot.deg (p.width / 2)⟩ := hg i
  rw [hrow, hg 0]
  refine ⟨?_, ?_, ?_, ?_, ?_, ?_, ?_⟩
  · simp only [Line.centroid, rowPt, rowCenter, X_ORIGIN, Y_GROUND, ArrayParams.distance]
    congr 1 <;> ring
  · rw [length_rowPt, show p.width / 2 - -(p.width / 2) = p.width by ring, abs_of_nonneg hw]
  · simp only [rowPt, rowCenter, Y_GROUND]; ring
  · simp only [rowPt, rowCenter, Y_GROUND]; ring
  · simp only [rowPt]; ring
  · simp only [rowPt, rowCenter, ArrayParams.distance, X_ORIGIN, Nat.cast_zero]; congr 1; ring
  · simp only [rowPt, rowCenter, ArrayParams.distance, X_ORIGIN, Nat.cast_zero]; congr 1; ring

/-- Instance: the middle row of the demo array. -/
theorem C26_demo : ((fitStep demoArray demoStep).row 1).full.centroid = ⟨5 / 2, 3 / 2⟩ := by
  have h := (C26_row_position demoArray demoStep 1 (by norm_num [demoArray])).1
  rw [h]
  norm_num [demoArray]

/-! ## C21 -/

theorem sideSegments_getElem (c : Pt) (w rot : ℝ) (n : ℕ) (L : ℝ) (k : ℕ) (hk : k < n) :
    (sideSegments c w rot n L)[k]? = some (sideSegment c w rot n L k) := by
  simp [sideSegments, hk]

theorem sideSegment_parts {w rot : ℝ} (c : Pt) (n : ℕ) (L : ℝ) (k : ℕ) (hw : 0 ≤ w)
    (h0 : -180 < rot) (h1 : rot < 180) :
    let s := sideSegment c w rot n L k
    s.shaded.b2 = s.illum.b1 ∧
    ((s.shaded.b1 = s.coords.b1 ∧ s.illum.b2 = s.coords.b2) ∨
     (s.shaded.b1 = s.coords.b2 ∧ s.illum.b2 = s.coords.b1)) := by
  intro s
  have hc := sideSegment_coords c w rot n L k
  rcases lt_trichotomy rot 0 with hr | hr | hr
  · have h := sideSegment_neg (c := c) (n := n) (L := L) (k := k) hw hr h0
    simp only at h
    simp only [s]
    rw [h.1, h.2, hc]; simp
  · subst hr
    have h := sideSegment_flat (c := c) (w := w) (n := n) (L := L) (k := k)
    simp only [s]
    rw [h.1, h.2, hc]; simp
  · have h := sideSegment_pos (c := c) (n := n) (L := L) (k := k) hw hr h1
    simp only at h
    simp only [s]
    rw [h.1, h.2, hc]; simp

theorem sideSegment_length {w rot : ℝ} (c : Pt) (n : ℕ) (L : ℝ) (k : ℕ) (hw : 0 ≤ w)
    (h0 : -180 < rot) (h1 : rot < 180) : (sideSegment c w rot n L k).length = w / n := by
  have hs := seg_surface_length (c := c) (n := n) (L := L) (k := k) hw h0 h1 true
  have hi := seg_surface_length (c := c) (n := n) (L := L) (k := k) hw h0 h1 false
  simp only [if_true, Bool.false_eq_true, if_false] at hs hi
  rw [SegGeom.length, hs, hi]
  have := tIv_telescope w rot n L k (fun x => x)
  rw [this, tSeg_len]

/-- C21: the `n` segments of a side of a row of width `w` have length `w / n`, follow each other
without gap from one end of the row to the other, and each is the union of its shaded and its
illuminated surface; the length of the side is `w`. -/
theorem C21_side_length (c : Pt) (w rot : ℝ) (n : ℕ) (L : ℝ) (hw : 0 ≤ w) (hn : 0 < n)
    (h0 : -180 < rot) (h1 : rot < 180) :
    let segs := sideSegments c w rot n L
    segs.length = n ∧ sideLength segs = w ∧
    (∀ s ∈ segs, s.length = w / n ∧ s.coords.length = w / n ∧
      s.shaded.b2 = s.illum.b1 ∧
      ((s.shaded.b1 = s.coords.b1 ∧ s.illum.b2 = s.coords.b2) ∨
       (s.shaded.b1 = s.coords.b2 ∧ s.illum.b2 = s.coords.b1))) ∧
    (segs[0]?.map fun s => s.coords.b1) = some (fullRowCoords c w rot).b1 ∧
    (segs[n - 1]?.map fun s => s.coords.b2) = some (fullRowCoords c w rot).b2 ∧
    (∀ k, k + 1 < n → (segs[k]?.map fun s => s.coords.b2) = (segs[k + 1]?.map fun s => s.coords.b1))
    := by
  intro segs
  have hn' : (n : ℝ) ≠ 0 := by positivity
  refine ⟨by simp [segs, sideSegments], ?_, ?_, ?_, ?_, ?_⟩
  · simp only [sideLength, segs, sideSegments, List.map_map]
    rw [show (List.map (SegGeom.length ∘ sideSegment c w rot n L) (List.range n))
        = List.map (fun _ => w / (n : ℝ)) (List.range n) from
      List.map_congr_left fun k _ => sideSegment_length c n L k hw h0 h1]
    simp
    field_simp
  · intro s hs
    simp only [segs, sideSegments, List.mem_map, List.mem_range] at hs
    obtain ⟨k, hk, rfl⟩ := hs
    refine ⟨sideSegment_length c n L k hw h0 h1, ?_, sideSegment_parts c n L k hw h0 h1⟩
    rw [sideSegment_coords, length_rowPt, segLo_succ, add_sub_cancel_left, abs_of_nonneg]
    positivity
  · rw [sideSegments_getElem _ _ _ _ _ _ hn, Option.map_some, sideSegment_coords, fullRowCoords_eq,
      segLo_zero]
  · rw [sideSegments_getElem _ _ _ _ _ _ (by omega), Option.map_some, sideSegment_coords,
      fullRowCoords_eq, show n - 1 + 1 = n by omega, segLo_self _ hn]
  · intro k hk
    rw [sideSegments_getElem _ _ _ _ _ _ (by omega), sideSegments_getElem _ _ _ _ _ _ hk]
    simp [sideSegment_coords]

/-- The hypotheses of C21 are met, with partial shading. -/
theorem C21_demo : sideLength (sideSegments ⟨0, 1⟩ 2 30 3 (1 / 2)) = 2 :=
  (C21_side_length ⟨0, 1⟩ 2 30 3 (1 / 2) (by norm_num) (by norm_num) (by norm_num)
    (by norm_num)).2.1

/-! ## C22 -/

/-- C22: the total shaded length of a side of a tilted row is the shaded length given to it. -/
theorem C22_shaded_length (c : Pt) (w rot : ℝ) (n : ℕ) (L : ℝ) (hn : 0 < n)
    (h0 : -180 < rot) (h1 : rot < 180) (hr : rot ≠ 0) (hL0 : 0 ≤ L) (hLw : L ≤ w) :
    sideShadedLength (sideSegments c w rot n L) = L := by
  have hw : 0 ≤ w := hL0.trans hLw
  have e : ∀ k, (sideSegment c w rot n L k).shaded.length
      = min (tSeg w rot n k).2 L - min (tSeg w rot n k).1 L := by
    intro k
    have hs := seg_surface_length (c := c) (n := n) (L := L) (k := k) hw h0 h1 true
    simp only [if_true] at hs
    rw [hs]
    have hle := tSeg_le hw rot n k
    simp only [tIv, hr, if_false, if_true]
    rcases le_total L (tSeg w rot n k).1 with h | h
    · rw [min_eq_right (h.trans hle), min_eq_right h, max_eq_left h]; ring
    · rw [min_eq_left h, max_eq_right]
      exact le_min hle h
  simp only [sideShadedLength, sideSegments, List.map_map]
  rw [show ((fun s : SegGeom => s.shaded.length) ∘ sideSegment c w rot n L)
    = fun k => (fun x => min x L) (tSeg w rot n k).2 - (fun x => min x L) (tSeg w rot n k).1 from
    funext e]
  rw [tSeg_telescope w rot hn (fun x => min x L)]
  simp [hLw, hL0]

/-- C22: a flat row has no shaded length. -/
theorem C22_flat (c : Pt) (w : ℝ) (n : ℕ) (L : ℝ) :
    sideShadedLength (sideSegments c w 0 n L) = 0 := by
  simp only [sideShadedLength, sideSegments, List.map_map]
  rw [show ((fun s : SegGeom => s.shaded.length) ∘ sideSegment c w 0 n L) = fun _ => 0 from ?_]
  · simp
  · funext k
    simp only [Function.comp]
    rw [(sideSegment_flat (c := c) (w := w) (n := n) (L := L) (k := k)).1, length_rowPt]
    simp

theorem lerp_tPt (c : Pt) (w rot a b t : ℝ) :
    lerp (tPt c w rot a) (tPt c w rot b) t = tPt c w rot (a + t * (b - a)) := by
  rw [tPt_affine c w rot a, tPt_affine c w rot b, tPt_affine c w rot (a + t * (b - a))]
  simp only [lerp]
  congr 1 <;> ring

theorem tPt_inj {c : Pt} {w rot a b : ℝ} (h : tPt c w rot a = tPt c w rot b) : a = b := by
  have := length_tPt c w rot a b
  rw [h] at this
  have h0 : (Line.mk (tPt c w rot b) (tPt c w rot b)).length = 0 := by
    simp [Line.length]
  rw [h0] at this
  have := abs_eq_zero.1 this.symm
  linarith

theorem onSeg_tPt {c : Pt} {w rot a b x : ℝ} (hab : a ≤ b) :
    OnSeg (tPt c w rot x) ⟨tPt c w rot a, tPt c w rot b⟩ ↔ a ≤ x ∧ x ≤ b := by
  constructor
  · rintro ⟨t, ht0, ht1, h⟩
    rw [lerp_tPt] at h
    rw [tPt_inj h]
    constructor <;> nlinarith
  · rintro ⟨h1, h2⟩
    rcases eq_or_lt_of_le hab with rfl | hlt
    · have : x = a := le_antisymm h2 h1
      subst this
      exact ⟨0, le_rfl, zero_le_one, by simp [lerp]⟩
    · refine ⟨(x - a) / (b - a), ?_, ?_, ?_⟩
      · exact div_nonneg (by linarith) (by linarith)
      · rw [div_le_one (by linarith)]; linarith
      · rw [lerp_tPt]; congr 1
        have : b - a ≠ 0 := by linarith
        field_simp; ring

theorem full_low_high {c : Pt} {w rot : ℝ} (hw : 0 < w) (h0 : -180 < rot) (h1 : rot < 180) :
    (fullRowCoords c w rot).lowest = tPt c w rot 0 ∧
    (fullRowCoords c w rot).highest = tPt c w rot w := by
  rw [fullRowCoords_eq]
  have e1 : -(w / 2) + w = w / 2 := by ring
  have e2 : w / 2 - w = -(w / 2) := by ring
  rcases lt_trichotomy rot 0 with hr | hr | hr
  · have hs := sind_neg_of_neg hr h0
    have hc : (rowPt c rot (-(w / 2))).y ≥ (rowPt c rot (w / 2)).y := by
      simp only [rowPt]; nlinarith
    simp [Line.lowest, Line.highest, hc, tPt, not_lt.2 hr.le, e2]
  · subst hr
    have hc : (rowPt c 0 (-(w / 2))).y ≥ (rowPt c 0 (w / 2)).y := by
      simp only [rowPt, sind_zero]; simp
    simp [Line.lowest, Line.highest, hc, tPt, e2]
  · have hs := sind_pos hr h1
    have hc : ¬ (rowPt c rot (-(w / 2))).y ≥ (rowPt c rot (w / 2)).y := by
      simp only [rowPt]; push Not; nlinarith
    simp [Line.lowest, Line.highest, hc, tPt, hr, e1]

/-- C22: the shade touches the lower edge and is contiguous: the point of a tilted row at fraction
`t` of the way from its lowest to its highest end lies on a shaded surface (not a point) exactly if
its distance from the lower edge is at most `L`, and on an illuminated surface exactly if that
distance is at least `L`. -/
theorem C22_shade_at_lower_edge (c : Pt) (w rot : ℝ) (n : ℕ) (L t : ℝ) (hw : 0 < w) (hn : 0 < n)
    (h0 : -180 < rot) (h1 : rot < 180) (hr : rot ≠ 0) (ht0 : 0 ≤ t) (ht1 : t ≤ 1) :
    let P := lerp (fullRowCoords c w rot).lowest (fullRowCoords c w rot).highest t
    ((∃ s ∈ sideSegments c w rot n L, 0 < s.shaded.length ∧ OnSeg P s.shaded) ↔
      0 < L ∧ t * w ≤ L) ∧
    ((∃ s ∈ sideSegments c w rot n L, 0 < s.illum.length ∧ OnSeg P s.illum) ↔
      L < w ∧ L ≤ t * w) := by
  intro P
  obtain ⟨hlow, hhigh⟩ := full_low_high (c := c) hw h0 h1
  have hP : P = tPt c w rot (t * w) := by
    simp only [P]
    rw [hlow, hhigh, lerp_tPt]; congr 1; ring
  have hx0 : 0 ≤ t * w := by positivity
  have hxw : t * w ≤ w := by nlinarith
  set x := t * w with hx
  have hs := fun k => seg_surface (c := c) (n := n) (L := L) (k := k) hw.le h0 h1 true
  have hi := fun k => seg_surface (c := c) (n := n) (L := L) (k := k) hw.le h0 h1 false
  have hsl := fun k => seg_surface_length (c := c) (n := n) (L := L) (k := k) hw.le h0 h1 true
  have hil := fun k => seg_surface_length (c := c) (n := n) (L := L) (k := k) hw.le h0 h1 false
  simp only [if_true, Bool.false_eq_true, if_false, hr] at hs hi hsl hil
  have hnR : (0 : ℝ) < n := by exact_mod_cast hn
  have hwn : 0 < w / n := by positivity
  have hnw : (n : ℝ) * (w / n) = w := by field_simp
  -- a segment containing x with a point strictly below / above
  have exlow : ∀ y, 0 ≤ y → y < w → ∃ k < n, (tSeg w rot n k).1 ≤ y ∧ y < (tSeg w rot n k).2 := by
    intro y hy0 hy1
    have hq : 0 ≤ y / (w / n) := by positivity
    have hqn : y / (w / n) < n := by rw [div_lt_iff₀ hwn]; linarith
    have hyq : y / (w / n) * (w / n) = y := by field_simp
    by_cases hp : 0 < rot
    · refine ⟨⌊y / (w / n)⌋₊, ?_, ?_, ?_⟩
      · rw [Nat.floor_lt hq]; exact hqn
      · simp only [tSeg, hp, if_true]
        have := Nat.floor_le hq
        nlinarith
      · simp only [tSeg, hp, if_true]
        have := Nat.lt_floor_add_one (y / (w / n))
        nlinarith
    · have hfl : ⌊y / (w / n)⌋₊ < n := by rw [Nat.floor_lt hq]; exact hqn
      refine ⟨n - 1 - ⌊y / (w / n)⌋₊, by omega, ?_, ?_⟩
      · simp only [tSeg, hp, if_false]
        have hc : ((n - 1 - ⌊y / (w / n)⌋₊ : ℕ) : ℝ) = n - 1 - ⌊y / (w / n)⌋₊ := by
          rw [Nat.cast_sub (by omega), Nat.cast_sub (by omega)]; simp
        rw [hc]
        have := Nat.floor_le hq
        nlinarith
      · simp only [tSeg, hp, if_false]
        have hc : ((n - 1 - ⌊y / (w / n)⌋₊ : ℕ) : ℝ) = n - 1 - ⌊y / (w / n)⌋₊ := by
          rw [Nat.cast_sub (by omega), Nat.cast_sub (by omega)]; simp
        rw [hc]
        have := Nat.lt_floor_add_one (y / (w / n))
        nlinarith
  have exhigh : ∀ y, 0 < y → y ≤ w → ∃ k < n, (tSeg w rot n k).1 < y ∧ y ≤ (tSeg w rot n k).2 := by
    intro y hy0 hy1
    have hq : 0 < y / (w / n) := by positivity
    have hqn : y / (w / n) ≤ n := by rw [div_le_iff₀ hwn]; linarith
    have hyq : y / (w / n) * (w / n) = y := by field_simp
    have hc1 : 0 < ⌈y / (w / n)⌉₊ := Nat.ceil_pos.2 hq
    have hc2 : ⌈y / (w / n)⌉₊ ≤ n := Nat.ceil_le.2 hqn
    have hc3 := Nat.le_ceil (y / (w / n))
    have hc4 := Nat.ceil_lt_add_one hq.le
    by_cases hp : 0 < rot
    · refine ⟨⌈y / (w / n)⌉₊ - 1, by omega, ?_, ?_⟩
      · simp only [tSeg, hp, if_true]
        rw [Nat.cast_sub (by omega)]; push_cast; nlinarith
      · simp only [tSeg, hp, if_true]
        rw [Nat.cast_sub (by omega)]; push_cast; nlinarith
    · refine ⟨n - ⌈y / (w / n)⌉₊, by omega, ?_, ?_⟩
      · simp only [tSeg, hp, if_false]
        rw [Nat.cast_sub (by omega)]; nlinarith
      · simp only [tSeg, hp, if_false]
        rw [Nat.cast_sub (by omega)]; nlinarith
  simp only [sideSegments, List.mem_map, List.mem_range, exists_exists_and_eq_and, hs, hi, hP]
  constructor
  · constructor
    · rintro ⟨k, hk, hpos, hon⟩
      rw [← hs k, hsl k] at hpos
      rw [onSeg_tPt (tIv_le hw.le rot n L k true)] at hon
      have hlo := (tSeg_bounds hw.le rot hk).1
      simp only [tIv, hr, if_false, if_true] at hpos hon
      have hL : (tSeg w rot n k).1 < L := by
        by_contra h
        rw [max_eq_left ((min_le_right _ _).trans (not_lt.1 h))] at hpos
        linarith
      refine ⟨by linarith, hon.2.trans ?_⟩
      exact max_le hL.le (min_le_right _ _)
    · rintro ⟨hL, hxL⟩
      rcases eq_or_lt_of_le hx0 with h00 | hx0
      · obtain ⟨k, hk, hk1, hk2⟩ := exlow 0 le_rfl hw
        have hlo := (tSeg_bounds hw.le rot hk).1
        refine ⟨k, hk, ?_, ?_⟩
        · rw [← hs k, hsl k]
          simp only [tIv, hr, if_false, if_true]
          have : 0 < min (tSeg w rot n k).2 L := lt_min hk2 hL
          have := le_max_right (tSeg w rot n k).1 (min (tSeg w rot n k).2 L)
          linarith
        · rw [onSeg_tPt (tIv_le hw.le rot n L k true)]
          simp only [tIv, hr, if_false, if_true]
          exact ⟨by linarith, by
            rw [← h00]
            exact hlo.trans (le_max_left _ _)⟩
      · obtain ⟨k, hk, hk1, hk2⟩ := exhigh x hx0 hxw
        refine ⟨k, hk, ?_, ?_⟩
        · rw [← hs k, hsl k]
          simp only [tIv, hr, if_false, if_true]
          have : x ≤ min (tSeg w rot n k).2 L := le_min hk2 hxL
          have := le_max_right (tSeg w rot n k).1 (min (tSeg w rot n k).2 L)
          linarith
        · rw [onSeg_tPt (tIv_le hw.le rot n L k true)]
          simp only [tIv, hr, if_false, if_true]
          exact ⟨hk1.le, (le_min hk2 hxL).trans (le_max_right _ _)⟩
  · constructor
    · rintro ⟨k, hk, hpos, hon⟩
      rw [← hi k, hil k] at hpos
      rw [onSeg_tPt (tIv_le hw.le rot n L k false)] at hon
      have hhi := (tSeg_bounds hw.le rot hk).2
      have hle := tSeg_le hw.le rot n k
      simp only [tIv, hr, if_false, Bool.false_eq_true] at hpos hon
      have hL : L < (tSeg w rot n k).2 := by
        by_contra h
        rw [min_eq_left (not_lt.1 h), max_eq_right hle] at hpos
        linarith
      refine ⟨by linarith, le_trans ?_ hon.1⟩
      rw [min_eq_right hL.le]
      exact le_max_right _ _
    · rintro ⟨hL, hxL⟩
      rcases eq_or_lt_of_le hxw with hww | hxw
      · obtain ⟨k, hk, hk1, hk2⟩ := exhigh w hw le_rfl
        have hhi := (tSeg_bounds hw.le rot hk).2
        have e2 : (tSeg w rot n k).2 = w := le_antisymm hhi hk2
        refine ⟨k, hk, ?_, ?_⟩
        · rw [← hi k, hil k]
          simp only [tIv, hr, if_false, Bool.false_eq_true]
          rw [e2, min_eq_right hL.le]
          have : max (tSeg w rot n k).1 L < w := max_lt hk1 hL
          linarith
        · rw [onSeg_tPt (tIv_le hw.le rot n L k false)]
          simp only [tIv, hr, if_false, Bool.false_eq_true]
          rw [e2, min_eq_right hL.le, hww]
          exact ⟨(max_lt hk1 hL).le, le_rfl⟩
      · obtain ⟨k, hk, hk1, hk2⟩ := exlow x hx0 hxw
        refine ⟨k, hk, ?_, ?_⟩
        · rw [← hi k, hil k]
          simp only [tIv, hr, if_false, Bool.false_eq_true]
          rw [min_eq_right (hxL.trans hk2.le)]
          have : max (tSeg w rot n k).1 L < (tSeg w rot n k).2 :=
            max_lt (by linarith) (by linarith)
          linarith
        · rw [onSeg_tPt (tIv_le hw.le rot n L k false)]
          simp only [tIv, hr, if_false, Bool.false_eq_true]
          rw [min_eq_right (hxL.trans hk2.le)]
          exact ⟨max_le hk1 hxL, hk2.le⟩

/-- The hypotheses of C22 are met. -/
theorem C22_demo : sideShadedLength (sideSegments ⟨0, 1⟩ 2 (-30) 3 (1 / 2)) = 1 / 2 :=
  C22_shaded_length ⟨0, 1⟩ 2 (-30) 3 (1 / 2) (by norm_num) (by norm_num) (by norm_num)
    (by norm_num) (by norm_num) (by norm_num)

end PVF

import Verif.Props.Ground
import Verif.Props.Rows

/-! # Lengths of the surfaces that the sun reaches -/

namespace PVF

theorem sum_map_flatMap' {α β : Type*} (l : List α) (f : α → List β) (h : β → ℝ) :
    ((l.flatMap f).map h).sum = (l.map fun e => ((f e).map h).sum).sum := by
  induction l with
  | nil => simp
  | cons e l ih => simp [List.flatMap_cons, ih]

theorem sum_map_add' {α : Type*} (l : List α) (f g : α → ℝ) :
    (l.map fun e => f e + g e).sum = (l.map f).sum + (l.map g).sum := by
  induction l with
  | nil => simp
  | cons e l ih => simp only [List.map_cons, List.sum_cons, ih]; ring

theorem sum_map_mul' {α : Type*} (l : List α) (f : α → ℝ) (c : ℝ) :
    (l.map fun e => f e * c).sum = (l.map f).sum * c := by
  induction l with
  | nil => simp
  | cons e l ih => simp only [List.map_cons, List.sum_cons, ih]; ring

/-- Total length of the illuminated surfaces of a side. -/
theorem lit_side_sum {p : ArrayParams} {rot : Rot} {sun : Pt} {i : ℕ} {s : RowSide}
    (hw : 0 < p.width) (h0 : -180 < rot.deg) (h1 : rot.deg < 180) (hs : 0 < p.nSeg i s)
    (hL0 : 0 ≤ sideShade p (arctan2 sun.y sun.x) rot.deg i s)
    (hLw : sideShade p (arctan2 sun.y sun.x) rot.deg i s ≤ p.width) :
    ((List.range (p.nSeg i s)).map
      fun k => ((fitGeom p rot sun).coords (.pv i s k false)).length).sum
      = p.width - (if rot.deg = 0 then 0 else sideShade p (arctan2 sun.y sun.x) rot.deg i s) := by
  set L := sideShade p (arctan2 sun.y sun.x) rot.deg i s with hL
  have hlen := (C21_side_length (rowCenter p i) p.width rot.deg (p.nSeg i s) L hw.le hs h0 h1).2.1
  have hsh : sideShadedLength (sideSegments (rowCenter p i) p.width rot.deg (p.nSeg i s) L)
      = if rot.deg = 0 then 0 else L := by
    split_ifs with hr
    · rw [hr]; exact C22_flat _ _ _ _
    · exact C22_shaded_length _ _ _ _ _ hs h0 h1 hr hL0 hLw
  have e : ((List.range (p.nSeg i s)).map
      fun k => ((fitGeom p rot sun).coords (.pv i s k false)).length)
      = (List.range (p.nSeg i s)).map
        fun k => (sideSegment (rowCenter p i) p.width rot.deg (p.nSeg i s) L k).illum.length := by
    apply List.map_congr_left
    intro k hk
    rw [coords_pv (List.mem_range.1 hk) false]
    simp [hL]
  rw [e, ← hsh]
  have h2 : sideLength (sideSegments (rowCenter p i) p.width rot.deg (p.nSeg i s) L)
      = ((List.range (p.nSeg i s)).map
        fun k => (sideSegment (rowCenter p i) p.width rot.deg (p.nSeg i s) L k).illum.length).sum
        + sideShadedLength (sideSegments (rowCenter p i) p.width rot.deg (p.nSeg i s) L) := by
    unfold sideLength sideShadedLength sideSegments
    rw [List.map_map, List.map_map, ← sum_map_add']
    rfl
  linarith

/-- Total length of the ground surfaces of a kind. -/
theorem gnd_kind_sum (p : ArrayParams) (rot : Rot) (sun : Pt) (hw : 0 < p.width)
    (hgcr : 0 < p.gcr) (hy : sun.y ≠ 0) (hF : frontDotSun rot.deg sun ≠ 0)
    (htiny : hasDirectShading p (arctan2 sun.y sun.x) rot.deg ∨
      interrowShading p (arctan2 sun.y sun.x) rot.deg = (0, 0)) (sh : Bool) (e : ℕ)
    (he : e < (if sh then p.nRows else p.nRows + 1)) :
    let g := fitGeom p rot sun
    ((List.range (p.nRows + 1)).map fun z => (g.coords (.gnd sh e z)).length).sum
      = (g.elem sh e).b2.x - (g.elem sh e).b1.x := by
  intro g
  have hord : g.ground.Ordered := fit_ordered p rot sun hw hgcr hy hF htiny
  have hlen : g.ground.cuts.length = p.nRows := fit_cuts_length p rot sun
  have hnR : g.ground.nRows = p.nRows := rfl
  have hel : g.elem sh e = g.ground.el (2 * e + (if sh then 1 else 0)) := by
    cases sh
    · simp [StepGeom.elem, GroundIn.el]
    · simp only [StepGeom.elem, GroundIn.el, if_true]
      rw [if_neg (by omega), show (2 * e + 1) / 2 = e by omega]
  have hk : 2 * e + (if sh then 1 else 0) < 2 * g.ground.nRows + 1 := by
    rw [hnR]
    cases sh
    · simp at he ⊢; omega
    · simp at he ⊢; omega
  have hele : (g.elem sh e).b1.x ≤ (g.elem sh e).b2.x := by
    rw [hel, g.ground.el_eq hk]
    exact GroundIn.brk_mono hord hk
  have hin := g.elem_inGround sh e
  have hC := (C19_cut (g.elem sh e) g.ground.cuts hin.1.1 hele hin.2.1.2
    hin.2.2.1 hin.2.2.2).2.1
  rw [Line.length_ground (hin.2.2.1.trans hin.2.2.2.symm), abs_of_nonneg (by linarith)] at hC
  rw [← hC]
  congr 1
  apply List.ext_getElem
  · simp [cutSurfaces_length, hlen]
  · intro i h1 h2
    simp only [List.getElem_map, List.getElem_range]
    rw [coords_gnd_getD, List.getD_eq_getElem]

/-- `n - 1` of the `n` rows have a neighbour in direction of the sun. -/
theorem sum_shade (n : ℕ) (hn : 0 < n) (b : Prop) [Decidable b] (L : ℝ) :
    ((List.range n).map fun i => if (if b then 0 < i else i + 1 < n) then L else 0).sum
      = (n - 1) * L := by
  obtain ⟨m, rfl⟩ : ∃ m, n = m + 1 := ⟨n - 1, by omega⟩
  by_cases hb : b
  · simp only [hb, if_true]
    rw [List.range_succ_eq_map, List.map_cons, List.sum_cons, List.map_map]
    have : ((fun i => if 0 < i then L else 0) ∘ Nat.succ) = fun _ => L := by
      funext i; simp
    rw [this]
    simp
  · simp only [hb, if_false]
    rw [List.range_succ, List.map_append, List.sum_append]
    have : ((List.range m).map fun i => if i + 1 < m + 1 then L else 0)
        = (List.range m).map fun _ => L := by
      apply List.map_congr_left
      intro i hi
      rw [List.mem_range] at hi
      rw [if_pos (by omega)]
    rw [this]
    simp

theorem sum_gaps (n : ℕ) (hn : 0 < n) (d w : ℝ) :
    ((List.range n).map fun i => if i + 1 < n then d else w).sum = (n - 1) * d + w := by
  obtain ⟨m, rfl⟩ : ∃ m, n = m + 1 := ⟨n - 1, by omega⟩
  rw [List.range_succ, List.map_append, List.sum_append]
  have : ((List.range m).map fun i => if i + 1 < m + 1 then d else w)
      = (List.range m).map fun _ => d := by
    apply List.map_congr_left
    intro i hi
    rw [List.mem_range] at hi
    rw [if_pos (by omega)]
  rw [this]
  simp

theorem clip_self {x : ℝ} (h0 : -100 ≤ x) (h1 : x ≤ 100) : clip x MIN_X MAX_X = x := by
  unfold clip MIN_X MAX_X
  rw [max_eq_left h0, min_eq_left h1]

theorem clip_diff_le {x y : ℝ} (h : x ≤ y) :
    clip y MIN_X MAX_X - clip x MIN_X MAX_X ≤ y - x := by
  unfold clip MIN_X MAX_X
  rcases max_cases x (-100) with hx | hx <;> rcases max_cases y (-100) with hy | hy <;>
    rcases min_cases (max x (-100)) 100 with h1 | h1 <;>
    rcases min_cases (max y (-100)) 100 with h2 | h2 <;>
    rw [h1.1, h2.1] <;> linarith [h1.2, h2.2, hx.1, hx.2, hy.1, hy.2]

/-- Length of a shadow element before clipping to the ground. -/
theorem shadow_term (p : ArrayParams) (rot : Rot) (sun : Pt) (hw : 0 < p.width)
    (hy : 0 < sun.y) (e : ℕ) :
    let g := fitGeom p rot sun
    (g.ground.noOverlap e).2 - (g.ground.noOverlap e).1
      = open Classical in
        if e + 1 < p.nRows ∧ hasDirectShading p (arctan2 sun.y sun.x) rot.deg then p.distance
        else p.width * |kappa (arctan2 sun.y sun.x) rot.deg| := by
  classical
  intro g
  have hx : ∀ j, g.ground.shadowXs j = shadowXs (fullRowCoords (rowCenter p j) p.width rot.deg)
    (arctan2 sun.y sun.x) := fun j => rfl
  have hflag : g.ground.flagOverlap ↔ hasDirectShading p (arctan2 sun.y sun.x) rot.deg := Iff.rfl
  have hnR : g.ground.nRows = p.nRows := rfl
  set κ := kappa (arctan2 sun.y sun.x) rot.deg with hκ
  have hsx := fun j => shadowXs_eq p (rot := rot.deg) (sin_alpha_ne (sun := sun) hy.ne') j hw.le
  simp only [← hκ] at hsx
  simp only [GroundIn.noOverlap, hnR, hflag]
  split_ifs with h
  · rw [hx, hx, hsx, hsx]
    push_cast; ring
  · rw [hx, hsx]
    ring

/-- Total length of the shadows before clipping, times the height of the sun. -/
theorem shadow_sum (p : ArrayParams) (rot : Rot) (sun : Pt) (hw : 0 < p.width)
    (hy : 0 < sun.y) (hn : 0 < p.nRows) :
    let g := fitGeom p rot sun
    ((List.range p.nRows).map fun e => (g.ground.noOverlap e).2 - (g.ground.noOverlap e).1).sum
        * sun.y
      = open Classical in
        if hasDirectShading p (arctan2 sun.y sun.x) rot.deg then
          (p.nRows - 1) * (p.distance * sun.y) + p.width * |frontDotSun rot.deg sun|
        else p.nRows * (p.width * |frontDotSun rot.deg sun|) := by
  classical
  intro g
  have hκF : |kappa (arctan2 sun.y sun.x) rot.deg| * sun.y = |frontDotSun rot.deg sun| := by
    rw [kappa_eq hy.ne', abs_div, abs_of_pos hy, div_mul_cancel₀ _ hy.ne']
  rw [List.map_congr_left fun e _ => shadow_term p rot sun hw hy e]
  by_cases hf : hasDirectShading p (arctan2 sun.y sun.x) rot.deg
  · simp only [hf, and_true, if_true]
    rw [sum_gaps _ hn, add_mul, mul_assoc, mul_assoc, hκF]
  · simp only [hf, and_false, if_false]
    simp only [List.map_const', List.sum_replicate, List.length_range, nsmul_eq_mul]
    rw [mul_assoc, mul_assoc, hκF]

theorem noOverlap_le (p : ArrayParams) (rot : Rot) (sun : Pt) (hw : 0 < p.width)
    (hgcr : 0 < p.gcr) (hy : 0 < sun.y) (e : ℕ) :
    ((fitGeom p rot sun).ground.noOverlap e).1 ≤ ((fitGeom p rot sun).ground.noOverlap e).2 := by
  have h := shadow_term p rot sun hw hy e
  have hd : 0 < p.distance := div_pos hw hgcr
  simp only at h
  have : (0 : ℝ) ≤ ((fitGeom p rot sun).ground.noOverlap e).2
      - ((fitGeom p rot sun).ground.noOverlap e).1 := by
    rw [h]; split_ifs <;> positivity
  linarith

/-- Clipping makes shadows shorter. -/
theorem shadowEl_sum_le (p : ArrayParams) (rot : Rot) (sun : Pt) (hw : 0 < p.width)
    (hgcr : 0 < p.gcr) (hy : 0 < sun.y) :
    let g := fitGeom p rot sun
    ((List.range p.nRows).map
      fun e => (g.ground.shadowEl e).b2.x - (g.ground.shadowEl e).b1.x).sum
    ≤ ((List.range p.nRows).map fun e => (g.ground.noOverlap e).2 - (g.ground.noOverlap e).1).sum := by
  intro g
  apply List.sum_le_sum
  intro e _
  exact clip_diff_le (noOverlap_le p rot sun hw hgcr hy e)

/-- Shadows inside the ground are not clipped. -/
theorem shadowEl_sum_eq (p : ArrayParams) (rot : Rot) (sun : Pt) (hw : 0 < p.width)
    (hy : 0 < sun.y)
    (hin : ∀ i < p.nRows, -100 ≤ ((fitGeom p rot sun).ground.shadowXs i).1 ∧
      ((fitGeom p rot sun).ground.shadowXs i).2 ≤ 100) :
    let g := fitGeom p rot sun
    ((List.range p.nRows).map
      fun e => (g.ground.shadowEl e).b2.x - (g.ground.shadowEl e).b1.x).sum
    = ((List.range p.nRows).map fun e => (g.ground.noOverlap e).2 - (g.ground.noOverlap e).1).sum := by
  classical
  intro g
  have hx : ∀ j, g.ground.shadowXs j = shadowXs (fullRowCoords (rowCenter p j) p.width rot.deg)
    (arctan2 sun.y sun.x) := fun j => rfl
  have hnR : g.ground.nRows = p.nRows := rfl
  have hsx := fun j => shadowXs_eq p (rot := rot.deg) (sin_alpha_ne (sun := sun) hy.ne') j hw.le
  simp only at hsx
  have hmid : ∀ i < p.nRows, -100 ≤ (g.ground.shadowXs i).1 ∧ (g.ground.shadowXs i).1 ≤ 100 ∧
      -100 ≤ (g.ground.shadowXs i).2 ∧ (g.ground.shadowXs i).2 ≤ 100 := by
    intro i hi
    have h := hin i hi
    have hle : (g.ground.shadowXs i).1 ≤ (g.ground.shadowXs i).2 := by
      have : 0 ≤ p.width / 2 * |kappa (arctan2 sun.y sun.x) rot.deg| := by positivity
      rw [hx, hsx]; simp only; linarith
    exact ⟨h.1, hle.trans h.2, h.1.trans hle, h.2⟩
  congr 1
  apply List.map_congr_left
  intro e he
  rw [List.mem_range] at he
  have h1 := hmid e he
  simp only [GroundIn.shadowEl, GroundIn.noOverlap, hnR]
  rw [clip_self h1.1 h1.2.1]
  split_ifs with h
  · have h2 := hmid (e + 1) h.1
    rw [clip_self h2.1 h2.2.1]
  · rw [clip_self h1.2.2.1 h1.2.2.2]

end PVF

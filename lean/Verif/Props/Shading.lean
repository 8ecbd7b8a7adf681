import Verif.Lemmas.Rays
import Verif.Props.Rows
import Verif.Spec.Physical

/-! # Direct shading between rows and rotation conventions: C23, C24, C25, C27 -/

namespace PVF

/-! ## C24 -/

/-- C24: inter-row shaded lengths lie between 0 and the row width. -/
theorem C24_bounds (p : ArrayParams) (u : StepIn) (hw : 0 ≤ p.width) :
    let g := fitStep p u
    let L := interrowShading p g.alpha g.rot.deg
    0 ≤ L.1 ∧ L.1 ≤ p.width ∧ 0 ≤ L.2 ∧ L.2 ≤ p.width := by
  intro g L
  have key : ∀ x : ℝ, 0 ≤ (if max 0 x > p.width then 0 else max 0 x) ∧
      (if max 0 x > p.width then 0 else max 0 x) ≤ p.width := by
    intro x
    split_ifs with h
    · exact ⟨le_rfl, hw⟩
    · exact ⟨le_max_left _ _, not_lt.1 h⟩
  simp only [L, interrowShading]
  by_cases h : p.nRows > 1
  · rw [if_pos h]
    exact ⟨(key _).1, (key _).2, (key _).1, (key _).2⟩
  · rw [if_neg h]
    exact ⟨le_rfl, hw, le_rfl, hw⟩

/-- C24: the shaded lengths of each row lie between 0 and the row width, too. -/
theorem C24_row_bounds (p : ArrayParams) (u : StepIn) (i : ℕ) (hw : 0 ≤ p.width) :
    let g := fitStep p u
    let L := rowShadedLengths p g.alpha g.rot.deg i
    0 ≤ L.1 ∧ L.1 ≤ p.width ∧ 0 ≤ L.2 ∧ L.2 ≤ p.width := by
  intro g L
  obtain ⟨h1, h2, h3, h4⟩ := C24_bounds p u hw
  simp only [L, rowShadedLengths]
  split_ifs <;> simp_all [g]

/-- C24: front and back are not both shaded unless the sun is exactly on the horizon (or the sun
is exactly in the plane of the rows). -/
theorem C24_exclusive (p : ArrayParams) (u : StepIn) (hw : 0 < p.width) (hgcr : 0 < p.gcr) :
    let g := fitStep p u
    let L := interrowShading p g.alpha g.rot.deg
    g.sun.y ≠ 0 → frontDotSun g.rot.deg g.sun ≠ 0 → ¬ (0 < L.1 ∧ 0 < L.2) := by
  intro g L hy hF ⟨h1, h2⟩
  have hL : L = interrowShading p (arctan2 g.sun.y g.sun.x) g.rot.deg := rfl
  rcases Nat.lt_or_ge 1 p.nRows with hn | hn
  · rw [hL, interrowShading_eq (sin_alpha_ne hy) (sunFront_ne hF) (div_pos hw hgcr) hw hn] at h1 h2
    simp only at h1 h2
    split_ifs at h1 h2 <;> linarith
  · rw [hL] at h1
    simp [interrowShading, not_lt.2 hn] at h1

/-- C24: one row has no shading. -/
theorem C24_single (p : ArrayParams) (u : StepIn) (hn : p.nRows = 1) :
    let g := fitStep p u
    interrowShading p g.alpha g.rot.deg = (0, 0) := by
  simp [interrowShading, hn]

/-- C24: there is direct shading exactly if the ground shadows of consecutive rows overlap. -/
theorem C24_overlap (p : ArrayParams) (u : StepIn) (hw : 0 < p.width) (hgcr : 0 < p.gcr) (i : ℕ)
    (hi : i + 1 < p.nRows) :
    let g := fitStep p u
    let L := interrowShading p g.alpha g.rot.deg
    g.sun.y ≠ 0 → frontDotSun g.rot.deg g.sun ≠ 0 →
    ((0 < L.1 ∨ 0 < L.2) ↔ (g.ground.shadowXs (i + 1)).1 < (g.ground.shadowXs i).2) := by
  intro g L hy hF
  have hL : L = interrowShading p (arctan2 g.sun.y g.sun.x) g.rot.deg := rfl
  have hx : ∀ j, g.ground.shadowXs j = shadowXs (fullRowCoords (rowCenter p j) p.width g.rot.deg)
    (arctan2 g.sun.y g.sun.x) := fun j => rfl
  rw [hL, shading_iff_overlap (sin_alpha_ne hy) (sunFront_ne hF) (div_pos hw hgcr) hw (by omega),
    hx, hx, shadowXs_eq p (sin_alpha_ne hy) _ hw.le, shadowXs_eq p (sin_alpha_ne hy) _ hw.le]
  simp only
  push_cast
  constructor <;> intro h <;> nlinarith

/-! ## C23 -/

/-- Points of a row at distance `x` from the lower end, as signed distance from the centre. -/
theorem tPt_rowPt (c : Pt) (w rot x : ℝ) :
    tPt c w rot x = rowPt c rot (if 0 < rot then -(w / 2) + x else w / 2 - x) := by
  unfold tPt; split_ifs <;> rfl

/-- Ray from a row to a row. -/
theorem ray_row_iff {p : ArrayParams} {rot x : ℝ} {sun : Pt} {i j : ℕ} (hw : 0 < p.width)
    (hd : 0 < p.distance) (hF : frontDotSun rot sun ≠ 0) (h0 : -180 < rot) (h1 : rot < 180)
    (hr : rot ≠ 0) (hy : 0 < sun.y) (hx : 0 ≤ x) :
    let P := tPt (rowCenter p i) p.width rot x
    (SunRayHits sun P (fullRowCoords (rowCenter p j) p.width rot) ↔
      ((j : ℝ) - i) * (sind rot / frontDotSun rot sun) < 0 ∧
        x + |(j : ℝ) - i| * |p.distance * sun.y / frontDotSun rot sun| ≤ p.width) ∧
    (SunRayHitsInterior sun P (fullRowCoords (rowCenter p j) p.width rot) ↔
      ((j : ℝ) - i) * (sind rot / frontDotSun rot sun) < 0 ∧
        x + |(j : ℝ) - i| * |p.distance * sun.y / frontDotSun rot sun| < p.width) := by
  intro P
  set F := frontDotSun rot sun with hFd
  set δ := p.distance * sun.y / F with hδ
  have hP : P = rowPt (rowCenter p i) rot (if 0 < rot then -(p.width / 2) + x else p.width / 2 - x) :=
    tPt_rowPt _ _ _ _
  set ρ := (if 0 < rot then -(p.width / 2) + x else p.width / 2 - x) with hρ
  have hdy : 0 < p.distance * sun.y := mul_pos hd hy
  -- sign facts
  have key : ((j : ℝ) - i) * (sind rot / F) < 0 →
      ρ - ((j : ℝ) - i) * δ = if 0 < rot then -(p.width / 2) + (x + |(j : ℝ) - i| * |δ|)
        else p.width / 2 - (x + |(j : ℝ) - i| * |δ|) := by
    intro hneg
    have e : |(j : ℝ) - i| * |δ| = |((j : ℝ) - i) * δ| := (abs_mul _ _).symm
    have hδF : δ = p.distance * sun.y * (1 / F) := by rw [hδ]; ring
    rw [e]
    by_cases hp : 0 < rot
    · have hs := sind_pos hp h1
      have : ((j : ℝ) - i) * (1 / F) < 0 := by
        have : ((j : ℝ) - i) * (sind rot / F) = sind rot * (((j : ℝ) - i) * (1 / F)) := by ring
        rw [this] at hneg
        by_contra h
        have := mul_nonneg hs.le (not_lt.1 h)
        linarith
      have h2 : ((j : ℝ) - i) * δ < 0 := by
        rw [hδF]; nlinarith
      rw [abs_of_neg h2, hρ, if_pos hp, if_pos hp]; ring
    · have hp' : rot < 0 := lt_of_le_of_ne (not_lt.1 hp) hr
      have hs := sind_neg_of_neg hp' h0
      have : 0 < ((j : ℝ) - i) * (1 / F) := by
        have : ((j : ℝ) - i) * (sind rot / F) = sind rot * (((j : ℝ) - i) * (1 / F)) := by ring
        rw [this] at hneg
        by_contra h
        have := mul_nonneg_of_nonpos_of_nonpos hs.le (not_lt.1 h)
        linarith
      have h2 : 0 < ((j : ℝ) - i) * δ := by
        rw [hδF]; nlinarith
      rw [abs_of_pos h2, hρ, if_neg hp, if_neg hp]; ring
  have hlam : 0 < -((j : ℝ) - i) * p.distance * sind rot / F ↔
      ((j : ℝ) - i) * (sind rot / F) < 0 := by
    have e : -((j : ℝ) - i) * p.distance * sind rot / F
      = p.distance * (-(((j : ℝ) - i) * (sind rot / F))) := by ring
    rw [e, mul_pos_iff_of_pos_left hd]
    constructor <;> intro h <;> linarith
  have hnn : 0 ≤ |(j : ℝ) - i| * |δ| := by positivity
  constructor
  · unfold SunRayHits
    simp only [onSeg_full hw, hP]
    constructor
    · rintro ⟨lam, hl, ρ', a0, a1, h⟩
      rw [ray_rows hF] at h
      obtain ⟨rfl, rfl⟩ := h
      have hneg := hlam.1 hl
      refine ⟨hneg, ?_⟩
      have := key hneg
      rw [← hFd, ← hδ, this] at a0 a1
      split_ifs at a0 a1 <;> linarith
    · rintro ⟨hneg, hle⟩
      refine ⟨_, hlam.2 hneg, ρ - ((j : ℝ) - i) * δ, ?_, ?_, (ray_rows hF).2 ⟨rfl, rfl⟩⟩
      · rw [key hneg]; split_ifs <;> linarith
      · rw [key hneg]; split_ifs <;> linarith
  · have hne : ((j : ℝ) - i) * (sind rot / F) < 0 → 0 < |(j : ℝ) - i| * |δ| := by
      intro h
      apply mul_pos
      · rw [abs_pos]; rintro h0; rw [h0, zero_mul] at h; exact lt_irrefl _ h
      · rw [abs_pos, hδ]; exact div_ne_zero hdy.ne' hF
    unfold SunRayHitsInterior
    simp only [openSeg_full hw, hP]
    constructor
    · rintro ⟨lam, hl, ρ', a0, a1, h⟩
      rw [ray_rows hF] at h
      obtain ⟨rfl, rfl⟩ := h
      have hneg := hlam.1 hl
      refine ⟨hneg, ?_⟩
      have := key hneg
      rw [← hFd, ← hδ, this] at a0 a1
      split_ifs at a0 a1 <;> linarith
    · rintro ⟨hneg, hle⟩
      have := hne hneg
      refine ⟨_, hlam.2 hneg, ρ - ((j : ℝ) - i) * δ, ?_, ?_, (ray_rows hF).2 ⟨rfl, rfl⟩⟩
      · rw [key hneg]; split_ifs <;> linarith
      · rw [key hneg]; split_ifs <;> linarith

/-- The side facing the sun. -/
noncomputable def sunnySide (rot : ℝ) (sun : Pt) : RowSide :=
  open Classical in if 0 < frontDotSun rot sun then .front else .back

theorem sideShade_eq {p : ArrayParams} {rot : ℝ} {sun : Pt} {i : ℕ} (hw : 0 < p.width)
    (hd : 0 < p.distance) (hF : frontDotSun rot sun ≠ 0) (h0 : -180 < rot) (h1 : rot < 180)
    (hr : rot ≠ 0) (hy : 0 < sun.y) (hi : i < p.nRows) :
    sideShade p (arctan2 sun.y sun.x) rot i (sunnySide rot sun)
      = if (if 0 < sind rot / frontDotSun rot sun then 0 < i else i + 1 < p.nRows) then
          max 0 (p.width - |p.distance * sun.y / frontDotSun rot sun|) else 0 := by
  rcases Nat.lt_or_ge 1 p.nRows with hn | hn
  · have hI := interrowShading_eq (p := p) (sin_alpha_ne hy.ne') (sunFront_ne hF) hd hw hn
    have hk := kappa_eq (sun := sun) hy.ne' rot
    rw [hk] at hI
    have hpos : (0 < frontDotSun rot sun / sun.y) ↔ 0 < frontDotSun rot sun := by
      constructor
      · intro h
        have := mul_pos h hy
        rwa [div_mul_cancel₀ _ hy.ne'] at this
      · intro h; exact div_pos h hy
    have hneg : (frontDotSun rot sun / sun.y < 0) ↔ frontDotSun rot sun < 0 := by
      constructor
      · intro h
        have := mul_neg_of_neg_of_pos h hy
        rwa [div_mul_cancel₀ _ hy.ne'] at this
      · intro h; exact div_neg_of_neg_of_pos h hy
    have hdd : p.distance / (frontDotSun rot sun / sun.y)
        = p.distance * sun.y / frontDotSun rot sun := by field_simp
    rw [hdd] at hI
    rcases lt_or_gt_of_ne hF with hF' | hF'
    · have hδ : p.distance * sun.y / frontDotSun rot sun < 0 :=
        div_neg_of_pos_of_neg (mul_pos hd hy) hF'
      rw [abs_of_neg hδ, sub_neg_eq_add]
      simp only [sunnySide, not_lt.2 hF'.le, if_false, sideShade, rowShadedLengths, hI, hneg, hF',
        if_true]
      by_cases hp : 0 < rot
      · have : ¬ 0 < sind rot / frontDotSun rot sun :=
          not_lt.2 (div_neg_of_pos_of_neg (sind_pos hp h1) hF').le
        simp only [this, if_false, hp, if_true]
        split_ifs <;> first | rfl | (exfalso; omega)
      · have hp' : rot < 0 := lt_of_le_of_ne (not_lt.1 hp) hr
        have : 0 < sind rot / frontDotSun rot sun :=
          div_pos_of_neg_of_neg (sind_neg_of_neg hp' h0) hF'
        simp only [this, if_true, hp, if_false]
        split_ifs <;> first | rfl | (exfalso; omega)
    · have hδ : 0 < p.distance * sun.y / frontDotSun rot sun := div_pos (mul_pos hd hy) hF'
      rw [abs_of_pos hδ]
      simp only [sunnySide, hF', if_true, sideShade, rowShadedLengths, hI, hpos]
      by_cases hp : 0 < rot
      · have : 0 < sind rot / frontDotSun rot sun := div_pos (sind_pos hp h1) hF'
        simp only [this, if_true, hp]
        split_ifs <;> first | rfl | (exfalso; omega)
      · have hp' : rot < 0 := lt_of_le_of_ne (not_lt.1 hp) hr
        have : ¬ 0 < sind rot / frontDotSun rot sun :=
          not_lt.2 (div_neg_of_neg_of_pos (sind_neg_of_neg hp' h0) hF').le
        simp only [this, if_false, hp]
        split_ifs <;> first | rfl | (exfalso; omega)
  · have h1' : p.nRows = 1 := by omega
    have hi0 : i = 0 := by omega
    subst hi0
    have hI : interrowShading p (arctan2 sun.y sun.x) rot = (0, 0) := by
      simp [interrowShading, h1']
    have : (if (if 0 < sind rot / frontDotSun rot sun then 0 < 0 else 0 + 1 < p.nRows) then
          max 0 (p.width - |p.distance * sun.y / frontDotSun rot sun|) else 0) = 0 := by
      rw [if_neg]; split_ifs <;> omega
    rw [this]
    cases sunnySide rot sun <;> simp [sideShade, rowShadedLengths, hI]

/-- A neighbour in direction of the sun decides. -/
theorem exists_row_iff {n i : ℕ} (hi : i < n) {q δ : ℝ} (hq : q ≠ 0) (hδ : 0 ≤ δ)
    (R : ℝ → ℝ → Prop) (hR : ∀ {a b c : ℝ}, a ≤ b → R b c → R a c) (x w : ℝ) :
    (∃ j < n, ((j : ℝ) - i) * q < 0 ∧ R (x + |(j : ℝ) - i| * δ) w) ↔
      (if 0 < q then 0 < i else i + 1 < n) ∧ R (x + δ) w := by
  constructor
  · rintro ⟨j, hj, hneg, h⟩
    have hji : j ≠ i := by rintro rfl; simp at hneg
    have hone : (1 : ℝ) ≤ |(j : ℝ) - i| := by
      have : (1 : ℤ) ≤ |(j : ℤ) - i| := Int.one_le_abs (by omega)
      have := Int.cast_le (R := ℝ) |>.2 this
      simpa using this
    refine ⟨?_, hR (by nlinarith) h⟩
    split_ifs with hq'
    · have : (j : ℝ) - i < 0 := by
        by_contra h'
        have := mul_nonneg (not_lt.1 h') hq'.le
        linarith
      have : (j : ℝ) < i := by linarith
      have : j < i := by exact_mod_cast this
      omega
    · have hq'' : q < 0 := lt_of_le_of_ne (not_lt.1 hq') hq
      have : 0 < (j : ℝ) - i := by
        by_contra h'
        have := mul_nonneg_of_nonpos_of_nonpos (not_lt.1 h') hq''.le
        linarith
      have : (i : ℝ) < j := by linarith
      have : i < j := by exact_mod_cast this
      omega
  · rintro ⟨hnb, h⟩
    split_ifs at hnb with hq'
    · refine ⟨i - 1, by omega, ?_, ?_⟩
      · rw [Nat.cast_sub (by omega)]; push_cast; linarith
      · rw [Nat.cast_sub (by omega)]
        have : |(i : ℝ) - (1 : ℕ) - i| = 1 := by norm_num
        rw [this, one_mul]; exact h
    · have hq'' : q < 0 := lt_of_le_of_ne (not_lt.1 hq') hq
      refine ⟨i + 1, hnb, ?_, ?_⟩
      · push_cast; linarith
      · have : |((i + 1 : ℕ) : ℝ) - i| = 1 := by push_cast; norm_num
        rw [this, one_mul]; exact h

theorem side_eq (p : ArrayParams) (rot : Rot) (sun : Pt) (i : ℕ) (s : RowSide) :
    (fitGeom p rot sun).side i s
      = sideSegments (rowCenter p i) p.width rot.deg (p.nSeg i s)
          (sideShade p (arctan2 sun.y sun.x) rot.deg i s) := by
  cases s <;> rfl

/-- C23 for any rotation and sun vector. -/
theorem C23_ray_tracing_gen (p : ArrayParams) (rot : Rot) (sun : Pt) (i : ℕ) (t : ℝ)
    (hw : 0 < p.width) (hgcr : 0 < p.gcr) (hi : i < p.nRows)
    (h0 : -180 < rot.deg) (h1 : rot.deg < 180) (hr : rot.deg ≠ 0) (hy : 0 < sun.y)
    (hF : frontDotSun rot.deg sun ≠ 0) (ht0 : 0 ≤ t) (ht1 : t ≤ 1)
    (hseg : 0 < p.nSeg i (sunnySide rot.deg sun)) :
    let g := fitGeom p rot sun
    let P := lerp (g.row i).full.lowest (g.row i).full.highest t
    let lit := ∃ s ∈ g.side i (sunnySide rot.deg sun), 0 < s.illum.length ∧ OnSeg P s.illum
    let dark := ∃ s ∈ g.side i (sunnySide rot.deg sun), 0 < s.shaded.length ∧ OnSeg P s.shaded
    (lit ↔ ¬ ∃ j < p.nRows, SunRayHitsInterior sun P (g.row j).full) ∧
    (dark → ∃ j < p.nRows, SunRayHits sun P (g.row j).full) ∧
    ((∃ j < p.nRows, SunRayHitsInterior sun P (g.row j).full) → dark) := by
  intro g P lit dark
  have hd : 0 < p.distance := div_pos hw hgcr
  set F := frontDotSun rot.deg sun with hFd
  set δ := |p.distance * sun.y / F| with hδ
  have hδ0 : 0 < δ := abs_pos.2 (div_ne_zero (mul_pos hd hy).ne' hF)
  have hrow : ∀ j, (g.row j).full = fullRowCoords (rowCenter p j) p.width rot.deg := fun j => rfl
  obtain ⟨hlow, hhigh⟩ := full_low_high (c := rowCenter p i) hw h0 h1
  have hP : P = tPt (rowCenter p i) p.width rot.deg (t * p.width) := by
    simp only [P, hrow]
    rw [hlow, hhigh, lerp_tPt]; congr 1; ring
  set L := sideShade p (arctan2 sun.y sun.x) rot.deg i (sunnySide rot.deg sun) with hL
  have hLe := sideShade_eq hw hd hF h0 h1 hr hy hi
  rw [← hL, ← hFd, ← hδ] at hLe
  have hC := C22_shade_at_lower_edge (rowCenter p i) p.width rot.deg
    (p.nSeg i (sunnySide rot.deg sun)) L t hw hseg h0 h1 hr ht0 ht1
  simp only at hC
  rw [hL, ← side_eq p rot sun i] at hC
  have hx0 : 0 ≤ t * p.width := by positivity
  have hq : sind rot.deg / F ≠ 0 := by
    apply div_ne_zero _ hF
    rcases lt_or_gt_of_ne hr with h | h
    · exact (sind_neg_of_neg h h0).ne
    · exact (sind_pos h h1).ne'
  have hray := fun j => ray_row_iff (p := p) (i := i) (j := j) hw hd hF h0 h1 hr hy hx0
  simp only at hray
  have hin : (∃ j < p.nRows, SunRayHitsInterior sun P (g.row j).full) ↔
      (if 0 < sind rot.deg / F then 0 < i else i + 1 < p.nRows) ∧ t * p.width + δ < p.width := by
    simp only [hrow, hP, (hray _).2]
    exact exists_row_iff hi hq hδ0.le (· < ·) (fun h h' => lt_of_le_of_lt h h') _ _
  have hcl : (∃ j < p.nRows, SunRayHits sun P (g.row j).full) ↔
      (if 0 < sind rot.deg / F then 0 < i else i + 1 < p.nRows) ∧ t * p.width + δ ≤ p.width := by
    simp only [hrow, hP, (hray _).1]
    exact exists_row_iff hi hq hδ0.le (· ≤ ·) (fun h h' => le_trans h h') _ _
  have hlit : lit ↔ L < p.width ∧ L ≤ t * p.width := hC.2
  have hdark : dark ↔ 0 < L ∧ t * p.width ≤ L := hC.1
  rw [hin, hcl, hlit, hdark, hLe]
  by_cases hnb : (if 0 < sind rot.deg / F then 0 < i else i + 1 < p.nRows)
  · simp only [hnb, true_and, if_true, max_lt_iff, max_le_iff, lt_max_iff, lt_irrefl, false_or,
      le_max_iff]
    refine ⟨?_, ?_, ?_⟩
    · constructor
      · rintro ⟨_, _, h⟩; linarith
      · intro h; exact ⟨⟨hw, by linarith⟩, hx0, by linarith⟩
    · rintro ⟨a, b | b⟩
      · linarith
      · linarith
    · intro h
      exact ⟨by linarith, Or.inr (by linarith)⟩
  · simp only [hnb, false_and, if_false, not_false_eq_true, iff_true]
    exact ⟨⟨hw, hx0⟩, fun h => absurd h.1 (lt_irrefl _), fun h => h.elim⟩

theorem rotation_range {sa aa tilt : ℝ} (h0 : 0 < tilt) (h1 : tilt < 180) :
    -180 < (rotationFromTiltAzimuth sa aa tilt).deg ∧
    (rotationFromTiltAzimuth sa aa tilt).deg < 180 ∧
    (rotationFromTiltAzimuth sa aa tilt).deg ≠ 0 := by
  unfold rotationFromTiltAzimuth
  simp only [h0.ne', if_false]
  split_ifs <;> simp only
  · exact ⟨by linarith, h1, h0.ne'⟩
  · exact ⟨by linarith, by linarith, by simpa using h0.ne'⟩

/-- C23: let the sun be above the horizon and not in the plane of the tilted rows, and let `P` be
the point at fraction `t` from the lowest to the highest end of row `i`.  On the side facing the
sun, `P` is on an illuminated surface iff the ray from `P` to the sun meets the interior of no
row; if `P` is on a shaded surface then the ray meets a row; and if the ray meets the interior of a
row then `P` is on a shaded surface.  (All rows, also the outermost ones; surfaces that are single
points do not count.  A ray that just touches the edge of a row is the boundary between light and
shade.) -/
theorem C23_ray_tracing (p : ArrayParams) (u : StepIn) (i : ℕ) (t : ℝ)
    (hw : 0 < p.width) (hgcr : 0 < p.gcr) (hi : i < p.nRows)
    (h0 : 0 < u.surfaceTilt) (h1 : u.surfaceTilt < 180) (ht0 : 0 ≤ t) (ht1 : t ≤ 1)
    (hseg : ∀ s, 0 < p.nSeg i s) :
    let g := fitStep p u
    let P := lerp (g.row i).full.lowest (g.row i).full.highest t
    let side := if 0 < frontDotSun g.rot.deg g.sun then g.side i .front else g.side i .back
    let lit := ∃ s ∈ side, 0 < s.illum.length ∧ OnSeg P s.illum
    let dark := ∃ s ∈ side, 0 < s.shaded.length ∧ OnSeg P s.shaded
    0 < g.sun.y → frontDotSun g.rot.deg g.sun ≠ 0 →
    (lit ↔ ¬ ∃ j < p.nRows, SunRayHitsInterior g.sun P (g.row j).full) ∧
    (dark → ∃ j < p.nRows, SunRayHits g.sun P (g.row j).full) ∧
    ((∃ j < p.nRows, SunRayHitsInterior g.sun P (g.row j).full) → dark) := by
  intro g P side lit dark hy hF
  obtain ⟨a, b, c⟩ := rotation_range (sa := u.surfaceAzimuth) (aa := p.axisAzimuth) h0 h1
  have h := C23_ray_tracing_gen p g.rot g.sun i t hw hgcr hi a b c hy hF ht0 ht1 (hseg _)
  have hside : side = (fitGeom p g.rot g.sun).side i (sunnySide g.rot.deg g.sun) := by
    simp only [side, sunnySide]
    split_ifs <;> rfl
  simp only [lit, dark, hside]
  exact h

/-- C23: the side away from the sun has no shaded part. -/
theorem C23_dark_side (p : ArrayParams) (u : StepIn) (i : ℕ)
    (hw : 0 < p.width) (hgcr : 0 < p.gcr) :
    let g := fitStep p u
    g.sun.y ≠ 0 → frontDotSun g.rot.deg g.sun ≠ 0 →
    (if 0 < frontDotSun g.rot.deg g.sun / g.sun.y then (rowShadedLengths p g.alpha g.rot.deg i).2
      else (rowShadedLengths p g.alpha g.rot.deg i).1) = 0 := by
  intro g hy hF
  have hI : (if 0 < frontDotSun g.rot.deg g.sun / g.sun.y then
      (interrowShading p g.alpha g.rot.deg).2 else (interrowShading p g.alpha g.rot.deg).1) = 0 := by
    rcases Nat.lt_or_ge 1 p.nRows with hn | hn
    · have := interrowShading_eq (p := p) (sin_alpha_ne hy) (sunFront_ne hF) (div_pos hw hgcr) hw hn
      rw [kappa_eq hy] at this
      have hg : g.alpha = arctan2 g.sun.y g.sun.x := rfl
      rw [hg, this]
      split_ifs with h1 h2
      · exact absurd h1 (not_lt.2 h2.le)
      · rfl
      · rfl
      · rfl
    · have : interrowShading p g.alpha g.rot.deg = (0, 0) := by
        simp [interrowShading, not_lt.2 hn]
      rw [this]; split_ifs <;> rfl
  unfold rowShadedLengths
  split_ifs at hI ⊢ <;> simp_all

/-- C23: flat rows never hide the sun from each other, and nothing is shaded on them. -/
theorem C23_flat (p : ArrayParams) (u : StepIn) (i j : ℕ) (ρ : ℝ) (hw : 0 < p.width)
    (h0 : u.surfaceTilt = 0) :
    let g := fitStep p u
    0 < g.sun.y →
    ¬ SunRayHits g.sun (lerp (g.row i).full.b1 (g.row i).full.b2 ρ) (g.row j).full ∧
    sideShadedLength (g.row i).front = 0 ∧ sideShadedLength (g.row i).back = 0 := by
  intro g hy
  have hrot : g.rot.deg = 0 := by simp [g, fitStep, fitGeom, rotationFromTiltAzimuth, h0]
  have hrow : ∀ j, (g.row j).full = fullRowCoords (rowCenter p j) p.width g.rot.deg := fun j => rfl
  have hF : frontDotSun 0 g.sun ≠ 0 := by
    simp only [frontDotSun, cosd_zero, sind_zero]; intro h; linarith
  refine ⟨?_, ?_, ?_⟩
  · rintro ⟨lam, hl, h⟩
    rw [hrow, hrow, hrot, lerp_full, onSeg_full hw] at h
    obtain ⟨ρ', _, _, h⟩ := h
    rw [ray_rows hF, sind_zero] at h
    simp at h
    linarith [h.1]
  · have : (g.row i).front = sideSegments (rowCenter p i) p.width g.rot.deg (p.nFront i)
      (rowShadedLengths p g.alpha g.rot.deg i).1 := rfl
    rw [this, hrot]; exact C22_flat _ _ _ _
  · have : (g.row i).back = sideSegments (rowCenter p i) p.width g.rot.deg (p.nBack i)
      (rowShadedLengths p g.alpha g.rot.deg i).2 := rfl
    rw [this, hrot]; exact C22_flat _ _ _ _

/-! ## C25 -/

/-- C25: the rotation has absolute value tilt. -/
theorem C25_abs (sa aa tilt : ℝ) : |(rotationFromTiltAzimuth sa aa tilt).deg| = |tilt| := by
  unfold rotationFromTiltAzimuth
  simp only
  split_ifs with h1 h2
  · simp [h1]
  · rfl
  · simp

theorem pyMod_add_mul {x : ℝ} (k : ℤ) : pyMod (x + 360 * k) 360 = pyMod x 360 := by
  unfold pyMod
  have : (x + 360 * k) / 360 = x / 360 + k := by field_simp
  rw [this, Int.floor_add_intCast]
  push_cast
  ring

/-- C25: turning any azimuth by full circles does not change the rotation. -/
theorem C25_periodic (sa aa tilt : ℝ) (k l : ℤ) :
    rotationFromTiltAzimuth (sa + 360 * k) (aa + 360 * l) tilt = rotationFromTiltAzimuth sa aa tilt
    := by
  unfold rotationFromTiltAzimuth
  have : sa + 360 * (k : ℝ) - (aa + 360 * l) = sa - aa + 360 * ((k - l : ℤ) : ℝ) := by
    push_cast; ring
  rw [this, pyMod_add_mul]

theorem sind_pyMod (x : ℝ) : sind (pyMod x 360) = sind x := by
  unfold pyMod sind
  have : deg2rad (x - 360 * ⌊x / 360⌋) = deg2rad x - ⌊x / 360⌋ * (2 * Real.pi) := by
    unfold deg2rad; ring
  rw [this, Real.sin_sub_int_mul_two_pi]

theorem pyMod_range (x : ℝ) : 0 ≤ pyMod x 360 ∧ pyMod x 360 < 360 := by
  unfold pyMod
  have h1 := Int.floor_le (x / 360)
  have h2 := Int.lt_floor_add_one (x / 360)
  constructor
  · have : (⌊x / 360⌋ : ℝ) * 360 ≤ x := by rwa [le_div_iff₀ (by norm_num)] at h1
    linarith
  · have : x < (⌊x / 360⌋ + 1 : ℝ) * 360 := by rwa [div_lt_iff₀ (by norm_num)] at h2
    linarith

theorem sind_sub_180 (x : ℝ) : sind (x - 180) = - sind x := by
  have := sind_add_180 (x - 180)
  rw [sub_add_cancel] at this
  linarith

theorem pyMod_gt_iff (x : ℝ) : 180 < pyMod x 360 ↔ sind x < 0 := by
  rw [← sind_pyMod x]
  obtain ⟨h0, h1⟩ := pyMod_range x
  set y := pyMod x 360
  constructor
  · intro h
    have h2 := sind_pos (x := y - 180) (by linarith) (by linarith)
    rw [sind_sub_180] at h2
    linarith
  · intro h
    by_contra h'
    rcases eq_or_lt_of_le h0 with e | h0
    · rw [← e, sind_zero] at h; exact lt_irrefl _ h
    · rcases eq_or_lt_of_le (not_lt.1 h') with e | h'
      · rw [e, sind_180] at h; exact lt_irrefl _ h
      · have := sind_pos h0 h'; linarith

/-- C25: orientation convention.  `sin (surface_azimuth - axis_azimuth) * sin tilt` is the
horizontal component, in the plane of the array, of the surface normal; the rotation is positive
exactly if the normal points to the left (negative component). -/
theorem C25_orientation (sa aa tilt : ℝ) (h0 : 0 < tilt) :
    (rotationFromTiltAzimuth sa aa tilt).deg = if sind (sa - aa) < 0 then tilt else -tilt := by
  unfold rotationFromTiltAzimuth
  simp only [h0.ne', if_false, gt_iff_lt, pyMod_gt_iff]
  split_ifs <;> rfl

/-- C25: turning the surface azimuth by 180 degrees changes the sign of the rotation, unless the
surface azimuth is parallel to the axis. -/
theorem C25_opposite (sa aa tilt : ℝ) (h0 : 0 < tilt) (hpar : sind (sa - aa) ≠ 0) :
    (rotationFromTiltAzimuth (sa + 180) aa tilt).deg = - (rotationFromTiltAzimuth sa aa tilt).deg
    := by
  rw [C25_orientation _ _ _ h0, C25_orientation _ _ _ h0,
    show sa + 180 - aa = (sa - aa) + 180 by ring, sind_add_180]
  rcases lt_or_gt_of_ne hpar with h | h
  · rw [if_pos h, if_neg (by linarith)]
  · rw [if_neg (not_lt.2 h.le), if_pos (by linarith), neg_neg]

/-- C25: if the surface azimuth is parallel to the axis the rows always turn to the right. -/
theorem C25_parallel (sa aa tilt : ℝ) (h0 : 0 < tilt) (hpar : sind (sa - aa) = 0) :
    (rotationFromTiltAzimuth sa aa tilt).deg = -tilt := by
  rw [C25_orientation _ _ _ h0, hpar, if_neg (lt_irrefl _)]

/-- C25: the cut points of flat rows are at plus infinity, for every azimuth. -/
theorem C25_flat_cut (p : ArrayParams) (u : StepIn) (h : u.surfaceTilt = 0) :
    ∀ c ∈ (fitStep p u).ground.cuts, c = XR.posInf := by
  intro c hc
  simp only [fitStep, fitGeom, groundFromRows, List.mem_map, List.mem_range] at hc
  obtain ⟨i, _, rfl⟩ := hc
  simp [cutPointX, rotationFromTiltAzimuth, h]

/-! ## C27 -/

theorem shadingDelta_sun {d rot : ℝ} {sun : Pt} (hy : sun.y ≠ 0)
    (hF : frontDotSun rot sun ≠ 0) :
    shadingDelta d (arctan2 sun.y sun.x) rot = d * sun.y / frontDotSun rot sun := by
  rw [shadingDelta_kappa (sin_alpha_ne hy) (sunFront_ne hF), kappa_eq hy]
  field_simp

theorem shadeOk_iff {p : ArrayParams} {rot : ℝ} {sun : Pt} (hw : 0 < p.width) (hgcr : 0 < p.gcr)
    (hy : sun.y ≠ 0) (hF : frontDotSun rot sun ≠ 0) :
    ShadeOk p rot sun ↔ (hasDirectShading p (arctan2 sun.y sun.x) rot ∨
      interrowShading p (arctan2 sun.y sun.x) rot = (0, 0)) := by
  have hd : 0 < p.distance := div_pos hw hgcr
  have hF' := abs_pos.2 hF
  have hT : (0 : ℝ) < TOL := by norm_num [TOL]
  have hdel := shadingDelta_sun (d := p.distance) hy hF
  set δ := shadingDelta p.distance (arctan2 sun.y sun.x) rot with hδ
  have hδ0 : δ ≠ 0 := by
    rw [hdel]; exact div_ne_zero (mul_ne_zero hd.ne' hy) hF
  have habs : |δ| * |frontDotSun rot sun| = p.distance * |sun.y| := by
    rw [hdel, abs_div, abs_mul, abs_of_pos hd]; field_simp
  have e1 : p.width * |frontDotSun rot sun| ≤ p.width / p.gcr * |sun.y| ↔ p.width ≤ |δ| := by
    change _ ≤ p.distance * _ ↔ _
    rw [← habs, mul_le_mul_iff_left₀ hF']
  have e2 : p.width / p.gcr * |sun.y| < (p.width - TOL) * |frontDotSun rot sun| ↔
      |δ| < p.width - TOL := by
    change p.distance * _ < _ ↔ _
    rw [← habs, mul_lt_mul_iff_left₀ hF']
  unfold ShadeOk
  rw [e1, e2]
  unfold hasDirectShading interrowShading
  rw [← hδ]
  by_cases hn : p.nRows ≤ 1
  · simp [hn, Nat.not_lt.2 hn]
  · have hn' : 1 < p.nRows := Nat.not_le.1 hn
    simp only [hn, false_or, gt_iff_lt, hn', if_true, Prod.mk.injEq]
    rcases lt_or_gt_of_ne hδ0 with h | h
    · rw [abs_of_neg h, if_pos (lt_max_of_lt_right (by linarith)), if_neg (not_lt.2 (max_le hw.le (by linarith)))]
      rw [lt_max_iff, max_eq_left_iff]
      constructor
      · rintro (h1 | h1)
        · right; exact ⟨rfl, by linarith⟩
        · left; right; right; linarith
      · rintro ((h1 | h1 | h1) | h1)
        · linarith
        · linarith
        · right; linarith
        · left; linarith [h1.2]
    · rw [abs_of_pos h, if_neg (not_lt.2 (max_le hw.le (by linarith))), if_pos (lt_max_of_lt_right (by linarith))]
      rw [lt_max_iff, max_eq_left_iff]
      constructor
      · rintro (h1 | h1)
        · right; exact ⟨by linarith, rfl⟩
        · left; left; right; linarith
      · rintro (((h1 | h1) | h1) | h1)
        · linarith
        · right; linarith
        · linarith
        · left; linarith [h1.1]

theorem PhysicalStep.shade {p : ArrayParams} {u : StepIn} (hu : PhysicalStep p u)
    (hp : PhysicalArray p) :
    let g := fitStep p u
    hasDirectShading p g.alpha g.rot.deg ∨ interrowShading p g.alpha g.rot.deg = (0, 0) :=
  (shadeOk_iff hp.width_pos hp.gcr_pos hu.sun_y hu.sun_front).1 hu.shade_ok

theorem frontDotSun_mirror (rot : ℝ) (sun : Pt) :
    frontDotSun (-rot) ⟨-sun.x, sun.y⟩ = frontDotSun rot sun := by
  simp [frontDotSun, cosd_neg, sind_neg]

/-- C27: negating the rotation and the horizontal sun component leaves the inter-row shaded lengths
of front and back unchanged. -/
theorem C27_mirror_shading (p : ArrayParams) (rot : ℝ) (sun : Pt) (hy : sun.y ≠ 0)
    (hF : frontDotSun rot sun ≠ 0) :
    interrowShading p (arctan2 sun.y (-sun.x)) (-rot) = interrowShading p (arctan2 sun.y sun.x) rot
    := by
  have h1 := shadingDelta_sun (d := p.distance) hy hF
  have h2 := shadingDelta_sun (d := p.distance) (rot := -rot) (sun := ⟨-sun.x, sun.y⟩) hy
    (by rwa [frontDotSun_mirror])
  rw [frontDotSun_mirror] at h2
  simp only at h2
  simp only [interrowShading, h1, h2]

/-- C27: mirroring the scene mirrors the shading of the rows: row `i` gets the shaded lengths of row
`n - 1 - i`. -/
theorem C27_mirror_rows (p : ArrayParams) (rot : ℝ) (sun : Pt) (i : ℕ) (hi : i < p.nRows)
    (hr : rot ≠ 0) (hy : sun.y ≠ 0) (hF : frontDotSun rot sun ≠ 0) :
    rowShadedLengths p (arctan2 sun.y (-sun.x)) (-rot) i
      = rowShadedLengths p (arctan2 sun.y sun.x) rot (p.nRows - 1 - i) := by
  rcases Nat.lt_or_ge 1 p.nRows with hn | hn
  · unfold rowShadedLengths
    rw [C27_mirror_shading p rot sun hy hF]
    have hsgn : (-rot > 0) ↔ ¬ rot > 0 := by
      constructor
      · intro h; linarith
      · intro h; have := lt_of_le_of_ne (not_lt.1 h) hr; linarith
    have a1 : (p.nRows - 1 - i = 0) ↔ i = p.nRows - 1 := by omega
    have a2 : (p.nRows - 1 - i = p.nRows - 1) ↔ i = 0 := by omega
    simp only [hsgn, a1, a2]
    split_ifs <;> first | rfl | omega
  · have h1 : p.nRows = 1 := by omega
    have hz : ∀ a r, interrowShading p a r = (0, 0) := by intro a r; simp [interrowShading, h1]
    unfold rowShadedLengths
    simp [hz]

/-- C27: the ground shadow of row `i` in the mirrored scene is the mirror image, about the middle of
the array, of the shadow of row `n - 1 - i`. -/
theorem C27_mirror_shadows (p : ArrayParams) (rot rot' : Rot) (sun : Pt) (i : ℕ) (hi : i < p.nRows)
    (hrot : rot'.deg = - rot.deg) (hw : 0 ≤ p.width) (hy : sun.y ≠ 0) :
    let g := fitGeom p rot sun
    let g' := fitGeom p rot' ⟨-sun.x, sun.y⟩
    let mirror := fun x : ℝ => (p.nRows - 1) * p.distance - x
    (g'.ground.shadowXs i).1 = mirror (g.ground.shadowXs (p.nRows - 1 - i)).2 ∧
    (g'.ground.shadowXs i).2 = mirror (g.ground.shadowXs (p.nRows - 1 - i)).1 := by
  intro g g' mirror
  have hx : ∀ j, g.ground.shadowXs j = shadowXs (fullRowCoords (rowCenter p j) p.width rot.deg)
    (arctan2 sun.y sun.x) := fun j => rfl
  have hx' : ∀ j, g'.ground.shadowXs j = shadowXs (fullRowCoords (rowCenter p j) p.width rot'.deg)
    (arctan2 sun.y (-sun.x)) := fun j => rfl
  have hs' : Real.sin (arctan2 sun.y (-sun.x)) ≠ 0 := sin_alpha_ne (sun := ⟨-sun.x, sun.y⟩) hy
  have hcot' := cot_alpha (sun := ⟨-sun.x, sun.y⟩) hy
  have hk' := kappa_eq (sun := ⟨-sun.x, sun.y⟩) hy (-rot.deg)
  rw [frontDotSun_mirror] at hk'
  simp only at hcot' hk'
  rw [hx, hx', hrot, shadowXs_eq p (sin_alpha_ne hy) _ hw, shadowXs_eq p hs' _ hw, hcot',
    cot_alpha hy, hk', kappa_eq hy]
  have hc : ((p.nRows - 1 - i : ℕ) : ℝ) = p.nRows - 1 - i := by
    rw [Nat.cast_sub (by omega), Nat.cast_sub (by omega)]; simp
  simp only [mirror, hc]
  constructor <;> ring

/-! ## A concrete case with shading between rows -/

/-- Two rows of width 1, spacing 1.25, height 1.5 m. -/
noncomputable def denseArray : ArrayParams where
  axisAzimuth := 0
  gcr := 4 / 5
  height := 3 / 2
  width := 1
  nRows := 2
  cut := fun i => if i = 1 then { front := some 2 } else {}

/-- Tilt 30 degrees to the left, sun 30 degrees above the horizon on the left. -/
noncomputable def shadeStep : StepIn where
  solarZenith := 60
  solarAzimuth := 270
  surfaceTilt := 30
  surfaceAzimuth := 270

theorem sind_60 : sind 60 = Real.sqrt 3 / 2 := by
  have : deg2rad 60 = Real.pi / 3 := by unfold deg2rad; ring
  simp [sind, this]

theorem cosd_60 : cosd 60 = 1 / 2 := by
  have : deg2rad 60 = Real.pi / 3 := by unfold deg2rad; ring
  simp [cosd, this]

theorem dense_rot : (fitStep denseArray shadeStep).rot.deg = 30 := by
  have : (fitStep denseArray shadeStep).rot = rotationFromTiltAzimuth 270 0 30 := rfl
  rw [this, C25_orientation _ _ _ (by norm_num), if_pos]
  have : sind (270 - 0) = - sind 90 := by
    rw [show (270 - 0 : ℝ) = 90 + 180 by norm_num, sind_add_180]
  rw [this, sind_90]; norm_num

theorem dense_sun : (fitStep denseArray shadeStep).sun = ⟨-(Real.sqrt 3 / 2), 1 / 2⟩ := by
  have : (fitStep denseArray shadeStep).sun = solar2dVector 60 270 0 := rfl
  rw [this, solar2dVector, sind_60, cosd_60, show (270 - 0 - 90 : ℝ) = 180 by norm_num, cosd_180]
  simp

theorem dense_front : frontDotSun (fitStep denseArray shadeStep).rot.deg
    (fitStep denseArray shadeStep).sun = Real.sqrt 3 / 2 := by
  rw [dense_rot, dense_sun, frontDotSun, cosd_30, sind_30]; simp; ring

/-- The hypotheses of C23 and C24 are met in a case with shading: the second row is shaded on its
front, the ray from its lower edge to the sun meets the first row. -/
theorem C23_demo : ∃ j < 2, SunRayHitsInterior (fitStep denseArray shadeStep).sun
    ((fitStep denseArray shadeStep).row 1).full.lowest
    ((fitStep denseArray shadeStep).row j).full := by
  have h3 : (1.7 : ℝ) < Real.sqrt 3 := by
    rw [Real.lt_sqrt (by norm_num)]; norm_num
  by_contra hno
  have hseg : ∀ s, 0 < denseArray.nSeg 1 s := by
    intro s; cases s <;> simp [ArrayParams.nSeg, ArrayParams.nFront, ArrayParams.nBack, denseArray]
  have hC := C23_ray_tracing denseArray shadeStep 1 0 (by norm_num [denseArray])
    (by norm_num [denseArray]) (by simp [denseArray]) (by norm_num [shadeStep])
    (by norm_num [shadeStep]) le_rfl zero_le_one hseg
    (by rw [dense_sun]; norm_num) (by rw [dense_front]; positivity)
  have hl : ∀ a b : Pt, lerp a b 0 = a := by intro a b; simp [lerp]
  simp only [hl] at hC
  obtain ⟨s, hs, hpos, hon⟩ := hC.1.2 hno
  rw [if_pos (by rw [dense_front]; positivity)] at hs
  have hd : denseArray.distance = 5 / 4 := by norm_num [ArrayParams.distance, denseArray]
  have hsh := sideShade_eq (p := denseArray) (rot := (fitStep denseArray shadeStep).rot.deg)
    (sun := (fitStep denseArray shadeStep).sun) (i := 1) (by norm_num [denseArray])
    (by rw [hd]; norm_num) (by rw [dense_front]; positivity) (by rw [dense_rot]; norm_num)
    (by rw [dense_rot]; norm_num) (by rw [dense_rot]; norm_num) (by rw [dense_sun]; norm_num)
    (by simp [denseArray])
  have hfront : sunnySide (fitStep denseArray shadeStep).rot.deg (fitStep denseArray shadeStep).sun
      = .front := by
    unfold sunnySide; rw [dense_front, if_pos (by positivity)]
  rw [hfront, dense_front, dense_rot, sind_30, if_pos (by simp), hd, dense_sun] at hsh
  have hL : 0 < sideShade denseArray (arctan2 (1 / 2) (-(Real.sqrt 3 / 2))) 30 1 .front := by
    simp only at hsh
    rw [hsh, lt_max_iff]; right
    rw [abs_of_pos (by positivity)]
    have : (5 / 4 * (1 / 2) / (Real.sqrt 3 / 2) : ℝ) < 1 := by
      rw [div_lt_one (by positivity)]; linarith
    simp only [denseArray]; linarith
  have hside : (fitStep denseArray shadeStep).side 1 .front
      = sideSegments (rowCenter denseArray 1) denseArray.width
        (fitStep denseArray shadeStep).rot.deg (denseArray.nSeg 1 .front)
        (sideShade denseArray (arctan2 (fitStep denseArray shadeStep).sun.y
          (fitStep denseArray shadeStep).sun.x) (fitStep denseArray shadeStep).rot.deg 1 .front) :=
    rfl
  rw [hside, dense_rot, dense_sun] at hs
  have h22 := C22_shade_at_lower_edge (rowCenter denseArray 1) denseArray.width 30
    (denseArray.nSeg 1 .front) (sideShade denseArray (arctan2 (1 / 2) (-(Real.sqrt 3 / 2))) 30 1
      .front) 0 (by norm_num [denseArray]) (hseg _) (by norm_num) (by norm_num) (by norm_num) le_rfl
    zero_le_one
  simp only [hl] at h22
  have hfull : ((fitStep denseArray shadeStep).row 1).full
      = fullRowCoords (rowCenter denseArray 1) denseArray.width
        (fitStep denseArray shadeStep).rot.deg := rfl
  rw [hfull, dense_rot] at hon
  have := (h22.2.1 ⟨s, hs, hpos, hon⟩).2
  linarith

end PVF

import Verif.Lemmas.Row
import Verif.Spec.Geometry

/-! # PV rows parametrised by the distance from their lower end -/

namespace PVF

/-- Point of a row at distance `t` from its lower end (for flat rows: from its right end). -/
noncomputable def tPt (c : Pt) (w rot t : ℝ) : Pt :=
  if 0 < rot then rowPt c rot (-(w / 2) + t) else rowPt c rot (w / 2 - t)

/-- Interval of distances from the lower end covered by segment `k` of `n`. -/
noncomputable def tSeg (w rot : ℝ) (n k : ℕ) : ℝ × ℝ :=
  if 0 < rot then (k * (w / n), (k + 1) * (w / n))
  else (w - (k + 1) * (w / n), w - k * (w / n))

/-- Interval of distances from the lower end covered by the shaded or illuminated surface of
segment `k`. -/
noncomputable def tIv (w rot : ℝ) (n : ℕ) (L : ℝ) (k : ℕ) (sh : Bool) : ℝ × ℝ :=
  let lo := (tSeg w rot n k).1
  let hi := (tSeg w rot n k).2
  let m := max lo (min hi L)
  if rot = 0 then (if sh then (hi, hi) else (lo, hi))
  else if sh then (lo, m) else (m, hi)

theorem tPt_affine (c : Pt) (w rot t : ℝ) :
    tPt c w rot t = ⟨(tPt c w rot 0).x + t * (if 0 < rot then cosd rot else - cosd rot),
      (tPt c w rot 0).y + t * (if 0 < rot then sind rot else - sind rot)⟩ := by
  unfold tPt rowPt
  split_ifs <;> simp <;> constructor <;> ring

theorem length_tPt (c : Pt) (w rot a b : ℝ) :
    (Line.mk (tPt c w rot a) (tPt c w rot b)).length = |b - a| := by
  unfold tPt
  split_ifs
  · rw [length_rowPt]; congr 1; ring
  · rw [length_rowPt, ← abs_neg]; congr 1; ring

/-- Surface as a line: given by its two parameters, direction depending on the tilt. -/
theorem seg_surface {c : Pt} {w rot : ℝ} {n : ℕ} {L : ℝ} {k : ℕ} (hw : 0 ≤ w)
    (h0 : -180 < rot) (h1 : rot < 180) (sh : Bool) :
    let s := sideSegment c w rot n L k
    let iv := tIv w rot n L k sh
    (if sh then s.shaded else s.illum)
      = if rot = 0 then ⟨tPt c w rot iv.2, tPt c w rot iv.1⟩
        else ⟨tPt c w rot iv.1, tPt c w rot iv.2⟩ := by
  intro s iv
  have hseg : segLo w n (k + 1) = -(w / 2) + (k + 1) * (w / n) := by
    unfold segLo; push_cast; ring
  have hseg' : segLo w n k = -(w / 2) + k * (w / n) := rfl
  rcases lt_trichotomy rot 0 with hr | hr | hr
  · have h := sideSegment_neg (c := c) (n := n) (L := L) (k := k) hw hr h0
    simp only at h
    have hnr : ¬ 0 < rot := not_lt.2 hr.le
    have hm : min (segLo w n (k + 1)) (max (segLo w n k) (w / 2 - L))
        = w / 2 - max (w - (k + 1) * (w / n)) (min (w - k * (w / n)) L) := by
      rw [← min_sub_sub_left, ← max_sub_sub_left, hseg, hseg']
      congr 1
      · ring
      · congr 1; ring
    simp only [s, iv, tIv, tSeg, hr.ne, hnr, if_false]
    cases sh
    · simp only [Bool.false_eq_true, if_false]
      rw [h.2]
      simp only [tPt, hnr, if_false, hm]
      congr 2
      rw [hseg']; ring
    · simp only [if_true]
      rw [h.1]
      simp only [tPt, hnr, if_false, hm]
      congr 2
      rw [hseg]; ring
  · subst hr
    have h := sideSegment_flat (c := c) (w := w) (n := n) (L := L) (k := k)
    simp only [s, iv, tIv, tSeg, if_true, lt_irrefl, if_false]
    cases sh
    · simp only [Bool.false_eq_true, if_false]
      rw [h.2]
      simp only [tPt, lt_irrefl, if_false]
      congr 2
      · rw [hseg']; ring
      · rw [hseg]; ring
    · simp only [if_true]
      rw [h.1]
      simp only [tPt, lt_irrefl, if_false]
      congr 2
      · rw [hseg']; ring
      · rw [hseg']; ring
  · have h := sideSegment_pos (c := c) (n := n) (L := L) (k := k) hw hr h1
    simp only at h
    have hm : max (segLo w n k) (min (segLo w n (k + 1)) (-(w / 2) + L))
        = -(w / 2) + max (k * (w / n)) (min ((k + 1) * (w / n)) L) := by
      rw [hseg, hseg', min_add_add_left, max_add_add_left]
    simp only [s, iv, tIv, tSeg, hr.ne', hr, if_false, if_true]
    cases sh
    · simp only [Bool.false_eq_true, if_false]
      rw [h.2, hm]
      simp only [tPt, hr, if_true, hseg]
    · simp only [if_true]
      rw [h.1, hm]
      simp only [tPt, hr, if_true, hseg']

theorem tSeg_le {w : ℝ} (hw : 0 ≤ w) (rot : ℝ) (n k : ℕ) :
    (tSeg w rot n k).1 ≤ (tSeg w rot n k).2 := by
  have : 0 ≤ w / n := by positivity
  unfold tSeg
  split_ifs <;> simp only <;> nlinarith

theorem tSeg_len (w rot : ℝ) (n k : ℕ) :
    (tSeg w rot n k).2 - (tSeg w rot n k).1 = w / n := by
  unfold tSeg
  split_ifs <;> simp only <;> ring

theorem tSeg_bounds {w : ℝ} (hw : 0 ≤ w) (rot : ℝ) {n k : ℕ} (hk : k < n) :
    0 ≤ (tSeg w rot n k).1 ∧ (tSeg w rot n k).2 ≤ w := by
  have hn : (0 : ℝ) < n := by
    have : 0 < n := by omega
    exact_mod_cast this
  have h0 : 0 ≤ w / n := by positivity
  have h1 : (k : ℝ) + 1 ≤ n := by exact_mod_cast hk
  have h2 : (n : ℝ) * (w / n) = w := by field_simp
  have h3 : (0 : ℝ) ≤ k := by positivity
  have h4 : ((k : ℝ) + 1) * (w / n) ≤ w := by nlinarith
  have h5 : 0 ≤ (k : ℝ) * (w / n) := by positivity
  unfold tSeg
  split_ifs <;> constructor <;> simp only <;> linarith

theorem tIv_le {w : ℝ} (hw : 0 ≤ w) (rot : ℝ) (n : ℕ) (L : ℝ) (k : ℕ) (sh : Bool) :
    (tIv w rot n L k sh).1 ≤ (tIv w rot n L k sh).2 := by
  have h := tSeg_le hw rot n k
  unfold tIv
  simp only
  split_ifs
  · exact le_rfl
  · exact h
  · exact le_max_left _ _
  · exact max_le h (min_le_left _ _)

theorem tIv_bounds {w : ℝ} (hw : 0 ≤ w) (rot : ℝ) {n : ℕ} (L : ℝ) {k : ℕ} (hk : k < n)
    (sh : Bool) : 0 ≤ (tIv w rot n L k sh).1 ∧ (tIv w rot n L k sh).2 ≤ w := by
  have h := tSeg_le hw rot n k
  obtain ⟨h1, h2⟩ := tSeg_bounds hw rot hk
  have h3 : max (tSeg w rot n k).1 (min (tSeg w rot n k).2 L) ≤ w :=
    max_le (h.trans h2) ((min_le_left _ _).trans h2)
  have h4 : 0 ≤ max (tSeg w rot n k).1 (min (tSeg w rot n k).2 L) := h1.trans (le_max_left _ _)
  unfold tIv
  simp only
  split_ifs <;> constructor <;> simp only <;> linarith

theorem seg_surface_length {c : Pt} {w rot : ℝ} {n : ℕ} {L : ℝ} {k : ℕ} (hw : 0 ≤ w)
    (h0 : -180 < rot) (h1 : rot < 180) (sh : Bool) :
    let s := sideSegment c w rot n L k
    (if sh then s.shaded else s.illum).length
      = (tIv w rot n L k sh).2 - (tIv w rot n L k sh).1 := by
  intro s
  have h := seg_surface (c := c) (n := n) (L := L) (k := k) hw h0 h1 sh
  simp only at h
  simp only [s]
  rw [h]
  have hle := tIv_le hw rot n L k sh
  split_ifs
  · rw [length_tPt, abs_sub_comm, abs_of_nonneg (by linarith)]
  · rw [length_tPt, abs_of_nonneg (by linarith)]

/-- Both surfaces of a segment together cover the segment, for any function of the end points. -/
theorem tIv_telescope (w rot : ℝ) (n : ℕ) (L : ℝ) (k : ℕ) (A : ℝ → ℝ) :
    (A (tIv w rot n L k false).2 - A (tIv w rot n L k false).1)
      + (A (tIv w rot n L k true).2 - A (tIv w rot n L k true).1)
    = A (tSeg w rot n k).2 - A (tSeg w rot n k).1 := by
  unfold tIv
  simp only
  by_cases h : rot = 0
  · simp [h]
  · simp [h]

theorem tSeg_telescope (w rot : ℝ) {n : ℕ} (hn : 0 < n) (A : ℝ → ℝ) :
    ((List.range n).map fun k => A (tSeg w rot n k).2 - A (tSeg w rot n k).1).sum = A w - A 0 := by
  have hn' : (n : ℝ) ≠ 0 := by positivity
  have key : ∀ m : ℕ, ((List.range m).map fun k => A (tSeg w rot n k).2 - A (tSeg w rot n k).1).sum
      = if 0 < rot then A (m * (w / n)) - A 0 else A w - A (w - m * (w / n)) := by
    intro m
    induction m with
    | zero => simp
    | succ m ih =>
      rw [List.range_succ, List.map_append, List.sum_append, ih]
      simp only [List.map_cons, List.map_nil, List.sum_cons, List.sum_nil, tSeg]
      push_cast
      split_ifs <;> ring
  rw [key n]
  have : (n : ℝ) * (w / n) = w := by field_simp
  rw [this]; simp

theorem side_telescope (w rot : ℝ) {n : ℕ} (hn : 0 < n) (L : ℝ) (A : ℝ → ℝ) :
    ((List.range n).map fun k => (A (tIv w rot n L k false).2 - A (tIv w rot n L k false).1)
      + (A (tIv w rot n L k true).2 - A (tIv w rot n L k true).1)).sum = A w - A 0 := by
  simp only [tIv_telescope]
  exact tSeg_telescope w rot hn A

end PVF

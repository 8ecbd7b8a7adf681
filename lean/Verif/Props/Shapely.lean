import Verif.Lemmas.IntervalExact
import Verif.Lemmas.Strings

/-!
# C41: cutting collections of surfaces and removing line strings from them

`lineSeg o e a b` is the segment from distance `a` to distance `b` on the line through `o` in the
direction of the unit vector `e` (Spec/Segment).  Surfaces are written in the direction of the line
(`a < b`), which is no restriction: take `e` in the direction of the surface.
-/

namespace PVF
noncomputable section

variable {o e : Pt}

/-- C41 (removal, up to tolerance).  `difference` of a surface and a collinear line string that does
not stick out at both ends of the surface has the length of the surface without the common part, up
to twice the distance tolerance. -/
theorem C41_difference_length (he : e.x ^ 2 + e.y ^ 2 = 1) {a b c d : ℝ} (hab : a < b)
    (h : ¬ (min c d ≤ a - TOL ∧ b + TOL ≤ max c d)) :
    |totalLength (difference (lineSeg o e a b) (lineSeg o e c d))
      - ((lineSeg o e a b).length - overlapLen a b c d)| ≤ 2 * TOL := by
  rw [difference_lineSeg he, length_pieces he, lineSeg_length he, abs_of_pos (by linarith : 0 < b - a)]
  exact diffIntervals_bound hab h

/-- C41 (finding).  If the line string sticks out at both ends of the surface, so that it covers the
surface completely, `difference` returns the whole surface. -/
theorem C41_difference_covered (he : e.x ^ 2 + e.y ^ 2 = 1) {a b c d : ℝ} (hab : a < b)
    (h : min c d ≤ a - TOL ∧ b + TOL ≤ max c d) :
    difference (lineSeg o e a b) (lineSeg o e c d) = [lineSeg o e a b] := by
  have hT := TOL_pos'
  rw [difference_lineSeg he]
  unfold diffIntervals
  dsimp only
  rw [min_eq_left hab.le, max_eq_right hab.le]
  have h1 : ¬ (a - TOL < c ∧ c < b + TOL) := by
    rintro ⟨q1, q2⟩
    rcases le_total c d with hcd | hcd
    · rw [min_eq_left hcd] at h; linarith
    · rw [max_eq_left hcd] at h; linarith
  have h2 : ¬ (a - TOL < d ∧ d < b + TOL) := by
    rintro ⟨q1, q2⟩
    rcases le_total c d with hcd | hcd
    · rw [max_eq_right hcd] at h; linarith
    · rw [min_eq_right hcd] at h; linarith
  rw [if_neg h1, if_neg h2]
  rfl

/-- C41 (removal, exact).  If all end points are equal or more than the tolerance apart and the line
string does not stick out at both ends, the surfaces left by `difference` are pieces of the surface
that cover exactly its points outside the line string, and their total length is the length of the
surface without the common part. -/
theorem C41_difference_exact (he : e.x ^ 2 + e.y ^ 2 = 1) {a b c d : ℝ} (hab : a < b) (hcd : c ≠ d)
    (hac : Apart a c) (had : Apart a d) (hbc : Apart b c) (hbd : Apart b d) (hs : Apart c d)
    (h : ¬ (min c d < a ∧ b < max c d)) :
    ∃ pieces : List (ℝ × ℝ),
      difference (lineSeg o e a b) (lineSeg o e c d)
        = pieces.map (fun i => lineSeg o e i.1 i.2) ∧
      (∀ s, (∃ i ∈ pieces, Inside i.1 i.2 s) ↔ a < s ∧ s < b ∧ ¬ Within c d s) ∧
      totalLength (difference (lineSeg o e a b) (lineSeg o e c d))
        = (lineSeg o e a b).length - overlapLen a b c d := by
  refine ⟨diffIntervals a b c d, difference_lineSeg he a b c d, ?_, ?_⟩
  · rw [diffIntervals_exact hac had hbc hbd hs]
    exact exactDiff_mem hab hcd h
  · rw [difference_lineSeg he, length_pieces he, diffIntervals_exact hac had hbc hbd hs,
      exactDiff_length hab hcd h, lineSeg_length he, abs_of_pos (by linarith : 0 < b - a)]

theorem totalLength_flatMap (l : List (ℝ × ℝ)) (f : ℝ × ℝ → List Line) :
    totalLength (l.flatMap f) = (l.map fun i => totalLength (f i)).sum := by
  induction l with
  | nil => rfl
  | cons i l ih =>
    rw [List.flatMap_cons, List.map_cons, List.sum_cons, ← ih]
    unfold totalLength
    rw [List.map_append, List.sum_append]

/-- C41 (removal from a collection, up to tolerance).  Removing a line string from a collection of
surfaces on the same line removes the common length, up to twice the tolerance for every surface,
unless the line string sticks out at both ends of a surface.  `near` (shapely) has to report surfaces
that have a part in common with the line string. -/
theorem C41_remove_length (he : e.x ^ 2 + e.y ^ 2 = 1) (near : Line → Line → Prop)
    (surfs : List (ℝ × ℝ)) {c d : ℝ} (hdir : ∀ i ∈ surfs, i.1 < i.2)
    (hnear : ∀ i ∈ surfs, 0 < overlapLen i.1 i.2 c d → near (lineSeg o e i.1 i.2) (lineSeg o e c d))
    (h : ∀ i ∈ surfs, ¬ (min c d ≤ i.1 - TOL ∧ i.2 + TOL ≤ max c d)) :
    |totalLength (removeLinestring near (surfs.map fun i => lineSeg o e i.1 i.2) (lineSeg o e c d))
      - (surfs.map fun i => (lineSeg o e i.1 i.2).length - overlapLen i.1 i.2 c d).sum|
      ≤ 2 * TOL * surfs.length := by
  unfold removeLinestring
  rw [List.flatMap_map, totalLength_flatMap]
  induction surfs with
  | nil => simp
  | cons i l ih =>
    have ih' := ih (fun j hj => hdir j (List.mem_cons_of_mem _ hj))
      (fun j hj => hnear j (List.mem_cons_of_mem _ hj)) (fun j hj => h j (List.mem_cons_of_mem _ hj))
    classical
    have h1 : |totalLength (if near (lineSeg o e i.1 i.2) (lineSeg o e c d) then
        difference (lineSeg o e i.1 i.2) (lineSeg o e c d) else [lineSeg o e i.1 i.2])
        - ((lineSeg o e i.1 i.2).length - overlapLen i.1 i.2 c d)| ≤ 2 * TOL := by
      split_ifs with hn
      · exact C41_difference_length he (hdir i List.mem_cons_self) (h i List.mem_cons_self)
      · have h0 : overlapLen i.1 i.2 c d = 0 :=
          le_antisymm (not_lt.1 fun hp => hn (hnear i List.mem_cons_self hp)) (le_max_left _ _)
        have hT := TOL_pos'
        rw [h0]
        unfold totalLength
        simp only [List.map_cons, List.map_nil, List.sum_cons, List.sum_nil, add_zero, sub_zero,
          sub_self, abs_zero]
        linarith
    rw [List.map_cons, List.sum_cons, List.map_cons, List.sum_cons, List.length_cons]
    push_cast
    rw [abs_le] at *
    constructor <;> linarith [h1.1, h1.2, ih'.1, ih'.2]

/-- C41 (removal from a collection, exact).  If all end points are equal or more than the tolerance
apart and the line string does not stick out at both ends of a surface, the surfaces left are pieces
that cover exactly the points of the surfaces outside the line string, and the total length decreases
exactly by the common length. -/
theorem C41_remove_exact (he : e.x ^ 2 + e.y ^ 2 = 1) (near : Line → Line → Prop)
    (surfs : List (ℝ × ℝ)) {c d : ℝ} (hdir : ∀ i ∈ surfs, i.1 < i.2) (hcd : c ≠ d)
    (hnear : ∀ i ∈ surfs, 0 < overlapLen i.1 i.2 c d → near (lineSeg o e i.1 i.2) (lineSeg o e c d))
    (hs : Apart c d) (hap : ∀ i ∈ surfs, Apart i.1 c ∧ Apart i.1 d ∧ Apart i.2 c ∧ Apart i.2 d)
    (h : ∀ i ∈ surfs, ¬ (min c d < i.1 ∧ i.2 < max c d)) :
    ∃ pieces : List (ℝ × ℝ),
      removeLinestring near (surfs.map fun i => lineSeg o e i.1 i.2) (lineSeg o e c d)
        = pieces.map (fun i => lineSeg o e i.1 i.2) ∧
      (∀ s, (∃ i ∈ pieces, Inside i.1 i.2 s) ↔
        (∃ i ∈ surfs, i.1 < s ∧ s < i.2) ∧ ¬ Within c d s) ∧
      totalLength (removeLinestring near (surfs.map fun i => lineSeg o e i.1 i.2) (lineSeg o e c d))
        = (surfs.map fun i => (lineSeg o e i.1 i.2).length - overlapLen i.1 i.2 c d).sum := by
  unfold removeLinestring
  rw [List.flatMap_map, totalLength_flatMap]
  induction surfs with
  | nil => exact ⟨[], rfl, by simp, rfl⟩
  | cons i l ih =>
    obtain ⟨ps, e1, e2, e3⟩ := ih (fun j hj => hdir j (List.mem_cons_of_mem _ hj))
      (fun j hj => hnear j (List.mem_cons_of_mem _ hj)) (fun j hj => hap j (List.mem_cons_of_mem _ hj))
      (fun j hj => h j (List.mem_cons_of_mem _ hj))
    have hi := hdir i List.mem_cons_self
    obtain ⟨a1, a2, a3, a4⟩ := hap i List.mem_cons_self
    classical
    have h1 : ∃ pieces : List (ℝ × ℝ), (if near (lineSeg o e i.1 i.2) (lineSeg o e c d) then
        difference (lineSeg o e i.1 i.2) (lineSeg o e c d) else [lineSeg o e i.1 i.2])
        = pieces.map (fun i => lineSeg o e i.1 i.2) ∧
        (∀ s, (∃ j ∈ pieces, Inside j.1 j.2 s) ↔ i.1 < s ∧ s < i.2 ∧ ¬ Within c d s) ∧
        totalLength (if near (lineSeg o e i.1 i.2) (lineSeg o e c d) then
          difference (lineSeg o e i.1 i.2) (lineSeg o e c d) else [lineSeg o e i.1 i.2])
          = (lineSeg o e i.1 i.2).length - overlapLen i.1 i.2 c d := by
      split_ifs with hn
      · obtain ⟨q, q1, q2, q3⟩ := C41_difference_exact (o := o) he hi hcd a1 a2 a3 a4 hs
          (h i List.mem_cons_self)
        exact ⟨q, q1, q2, q3⟩
      · have h0 : overlapLen i.1 i.2 c d = 0 :=
          le_antisymm (not_lt.1 fun hp => hn (hnear i List.mem_cons_self hp)) (le_max_left _ _)
        refine ⟨[i], rfl, ?_, ?_⟩
        · intro s
          simp only [List.mem_singleton, exists_eq_left]
          unfold overlapLen at h0
          unfold Inside Within
          grind
        · rw [h0]; unfold totalLength; simp
    obtain ⟨q, q1, q2, q3⟩ := h1
    refine ⟨q ++ ps, ?_, ?_, ?_⟩
    · rw [List.flatMap_cons, List.map_append, ← q1, ← e1]
    · intro s
      have k1 := q2 s
      have k2 := e2 s
      simp only [List.mem_append, List.mem_cons, or_and_right, exists_or, exists_eq_left]
      rw [k1, k2]
      clear ih hdir hnear hap h
      tauto
    · rw [List.map_cons, List.sum_cons, List.map_cons, List.sum_cons, q3, e3]

theorem cutLoop_spec (q : Pt) (l : List Line) :
    (cutLoop q l = none ∧ ∀ s ∈ l, ¬ (segDist s q < TOL ∧ TOL < distPt s.b1 q ∧ TOL < distPt s.b2 q)) ∨
    ∃ pre s post, l = pre ++ s :: post ∧
      (segDist s q < TOL ∧ TOL < distPt s.b1 q ∧ TOL < distPt s.b2 q) ∧
      (∀ s ∈ pre, ¬ (segDist s q < TOL ∧ TOL < distPt s.b1 q ∧ TOL < distPt s.b2 q)) ∧
      cutLoop q l = some (pre ++ ⟨s.b1, q⟩ :: post, ⟨q, s.b2⟩) := by
  induction l with
  | nil => exact Or.inl ⟨rfl, by simp⟩
  | cons s l ih =>
    unfold cutLoop
    by_cases h : segDist s q < TOL ∧ TOL < distPt s.b1 q ∧ TOL < distPt s.b2 q
    · right
      exact ⟨[], s, l, rfl, h, by simp, if_pos h⟩
    · have h' : ¬ (containsPt s q ∧ distPt s.b1 q > TOL ∧ distPt s.b2 q > TOL) := h
      rw [if_neg h']
      rcases ih with ⟨e1, e2⟩ | ⟨pre, t, post, e1, e2, e3, e4⟩
      · left
        refine ⟨by rw [e1]; rfl, ?_⟩
        intro t ht
        rcases List.mem_cons.1 ht with rfl | ht
        · exact h
        · exact e2 t ht
      · right
        refine ⟨s :: pre, t, post, by rw [e1]; rfl, e2, ?_, by rw [e4]; rfl⟩
        intro u hu
        rcases List.mem_cons.1 hu with rfl | hu
        · exact h
        · exact e3 u hu

/-- C41 (cutting, shape of the result).  A collection is changed by cutting exactly if some surface
passes the point within the tolerance while both its ends are farther from the point.  Then the first
such surface is replaced by the surfaces from its ends to the point and nothing else changes. -/
theorem C41_cut (l : List Line) (q : Pt) :
    ((∀ s ∈ l, ¬ (segDist s q < TOL ∧ TOL < distPt s.b1 q ∧ TOL < distPt s.b2 q)) →
      cutAtPoint l q = l) ∧
    ((∃ s ∈ l, segDist s q < TOL ∧ TOL < distPt s.b1 q ∧ TOL < distPt s.b2 q) →
      ∃ pre s post, l = pre ++ s :: post ∧
        (segDist s q < TOL ∧ TOL < distPt s.b1 q ∧ TOL < distPt s.b2 q) ∧
        (∀ s ∈ pre, ¬ (segDist s q < TOL ∧ TOL < distPt s.b1 q ∧ TOL < distPt s.b2 q)) ∧
        cutAtPoint l q = pre ++ ⟨s.b1, q⟩ :: post ++ [⟨q, s.b2⟩]) := by
  unfold cutAtPoint
  rcases cutLoop_spec q l with ⟨e1, e2⟩ | ⟨pre, s, post, e1, e2, e3, e4⟩
  · exact ⟨fun _ => by rw [e1], fun ⟨s, hs, h⟩ => absurd h (e2 s hs)⟩
  · refine ⟨fun h => absurd e2 (h s (by rw [e1]; simp)), fun _ => ⟨pre, s, post, e1, e2, e3, by rw [e4]⟩⟩

theorem segDist_near (s : Line) (q : Pt) :
    distPt s.b1 q + distPt q s.b2 ≤ s.length + 2 * segDist s q := by
  unfold segDist
  dsimp only
  have hc : 0 ≤ clip (((q.x - s.b1.x) * (s.b2.x - s.b1.x) + (q.y - s.b1.y) * (s.b2.y - s.b1.y))
      / ((s.b2.x - s.b1.x) ^ 2 + (s.b2.y - s.b1.y) ^ 2)) 0 1 ∧ clip (((q.x - s.b1.x) * (s.b2.x - s.b1.x) + (q.y - s.b1.y) * (s.b2.y - s.b1.y))
      / ((s.b2.x - s.b1.x) ^ 2 + (s.b2.y - s.b1.y) ^ 2)) 0 1 ≤ 1 := by
    unfold clip
    grind
  generalize clip (((q.x - s.b1.x) * (s.b2.x - s.b1.x) + (q.y - s.b1.y) * (s.b2.y - s.b1.y))
      / ((s.b2.x - s.b1.x) ^ 2 + (s.b2.y - s.b1.y) ^ 2)) 0 1 = t at *
  set p : Pt := ⟨s.b1.x + t * (s.b2.x - s.b1.x), s.b1.y + t * (s.b2.y - s.b1.y)⟩
  have h1 : distPt s.b1 p = t * s.length := distPt_way_left hc.1
  have h2 : distPt p s.b2 = (1 - t) * s.length := distPt_way_right hc.2
  have h3 := distPt_triangle s.b1 p q
  have h4 := distPt_triangle q p s.b2
  have h5 := distPt_comm p q
  nlinarith [h1, h2, h3, h4, h5]

/-- C41 (cutting, length).  Cutting never shortens a collection; it lengthens it by at most twice the
tolerance, and not at all if the point lies on the surface that is cut. -/
theorem C41_cut_length (l : List Line) (q : Pt) :
    totalLength l ≤ totalLength (cutAtPoint l q) ∧
    totalLength (cutAtPoint l q) ≤ totalLength l + 2 * TOL ∧
    ((∀ s ∈ l, segDist s q < TOL → segDist s q = 0) →
      totalLength (cutAtPoint l q) = totalLength l) := by
  have hT := TOL_pos'
  by_cases h : ∃ s ∈ l, segDist s q < TOL ∧ TOL < distPt s.b1 q ∧ TOL < distPt s.b2 q
  · obtain ⟨pre, s, post, e1, e2, -, e3⟩ := (C41_cut l q).2 h
    have hl : totalLength l = totalLength pre + s.length + totalLength post := by
      rw [e1]; unfold totalLength; simp [add_assoc]
    have hc : totalLength (cutAtPoint l q)
        = totalLength pre + totalLength post + (distPt s.b1 q + distPt q s.b2) := by
      rw [e3]; unfold totalLength
      simp only [List.map_append, List.map_cons, List.map_nil, List.sum_append, List.sum_cons,
        List.sum_nil, Line.length_eq_distPt]
      ring
    have h1 := segDist_near s q
    have h2 := distPt_triangle s.b1 q s.b2
    rw [← Line.length_eq_distPt] at h2
    refine ⟨by linarith, by linarith [e2.1], fun h0 => ?_⟩
    have := h0 s (by rw [e1]; simp) e2.1
    linarith
  · have h' : cutAtPoint l q = l := (C41_cut l q).1 fun s hs hh => h ⟨s, hs, hh⟩
    rw [h']
    exact ⟨le_refl _, by linarith, fun _ => rfl⟩

/-! ## A concrete case: two surfaces on a rising line -/

theorem demo_dir : (⟨3 / 5, 4 / 5⟩ : Pt).x ^ 2 + (⟨3 / 5, 4 / 5⟩ : Pt).y ^ 2 = 1 := by norm_num

theorem apart_of {x y : ℝ} (h : 1 ≤ |x - y|) : Apart x y := by
  right
  unfold TOL
  linarith [h]

/-- Two surfaces of length 2 and 3 with a common end; a line string of length 2 across that end.  A
total length of 3 is left. -/
theorem C41_demo_remove : totalLength (removeLinestring (fun _ _ => True)
    ([((0 : ℝ), 2), (2, 5)].map fun i => lineSeg ⟨1, 1⟩ ⟨3 / 5, 4 / 5⟩ i.1 i.2)
    (lineSeg ⟨1, 1⟩ ⟨3 / 5, 4 / 5⟩ 3 1)) = 3 := by
  obtain ⟨_, -, -, h⟩ := C41_remove_exact (o := ⟨1, 1⟩) demo_dir (fun _ _ => True)
    [((0 : ℝ), 2), (2, 5)] (c := 3) (d := 1) (by simp; norm_num) (by norm_num) (by simp)
    (apart_of (by norm_num))
    (by
      simp only [List.forall_mem_cons, List.not_mem_nil, false_implies, implies_true, and_true]
      refine ⟨⟨?_, ?_, ?_, ?_⟩, ?_, ?_, ?_, ?_⟩ <;> apply apart_of <;> norm_num)
    (by simp; norm_num)
  rw [h]
  simp only [List.map_cons, List.map_nil, List.sum_cons, List.sum_nil, lineSeg_length demo_dir]
  unfold overlapLen
  norm_num

/-- The first surface is cut 1 from its start: three surfaces of total length 5. -/
theorem C41_demo_cut : totalLength (cutAtPoint
    [lineSeg ⟨1, 1⟩ ⟨3 / 5, 4 / 5⟩ 0 2, lineSeg ⟨1, 1⟩ ⟨3 / 5, 4 / 5⟩ 2 5]
    (linePt ⟨1, 1⟩ ⟨3 / 5, 4 / 5⟩ 1)) = 5 ∧
    (cutAtPoint [lineSeg ⟨1, 1⟩ ⟨3 / 5, 4 / 5⟩ 0 2, lineSeg ⟨1, 1⟩ ⟨3 / 5, 4 / 5⟩ 2 5]
      (linePt ⟨1, 1⟩ ⟨3 / 5, 4 / 5⟩ 1)).length = 3 := by
  have hT : TOL < 1 := by unfold TOL; norm_num
  have d1 : segDist (lineSeg ⟨1, 1⟩ ⟨3 / 5, 4 / 5⟩ 0 2) (linePt ⟨1, 1⟩ ⟨3 / 5, 4 / 5⟩ 1) = 0 := by
    rw [lineSeg_segDist demo_dir]; norm_num
  have d2 : segDist (lineSeg ⟨1, 1⟩ ⟨3 / 5, 4 / 5⟩ 2 5) (linePt ⟨1, 1⟩ ⟨3 / 5, 4 / 5⟩ 1) = 1 := by
    rw [lineSeg_segDist demo_dir]; norm_num
  constructor
  · rw [(C41_cut_length _ _).2.2]
    · unfold totalLength
      simp only [List.map_cons, List.map_nil, List.sum_cons, List.sum_nil, lineSeg_length demo_dir]
      norm_num
    · simp only [List.forall_mem_cons, List.not_mem_nil, false_implies, implies_true, and_true, d1, d2]
      exact ⟨trivial, fun h => absurd h (by linarith)⟩
  · obtain ⟨pre, s, post, h, -, -, h'⟩ := (C41_cut
      [lineSeg ⟨1, 1⟩ ⟨3 / 5, 4 / 5⟩ 0 2, lineSeg ⟨1, 1⟩ ⟨3 / 5, 4 / 5⟩ 2 5]
      (linePt ⟨1, 1⟩ ⟨3 / 5, 4 / 5⟩ 1)).2 ⟨_, List.mem_cons_self, by rw [d1]; exact TOL_pos', by
        unfold lineSeg
        rw [linePt_dist demo_dir, linePt_dist demo_dir]
        norm_num
        exact hT⟩
    have hl := congrArg List.length h
    rw [h']
    simp only [List.length_cons, List.length_append, List.length_nil] at *
    omega

end
end PVF

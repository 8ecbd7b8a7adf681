import Verif.Props.Shapely
import Verif.Model.Side
import Verif.Lemmas.Cover

/-!
# C61: casting shadows on segments

Surfaces and shadows lie on a common straight line and are given by distances on it (Spec/Segment).
-/

namespace PVF
noncomputable section

variable {o e : Pt}

/-- What shapely is asked for: the points of the shadow (between `c` and `d`) that are at most the
distance tolerance from an illuminated surface are the points between `a` and `b`. -/
def MeetsIn (surfs : List (ℝ × ℝ)) (c d a b : ℝ) : Prop :=
  ∀ s, Within a b s ↔ Within c d s ∧ ∃ i ∈ surfs, i.1 - TOL ≤ s ∧ s ≤ i.2 + TOL

/-- The part of the shadow found by shapely covers as much of every surface as the shadow does. -/
theorem overlap_meets {surfs : List (ℝ × ℝ)} {c d a b : ℝ} (hm : MeetsIn surfs c d a b) {i : ℝ × ℝ}
    (hi : i ∈ surfs) : overlapLen i.1 i.2 a b = overlapLen i.1 i.2 c d ∨ i.2 ≤ i.1 := by
  have hT := TOL_pos'
  by_cases hd : i.2 ≤ i.1
  · exact Or.inr hd
  left
  have hlt : i.1 < i.2 := not_le.1 hd
  have hA := (hm (min a b)).1 ⟨le_refl _, min_le_max⟩
  have hB := (hm (max a b)).1 ⟨min_le_max, le_refl _⟩
  have h1 : min c d ≤ min a b := hA.1.1
  have h2 : max a b ≤ max c d := hB.1.2
  unfold overlapLen
  rw [min_eq_left hlt.le, max_eq_right hlt.le]
  by_cases hq : max i.1 (min c d) ≤ min i.2 (max c d)
  · have k1 := (hm (max i.1 (min c d))).2 ⟨⟨le_max_right _ _, le_trans hq (min_le_right _ _)⟩, i, hi,
      by linarith [le_max_left i.1 (min c d)], by linarith [le_trans hq (min_le_left _ _)]⟩
    have k2 := (hm (min i.2 (max c d))).2 ⟨⟨le_trans (le_max_right _ _) hq, min_le_right _ _⟩, i, hi,
      by linarith [le_trans (le_max_left _ _) hq], by linarith [min_le_left i.2 (max c d)]⟩
    have e1 : max i.1 (min a b) = max i.1 (min c d) :=
      le_antisymm (max_le (le_max_left _ _) k1.1) (max_le_max (le_refl _) h1)
    have e2 : min i.2 (max a b) = min i.2 (max c d) :=
      le_antisymm (min_le_min (le_refl _) h2) (le_min (min_le_left _ _) k2.2)
    rw [e1, e2]
  · have e1 : max i.1 (min c d) ≤ max i.1 (min a b) := max_le_max (le_refl _) h1
    have e2 : min i.2 (max a b) ≤ min i.2 (max c d) := min_le_min (le_refl _) h2
    rw [max_eq_left (by linarith), max_eq_left (by linarith)]

theorem meets_length {surfs : List (ℝ × ℝ)} {c d a b : ℝ} (hm : MeetsIn surfs c d a b)
    (hdir : ∀ i ∈ surfs, i.1 < i.2) (hap : surfs.Pairwise fun i j => i.2 ≤ j.1 ∨ j.2 ≤ i.1) :
    0 ≤ |b - a| - (surfs.map fun i => overlapLen i.1 i.2 c d).sum ∧
    |b - a| - (surfs.map fun i => overlapLen i.1 i.2 c d).sum ≤ 2 * TOL * surfs.length := by
  have hT := TOL_pos'
  have hab : |b - a| = max a b - min a b := by rw [abs_sub_comm, max_sub_min_eq_abs']
  have hov : ∀ i ∈ surfs, overlapLen i.1 i.2 c d
      = max 0 (min (max a b) i.2 - max (min a b) i.1) := by
    intro i hi
    rcases overlap_meets hm hi with h | h
    · rw [← h, overlapLen, min_eq_left (hdir i hi).le, max_eq_right (hdir i hi).le,
        min_comm i.2, max_comm i.1]
    · exact absurd (hdir i hi) (not_lt.2 h)
  rw [List.map_congr_left hov, hab]
  constructor
  · have := sum_le_of_apart (A := min a b) (B := max a b) min_le_max surfs hap
    linarith
  · have h1 := length_le_of_cover (A := min a b) (B := max a b)
      (surfs.map fun i => (i.1 - TOL, i.2 + TOL)) (by
        intro s s0 s1
        obtain ⟨-, i, hi, q1, q2⟩ := (hm s).1 ⟨s0, s1⟩
        exact ⟨_, List.mem_map.2 ⟨i, hi, rfl⟩, q1, q2⟩)
    rw [List.map_map] at h1
    have h2 : (surfs.map ((fun i : ℝ × ℝ => max 0 (min (max a b) i.2 - max (min a b) i.1))
        ∘ fun i => (i.1 - TOL, i.2 + TOL))).sum
        ≤ (surfs.map fun i => max 0 (min (max a b) i.2 - max (min a b) i.1)).sum
          + 2 * TOL * surfs.length := by
      clear h1 hm hdir hap hov
      induction surfs with
      | nil => simp
      | cons i l ih =>
        simp only [List.map_cons, List.sum_cons, List.length_cons, Function.comp]
        push_cast
        have : max 0 (min (max a b) (i.2 + TOL) - max (min a b) (i.1 - TOL))
            ≤ max 0 (min (max a b) i.2 - max (min a b) i.1) + 2 * TOL := by
          have k1 : min (max a b) (i.2 + TOL) ≤ min (max a b) i.2 + TOL := by
            rw [← min_add_add_right]
            exact min_le_min (by linarith) (le_refl _)
          have k2 : max (min a b) i.1 - TOL ≤ max (min a b) (i.1 - TOL) := by
            rw [← max_sub_sub_right]
            exact max_le_max (by linarith) (le_refl _)
          have k3 := le_max_left 0 (min (max a b) i.2 - max (min a b) i.1)
          have k4 := le_max_right 0 (min (max a b) i.2 - max (min a b) i.1)
          exact max_le (by linarith) (by linarith)
        linarith
    linarith

theorem totalLength_append (l m : List Line) : totalLength (l ++ m) = totalLength l + totalLength m := by
  unfold totalLength; rw [List.map_append, List.sum_append]

/-- The effect of a shadow that meets the segment in one part. -/
theorem cast_one {near : Line → Line → Prop} {inter : Intersect} {m : Colls} {s : SegObj} {v w : Line}
    (hne : s.illum ≠ s.shaded) (hi : inter (m s.illum) v = [w]) :
    ∃ m', s.castShadow near inter m v = some m' ∧
      (∀ c, c ≠ s.illum → c ≠ s.shaded → m' c = m c) ∧
      m' s.shaded = m s.shaded ++ [w] ∧ m' s.illum = removeLinestring near (m s.illum) w := by
  refine ⟨_, by unfold SegObj.castShadow; rw [hi], ?_, ?_, ?_⟩
  · intro c h1 h2
    rw [Function.update_of_ne h1, Function.update_of_ne h2]
  · rw [Function.update_of_ne (Ne.symm hne), Function.update_self]
  · rw [Function.update_self, Function.update_of_ne hne]

/-- C61 (shadow).  A shadow is cast on a segment whose illuminated surfaces lie apart.  If no
illuminated surface is covered with a margin of the distance tolerance at both ends, the shaded length
grows and the illuminated length shrinks by the length of the illuminated parts that the shadow covers,
up to twice the tolerance for every illuminated surface; other collections keep their surfaces. -/
theorem C61_shadow (he : e.x ^ 2 + e.y ^ 2 = 1) (near : Line → Line → Prop) (inter : Intersect)
    (m : Colls) (s : SegObj) (hne : s.illum ≠ s.shaded) (surfs : List (ℝ × ℝ)) {c d a b : ℝ}
    (hm : m s.illum = surfs.map fun i => lineSeg o e i.1 i.2) (hdir : ∀ i ∈ surfs, i.1 < i.2)
    (hap : surfs.Pairwise fun i j => i.2 ≤ j.1 ∨ j.2 ≤ i.1)
    (hinter : inter (m s.illum) (lineSeg o e c d) = [lineSeg o e a b])
    (hmeet : MeetsIn surfs c d a b)
    (hnear : ∀ i ∈ surfs, 0 < overlapLen i.1 i.2 a b → near (lineSeg o e i.1 i.2) (lineSeg o e a b))
    (hcov : ∀ i ∈ surfs, ¬ (min c d ≤ i.1 - TOL ∧ i.2 + TOL ≤ max c d)) :
    ∃ m', s.castShadow near inter m (lineSeg o e c d) = some m' ∧
      (∀ k, k ≠ s.illum → k ≠ s.shaded → m' k = m k) ∧
      |totalLength (m' s.shaded) - (totalLength (m s.shaded)
        + (surfs.map fun i => overlapLen i.1 i.2 c d).sum)| ≤ 2 * TOL * surfs.length ∧
      |totalLength (m' s.illum) - (totalLength (m s.illum)
        - (surfs.map fun i => overlapLen i.1 i.2 c d).sum)| ≤ 2 * TOL * surfs.length := by
  obtain ⟨m', h1, h2, h3, h4⟩ := cast_one (near := near) hne hinter
  refine ⟨m', h1, h2, ?_, ?_⟩
  · obtain ⟨k1, k2⟩ := meets_length hmeet hdir hap
    have : totalLength [lineSeg o e a b] = |b - a| := by
      unfold totalLength; simp [lineSeg_length he]
    rw [h3, totalLength_append, this, abs_le]
    constructor <;> linarith
  · have hcov' : ∀ i ∈ surfs, ¬ (min a b ≤ i.1 - TOL ∧ i.2 + TOL ≤ max a b) := by
      rintro i hi ⟨q1, q2⟩
      refine hcov i hi ⟨le_trans ?_ q1, le_trans q2 ?_⟩
      · exact ((hmeet (min a b)).1 ⟨le_refl _, min_le_max⟩).1.1
      · exact ((hmeet (max a b)).1 ⟨min_le_max, le_refl _⟩).1.2
    have h5 := C41_remove_length (o := o) he near surfs hdir hnear hcov'
    rw [h4, hm]
    have e1 : (surfs.map fun i => (lineSeg o e i.1 i.2).length - overlapLen i.1 i.2 a b).sum
        = totalLength (surfs.map fun i => lineSeg o e i.1 i.2)
          - (surfs.map fun i => overlapLen i.1 i.2 c d).sum := by
      unfold totalLength
      rw [List.map_map]
      clear h1 h2 h3 h4 h5 hcov hcov' hnear hinter hap hm
      have : ∀ l : List (ℝ × ℝ), (∀ i ∈ l, i ∈ surfs) →
          (l.map fun i => (lineSeg o e i.1 i.2).length - overlapLen i.1 i.2 a b).sum
          = (l.map (Line.length ∘ fun i => lineSeg o e i.1 i.2)).sum
            - (l.map fun i => overlapLen i.1 i.2 c d).sum := by
        intro l hl
        induction l with
        | nil => simp
        | cons i l ih =>
          have hi := hl i List.mem_cons_self
          rcases overlap_meets hmeet hi with q | q
          · simp only [List.map_cons, List.sum_cons, ih fun j hj => hl j (List.mem_cons_of_mem _ hj), q,
              Function.comp]
            ring
          · exact absurd (hdir i hi) (not_lt.2 q)
      exact this surfs fun _ h => h
    rw [e1] at h5
    exact h5

/-- C61 (finding).  An illuminated surface that the shadow covers completely, with a margin of the
distance tolerance at both ends, stays illuminated; the shadow is added to the shaded surfaces
nevertheless. -/
theorem C61_covered (he : e.x ^ 2 + e.y ^ 2 = 1) (near : Line → Line → Prop) (inter : Intersect)
    (m : Colls) (s : SegObj) (hne : s.illum ≠ s.shaded) (surfs : List (ℝ × ℝ)) {c d a b : ℝ}
    (hm : m s.illum = surfs.map fun i => lineSeg o e i.1 i.2) (hdir : ∀ i ∈ surfs, i.1 < i.2)
    (hinter : inter (m s.illum) (lineSeg o e c d) = [lineSeg o e a b])
    (hmeet : MeetsIn surfs c d a b) :
    ∃ m', s.castShadow near inter m (lineSeg o e c d) = some m' ∧
      m' s.shaded = m s.shaded ++ [lineSeg o e a b] ∧
      ∀ i ∈ surfs, min c d ≤ i.1 - TOL → i.2 + TOL ≤ max c d →
        lineSeg o e i.1 i.2 ∈ m' s.illum ∧ i.2 - i.1 + 2 * TOL ≤ (lineSeg o e a b).length := by
  have hT := TOL_pos'
  obtain ⟨m', h1, -, h3, h4⟩ := cast_one (near := near) hne hinter
  refine ⟨m', h1, h3, fun i hi q1 q2 => ?_⟩
  have hi' := hdir i hi
  have k1 := (hmeet (i.1 - TOL)).2 ⟨⟨q1, by linarith⟩, i, hi, le_refl _, by linarith⟩
  have k2 := (hmeet (i.2 + TOL)).2 ⟨⟨by linarith, q2⟩, i, hi, by linarith, le_refl _⟩
  constructor
  · rw [h4, hm]
    unfold removeLinestring
    rw [List.flatMap_map, List.mem_flatMap]
    refine ⟨i, hi, ?_⟩
    split_ifs
    · rw [C41_difference_covered he hi' ⟨k1.1, k2.2⟩]
      exact List.mem_singleton.2 rfl
    · exact List.mem_singleton.2 rfl
  · rw [lineSeg_length he, abs_sub_comm, ← max_sub_min_eq_abs']
    linarith [k1.1, k2.2]

/-- C61 (finding).  If a shadow reaches two illuminated surfaces with a gap of more than twice the
tolerance between them, there is no single part to be found by shapely: the coordinates that the code
asks for do not exist. -/
theorem C61_two_parts {surfs : List (ℝ × ℝ)} {c d s x t : ℝ} (hsx : s < x) (hxt : x < t)
    (hs : Within c d s ∧ ∃ i ∈ surfs, i.1 - TOL ≤ s ∧ s ≤ i.2 + TOL)
    (ht : Within c d t ∧ ∃ i ∈ surfs, i.1 - TOL ≤ t ∧ t ≤ i.2 + TOL)
    (hx : ∀ i ∈ surfs, x < i.1 - TOL ∨ i.2 + TOL < x) : ¬ ∃ a b, MeetsIn surfs c d a b := by
  rintro ⟨a, b, h⟩
  have k1 := (h s).2 hs
  have k2 := (h t).2 ht
  obtain ⟨-, i, hi, q1, q2⟩ := (h x).1 ⟨by linarith [k1.1], by linarith [k2.2]⟩
  rcases hx i hi with q | q <;> linarith

/-- C61 (no shadow, several parts).  Without a common part nothing changes; several parts raise an
error. -/
theorem C61_cases (near : Line → Line → Prop) (inter : Intersect) (m : Colls) (s : SegObj) (v : Line) :
    (inter (m s.illum) v = [] → s.castShadow near inter m v = some m) ∧
    (s.castShadow near inter m v = none ↔ 2 ≤ (inter (m s.illum) v).length) := by
  unfold SegObj.castShadow
  constructor
  · intro h; rw [h]
  · rcases inter (m s.illum) v with _ | ⟨w, _ | ⟨w', l⟩⟩ <;> simp

/-! ## A concrete case: a shadow over the lower part of a segment -/

/-- Half of a segment of length 2 is shaded, from 1 below its lower end to its middle. -/
theorem C61_demo : ∃ m', (⟨0, 1, none⟩ : SegObj).castShadow (fun _ _ => True)
      (fun _ _ => [lineSeg ⟨1, 1⟩ ⟨3 / 5, 4 / 5⟩ (-TOL) 1])
      (fun k => if k = 0 then [lineSeg ⟨1, 1⟩ ⟨3 / 5, 4 / 5⟩ 0 2] else [])
      (lineSeg ⟨1, 1⟩ ⟨3 / 5, 4 / 5⟩ (-1) 1) = some m' ∧
    |totalLength (m' 1) - 1| ≤ 2 * TOL ∧ |totalLength (m' 0) - 1| ≤ 2 * TOL := by
  have hT := TOL_pos'
  have hT1 : TOL < 1 := by unfold TOL; norm_num
  obtain ⟨m', h1, -, h2, h3⟩ := C61_shadow (o := ⟨1, 1⟩) demo_dir (fun _ _ => True)
    (fun _ _ => [lineSeg ⟨1, 1⟩ ⟨3 / 5, 4 / 5⟩ (-TOL) 1])
    (fun k => if k = 0 then [lineSeg ⟨1, 1⟩ ⟨3 / 5, 4 / 5⟩ 0 2] else []) ⟨0, 1, none⟩ (by simp)
    [((0 : ℝ), 2)] (c := -1) (d := 1) (a := -TOL) (b := 1) (by simp) (by simp) (by simp) rfl
    (by
      intro s
      unfold Within
      rw [min_eq_left (by linarith), max_eq_right (by linarith), min_eq_left (by norm_num),
        max_eq_right (by norm_num)]
      simp only [List.mem_singleton, exists_eq_left]
      constructor
      · rintro ⟨q1, q2⟩; exact ⟨⟨by linarith, q2⟩, by linarith, by linarith⟩
      · rintro ⟨⟨q1, q2⟩, q3, q4⟩; exact ⟨by linarith, q2⟩)
    (by simp) (by
      simp only [List.mem_singleton, forall_eq]
      rintro ⟨-, q⟩
      norm_num at q
      linarith)
  have ho : overlapLen 0 2 (-1) 1 = 1 := by unfold overlapLen; norm_num
  have hl : totalLength [lineSeg ⟨1, 1⟩ ⟨3 / 5, 4 / 5⟩ 0 2] = 2 := by
    unfold totalLength; simp [lineSeg_length demo_dir]
  refine ⟨m', h1, ?_, ?_⟩
  · simpa [totalLength, ho] using h2
  · have := h3
    simp only [List.map_cons, List.map_nil, List.sum_cons, List.sum_nil, ho, if_true, hl,
      List.length_cons, List.length_nil] at this
    norm_num at this
    exact this

end
end PVF

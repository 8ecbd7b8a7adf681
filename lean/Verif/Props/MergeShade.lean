import Verif.Props.CastShadow

/-!
# C62: merging the surfaces of a collection
-/

namespace PVF
noncomputable section

variable {o e : Pt}

theorem foldl_min_mono {f : ℝ → ℝ} (hf : Monotone f) (a : ℝ) (l : List ℝ) :
    (l.map f).foldl min (f a) = f (l.foldl min a) := by
  induction l generalizing a with
  | nil => rfl
  | cons x l ih => rw [List.map_cons, List.foldl_cons, List.foldl_cons, ← hf.map_min, ih]

theorem foldl_max_mono {f : ℝ → ℝ} (hf : Monotone f) (a : ℝ) (l : List ℝ) :
    (l.map f).foldl max (f a) = f (l.foldl max a) := by
  induction l generalizing a with
  | nil => rfl
  | cons x l ih => rw [List.map_cons, List.foldl_cons, List.foldl_cons, ← hf.map_max, ih]

theorem foldl_min_anti {f : ℝ → ℝ} (hf : Antitone f) (a : ℝ) (l : List ℝ) :
    (l.map f).foldl min (f a) = f (l.foldl max a) := by
  induction l generalizing a with
  | nil => rfl
  | cons x l ih => rw [List.map_cons, List.foldl_cons, List.foldl_cons, ← hf.map_max, ih]

theorem foldl_max_anti {f : ℝ → ℝ} (hf : Antitone f) (a : ℝ) (l : List ℝ) :
    (l.map f).foldl max (f a) = f (l.foldl min a) := by
  induction l generalizing a with
  | nil => rfl
  | cons x l ih => rw [List.map_cons, List.foldl_cons, List.foldl_cons, ← hf.map_min, ih]

theorem foldl_min_spec (a : ℝ) (l : List ℝ) :
    (∀ x ∈ a :: l, l.foldl min a ≤ x) ∧ l.foldl min a ∈ a :: l := by
  induction l generalizing a with
  | nil => simp
  | cons y l ih =>
    obtain ⟨h1, h2⟩ := ih (min a y)
    rw [List.foldl_cons]
    have h0 := h1 _ List.mem_cons_self
    refine ⟨?_, ?_⟩
    · intro x hx
      rcases List.mem_cons.1 hx with rfl | hx
      · exact le_trans h0 (min_le_left _ _)
      · rcases List.mem_cons.1 hx with rfl | hx
        · exact le_trans h0 (min_le_right _ _)
        · exact h1 x (List.mem_cons_of_mem _ hx)
    · rcases List.mem_cons.1 h2 with h2 | h2
      · rw [h2]
        rcases min_choice a y with q | q <;> rw [q] <;> simp
      · exact List.mem_cons_of_mem _ (List.mem_cons_of_mem _ h2)

theorem foldl_max_spec (a : ℝ) (l : List ℝ) :
    (∀ x ∈ a :: l, x ≤ l.foldl max a) ∧ l.foldl max a ∈ a :: l := by
  induction l generalizing a with
  | nil => simp
  | cons y l ih =>
    obtain ⟨h1, h2⟩ := ih (max a y)
    rw [List.foldl_cons]
    have h0 := h1 _ List.mem_cons_self
    refine ⟨?_, ?_⟩
    · intro x hx
      rcases List.mem_cons.1 hx with rfl | hx
      · exact le_trans (le_max_left _ _) h0
      · rcases List.mem_cons.1 hx with rfl | hx
        · exact le_trans (le_max_right _ _) h0
        · exact h1 x (List.mem_cons_of_mem _ hx)
    · rcases List.mem_cons.1 h2 with h2 | h2
      · rw [h2]
        rcases max_choice a y with q | q <;> rw [q] <;> simp
      · exact List.mem_cons_of_mem _ (List.mem_cons_of_mem _ h2)

/-- `A` is the first and `B` the last of all end points of the surfaces. -/
def EndsAt (surfs : List (ℝ × ℝ)) (A B : ℝ) : Prop :=
  (∀ i ∈ surfs, A ≤ i.1 ∧ A ≤ i.2 ∧ i.1 ≤ B ∧ i.2 ≤ B) ∧
  (∃ i ∈ surfs, A = i.1 ∨ A = i.2) ∧ ∃ i ∈ surfs, B = i.1 ∨ B = i.2

/-- All end points. -/
def endList (l : List (ℝ × ℝ)) : List ℝ := l.flatMap fun i => [i.1, i.2]

theorem endsAt_fold (i : ℝ × ℝ) (l : List (ℝ × ℝ)) :
    EndsAt (i :: l) ((endList l).foldl min (min i.1 i.2)) ((endList l).foldl max (max i.1 i.2)) := by
  obtain ⟨a1, a2⟩ := foldl_min_spec (min i.1 i.2) (endList l)
  obtain ⟨b1, b2⟩ := foldl_max_spec (max i.1 i.2) (endList l)
  have hmem : ∀ j ∈ l, j.1 ∈ endList l ∧ j.2 ∈ endList l := by
    intro j hj
    constructor <;> exact List.mem_flatMap.2 ⟨j, hj, by simp⟩
  have hend : ∀ x ∈ endList l, ∃ j ∈ i :: l, x = j.1 ∨ x = j.2 := by
    intro x hx
    obtain ⟨j, hj, hx⟩ := List.mem_flatMap.1 hx
    exact ⟨j, List.mem_cons_of_mem _ hj, by simpa using hx⟩
  refine ⟨?_, ?_, ?_⟩
  · intro j hj
    rcases List.mem_cons.1 hj with rfl | hj
    · have q1 := a1 _ List.mem_cons_self
      have q2 := b1 _ List.mem_cons_self
      exact ⟨le_trans q1 (min_le_left _ _), le_trans q1 (min_le_right _ _),
        le_trans (le_max_left _ _) q2, le_trans (le_max_right _ _) q2⟩
    · obtain ⟨q1, q2⟩ := hmem j hj
      exact ⟨a1 _ (List.mem_cons_of_mem _ q1), a1 _ (List.mem_cons_of_mem _ q2),
        b1 _ (List.mem_cons_of_mem _ q1), b1 _ (List.mem_cons_of_mem _ q2)⟩
  · rcases List.mem_cons.1 a2 with h | h
    · exact ⟨i, List.mem_cons_self, by rw [h]; exact min_choice _ _⟩
    · exact hend _ h
  · rcases List.mem_cons.1 b2 with h | h
    · exact ⟨i, List.mem_cons_self, by rw [h]; exact max_choice _ _⟩
    · exact hend _ h

theorem coords_map (f : Pt → ℝ) (l : List (ℝ × ℝ)) :
    (l.map fun i => lineSeg o e i.1 i.2).flatMap (fun s => [f s.b1, f s.b2])
      = (endList l).map fun s => f (linePt o e s) := by
  unfold endList
  induction l with
  | nil => rfl
  | cons i l ih => simp only [List.map_cons, List.flatMap_cons, List.map_append, ih]; rfl

theorem mono_coord {u v : ℝ} (h : 0 ≤ v) : Monotone fun s : ℝ => u + s * v := by
  intro a b hab
  have := mul_le_mul_of_nonneg_right hab h
  simpa using this

theorem anti_coord {u v : ℝ} (h : v ≤ 0) : Antitone fun s : ℝ => u + s * v := by
  intro a b hab
  have := mul_le_mul_of_nonpos_right hab h
  simpa using this

/-- C62 (rising lines).  Merging two or more surfaces on a line that does not descend (from left to
right) gives one surface from the first to the last of all end points. -/
theorem C62_rising (hx : 0 ≤ e.x) (hy : 0 ≤ e.y) (surfs : List (ℝ × ℝ)) (h2 : 2 ≤ surfs.length) :
    ∃ A B, EndsAt surfs A B ∧
      mergeSurfaces (surfs.map fun i => lineSeg o e i.1 i.2) = [lineSeg o e A B] := by
  obtain ⟨i, j, l, rfl⟩ : ∃ i j l, surfs = i :: j :: l := by
    match surfs, h2 with
    | i :: j :: l, _ => exact ⟨i, j, l, rfl⟩
  refine ⟨_, _, endsAt_fold i (j :: l), ?_⟩
  simp only [List.map_cons, mergeSurfaces]
  rw [← List.map_cons (f := fun i : ℝ × ℝ => lineSeg o e i.1 i.2), coords_map (fun p => p.x),
    coords_map (fun p => p.y)]
  have mx : Monotone fun s => (linePt o e s).x := mono_coord hx
  have my : Monotone fun s => (linePt o e s).y := mono_coord hy
  have e1 : (lineSeg o e i.1 i.2).b1 = linePt o e i.1 := rfl
  have e2 : (lineSeg o e i.1 i.2).b2 = linePt o e i.2 := rfl
  rw [e1, e2]
  have q1 := foldl_min_mono mx (min i.1 i.2) (endList (j :: l))
  have q2 := foldl_min_mono my (min i.1 i.2) (endList (j :: l))
  have q3 := foldl_max_mono mx (max i.1 i.2) (endList (j :: l))
  have q4 := foldl_max_mono my (max i.1 i.2) (endList (j :: l))
  rw [mx.map_min] at q1
  rw [my.map_min] at q2
  rw [mx.map_max] at q3
  rw [my.map_max] at q4
  rw [q1, q2, q3, q4]
  rfl

/-- C62 (finding: falling lines).  On a line that falls (from left to right), such as a row with a
negative rotation angle, the merged surface is the mirror image of the right one: it goes from the
left end at the height of the right end to the right end at the height of the left end. -/
theorem C62_falling (hx : 0 < e.x) (hy : e.y < 0) (surfs : List (ℝ × ℝ)) (h2 : 2 ≤ surfs.length) :
    ∃ A B, EndsAt surfs A B ∧
      mergeSurfaces (surfs.map fun i => lineSeg o e i.1 i.2)
        = [⟨⟨(linePt o e A).x, (linePt o e B).y⟩, ⟨(linePt o e B).x, (linePt o e A).y⟩⟩] ∧
      (A < B → ∀ s, linePt o e s ≠ ⟨(linePt o e A).x, (linePt o e B).y⟩ ∧
        linePt o e s ≠ ⟨(linePt o e B).x, (linePt o e A).y⟩) := by
  obtain ⟨i, j, l, rfl⟩ : ∃ i j l, surfs = i :: j :: l := by
    match surfs, h2 with
    | i :: j :: l, _ => exact ⟨i, j, l, rfl⟩
  refine ⟨_, _, endsAt_fold i (j :: l), ?_, ?_⟩
  · simp only [List.map_cons, mergeSurfaces]
    rw [← List.map_cons (f := fun i : ℝ × ℝ => lineSeg o e i.1 i.2), coords_map (fun p => p.x),
      coords_map (fun p => p.y)]
    have mx : Monotone fun s => (linePt o e s).x := mono_coord hx.le
    have my : Antitone fun s => (linePt o e s).y := anti_coord hy.le
    have e1 : (lineSeg o e i.1 i.2).b1 = linePt o e i.1 := rfl
    have e2 : (lineSeg o e i.1 i.2).b2 = linePt o e i.2 := rfl
    rw [e1, e2]
    have q1 := foldl_min_mono mx (min i.1 i.2) (endList (j :: l))
    have q2 := foldl_min_anti my (max i.1 i.2) (endList (j :: l))
    have q3 := foldl_max_mono mx (max i.1 i.2) (endList (j :: l))
    have q4 := foldl_max_anti my (min i.1 i.2) (endList (j :: l))
    rw [mx.map_min] at q1
    rw [my.map_max] at q2
    rw [mx.map_max] at q3
    rw [my.map_min] at q4
    rw [q1, q2, q3, q4]
  · intro hAB s
    generalize (endList (j :: l)).foldl min (min i.1 i.2) = A at *
    generalize (endList (j :: l)).foldl max (max i.1 i.2) = B at *
    unfold linePt
    dsimp only
    constructor
    all_goals
      intro h
      simp only [Pt.mk.injEq, add_right_inj] at h
      have k1 := mul_right_cancel₀ hx.ne' h.1
      have k2 := mul_right_cancel₀ hy.ne h.2
      linarith

/-- C62 (length).  The merged surface has the distance between the first and the last end point as its
length, on rising and on falling lines.  That is at least the total length of surfaces that lie apart,
and equal to it if there are no gaps. -/
theorem C62_length (he : e.x ^ 2 + e.y ^ 2 = 1) (hx : 0 ≤ e.x) (surfs : List (ℝ × ℝ))
    (h2 : 2 ≤ surfs.length) (hdir : ∀ i ∈ surfs, i.1 < i.2)
    (hap : surfs.Pairwise fun i j => i.2 ≤ j.1 ∨ j.2 ≤ i.1) :
    ∃ A B, EndsAt surfs A B ∧
      totalLength (mergeSurfaces (surfs.map fun i => lineSeg o e i.1 i.2)) = B - A ∧
      totalLength (surfs.map fun i => lineSeg o e i.1 i.2)
        ≤ totalLength (mergeSurfaces (surfs.map fun i => lineSeg o e i.1 i.2)) ∧
      ((∀ s, A ≤ s → s ≤ B → ∃ i ∈ surfs, i.1 ≤ s ∧ s ≤ i.2) →
        totalLength (mergeSurfaces (surfs.map fun i => lineSeg o e i.1 i.2))
          = totalLength (surfs.map fun i => lineSeg o e i.1 i.2)) := by
  have key : ∃ A B, EndsAt surfs A B ∧
      totalLength (mergeSurfaces (surfs.map fun i => lineSeg o e i.1 i.2)) = B - A := by
    have hle : ∀ {A B}, EndsAt surfs A B → A ≤ B := by
      rintro A B ⟨h, ⟨i, hi, -⟩, -⟩
      have := h i hi
      linarith [this.1, this.2.2.1]
    rcases le_or_gt 0 e.y with hy | hy
    · obtain ⟨A, B, h, q⟩ := C62_rising (o := o) hx hy surfs h2
      refine ⟨A, B, h, ?_⟩
      rw [q]
      unfold totalLength
      simp only [List.map_cons, List.map_nil, List.sum_cons, List.sum_nil, lineSeg_length he, add_zero]
      exact abs_of_nonneg (by linarith [hle h])
    · rcases eq_or_lt_of_le hx with h0 | hx
      · have hy1 : e.y = -1 := by
          rw [← h0] at he
          nlinarith
        obtain ⟨i, j, l, rfl⟩ : ∃ i j l, surfs = i :: j :: l := by
          match surfs, h2 with
          | i :: j :: l, _ => exact ⟨i, j, l, rfl⟩
        have hf := endsAt_fold i (j :: l)
        refine ⟨_, _, hf, ?_⟩
        have hl := hle hf
        simp only [List.map_cons, mergeSurfaces]
        rw [← List.map_cons (f := fun i : ℝ × ℝ => lineSeg o e i.1 i.2), coords_map (fun p => p.x),
          coords_map (fun p => p.y)]
        have mx : Monotone fun s => (linePt o e s).x := mono_coord hx
        have my : Antitone fun s => (linePt o e s).y := anti_coord hy.le
        have e1 : (lineSeg o e i.1 i.2).b1 = linePt o e i.1 := rfl
        have e2 : (lineSeg o e i.1 i.2).b2 = linePt o e i.2 := rfl
        rw [e1, e2]
        have q1 := foldl_min_mono mx (min i.1 i.2) (endList (j :: l))
        have q2 := foldl_min_anti my (max i.1 i.2) (endList (j :: l))
        have q3 := foldl_max_mono mx (max i.1 i.2) (endList (j :: l))
        have q4 := foldl_max_anti my (min i.1 i.2) (endList (j :: l))
        rw [mx.map_min] at q1
        rw [my.map_max] at q2
        rw [mx.map_max] at q3
        rw [my.map_min] at q4
        rw [q1, q2, q3, q4]
        generalize (endList (j :: l)).foldl min (min i.1 i.2) = A at *
        generalize (endList (j :: l)).foldl max (max i.1 i.2) = B at *
        unfold totalLength Line.length linePt
        simp only [List.map_cons, List.map_nil, List.sum_cons, List.sum_nil, add_zero, ← h0, hy1]
        rw [show (o.y + A * -1 - (o.y + B * -1)) ^ 2 + (o.x + B * 0 - (o.x + A * 0)) ^ 2 = (B - A) ^ 2 by ring,
          Real.sqrt_sq (by linarith)]
      · obtain ⟨A, B, h, q, -⟩ := C62_falling (o := o) hx hy surfs h2
        refine ⟨A, B, h, ?_⟩
        have hl := hle h
        rw [q]
        unfold totalLength Line.length linePt
        simp only [List.map_cons, List.map_nil, List.sum_cons, List.sum_nil, add_zero]
        rw [show (o.y + A * e.y - (o.y + B * e.y)) ^ 2 + (o.x + B * e.x - (o.x + A * e.x)) ^ 2
          = (B - A) ^ 2 by linear_combination (B - A) ^ 2 * he, Real.sqrt_sq (by linarith)]
  obtain ⟨A, B, h, q⟩ := key
  have hsum : totalLength (surfs.map fun i => lineSeg o e i.1 i.2)
      = (surfs.map fun i => max 0 (min B i.2 - max A i.1)).sum := by
    unfold totalLength
    rw [List.map_map]
    congr 1
    apply List.map_congr_left
    intro i hi
    obtain ⟨k1, k2, k3, k4⟩ := h.1 i hi
    have := hdir i hi
    simp only [Function.comp, lineSeg_length he]
    rw [min_eq_right k4, max_eq_right k1, max_eq_right (by linarith), abs_of_pos (by linarith)]
  have hAB : A ≤ B := by
    obtain ⟨i, hi, -⟩ := h.2.1
    have := h.1 i hi
    linarith [this.1, this.2.2.1]
  have hle : totalLength (surfs.map fun i => lineSeg o e i.1 i.2) ≤ B - A := by
    rw [hsum]; exact sum_le_of_apart hAB surfs hap
  refine ⟨A, B, h, q, by rw [q]; exact hle, fun hc => ?_⟩
  rw [q]
  refine le_antisymm ?_ hle
  rw [hsum]
  exact length_le_of_cover surfs hc

/-! ## Concrete cases: the same surfaces on a rising and on a falling line -/

/-- On a rising line: from (1, 1) to (4, 5). -/
theorem C62_demo_rising : mergeSurfaces ([((0 : ℝ), 2), (2, 5)].map fun i => lineSeg ⟨1, 1⟩ ⟨3 / 5, 4 / 5⟩ i.1 i.2)
    = [⟨⟨1, 1⟩, ⟨4, 5⟩⟩] := by
  simp [mergeSurfaces, lineSeg, linePt]
  norm_num

/-- On a falling line: the surfaces go from (1, 1) to (4, −3), the merged surface goes from (1, −3) to
(4, 1). -/
theorem C62_demo_falling : mergeSurfaces ([((0 : ℝ), 2), (2, 5)].map fun i => lineSeg ⟨1, 1⟩ ⟨3 / 5, -(4 / 5)⟩ i.1 i.2)
    = [⟨⟨1, -3⟩, ⟨4, 1⟩⟩] := by
  simp [mergeSurfaces, lineSeg, linePt]
  norm_num

end
end PVF

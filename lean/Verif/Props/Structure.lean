import Verif.Lemmas.Entries
import Verif.Lemmas.ArrayGeom
import Verif.Spec.Facing
import Verif.Props.Demo

/-!
# Structure of the view factor matrix: C01, C03, C04, C16

`tsVfMatrix p u t i j` is the entry `[i, j, t]` of the matrix built for array `p` fitted to the
time series `u`; index `nTsSurfaces p` is the sky.
-/

namespace PVF
open Classical

variable {ι : Type*} [Fintype ι]

/-! ## C16 -/

/-- C16: the list of surfaces of the array carries the indices `0, 1, ..., n - 1` in order. -/
theorem C16_surface_indices (p : ArrayParams) :
    (allRefs p).map (surfIndex p) = List.range (nTsSurfaces p) := by
  rw [← length_allRefs]
  apply List.ext_getElem
  · simp
  · intro i h1 h2
    simp only [List.getElem_map, List.getElem_range]
    rw [surfIndex_eq_idxOf (List.getElem_mem _)]
    exact (nodup_allRefs p).idxOf_getElem i _

/-- C16: no surface object occurs twice in the list and different surfaces have different
indices. -/
theorem C16_surface_indices_injective (p : ArrayParams) :
    (allRefs p).Nodup ∧
    ∀ a ∈ allRefs p, ∀ b ∈ allRefs p, surfIndex p a = surfIndex p b → a = b :=
  ⟨nodup_allRefs p, fun _ ha _ hb h => surfIndex_inj ha hb h⟩

/-- C16: number of surfaces for `r` rows. -/
theorem C16_surface_count (p : ArrayParams) :
    nTsSurfaces p = (2 * p.nRows + 1) * (p.nRows + 1)
      + 2 * ∑ i ∈ Finset.range p.nRows, (p.nFront i + p.nBack i) := by
  have h : ∀ m : ℕ, ((List.range m).map fun _ => 1 + 1).sum = 2 * m := by
    intro m; simp; ring
  have h2 : ∀ m : ℕ, ((List.range m).map fun _ => p.nRows + 1).sum = m * (p.nRows + 1) := by
    intro m; simp
  simp only [nTsSurfaces, h, h2]
  rw [show (List.map (fun i => 2 * p.nFront i + 2 * p.nBack i) (List.range p.nRows)).sum
      = ∑ i ∈ Finset.range p.nRows, (2 * p.nFront i + 2 * p.nBack i) from rfl]
  rw [Finset.mul_sum]
  congr 1
  · ring
  · exact Finset.sum_congr rfl fun i _ => by ring

/-- C16: ground surfaces come before PV row surfaces, and rows come from left to right. -/
theorem C16_surface_order (p : ArrayParams) :
    (∀ sh e z r s k sh', SurfRef.gnd sh e z ∈ allRefs p → SurfRef.pv r s k sh' ∈ allRefs p →
      surfIndex p (.gnd sh e z) < surfIndex p (.pv r s k sh')) ∧
    (∀ r s k sh r' s' k' sh', SurfRef.pv r s k sh ∈ allRefs p → SurfRef.pv r' s' k' sh' ∈ allRefs p →
      r < r' → surfIndex p (.pv r s k sh) < surfIndex p (.pv r' s' k' sh')) := by
  have idx_append : ∀ (l₁ l₂ : List SurfRef) (a b : SurfRef), a ∈ l₁ → b ∉ l₁ →
      (l₁ ++ l₂).idxOf a < (l₁ ++ l₂).idxOf b := by
    intro l₁ l₂ a b ha hb
    rw [List.idxOf_append_of_mem ha, List.idxOf_append_of_notMem hb]
    have := List.idxOf_lt_length_of_mem ha
    omega
  constructor
  · intro sh e z r s k sh' ha hb
    rw [surfIndex_eq_idxOf ha, surfIndex_eq_idxOf hb]
    refine idx_append _ _ _ _ ?_ ?_
    · rw [mem_groundRefs]
      have := mem_allRefs_gnd.1 ha
      exact ⟨sh, e, z, rfl, this⟩
    · rw [mem_groundRefs]; rintro ⟨_, _, _, h, _⟩; cases h
  · intro r s k sh r' s' k' sh' ha hb hr
    rw [surfIndex_eq_idxOf ha, surfIndex_eq_idxOf hb]
    obtain ⟨hr1, hk⟩ := mem_allRefs_pv.1 ha
    obtain ⟨hr2, hk'⟩ := mem_allRefs_pv.1 hb
    have hsplit : List.range p.nRows
        = List.range (r + 1) ++ (List.range (p.nRows - (r + 1))).map (r + 1 + ·) := by
      rw [← List.range_add]; congr 1; omega
    have : allRefs p = (groundRefs p ++ (List.range (r + 1)).flatMap (rowRefs p))
        ++ ((List.range (p.nRows - (r + 1))).map (r + 1 + ·)).flatMap (rowRefs p) := by
      rw [allRefs, hsplit, List.flatMap_append, List.append_assoc]
    rw [this]
    refine idx_append _ _ _ _ ?_ ?_
    · rw [List.mem_append]; right
      rw [List.mem_flatMap]
      exact ⟨r, by simp, mem_rowRefs.2 ⟨s, k, sh, rfl, hk⟩⟩
    · rw [List.mem_append]; rintro (h | h)
      · rw [mem_groundRefs] at h; obtain ⟨_, _, _, h, _⟩ := h; cases h
      · rw [List.mem_flatMap] at h
        obtain ⟨q, hq, h⟩ := h
        rw [mem_rowRefs] at h
        obtain ⟨_, _, _, h, _⟩ := h
        cases h
        rw [List.mem_range] at hq
        omega

/-- C16 is not vacuous: the demo array has 46 surfaces. -/
theorem C16_demo : nTsSurfaces demoArray = 46 := by
  rw [C16_surface_count]
  simp [demoArray, ArrayParams.nFront, ArrayParams.nBack, Finset.sum_range_succ]

/-! ## C01 -/

/-- C01: the view factors from a surface longer than the tolerance add up to one. -/
theorem C01_row_sum (p : ArrayParams) (u : ι → StepIn) (t : ι) (i : ℕ) (hi : i < nTsSurfaces p)
    (hlen : surfLen p (fitStep p (u t)) i > TOL) :
    ∑ j ∈ Finset.range (nTsSurfaces p + 1), tsVfMatrix p u t i j = 1 := by
  rw [Finset.sum_range_succ]
  have h1 : ∑ j ∈ Finset.range (nTsSurfaces p), tsVfMatrix p u t i j
      = ∑ j ∈ Finset.range (nTsSurfaces p),
        vfNoSky p (fitStep p (u t)) (isEmptyTs fun t => fitStep p (u t)) i j := by
    refine Finset.sum_congr rfl fun j hj => ?_
    have : ¬ j = nTsSurfaces p := (Finset.mem_range.1 hj).ne
    simp [tsVfMatrix, vfMatrix, this]
  rw [h1]
  simp [tsVfMatrix, vfMatrix, hi, hlen]

/-- C01: a surface not longer than the tolerance has sky view factor 0. -/
theorem C01_sky_of_short (p : ArrayParams) (u : ι → StepIn) (t : ι) (i : ℕ)
    (hi : i < nTsSurfaces p) (hlen : ¬ surfLen p (fitStep p (u t)) i > TOL) :
    tsVfMatrix p u t i (nTsSurfaces p) = 0 := by
  simp [tsVfMatrix, vfMatrix, hi, hlen]

/-- C01: the row of the sky is zero. -/
theorem C01_sky_row (p : ArrayParams) (u : ι → StepIn) (t : ι) (j : ℕ) :
    tsVfMatrix p u t (nTsSurfaces p) j = 0 := by
  simp only [tsVfMatrix, vfMatrix, lt_irrefl, and_false, if_false]
  unfold vfNoSky
  have P : ∀ x ∈ asgPvPv p (fitStep p (u t)) (isEmptyTs fun t => fitStep p (u t)),
      x.i ≠ nTsSurfaces p := by
    intro x hx h
    obtain ⟨r, s, s', k, k', sh, sh', h0, h1, h2, h3, h4, rfl | rfl⟩ := mem_asgPvPv.1 hx
    · exact (surfIndex_lt h1).ne h
    · exact (surfIndex_lt h2).ne h
  have G : ∀ x ∈ asgPvGnd p (fitStep p (u t)) (isEmptyTs fun t => fitStep p (u t)),
      x.i ≠ nTsSurfaces p := by
    intro x hx h
    obtain ⟨r, s, k, sh, sh', e, z, h1, h2, h3, h4, rfl | rfl⟩ := mem_asgPvGnd.1 hx
    · exact (surfIndex_lt h1).ne h
    · exact (surfIndex_lt h2).ne h
  refine applyAsg_eq _ _ _ _ _ (fun x hx h _ => absurd h (P x hx)) (Or.inl ?_)
  exact applyAsg_eq _ _ _ _ _ (fun x hx h _ => absurd h (G x hx)) (Or.inl rfl)

/-- Hypotheses of C01 are met: flat demo array, third back segment of the middle row. -/
theorem C01_demo :
    let a := SurfRef.pv 1 .back 2 false
    surfIndex demoArray a < nTsSurfaces demoArray ∧
    surfLen demoArray (fitStep demoArray demoStepFlat) (surfIndex demoArray a) > TOL := by
  intro a
  have ha : a ∈ allRefs demoArray := mem_allRefs_pv.2 (by
    simp [demoArray, ArrayParams.nSeg, ArrayParams.nBack])
  refine ⟨surfIndex_lt ha, ?_⟩
  rw [surfLen_eq ha]
  have hr : rotationFromTiltAzimuth demoStepFlat.surfaceAzimuth demoArray.axisAzimuth
      demoStepFlat.surfaceTilt = ⟨0, true⟩ := by
    simp [rotationFromTiltAzimuth, demoStepFlat]
  have hk : 2 < demoArray.nSeg 1 .back := by simp [demoArray, ArrayParams.nSeg, ArrayParams.nBack]
  unfold fitStep
  rw [hr, length_pv hk false (by norm_num [demoArray]) (by norm_num) (by norm_num)]
  simp [pvIv, tIv, tSeg, TOL, demoArray, ArrayParams.nSeg, ArrayParams.nBack]
  norm_num

/-! ## C03 -/

/-- Reciprocity of the closed form. -/
theorem entryVF_reciprocity (p : ArrayParams) (g : StepGeom) (emp : SurfRef → Prop)
    (a b : SurfRef) (ha : (g.coords a).length > TOL) (hb : (g.coords b).length > TOL) :
    (g.coords a).length * entryVF p g emp a b = (g.coords b).length * entryVF p g emp b a := by
  have ha' : (g.coords a).length ≠ 0 := (TOL_pos.trans ha).ne'
  have hb' : (g.coords b).length ≠ 0 := (TOL_pos.trans hb).ne'
  match a, b with
  | .gnd _ _ _, .gnd _ _ _ => simp [entryVF]
  | .pv r s k sh, .gnd sh' e z =>
    simp only [entryVF]
    split_ifs with h
    · simp
    · simp only [pvGndVF, vfPvGnd, hb, if_true]
      field_simp
  | .gnd sh' e z, .pv r s k sh =>
    simp only [entryVF]
    split_ifs with h
    · simp
    · simp only [pvGndVF, vfPvGnd, ha, if_true]
      field_simp
  | .pv r s k sh, .pv r' s' k' sh' =>
    simp only [entryVF]
    by_cases h : emp (.pv r s k sh) ∨ emp (.pv r' s' k' sh')
    · rw [if_pos h, if_pos (Or.comm.1 h)]; simp
    · rw [if_neg h, if_neg (fun h' => h (Or.comm.1 h'))]
      by_cases h1 : r' = r + 1 ∧ s ≠ s'
      · have h1' : r' = r + 1 ∧ s' ≠ s := ⟨h1.1, fun e => h1.2 e.symm⟩
        have h2' : ¬ (r = r' + 1 ∧ s' ≠ s) := by omega
        rw [if_pos h1, if_neg h2', if_pos h1']
        simp only [vfPvPv, hb, if_true]
        field_simp
      · have h1' : ¬ (r' = r + 1 ∧ s' ≠ s) := fun e => h1 ⟨e.1, fun e' => e.2 e'.symm⟩
        rw [if_neg h1]
        by_cases h2 : r = r' + 1 ∧ s ≠ s'
        · have h2' : r = r' + 1 ∧ s' ≠ s := ⟨h2.1, fun e => h2.2 e.symm⟩
          rw [if_pos h2, if_pos h2']
          simp only [vfPvPv, ha, if_true]
          field_simp
        · have h2' : ¬ (r = r' + 1 ∧ s' ≠ s) := fun e => h2 ⟨e.1, fun e' => e.2 e'.symm⟩
          rw [if_neg h2, if_neg h2', if_neg h1']
          simp

/-- C03: reciprocity `length_i F_ij = length_j F_ji` for all pairs of surfaces longer than the
tolerance at the time step. -/
theorem C03_reciprocity (p : ArrayParams) (u : ι → StepIn) (t : ι) (i j : ℕ)
    (hi : i < nTsSurfaces p) (hj : j < nTsSurfaces p)
    (hli : surfLen p (fitStep p (u t)) i > TOL) (hlj : surfLen p (fitStep p (u t)) j > TOL) :
    surfLen p (fitStep p (u t)) i * tsVfMatrix p u t i j
      = surfLen p (fitStep p (u t)) j * tsVfMatrix p u t j i := by
  obtain ⟨a, ha, rfl⟩ := exists_surfIndex hi
  obtain ⟨b, hb, rfl⟩ := exists_surfIndex hj
  rw [surfLen_eq ha] at hli ⊢
  rw [surfLen_eq hb] at hlj ⊢
  simp only [tsVfMatrix, vfMatrix_eq ha hb, vfMatrix_eq hb ha]
  exact entryVF_reciprocity p _ _ a b hli hlj

/-! ## C04 -/

theorem entryVF_eq_zero (p : ArrayParams) (g : StepGeom) (emp : SurfRef → Prop) (a b : SurfRef)
    (h : ¬ FaceEachOther (g.rot.deg > 0) a b) : entryVF p g emp a b = 0 := by
  have key : ∀ r s k sh sh' e z, ¬ Faces (g.rot.deg > 0) (.pv r s k sh) (.gnd sh' e z) →
      ∀ (A B : Line), (pvGndVF p g r s A B z).1 = 0 ∧ (pvGndVF p g r s A B z).2 = 0 := by
    intro r s k sh sh' e z hf A B
    have h1 : (pvGndVF p g r s A B z).1 = 0 := by
      simp only [pvGndVF, vfPvGnd]
      by_cases hz : z ≤ r
      · have hll : ¬ leftLooking (g.rot.deg > 0) s := fun hl => hf (.groundLeft hl hz)
        simp only [leftLooking, not_or, not_and, not_not] at hll
        cases s
        · have : ¬ g.rot.deg > 0 := hll.1 rfl
          simp [hz, this]
        · have : g.rot.deg > 0 := hll.2 rfl
          simp [hz, this]
      · have hll : leftLooking (g.rot.deg > 0) s := by
          by_contra hl; exact hf (.groundRight hl (not_le.1 hz))
        simp only [leftLooking] at hll
        cases s
        · have : g.rot.deg > 0 := by simpa using hll
          simp [hz, this]
        · have : ¬ g.rot.deg > 0 := by simpa using hll
          simp [hz, this]
    refine ⟨h1, ?_⟩
    have : (pvGndVF p g r s A B z).2 = if B.length > TOL then
      (pvGndVF p g r s A B z).1 * A.length / B.length else 0 := rfl
    rw [this, h1]
    simp
  have keyPv : ∀ r s s' k k' sh sh', s ≠ s' →
      ¬ Faces (g.rot.deg > 0) (.pv r s k sh) (.pv (r + 1) s' k' sh') →
      ∀ (A B : Line), (vfPvPv A B (g.rot.deg > 0) (decide (s = .front))).1 = 0 ∧
        (vfPvPv A B (g.rot.deg > 0) (decide (s = .front))).2 = 0 := by
    intro r s s' k k' sh sh' hs hf A B
    have h1 : (vfPvPv A B (g.rot.deg > 0) (decide (s = .front))).1 = 0 := by
      simp only [vfPvPv]
      by_cases tl : g.rot.deg > 0
      · cases s
        · simp [tl]
        · exfalso
          cases s'
          · exact hf (.nextRow (by simpa [leftLooking] using tl) (by simpa [leftLooking] using tl))
          · exact hs rfl
      · cases s
        · exfalso
          cases s'
          · exact hs rfl
          · exact hf (.nextRow (by simpa [leftLooking] using tl) (by simpa [leftLooking] using tl))
        · simp [tl]
    refine ⟨h1, ?_⟩
    have : (vfPvPv A B (g.rot.deg > 0) (decide (s = .front))).2 = if B.length > TOL then
      (vfPvPv A B (g.rot.deg > 0) (decide (s = .front))).1 * A.length / B.length else 0 := rfl
    rw [this, h1]
    simp
  match a, b with
  | .gnd _ _ _, .gnd _ _ _ => simp [entryVF]
  | .pv r s k sh, .gnd sh' e z =>
    simp only [entryVF]
    rw [(key r s k sh sh' e z (fun hf => h (Or.inl hf)) _ _).1]
    simp
  | .gnd sh' e z, .pv r s k sh =>
    simp only [entryVF]
    rw [(key r s k sh sh' e z (fun hf => h (Or.inr hf)) _ _).2]
    simp
  | .pv r s k sh, .pv r' s' k' sh' =>
    simp only [entryVF]
    split_ifs with h0 h1 h2
    · rfl
    · obtain ⟨rfl, hs⟩ := h1
      exact (keyPv r s s' k k' sh sh' hs (fun hf => h (Or.inl hf)) _ _).1
    · obtain ⟨rfl, hs⟩ := h2
      exact (keyPv r' s' s k' k sh' sh (fun e => hs e.symm) (fun hf => h (Or.inr hf)) _ _).2
    · rfl

/-- C04: the view factor between two surfaces that do not face each other is 0. -/
theorem C04_zero_unless_facing (p : ArrayParams) (u : ι → StepIn) (t : ι) (a b : SurfRef)
    (ha : a ∈ allRefs p) (hb : b ∈ allRefs p)
    (h : ¬ FaceEachOther ((fitStep p (u t)).rot.deg > 0) a b) :
    tsVfMatrix p u t (surfIndex p a) (surfIndex p b) = 0 := by
  simp only [tsVfMatrix, vfMatrix_eq ha hb]
  exact entryVF_eq_zero p _ _ a b h

/-- C04: in particular the diagonal is 0, ground surfaces do not see each other, surfaces of the
same row do not, nor do surfaces of rows that are not neighbours, nor fronts see fronts or backs
see backs. -/
theorem C04_special_cases (p : ArrayParams) (u : ι → StepIn) (t : ι) :
    (∀ i < nTsSurfaces p, tsVfMatrix p u t i i = 0) ∧
    (∀ sh e z sh' e' z', SurfRef.gnd sh e z ∈ allRefs p → SurfRef.gnd sh' e' z' ∈ allRefs p →
      tsVfMatrix p u t (surfIndex p (.gnd sh e z)) (surfIndex p (.gnd sh' e' z')) = 0) ∧
    (∀ r s k sh r' s' k' sh', SurfRef.pv r s k sh ∈ allRefs p → SurfRef.pv r' s' k' sh' ∈ allRefs p →
      (r' ≠ r + 1 ∧ r ≠ r' + 1) ∨ s = s' →
      tsVfMatrix p u t (surfIndex p (.pv r s k sh)) (surfIndex p (.pv r' s' k' sh')) = 0) := by
  have hpv : ∀ r s k sh r' s' k' sh', SurfRef.pv r s k sh ∈ allRefs p →
      SurfRef.pv r' s' k' sh' ∈ allRefs p → (r' ≠ r + 1 ∧ r ≠ r' + 1) ∨ s = s' →
      tsVfMatrix p u t (surfIndex p (.pv r s k sh)) (surfIndex p (.pv r' s' k' sh')) = 0 := by
    intro r s k sh r' s' k' sh' ha hb h
    refine C04_zero_unless_facing p u t _ _ ha hb ?_
    rintro (hf | hf)
    · cases hf with
      | nextRow h1 h2 =>
        rcases h with h | rfl
        · exact h.1 rfl
        · exact h1 h2
    · cases hf with
      | nextRow h1 h2 =>
        rcases h with h | rfl
        · exact h.2 rfl
        · exact h1 h2
  have hg : ∀ sh e z sh' e' z', SurfRef.gnd sh e z ∈ allRefs p → SurfRef.gnd sh' e' z' ∈ allRefs p →
      tsVfMatrix p u t (surfIndex p (.gnd sh e z)) (surfIndex p (.gnd sh' e' z')) = 0 := by
    intro sh e z sh' e' z' ha hb
    refine C04_zero_unless_facing p u t _ _ ha hb ?_
    rintro (hf | hf) <;> cases hf
  refine ⟨?_, hg, hpv⟩
  intro i hi
  obtain ⟨a, ha, rfl⟩ := exists_surfIndex hi
  cases a with
  | gnd sh e z => exact hg _ _ _ _ _ _ ha ha
  | pv r s k sh => exact hpv _ _ _ _ _ _ _ _ ha ha (Or.inr rfl)

/-- The hypothesis of C04 is met by real surfaces, e.g. the front of the first row and the back of
the second one when the rows are tilted to the left. -/
theorem C04_demo : SurfRef.pv 0 .front 0 false ∈ allRefs demoArray ∧
    SurfRef.pv 1 .back 0 false ∈ allRefs demoArray ∧
    ¬ FaceEachOther ((30 : ℝ) > 0) (.pv 0 .front 0 false) (.pv 1 .back 0 false) := by
  refine ⟨mem_allRefs_pv.2 ?_, mem_allRefs_pv.2 ?_, ?_⟩
  · simp [demoArray, ArrayParams.nSeg, ArrayParams.nFront]
  · simp [demoArray, ArrayParams.nSeg, ArrayParams.nBack]
  · rintro (hf | hf)
    · cases hf with
      | nextRow h1 h2 => exact h1 (Or.inl ⟨rfl, by norm_num⟩)
    · cases hf

end PVF

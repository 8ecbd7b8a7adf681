import Verif.Model.Indices
import Verif.Props.RowAt
import Verif.Props.Structure

/-!
# C77: indices and numbers of the surfaces of a time step
-/

namespace PVF

/-- C77: the surfaces of a fitted array have the indices `0, 1, …, n - 1`, in the order in which the
array lists them. -/
theorem C77_array (p : ArrayParams) :
    tsSurfaceIndices p = (List.range (nTsSurfaces p)).map some := by
  rw [tsSurfaceIndices, ← length_allRefs]
  apply List.ext_getElem
  · simp
  · intro n h1 h2
    have hn : n < (allRefs p).length := by simpa using h1
    simp only [List.getElem_map, List.getElem_range]
    rw [indexLoop_eq (nodup_allRefs p), if_pos (List.getElem_mem hn)]
    rw [(nodup_allRefs p).idxOf_getElem n hn]

theorem foldl_append_flatMap {α β : Type*} (f : α → List β) (l : List α) (x : List β) :
    l.foldl (fun x a => x ++ f a) x = x ++ l.flatMap f := by
  induction l generalizing x with
  | nil => simp
  | cons a l ih => rw [List.foldl_cons, ih]; simp

theorem pSideSurfaceIndices_eq (l : List PSeg) :
    pSideSurfaceIndices l = (l.flatMap PSeg.all).map PSurf.index := by
  rw [pSideSurfaceIndices, foldl_append_flatMap, List.map_flatMap, List.nil_append]
  congr 1
  funext a
  simp [PSeg.surfaceIndices, PColl.surfaceIndices, PSeg.all]

theorem pSideNSurfaces_eq (l : List PSeg) : pSideNSurfaces l = (l.flatMap PSeg.all).length := by
  have : ∀ (l : List PSeg) (n : ℕ), l.foldl (fun n s => n + s.nSurfaces) n
      = n + (l.flatMap PSeg.all).length := by
    intro l
    induction l with
    | nil => simp
    | cons s l ih =>
      intro n
      rw [List.foldl_cons, ih]
      simp only [PSeg.nSurfaces, PColl.nSurfaces, List.flatMap_cons, List.length_append, PSeg.all]
      ring
  rw [pSideNSurfaces, this, zero_add]

theorem made_indices {p : ArrayParams} {u : ℕ → StepIn} {q : SurfRef → ParamDict} {t : ℕ}
    {l : List PSurf} {m : List SurfRef} (h : List.Forall₂ (MadeFrom p u q t) l m) :
    l.map PSurf.index = m.map fun a => some (surfIndex p a) := by
  induction h with
  | nil => rfl
  | cons h _ ih => rw [List.map_cons, List.map_cons, ih, h.2.2.1]

open Classical in
/-- C77: the indices listed by a side of a row geometry are those of the surfaces of the time series
side that are at least 1e-8 m long at that time step, in the same order; the side has that many
surfaces. -/
theorem C77_side (p : ArrayParams) (u : ℕ → StepIn) (q : SurfRef → ParamDict) (t i : ℕ) (r : PRow)
    (hr : (tsRow p u q i).at t = some r) (s : RowSide) :
    pSideSurfaceIndices (r.side s)
      = ((sideRefs p i s).filter fun a => TOL ≤ ((fitStep p (u t)).coords a).length).map
          (fun a => some (surfIndex p a)) ∧
    pSideNSurfaces (r.side s)
      = ((sideRefs p i s).filter fun a => TOL ≤ ((fitStep p (u t)).coords a).length).length := by
  have h := (side_flat (row_at_side hr s).1).1
  refine ⟨?_, ?_⟩
  · rw [pSideSurfaceIndices_eq, made_indices h]
    rfl
  · rw [pSideNSurfaces_eq, h.length_eq]
    rfl

open Classical in
/-- C77: the indices listed by a row geometry are those of the surfaces of the time series row that
are at least 1e-8 m long at that time step, in the same order, front first. -/
theorem C77_row (p : ArrayParams) (u : ℕ → StepIn) (q : SurfRef → ParamDict) (t i : ℕ) :
    ∃ r : PRow, (tsRow p u q i).at t = some r ∧
      r.surfaceIndices
        = ((sideRefs p i .front ++ sideRefs p i .back).filter fun a =>
            TOL ≤ ((fitStep p (u t)).coords a).length).map (fun a => some (surfIndex p a)) := by
  obtain ⟨r, hr, -⟩ := C58_surfaces p u q t i
  refine ⟨r, hr, ?_⟩
  rw [PRow.surfaceIndices, List.nil_append, List.filter_append, List.map_append]
  congr 1
  · exact (C77_side p u q t i r hr .front).1
  · exact (C77_side p u q t i r hr .back).1

/-- C77: the surfaces of a row at a time step are those of its front followed by those of its back;
those of a side are those of its segments one after the other. -/
theorem C77_surfaces_at (p : ArrayParams) (u : ℕ → StepIn) (q : SurfRef → ParamDict) (t i : ℕ) :
    (∃ f b, tsSideSurfacesAtIdx (tsSegs p u q i .front) t = some f ∧
      tsSideSurfacesAtIdx (tsSegs p u q i .back) t = some b ∧
      (tsRow p u q i).surfacesAtIdx t = some (f ++ b)) ∧
    ∀ s, ∃ l : List (List PSurf),
      List.Forall₂ (fun g x => TsSeg.surfacesAtIdx g t = some x) (tsSegs p u q i s) l ∧
      tsSideSurfacesAtIdx (tsSegs p u q i s) t = some l.flatten := by
  have hs : ∀ s, ∃ l : List PSeg, tsSideAt (tsSegs p u q i s) t = some l ∧
      (tsSegs p u q i s).mapM (fun g : TsSeg => g.at t) = some l := by
    intro s
    obtain ⟨l, hl, -⟩ := side_at p u q t i s
    refine ⟨l, hl, ?_⟩
    rw [tsSideAt] at hl
    obtain ⟨m, hm, hm'⟩ := Option.bind_eq_some_iff.1 hl
    rw [mkSide] at hm'
    split_ifs at hm' with hc
    rw [hm, Option.some.inj hm']
  refine ⟨?_, fun s => ?_⟩
  · obtain ⟨f, hf, -⟩ := hs .front
    obtain ⟨b, hb, -⟩ := hs .back
    refine ⟨f.flatMap PSeg.all, b.flatMap PSeg.all, ?_, ?_, ?_⟩
    · simp only [tsSideSurfacesAtIdx, hf, Option.map_some, foldl_append_flatMap, List.nil_append]
    · simp only [tsSideSurfacesAtIdx, hb, Option.map_some, foldl_append_flatMap, List.nil_append]
    · simp only [TsRow.surfacesAtIdx, TsRow.at, tsRow, hf, hb, Option.bind_some, Option.map_some,
        PRow.all]
  · obtain ⟨l, hl, hm⟩ := hs s
    refine ⟨l.map PSeg.all, ?_, ?_⟩
    · have : ∀ (gs : List TsSeg) (l : List PSeg), gs.mapM (fun g : TsSeg => g.at t) = some l →
          List.Forall₂ (fun g x => TsSeg.surfacesAtIdx g t = some x) gs (l.map PSeg.all) := by
        intro gs
        induction gs with
        | nil => intro l h; simp at h; subst h; exact .nil
        | cons g gs ih =>
          intro l h
          simp only [List.mapM_cons, Option.bind_eq_bind, Option.bind_eq_some_iff,
            Option.pure_def, Option.some.injEq] at h
          obtain ⟨a, ha, m, hm, rfl⟩ := h
          exact .cons (by rw [TsSeg.surfacesAtIdx, ha, Option.map_some]) (ih m hm)
      exact this _ _ hm
    · simp only [tsSideSurfacesAtIdx, hl, Option.map_some, foldl_append_flatMap, List.nil_append,
        List.flatMap_def]

/-- The surfaces of rows are listed in increasing order of their indices. -/
theorem rows_pairwise (p : ArrayParams) :
    ((allRefs p).map (surfIndex p)).Pairwise (· < ·) := by
  have : (allRefs p).map (surfIndex p) = List.range (allRefs p).length := by
    apply List.ext_getElem
    · simp
    · intro n h1 h2
      have hn : n < (allRefs p).length := by simpa using h1
      rw [List.getElem_map, List.getElem_range, surfIndex_eq_idxOf (List.getElem_mem hn),
        (nodup_allRefs p).idxOf_getElem n hn]
  rw [this]
  exact List.pairwise_lt_range

theorem groundRefs_length (p : ArrayParams) :
    (groundRefs p).length = (2 * p.nRows + 1) * (p.nRows + 1) := by
  simp only [groundRefs, List.length_append, List.length_flatMap, List.length_map,
    List.length_range, List.map_const', List.sum_replicate, smul_eq_mul]
  ring

/-- C77: taken one after the other, the indices of the rows of an array at a time step increase, so
no index occurs twice; they come after those of the ground surfaces and below the number of surfaces
of the array. -/
theorem C77_increasing (p : ArrayParams) (u : ℕ → StepIn) (q : SurfRef → ParamDict) (t : ℕ) :
    ∃ idx : List ℕ, idx.Pairwise (· < ·) ∧
      (∀ k ∈ idx, (2 * p.nRows + 1) * (p.nRows + 1) ≤ k ∧ k < nTsSurfaces p) ∧
      ∃ rows : List PRow,
        List.Forall₂ (fun i r => (tsRow p u q i).at t = some r) (List.range p.nRows) rows ∧
        rows.flatMap PRow.surfaceIndices = idx.map some := by
  classical
  choose r hr h using fun i => C77_row p u q t i
  refine ⟨(((List.range p.nRows).flatMap (rowRefs p)).filter fun a =>
      TOL ≤ ((fitStep p (u t)).coords a).length).map (surfIndex p), ?_, ?_,
    (List.range p.nRows).map r, ?_, ?_⟩
  · refine List.Pairwise.sublist ?_ (rows_pairwise p)
    refine List.Sublist.map _ ?_
    exact List.filter_sublist.trans (List.sublist_append_right _ _)
  · intro k hk
    obtain ⟨a, ha, rfl⟩ := List.mem_map.1 hk
    have ha' := (List.mem_filter.1 ha).1
    have hm : a ∈ allRefs p := List.mem_append_right _ ha'
    refine ⟨?_, surfIndex_lt hm⟩
    rw [surfIndex_eq_idxOf hm, allRefs, List.idxOf_append_of_notMem, groundRefs_length]
    · exact Nat.le_add_right _ _
    · intro hg
      exact List.disjoint_of_nodup_append (nodup_allRefs p) hg ha'
  · exact List.forall₂_map_right_iff.2 (List.forall₂_same.2 fun i _ => hr i)
  · rw [List.flatMap_map, List.map_map, List.filter_flatMap, List.map_flatMap]
    congr 1
    funext i
    exact h i

/-- C77: the index of a surface of a row geometry is its position in the list of surfaces of the array,
where the surface with the same coordinates stands; the view factors in that row of the matrix add up
to 1 (unless the surface is exactly as long as the tolerance). -/
theorem C77_position {n : ℕ} (p : ArrayParams) (u : ℕ → StepIn) (q : SurfRef → ParamDict) (t : Fin n)
    (i : ℕ) (hi : i < p.nRows) (r : PRow) (hr : (tsRow p u q i).at t = some r) (b : PSurf)
    (hb : b ∈ r.all) :
    ∃ k a, b.index = some k ∧ (allRefs p)[k]? = some a ∧ a ∈ rowRefs p i ∧
      b.line = (fitStep p (u t)).coords a ∧
      (b.line.length ≠ TOL → ∑ j ∈ Finset.range (nTsSurfaces p + 1),
        tsVfMatrix p (fun t : Fin n => u t) t k j = 1) := by
  classical
  obtain ⟨r', hr', -, -, -, -, hm⟩ := C58_surfaces p u q t i
  rw [hr] at hr'
  obtain rfl := Option.some.inj hr'
  obtain ⟨a, ha, hl, -, hidx, -⟩ := forall2_mem_left hm hb
  obtain ⟨ha, hlen⟩ := mem_keptRefs.1 ha
  have hall : a ∈ allRefs p :=
    List.mem_append_right _ (List.mem_flatMap.2 ⟨i, List.mem_range.2 hi, ha⟩)
  refine ⟨surfIndex p a, a, hidx, getElem?_surfIndex hall, ha, hl, fun hne => ?_⟩
  refine C01_row_sum p (fun t : Fin n => u t) t _ (surfIndex_lt hall) ?_
  rw [surfLen_eq hall]
  rw [hl] at hne
  exact lt_of_le_of_ne hlen hne.symm

/-- The surfaces of the back of the first row of the array with vertical rows that are not points. -/
theorem vert_kept : keptRefs vertArray vertStep (sideRefs vertArray 0 .back)
    = [.pv 0 .back 0 false, .pv 0 .back 1 false] := by
  classical
  have hseg : vertArray.nSeg 0 .back = 2 := by
    simp [vertArray, ArrayParams.nSeg, ArrayParams.nBack]
  have h0 := vert_len 0 (by norm_num)
  have h1 := vert_len 1 (by norm_num)
  have hsum := side_lengths vert_physicalArray vert_physicalStep (i := 0) (s := .back)
    (by rw [hseg]; norm_num)
  have hsr : sideRefs vertArray 0 .back
      = [.pv 0 .back 0 false, .pv 0 .back 0 true, .pv 0 .back 1 false, .pv 0 .back 1 true] := by
    rw [sideRefs, hseg]; rfl
  rw [hsr] at hsum
  have hw : vertArray.width = 2 := rfl
  simp only [List.map_cons, List.map_nil, List.sum_cons, List.sum_nil, h0, h1, hw] at hsum
  have n0 : 0 ≤ lengthAt vertArray vertStep (.pv 0 .back 0 true) := Line.length_nonneg _
  have n1 : 0 ≤ lengthAt vertArray vertStep (.pv 0 .back 1 true) := Line.length_nonneg _
  have z0 : lengthAt vertArray vertStep (.pv 0 .back 0 true) = 0 := by linarith
  have z1 : lengthAt vertArray vertStep (.pv 0 .back 1 true) = 0 := by linarith
  have tol1 : TOL ≤ 1 := by norm_num [TOL]
  have tol0 : ¬ TOL ≤ 0 := by norm_num [TOL]
  rw [hsr]
  simp [keptRefs, h0, h1, z0, z1, tol1, tol0]

/-- C77, a case: the back of the first row of the array with vertical rows has four surfaces in the time
series; two of them are points at the time step, and the geometry lists the indices of the other
two. -/
theorem C77_demo (q : SurfRef → ParamDict) :
    ∃ r : PRow, (tsRow vertArray (fun _ => vertStep) q 0).at 7 = some r ∧
      (sideRefs vertArray 0 .back).length = 4 ∧
      pSideNSurfaces (r.side .back) = 2 ∧
      pSideSurfaceIndices (r.side .back) = [some 17, some 19] := by
  classical
  obtain ⟨r, hr, -⟩ := C58_surfaces vertArray (fun _ => vertStep) q 7 0
  obtain ⟨hi, hn⟩ := C77_side vertArray (fun _ => vertStep) q 7 0 r hr .back
  have hk : ((sideRefs vertArray 0 .back).filter fun a =>
      TOL ≤ ((fitStep vertArray vertStep).coords a).length)
      = [.pv 0 .back 0 false, .pv 0 .back 1 false] := vert_kept
  have hidx : ∀ k, k < 2 → (allRefs vertArray).idxOf (.pv 0 .back k false) = 17 + 2 * k := by
    intro k hk
    have : k = 0 ∨ k = 1 := by omega
    rcases this with rfl | rfl <;> decide
  have hin : ∀ k, k < 2 → SurfRef.pv 0 .back k false ∈ allRefs vertArray := by
    intro k hk
    refine mem_allRefs_pv.2 ?_
    simpa [vertArray, ArrayParams.nSeg, ArrayParams.nBack] using hk
  rw [hk] at hi hn
  refine ⟨r, hr, rfl, by rw [hn]; rfl, ?_⟩
  rw [hi]
  simp only [List.map_cons, List.map_nil]
  rw [surfIndex_eq_idxOf (hin 0 (by norm_num)), surfIndex_eq_idxOf (hin 1 (by norm_num)),
    hidx 0 (by norm_num), hidx 1 (by norm_num)]

end PVF

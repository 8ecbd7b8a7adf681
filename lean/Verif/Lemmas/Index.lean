import Verif.Model.PVArray
import Mathlib.Data.List.Nodup
import Mathlib.Data.List.Flatten
import Mathlib.Algebra.BigOperators.Group.List.Basic
import Mathlib.Tactic.Ring

/-! # Surface list and indices: lemmas -/

namespace PVF

theorem mem_groundRefs {p : ArrayParams} {a : SurfRef} :
    a ∈ groundRefs p ↔
      ∃ sh e z, a = .gnd sh e z ∧ e < (if sh then p.nRows else p.nRows + 1) ∧ z < p.nRows + 1 := by
  constructor
  · intro h
    simp only [groundRefs, List.mem_append, List.mem_flatMap, List.mem_map, List.mem_range] at h
    rcases h with ⟨e, he, z, hz, rfl⟩ | ⟨e, he, z, hz, rfl⟩
    · exact ⟨true, e, z, rfl, by simpa using he, hz⟩
    · exact ⟨false, e, z, rfl, by simpa using he, hz⟩
  · rintro ⟨sh, e, z, rfl, he, hz⟩
    simp only [groundRefs, List.mem_append, List.mem_flatMap, List.mem_map, List.mem_range]
    cases sh
    · exact Or.inr ⟨e, by simpa using he, z, hz, rfl⟩
    · exact Or.inl ⟨e, by simpa using he, z, hz, rfl⟩

theorem mem_sideRefs {p : ArrayParams} {i : ℕ} {s : RowSide} {a : SurfRef} :
    a ∈ sideRefs p i s ↔ ∃ k sh, a = .pv i s k sh ∧ k < p.nSeg i s := by
  simp only [sideRefs, List.mem_flatMap, List.mem_range, List.mem_cons, List.not_mem_nil, or_false]
  constructor
  · rintro ⟨k, hk, rfl | rfl⟩
    · exact ⟨k, false, rfl, hk⟩
    · exact ⟨k, true, rfl, hk⟩
  · rintro ⟨k, sh, rfl, hk⟩
    cases sh
    · exact ⟨k, hk, Or.inl rfl⟩
    · exact ⟨k, hk, Or.inr rfl⟩

theorem mem_rowRefs {p : ArrayParams} {i : ℕ} {a : SurfRef} :
    a ∈ rowRefs p i ↔ ∃ s k sh, a = .pv i s k sh ∧ k < p.nSeg i s := by
  simp only [rowRefs, List.mem_append, mem_sideRefs]
  constructor
  · rintro (⟨k, sh, h⟩ | ⟨k, sh, h⟩)
    · exact ⟨_, k, sh, h⟩
    · exact ⟨_, k, sh, h⟩
  · rintro ⟨s, k, sh, h⟩
    cases s
    · exact Or.inl ⟨k, sh, h⟩
    · exact Or.inr ⟨k, sh, h⟩

theorem mem_allRefs_pv {p : ArrayParams} {i : ℕ} {s : RowSide} {k : ℕ} {sh : Bool} :
    SurfRef.pv i s k sh ∈ allRefs p ↔ i < p.nRows ∧ k < p.nSeg i s := by
  simp only [allRefs, List.mem_append, mem_groundRefs, List.mem_flatMap, List.mem_range,
    mem_rowRefs]
  constructor
  · rintro (⟨_, _, _, h, _⟩ | ⟨i', hi, s', k', sh', h, hk⟩)
    · cases h
    · cases h; exact ⟨hi, hk⟩
  · rintro ⟨hi, hk⟩
    exact Or.inr ⟨i, hi, s, k, sh, rfl, hk⟩

theorem mem_allRefs_gnd {p : ArrayParams} {sh : Bool} {e z : ℕ} :
    SurfRef.gnd sh e z ∈ allRefs p ↔
      e < (if sh then p.nRows else p.nRows + 1) ∧ z < p.nRows + 1 := by
  simp only [allRefs, List.mem_append, mem_groundRefs, List.mem_flatMap, List.mem_range,
    mem_rowRefs]
  constructor
  · rintro (⟨_, _, _, h, h'⟩ | ⟨i', hi, s', k', sh', h, hk⟩)
    · cases h; exact h'
    · cases h
  · rintro h
    exact Or.inl ⟨sh, e, z, rfl, h⟩

theorem nodup_sideRefs (p : ArrayParams) (i : ℕ) (s : RowSide) : (sideRefs p i s).Nodup := by
  unfold sideRefs
  rw [List.nodup_flatMap]
  refine ⟨fun k _ => by simp, ?_⟩
  refine List.Pairwise.imp_of_mem ?_ List.nodup_range
  intro a b _ _ hab
  simp only [Function.onFun, List.disjoint_left, List.mem_cons, List.not_mem_nil, or_false]
  rintro x (rfl | rfl) <;> simp [hab]

theorem nodup_rowRefs (p : ArrayParams) (i : ℕ) : (rowRefs p i).Nodup := by
  unfold rowRefs
  rw [List.nodup_append]
  refine ⟨nodup_sideRefs _ _ _, nodup_sideRefs _ _ _, ?_⟩
  intro a ha b hb hab
  rw [mem_sideRefs] at ha hb
  obtain ⟨k, sh, rfl, _⟩ := ha
  obtain ⟨k', sh', rfl, _⟩ := hb
  cases hab

theorem nodup_groundPart (p : ArrayParams) (sh : Bool) (m : ℕ) :
    ((List.range m).flatMap fun e =>
      (List.range (p.nRows + 1)).map fun z => SurfRef.gnd sh e z).Nodup := by
  rw [List.nodup_flatMap]
  refine ⟨fun e _ => ?_, ?_⟩
  · refine List.Nodup.map ?_ List.nodup_range
    intro a b h; simpa using h
  · refine List.Pairwise.imp_of_mem ?_ List.nodup_range
    intro a b _ _ hab
    simp only [Function.onFun, List.disjoint_left, List.mem_map]
    rintro x ⟨z, _, rfl⟩ ⟨z', _, h⟩
    cases h; exact hab rfl

theorem nodup_groundRefs (p : ArrayParams) : (groundRefs p).Nodup := by
  unfold groundRefs
  rw [List.nodup_append]
  refine ⟨nodup_groundPart _ _ _, nodup_groundPart _ _ _, ?_⟩
  intro a ha b hb hab
  simp only [List.mem_flatMap, List.mem_map] at ha hb
  obtain ⟨_, _, _, _, rfl⟩ := ha
  obtain ⟨_, _, _, _, rfl⟩ := hb
  cases hab

theorem nodup_allRefs (p : ArrayParams) : (allRefs p).Nodup := by
  unfold allRefs
  rw [List.nodup_append]
  refine ⟨nodup_groundRefs p, ?_, ?_⟩
  · rw [List.nodup_flatMap]
    refine ⟨fun i _ => nodup_rowRefs p i, ?_⟩
    refine List.Pairwise.imp_of_mem ?_ List.nodup_range
    intro a b _ _ hab
    simp only [Function.onFun, List.disjoint_left, mem_rowRefs]
    rintro x ⟨s, k, sh, rfl, _⟩ ⟨s', k', sh', h, _⟩
    cases h; exact hab rfl
  · intro a ha b hb hab
    rw [mem_groundRefs] at ha
    simp only [List.mem_flatMap, mem_rowRefs] at hb
    obtain ⟨_, _, _, rfl, _⟩ := ha
    obtain ⟨_, _, _, _, _, rfl, _⟩ := hb
    cases hab

theorem indexLoop_aux (l : List SurfRef) (n : ℕ) (d : SurfRef → Option ℕ) (hl : l.Nodup)
    (a : SurfRef) :
    (l.zipIdx n).foldl (fun (d : SurfRef → Option ℕ) (ri : SurfRef × ℕ) => Function.update d ri.1 (some ri.2)) d a
      = if a ∈ l then some (n + l.idxOf a) else d a := by
  induction l generalizing n d with
  | nil => simp
  | cons b l ih =>
    rw [List.nodup_cons] at hl
    rw [List.zipIdx_cons, List.foldl_cons, ih _ _ hl.2]
    by_cases hab : a = b
    · subst hab
      simp [hl.1]
    · have hba : ¬ b = a := fun h => hab h.symm
      by_cases hal : a ∈ l
      · simp [hal, hba]; omega
      · simp [hal, hab, Function.update]

theorem indexLoop_eq {l : List SurfRef} (hl : l.Nodup) (a : SurfRef) :
    indexLoop l a = if a ∈ l then some (l.idxOf a) else none := by
  unfold indexLoop
  rw [indexLoop_aux l 0 _ hl a]
  simp

theorem surfIndex_eq_idxOf {p : ArrayParams} {a : SurfRef} (ha : a ∈ allRefs p) :
    surfIndex p a = (allRefs p).idxOf a := by
  simp [surfIndex, indexLoop_eq (nodup_allRefs p), ha]

theorem length_allRefs (p : ArrayParams) : (allRefs p).length = nTsSurfaces p := by
  simp only [allRefs, groundRefs, rowRefs, sideRefs, nTsSurfaces, List.length_append,
    List.length_flatMap, List.length_map, List.length_range, ArrayParams.nSeg, List.length_cons,
    List.length_nil]

theorem surfIndex_lt {p : ArrayParams} {a : SurfRef} (ha : a ∈ allRefs p) :
    surfIndex p a < nTsSurfaces p := by
  rw [surfIndex_eq_idxOf ha, ← length_allRefs]
  exact List.idxOf_lt_length_of_mem ha

theorem surfIndex_inj {p : ArrayParams} {a b : SurfRef} (ha : a ∈ allRefs p)
    (hb : b ∈ allRefs p) (h : surfIndex p a = surfIndex p b) : a = b := by
  rw [surfIndex_eq_idxOf ha, surfIndex_eq_idxOf hb] at h
  exact (List.idxOf_inj ha).1 h

theorem getElem?_surfIndex {p : ArrayParams} {a : SurfRef} (ha : a ∈ allRefs p) :
    (allRefs p)[surfIndex p a]? = some a := by
  rw [surfIndex_eq_idxOf ha]
  rw [List.getElem?_eq_getElem (List.idxOf_lt_length_of_mem ha)]
  simp

theorem exists_surfIndex {p : ArrayParams} {i : ℕ} (hi : i < nTsSurfaces p) :
    ∃ a ∈ allRefs p, surfIndex p a = i := by
  rw [← length_allRefs] at hi
  refine ⟨(allRefs p)[i], List.getElem_mem hi, ?_⟩
  rw [surfIndex_eq_idxOf (List.getElem_mem hi)]
  exact (nodup_allRefs p).idxOf_getElem i hi

end PVF

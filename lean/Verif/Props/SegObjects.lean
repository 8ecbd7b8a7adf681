import Verif.Props.CastShadow

/-!
# C63: segments as objects

Casting shadows, cutting and merging change collections in place.
-/

namespace PVF
noncomputable section

/-- The collections of segments. -/
def collIds (segs : List SegObj) : List ℕ := segs.flatMap fun s => [s.illum, s.shaded]

/-- No collection belongs to two segments or twice to a segment. -/
def Separate (segs : List SegObj) : Prop := (collIds segs).Nodup

/-- Two memories hold the same surfaces for a segment. -/
def SameFor (s : SegObj) (m m' : Colls) : Prop := m s.illum = m' s.illum ∧ m s.shaded = m' s.shaded

/-- An operation on segments that reads and changes nothing but the collections of the segment. -/
structure LocalOp (f : SegObj → Colls → Option Colls) : Prop where
  keeps : ∀ s m m', f s m = some m' → ∀ k, k ≠ s.illum → k ≠ s.shaded → m' k = m k
  reads : ∀ s m n m', SameFor s m n → f s m = some m' → ∃ n', f s n = some n' ∧ SameFor s m' n'

/-- The operation for one segment after the other. -/
def runAll (f : SegObj → Colls → Option Colls) : Colls → List SegObj → Option Colls
  | m, [] => some m
  | m, s :: rest => (f s m).bind fun m' => runAll f m' rest

theorem mem_collIds {segs : List SegObj} {s : SegObj} (h : s ∈ segs) :
    s.illum ∈ collIds segs ∧ s.shaded ∈ collIds segs :=
  ⟨List.mem_flatMap.2 ⟨s, h, by simp⟩, List.mem_flatMap.2 ⟨s, h, by simp⟩⟩

theorem separate_cons {s : SegObj} {segs : List SegObj} (h : Separate (s :: segs)) :
    s.illum ≠ s.shaded ∧ Separate segs ∧ s.illum ∉ collIds segs ∧ s.shaded ∉ collIds segs := by
  unfold Separate collIds at *
  rw [List.flatMap_cons, List.nodup_append] at h
  obtain ⟨h1, h2, h3⟩ := h
  refine ⟨?_, h2, ?_, ?_⟩
  · simpa using h1
  · intro q; exact h3 _ (by simp) _ q rfl
  · intro q; exact h3 _ (by simp) _ q rfl

theorem runAll_spec {f : SegObj → Colls → Option Colls} (hf : LocalOp f) (segs : List SegObj)
    (hs : Separate segs) (m m' : Colls) (h : runAll f m segs = some m') :
    (∀ k, k ∉ collIds segs → m' k = m k) ∧
    ∀ s ∈ segs, ∃ n, f s m = some n ∧ SameFor s m' n := by
  induction segs generalizing m with
  | nil =>
    simp only [runAll, Option.some.injEq] at h
    subst h
    exact ⟨fun _ _ => rfl, by simp⟩
  | cons s segs ih =>
    obtain ⟨h1, h2, h3, h4⟩ := separate_cons hs
    rw [runAll, Option.bind_eq_some_iff] at h
    obtain ⟨n, hn, h⟩ := h
    obtain ⟨i1, i2⟩ := ih h2 n h
    have hk := hf.keeps s m n hn
    refine ⟨?_, ?_⟩
    · intro k hk'
      have : k ≠ s.illum ∧ k ≠ s.shaded ∧ k ∉ collIds segs := by
        refine ⟨?_, ?_, fun q => hk' ?_⟩
        · rintro rfl; exact hk' (mem_collIds List.mem_cons_self).1
        · rintro rfl; exact hk' (mem_collIds List.mem_cons_self).2
        · exact List.mem_append.2 (Or.inr q)
      rw [i1 k this.2.2, hk k this.1 this.2.1]
    · intro t ht
      rcases List.mem_cons.1 ht with rfl | ht
      · exact ⟨n, hn, i1 _ h3, i1 _ h4⟩
      · obtain ⟨n', q1, q2⟩ := i2 t ht
        obtain ⟨t1, t2⟩ := mem_collIds ht
        have hsame : SameFor t n m := by
          constructor
          · exact hk _ (fun q => h3 (q ▸ t1)) (fun q => h4 (q ▸ t1))
          · exact hk _ (fun q => h3 (q ▸ t2)) (fun q => h4 (q ▸ t2))
        obtain ⟨n'', r1, r2⟩ := hf.reads t n m n' hsame q1
        exact ⟨n'', r1, q2.1.trans r2.1, q2.2.trans r2.2⟩

theorem runAll_exists {f : SegObj → Colls → Option Colls} (hf : LocalOp f) (segs : List SegObj)
    (hs : Separate segs) (m : Colls) (h : ∀ s ∈ segs, ∃ n, f s m = some n) :
    ∃ m', runAll f m segs = some m' := by
  induction segs generalizing m with
  | nil => exact ⟨m, rfl⟩
  | cons s segs ih =>
    obtain ⟨h1, h2, h3, h4⟩ := separate_cons hs
    obtain ⟨n, hn⟩ := h s List.mem_cons_self
    have hk := hf.keeps s m n hn
    obtain ⟨m', hm'⟩ := ih h2 n (by
      intro t ht
      obtain ⟨n', hn'⟩ := h t (List.mem_cons_of_mem _ ht)
      obtain ⟨t1, t2⟩ := mem_collIds ht
      obtain ⟨n'', r1, -⟩ := hf.reads t m n n'
        ⟨(hk _ (fun q => h3 (q ▸ t1)) (fun q => h4 (q ▸ t1))).symm,
          (hk _ (fun q => h3 (q ▸ t2)) (fun q => h4 (q ▸ t2))).symm⟩ hn'
      exact ⟨n'', r1⟩)
    exact ⟨m', by rw [runAll, hn, Option.bind_some, hm']⟩

theorem same_update {s : SegObj} {m n : Colls} (h : SameFor s m n) (k : ℕ) (l : List Line) :
    SameFor s (Function.update m k l) (Function.update n k l) := by
  constructor
  · by_cases q : s.illum = k
    · subst q; simp
    · rw [Function.update_of_ne q, Function.update_of_ne q]; exact h.1
  · by_cases q : s.shaded = k
    · subst q; simp
    · rw [Function.update_of_ne q, Function.update_of_ne q]; exact h.2

theorem local_cast (near : Line → Line → Prop) (inter : Intersect) (v : Line) :
    LocalOp fun s m => s.castShadow near inter m v := by
  refine ⟨?_, ?_⟩
  · intro s m m' h k h1 h2
    unfold SegObj.castShadow at h
    split at h
    · simp only [Option.some.injEq] at h; rw [← h]
    · simp only [Option.some.injEq] at h
      rw [← h, Function.update_of_ne h1, Function.update_of_ne h2]
    · simp at h
  · intro s m n m' hs h
    unfold SegObj.castShadow at h ⊢
    rw [← hs.1]
    split at h
    · simp only [Option.some.injEq] at h
      exact ⟨n, rfl, h ▸ hs⟩
    · rename_i w _
      simp only [Option.some.injEq] at h
      refine ⟨_, rfl, ?_⟩
      rw [← h]
      have h1 : SameFor s (Function.update m s.shaded (m s.shaded ++ [w]))
          (Function.update n s.shaded (n s.shaded ++ [w])) := by
        have := same_update hs s.shaded (m s.shaded ++ [w])
        rwa [hs.2] at this ⊢
      rw [h1.1]
      exact same_update h1 _ _
    · simp at h

theorem local_cut (q : Pt) : LocalOp fun s m => some (s.cutAtPoint m q) := by
  classical
  refine ⟨?_, ?_⟩
  · intro s m m' h k h1 h2
    simp only [Option.some.injEq] at h
    rw [← h]
    unfold SegObj.cutAtPoint
    split_ifs
    · rw [Function.update_of_ne h1]
    · rw [Function.update_of_ne h2]
    · rfl
  · intro s m n m' hs h
    simp only [Option.some.injEq] at h
    refine ⟨_, rfl, ?_⟩
    rw [← h]
    unfold SegObj.cutAtPoint
    rw [hs.1, hs.2]
    split_ifs
    · exact same_update hs _ _
    · exact same_update hs _ _
    · exact hs

theorem local_merge : LocalOp fun s m =>
    some (Function.update m s.shaded (mergeSurfaces (m s.shaded))) := by
  refine ⟨?_, ?_⟩
  · intro s m m' h k h1 h2
    simp only [Option.some.injEq] at h
    rw [← h, Function.update_of_ne h2]
  · intro s m n m' hs h
    simp only [Option.some.injEq] at h
    refine ⟨_, rfl, ?_⟩
    rw [← h, hs.2]
    exact same_update hs _ _

theorem runAll_cast (near : Line → Line → Prop) (inter : Intersect) (v : Line) (m : Colls)
    (segs : List SegObj) :
    castShadowSide near inter v m segs = runAll (fun s m => s.castShadow near inter m v) m segs := by
  induction segs generalizing m with
  | nil => rfl
  | cons s segs ih =>
    rw [castShadowSide, runAll]
    congr 1
    funext m'
    exact ih m'

theorem runAll_foldl (f : SegObj → Colls → Colls) (m : Colls) (segs : List SegObj) :
    runAll (fun s m => some (f s m)) m segs = some (segs.foldl (fun m s => f s m) m) := by
  induction segs generalizing m with
  | nil => rfl
  | cons s segs ih => rw [runAll, Option.bind_some, ih]; rfl

/-- C63 (shadows on a side).  If no collection is shared, a shadow cast on a side acts on every segment
as if it were cast on this segment alone, it raises an error only if it does so for a segment alone,
and collections that do not belong to the side keep their surfaces. -/
theorem C63_cast_side (near : Line → Line → Prop) (inter : Intersect) (v : Line) (m : Colls)
    (segs : List SegObj) (hs : Separate segs) :
    ((∀ s ∈ segs, ∃ n, s.castShadow near inter m v = some n) →
      ∃ m', castShadowSide near inter v m segs = some m') ∧
    (∀ m', castShadowSide near inter v m segs = some m' →
      (∀ k, k ∉ collIds segs → m' k = m k) ∧
      ∀ s ∈ segs, ∃ n, s.castShadow near inter m v = some n ∧
        m' s.illum = n s.illum ∧ m' s.shaded = n s.shaded) := by
  rw [runAll_cast]
  exact ⟨runAll_exists (local_cast near inter v) segs hs m,
    fun m' h => runAll_spec (local_cast near inter v) segs hs m m' h⟩

theorem total_cut (m : Colls) (s : SegObj) (hne : s.illum ≠ s.shaded) (q : Pt) :
    s.total m ≤ s.total (s.cutAtPoint m q) ∧ s.total (s.cutAtPoint m q) ≤ s.total m + 2 * TOL ∧
    ((∀ l ∈ m s.illum ++ m s.shaded, segDist l q < TOL → segDist l q = 0) →
      s.total (s.cutAtPoint m q) = s.total m) := by
  classical
  have hT := TOL_pos'
  unfold SegObj.total SegObj.cutAtPoint
  split_ifs
  · obtain ⟨h1, h2, h3⟩ := C41_cut_length (m s.illum) q
    rw [Function.update_self, Function.update_of_ne hne.symm]
    exact ⟨by linarith, by linarith, fun h => by
      rw [h3 fun l hl => h l (List.mem_append.2 (Or.inl hl))]⟩
  · obtain ⟨h1, h2, h3⟩ := C41_cut_length (m s.shaded) q
    rw [Function.update_self, Function.update_of_ne hne]
    exact ⟨by linarith, by linarith, fun h => by
      rw [h3 fun l hl => h l (List.mem_append.2 (Or.inr hl))]⟩
  · exact ⟨le_refl _, by linarith, fun _ => rfl⟩

/-- C63 (cutting a side).  If no collection is shared, cutting a side at a point never shortens a
segment and lengthens it by at most twice the tolerance; if the point lies on the surfaces that it is
close to, all lengths stay the same.  Collections that do not belong to the side keep their
surfaces. -/
theorem C63_cut_side (m : Colls) (segs : List SegObj) (hs : Separate segs) (q : Pt) :
    (∀ k, k ∉ collIds segs → cutAtPointSide m segs q k = m k) ∧
    ∀ s ∈ segs, s.total m ≤ s.total (cutAtPointSide m segs q) ∧
      s.total (cutAtPointSide m segs q) ≤ s.total m + 2 * TOL ∧
      ((∀ l ∈ m s.illum ++ m s.shaded, segDist l q < TOL → segDist l q = 0) →
        s.total (cutAtPointSide m segs q) = s.total m) := by
  classical
  have hT := TOL_pos'
  unfold cutAtPointSide
  split_ifs
  · obtain ⟨h1, h2⟩ := runAll_spec (local_cut q) segs hs m _
      (runAll_foldl (fun s m => s.cutAtPoint m q) m segs)
    refine ⟨h1, fun s hs' => ?_⟩
    obtain ⟨n, k1, k2, k3⟩ := h2 s hs'
    simp only [Option.some.injEq] at k1
    have hne : s.illum ≠ s.shaded := by
      obtain ⟨l1, l2, rfl⟩ := List.append_of_mem hs'
      have : Separate (s :: l2) := by
        unfold Separate collIds at hs ⊢
        rw [List.flatMap_append] at hs
        exact (List.nodup_append.1 hs).2.1
      exact (separate_cons this).1
    have := total_cut m s hne q
    have e : s.total (segs.foldl (fun m s => s.cutAtPoint m q) m) = s.total (s.cutAtPoint m q) := by
      unfold SegObj.total
      rw [k2, k3, k1]
    rw [e]
    exact this
  · exact ⟨fun _ _ => rfl, fun s _ => ⟨le_refl _, by linarith, fun _ => rfl⟩⟩

/-- C63 (merging the shaded areas of a side).  If no collection is shared, the shaded collection of
every segment is merged and nothing else changes. -/
theorem C63_merge_side (m : Colls) (segs : List SegObj) (hs : Separate segs) :
    (∀ s ∈ segs, mergeShadedSide m segs s.shaded = mergeSurfaces (m s.shaded) ∧
      mergeShadedSide m segs s.illum = m s.illum) ∧
    ∀ k, k ∉ collIds segs → mergeShadedSide m segs k = m k := by
  obtain ⟨h1, h2⟩ := runAll_spec local_merge segs hs m _
    (runAll_foldl (fun s m => Function.update m s.shaded (mergeSurfaces (m s.shaded))) m segs)
  refine ⟨fun s hs' => ?_, h1⟩
  obtain ⟨n, k1, k2, k3⟩ := h2 s hs'
  simp only [Option.some.injEq] at k1
  have hne : s.illum ≠ s.shaded := by
    obtain ⟨l1, l2, rfl⟩ := List.append_of_mem hs'
    have : Separate (s :: l2) := by
      unfold Separate collIds at hs ⊢
      rw [List.flatMap_append] at hs
      exact (List.nodup_append.1 hs).2.1
    exact (separate_cons this).1
  constructor
  · exact k3.trans (by rw [← k1, Function.update_self])
  · exact k2.trans (by rw [← k1, Function.update_of_ne hne])

/-- C63 (finding: shared default collection).  Two segments made without a shaded collection share one:
a shadow cast on the first also becomes a shaded surface of the second. -/
theorem C63_shared (near : Line → Line → Prop) (inter : Intersect) (m : Colls) (i j : ℕ) (v w : Line)
    (hi : i ≠ 1) (hj : j ≠ 1) (hij : i ≠ j) (h : inter (m i) v = [w]) :
    ∃ m', (mkSegObj (some i) none).castShadow near inter m v = some m' ∧
      m' (mkSegObj (some j) none).shaded = m (mkSegObj (some j) none).shaded ++ [w] ∧
      (mkSegObj (some j) none).total m' = (mkSegObj (some j) none).total m + w.length := by
  obtain ⟨m', h1, h2, h3, -⟩ := cast_one (near := near) (s := mkSegObj (some i) none) hi h
  refine ⟨m', h1, h3, ?_⟩
  have e1 : m' j = m j := h2 j (fun q => hij q.symm) hj
  have e2 : m' 1 = m 1 ++ [w] := h3
  unfold SegObj.total
  change totalLength (m' j) + totalLength (m' 1) = totalLength (m j) + totalLength (m 1) + w.length
  rw [e1, e2, totalLength_append]
  unfold totalLength
  simp
  ring

/-- C63 (finding: kept list of surfaces).  The list of all surfaces is right when it is asked for the
first time.  After that the same list is returned whatever happens to the collections, also if they
are replaced. -/
theorem C63_kept_list (m : Colls) (s : SegObj) (hs : s.cache = none) :
    (s.allSurfaces m).1 = m s.illum ++ m s.shaded ∧
    ∀ (m' : Colls) (c : ℕ),
      ((s.allSurfaces m).2.allSurfaces m').1 = m s.illum ++ m s.shaded ∧
      (((s.allSurfaces m).2.setIllum c).allSurfaces m').1 = m s.illum ++ m s.shaded ∧
      (((s.allSurfaces m).2.setShaded c).allSurfaces m').1 = m s.illum ++ m s.shaded := by
  unfold SegObj.allSurfaces SegObj.setIllum SegObj.setShaded
  rw [hs]
  exact ⟨rfl, fun _ _ => ⟨rfl, rfl, rfl⟩⟩

/-! ## A concrete case -/

/-- Two segments of a side, with four collections. -/
theorem demo_separate : Separate [⟨2, 3, none⟩, ⟨4, 5, none⟩] := by
  unfold Separate collIds; simp

/-- Cutting the side in the middle of its second segment: the lengths stay 2 and 3. -/
theorem C63_demo : let m : Colls := fun k => if k = 2 then [lineSeg ⟨1, 1⟩ ⟨3 / 5, 4 / 5⟩ 0 2]
      else if k = 4 then [lineSeg ⟨1, 1⟩ ⟨3 / 5, 4 / 5⟩ 2 5] else []
    let m' := cutAtPointSide m [⟨2, 3, none⟩, ⟨4, 5, none⟩] (linePt ⟨1, 1⟩ ⟨3 / 5, 4 / 5⟩ 3)
    (⟨2, 3, none⟩ : SegObj).total m' = 2 ∧ (⟨4, 5, none⟩ : SegObj).total m' = 3 := by
  intro m m'
  have hT : TOL < 1 := by unfold TOL; norm_num
  have d1 : segDist (lineSeg ⟨1, 1⟩ ⟨3 / 5, 4 / 5⟩ 0 2) (linePt ⟨1, 1⟩ ⟨3 / 5, 4 / 5⟩ 3) = 1 := by
    rw [lineSeg_segDist demo_dir]; norm_num
  have d2 : segDist (lineSeg ⟨1, 1⟩ ⟨3 / 5, 4 / 5⟩ 2 5) (linePt ⟨1, 1⟩ ⟨3 / 5, 4 / 5⟩ 3) = 0 := by
    rw [lineSeg_segDist demo_dir]; norm_num
  obtain ⟨-, h⟩ := C63_cut_side m _ demo_separate (linePt ⟨1, 1⟩ ⟨3 / 5, 4 / 5⟩ 3)
  constructor
  · rw [(h ⟨2, 3, none⟩ (by simp)).2.2]
    · simp [SegObj.total, m, totalLength, lineSeg_length demo_dir]
    · simp only [m]
      simp only [if_true, show ¬ (3 = 2) by decide, show ¬ (3 = 4) by decide, if_false, List.append_nil,
        List.mem_singleton, forall_eq, d1]
      intro q; linarith
  · rw [(h ⟨4, 5, none⟩ (by simp)).2.2]
    · simp [SegObj.total, m, totalLength, lineSeg_length demo_dir]
      norm_num
    · simp [m, d2]

end
end PVF

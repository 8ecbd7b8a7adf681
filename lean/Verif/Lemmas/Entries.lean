import Verif.Model.VF
import Verif.Lemmas.Index

/-! # Closed form of the entries of the view factor matrix -/

namespace PVF
open Classical

theorem surfaceDict_fold (n m : ℕ) (hm : m ≤ n) :
    let d := (List.range m).foldl (surfaceDictStep n) ⟨fun _ => [], fun _ => []⟩
    (∀ i, d.left i = if i < n then List.range (min m (i + 1)) else [])
    ∧ (∀ j, d.right j = (List.range m).filter (j < ·)) := by
  induction m with
  | zero => simp
  | succ m ih =>
    obtain ⟨h1, h2⟩ := ih (by omega)
    rw [List.range_succ, List.foldl_append]
    simp only [List.foldl_cons, List.foldl_nil, surfaceDictStep, h1, h2]
    refine ⟨fun i => ?_, fun j => ?_⟩
    · by_cases hi : i < n
      · by_cases hmi : m ≤ i
        · have e1 : min m (i + 1) = m := by omega
          have e2 : min (m + 1) (i + 1) = m + 1 := by omega
          simp only [hi, hmi, e1, e2, List.range_succ]
          simp
        · have e1 : min m (i + 1) = i + 1 := by omega
          have e2 : min (m + 1) (i + 1) = i + 1 := by omega
          simp only [hi, hmi, e1, e2]
          simp
      · simp [hi]
    · by_cases hj : j < m <;> simp [hj]

theorem surfaceDict_left {n i : ℕ} (hi : i < n) : (surfaceDict n).left i = List.range (i + 1) := by
  have h := (surfaceDict_fold n n le_rfl).1 i
  simp only [surfaceDict]
  rw [h, if_pos hi, min_eq_right (by omega)]

theorem surfaceDict_right {n j : ℕ} (hj : j < n) :
    (surfaceDict n).right j = (List.range (n + 1)).filter (j < ·) := by
  have h := (surfaceDict_fold n n le_rfl).2 j
  simp only [surfaceDict]
  rw [h, if_pos hj]
  simp [List.range_succ, hj]

theorem mem_gndRefsSide {p : ArrayParams} {left : Bool} {r : ℕ} (hr : r < p.nRows)
    {b : SurfRef} :
    b ∈ gndRefsSide p left r ↔ ∃ sh e z, b = .gnd sh e z ∧
      e < (if sh then p.nRows else p.nRows + 1) ∧ z < p.nRows + 1 ∧ (left = decide (z ≤ r)) := by
  have hz : ∀ z, z ∈ (if left then (surfaceDict p.nRows).left r else (surfaceDict p.nRows).right r)
      ↔ z < p.nRows + 1 ∧ (left = decide (z ≤ r)) := by
    intro z
    cases left
    · simp [surfaceDict_right hr]
    · simp [surfaceDict_left hr]; omega
  simp only [gndRefsSide, List.mem_append, List.mem_flatMap, List.mem_map, List.mem_range, hz]
  constructor
  · rintro (⟨e, he, z, hz, rfl⟩ | ⟨e, he, z, hz, rfl⟩)
    · exact ⟨true, e, z, rfl, by simpa using he, hz⟩
    · exact ⟨false, e, z, rfl, by simpa using he, hz⟩
  · rintro ⟨sh, e, z, rfl, he, hz⟩
    cases sh
    · exact Or.inr ⟨e, by simpa using he, z, hz, rfl⟩
    · exact Or.inl ⟨e, by simpa using he, z, hz, rfl⟩

theorem gndRefsSide_subset {p : ArrayParams} {left : Bool} {r : ℕ} (hr : r < p.nRows)
    {b : SurfRef} (hb : b ∈ gndRefsSide p left r) : b ∈ allRefs p := by
  rw [mem_gndRefsSide hr] at hb
  obtain ⟨sh, e, z, rfl, he, hz, _⟩ := hb
  exact mem_allRefs_gnd.2 ⟨he, hz⟩

/-- Applying assignments: if all assignments to the cell `(i, j)` write `v`, and the cell has been
written or had the value `v` before, then its value is `v`. -/
theorem applyAsg_eq (l : List Asg) (m : ℕ → ℕ → ℝ) (i j : ℕ) (v : ℝ)
    (h : ∀ a ∈ l, a.i = i → a.j = j → a.v = v)
    (h' : m i j = v ∨ ∃ a ∈ l, a.i = i ∧ a.j = j) : applyAsg m l i j = v := by
  induction l generalizing m with
  | nil => rcases h' with h' | ⟨a, ha, _⟩
           · exact h'
           · cases ha
  | cons b l ih =>
    unfold applyAsg
    rw [List.foldl_cons]
    refine ih _ (fun a ha => h a (List.mem_cons_of_mem _ ha)) ?_
    by_cases hb : i = b.i ∧ j = b.j
    · left
      simp only [hb, and_self, if_true]
      exact h b (by simp) hb.1.symm hb.2.symm
    · rcases h' with h' | ⟨a, ha, hai, haj⟩
      · left; rw [if_neg hb]; exact h'
      · rcases List.mem_cons.1 ha with rfl | ha
        · exact absurd ⟨hai.symm, haj.symm⟩ hb
        · exact Or.inr ⟨a, ha, hai, haj⟩

/-- The view factors in both directions between a PV surface and a ground surface. -/
noncomputable def pvGndVF (p : ArrayParams) (g : StepGeom) (r : ℕ) (s : RowSide) (a b : Line)
    (z : ℕ) : ℝ × ℝ :=
  vfPvGnd a r p.nRows (g.rot.deg > 0) (fun k => (g.row k).full) b a.length
    (decide (s = .back)) (decide (z ≤ r))

/-- Closed form of an entry of the matrix (without sky). -/
noncomputable def entryVF (p : ArrayParams) (g : StepGeom) (emp : SurfRef → Prop) :
    SurfRef → SurfRef → ℝ
  | .gnd _ _ _, .gnd _ _ _ => 0
  | a@(.pv r s _ _), b@(.gnd _ _ z) =>
    if emp a ∨ emp b then 0 else (pvGndVF p g r s (g.coords a) (g.coords b) z).1
  | b@(.gnd _ _ z), a@(.pv r s _ _) =>
    if emp a ∨ emp b then 0 else (pvGndVF p g r s (g.coords a) (g.coords b) z).2
  | a@(.pv r s _ _), b@(.pv r' s' _ _) =>
    if emp a ∨ emp b then 0
    else if r' = r + 1 ∧ s ≠ s' then
      (vfPvPv (g.coords a) (g.coords b) (g.rot.deg > 0) (decide (s = .front))).1
    else if r = r' + 1 ∧ s ≠ s' then
      (vfPvPv (g.coords b) (g.coords a) (g.rot.deg > 0) (decide (s' = .front))).2
    else 0

/-- Characterisation of the assignments made between PV rows and ground. -/
theorem mem_asgPvGnd {p : ArrayParams} {g : StepGeom} {emp : SurfRef → Prop} {x : Asg} :
    x ∈ asgPvGnd p g emp ↔ ∃ r s k sh sh' e z,
      SurfRef.pv r s k sh ∈ allRefs p ∧ SurfRef.gnd sh' e z ∈ allRefs p ∧
      ¬ emp (.pv r s k sh) ∧ ¬ emp (.gnd sh' e z) ∧
      (x = ⟨surfIndex p (.pv r s k sh), surfIndex p (.gnd sh' e z),
          (pvGndVF p g r s (g.coords (.pv r s k sh)) (g.coords (.gnd sh' e z)) z).1⟩ ∨
       x = ⟨surfIndex p (.gnd sh' e z), surfIndex p (.pv r s k sh),
          (pvGndVF p g r s (g.coords (.pv r s k sh)) (g.coords (.gnd sh' e z)) z).2⟩) := by
  have key : ∀ r, r < p.nRows → ∀ s a, (x ∈ asgPvGndSurf p g emp r (decide (s = .back)) a ↔
      ∃ sh' e z, SurfRef.gnd sh' e z ∈ allRefs p ∧
      ¬ emp a ∧ ¬ emp (.gnd sh' e z) ∧
      (x = ⟨surfIndex p a, surfIndex p (.gnd sh' e z),
          (pvGndVF p g r s (g.coords a) (g.coords (.gnd sh' e z)) z).1⟩ ∨
       x = ⟨surfIndex p (.gnd sh' e z), surfIndex p a,
          (pvGndVF p g r s (g.coords a) (g.coords (.gnd sh' e z)) z).2⟩)) := by
    intro r hr s a
    unfold asgPvGndSurf
    by_cases hea : emp a
    · simp [hea]
    · simp only [hea, if_false, List.mem_append, List.mem_flatMap]
      constructor
      · rintro (⟨b, hb, hx⟩ | ⟨b, hb, hx⟩) <;>
        · have hb' := gndRefsSide_subset hr hb
          rw [mem_gndRefsSide hr] at hb
          obtain ⟨sh', e, z, rfl, he, hz, hzr⟩ := hb
          by_cases heb : emp (.gnd sh' e z)
          · simp [heb] at hx
          · refine ⟨sh', e, z, hb', by simp, heb, ?_⟩
            simp only [heb, if_false, List.mem_cons, List.not_mem_nil, or_false] at hx
            unfold pvGndVF
            rw [← hzr]
            exact hx
      · rintro ⟨sh', e, z, hb, _, heb, hx⟩
        have hb2 := mem_allRefs_gnd.1 hb
        by_cases hzr : z ≤ r
        · left
          refine ⟨.gnd sh' e z, (mem_gndRefsSide hr).2 ⟨_, _, _, rfl, hb2.1, hb2.2, by simp [hzr]⟩, ?_⟩
          simpa [heb, pvGndVF, hzr] using hx
        · right
          refine ⟨.gnd sh' e z, (mem_gndRefsSide hr).2 ⟨_, _, _, rfl, hb2.1, hb2.2, by simpa using hzr⟩, ?_⟩
          simpa [heb, pvGndVF, hzr] using hx
  unfold asgPvGnd
  simp only [List.mem_flatMap, List.mem_range, List.mem_append]
  constructor
  · rintro ⟨r, hr, ⟨a, ha, hx⟩ | ⟨a, ha, hx⟩⟩
    · obtain ⟨k, sh, rfl, hk⟩ := mem_sideRefs.1 ha
      have := (key r hr .front (.pv r .front k sh)).1 (by simpa using hx)
      obtain ⟨sh', e, z, h1, h2, h3, h4⟩ := this
      exact ⟨r, .front, k, sh, sh', e, z, mem_allRefs_pv.2 ⟨hr, hk⟩, h1, h2, h3, h4⟩
    · obtain ⟨k, sh, rfl, hk⟩ := mem_sideRefs.1 ha
      have := (key r hr .back (.pv r .back k sh)).1 (by simpa using hx)
      obtain ⟨sh', e, z, h1, h2, h3, h4⟩ := this
      exact ⟨r, .back, k, sh, sh', e, z, mem_allRefs_pv.2 ⟨hr, hk⟩, h1, h2, h3, h4⟩
  · rintro ⟨r, s, k, sh, sh', e, z, ha, hb, h1, h2, h3⟩
    obtain ⟨hr, hk⟩ := mem_allRefs_pv.1 ha
    refine ⟨r, hr, ?_⟩
    have := (key r hr s (.pv r s k sh)).2 ⟨sh', e, z, hb, h1, h2, h3⟩
    cases s
    · exact Or.inl ⟨.pv r .front k sh, mem_sideRefs.2 ⟨k, sh, rfl, hk⟩, by simpa using this⟩
    · exact Or.inr ⟨.pv r .back k sh, mem_sideRefs.2 ⟨k, sh, rfl, hk⟩, by simpa using this⟩

/-- Characterisation of the assignments made between PV rows. -/
theorem mem_asgPvPv {p : ArrayParams} {g : StepGeom} {emp : SurfRef → Prop} {x : Asg} :
    x ∈ asgPvPv p g emp ↔ ∃ r s s' k k' sh sh', s ≠ s' ∧
      SurfRef.pv r s k sh ∈ allRefs p ∧ SurfRef.pv (r + 1) s' k' sh' ∈ allRefs p ∧
      ¬ emp (.pv r s k sh) ∧ ¬ emp (.pv (r + 1) s' k' sh') ∧
      (x = ⟨surfIndex p (.pv r s k sh), surfIndex p (.pv (r + 1) s' k' sh'),
          (vfPvPv (g.coords (.pv r s k sh)) (g.coords (.pv (r + 1) s' k' sh')) (g.rot.deg > 0)
            (decide (s = .front))).1⟩ ∨
       x = ⟨surfIndex p (.pv (r + 1) s' k' sh'), surfIndex p (.pv r s k sh),
          (vfPvPv (g.coords (.pv r s k sh)) (g.coords (.pv (r + 1) s' k' sh')) (g.rot.deg > 0)
            (decide (s = .front))).2⟩) := by
  unfold asgPvPv asgPvPvSides
  simp only [List.mem_flatMap, List.mem_range, List.mem_append]
  constructor
  · rintro ⟨r, hr, ⟨a, ha, hx⟩ | ⟨a, ha, hx⟩⟩
    · obtain ⟨k, sh, rfl, hk⟩ := mem_sideRefs.1 ha
      simp only [if_true] at hx hk
      by_cases hea : emp (.pv r .front k sh)
      · simp [hea] at hx
      · simp only [if_neg hea, List.mem_flatMap] at hx
        obtain ⟨b, hb, hx⟩ := hx
        obtain ⟨k', sh', rfl, hk'⟩ := mem_sideRefs.1 hb
        by_cases heb : emp (.pv (r + 1) .back k' sh')
        · simp [heb] at hx
        · exact ⟨r, .front, .back, k, k', sh, sh', by simp, mem_allRefs_pv.2 ⟨by omega, hk⟩,
            mem_allRefs_pv.2 ⟨by omega, hk'⟩, hea, heb, by simpa [heb] using hx⟩
    · obtain ⟨k, sh, rfl, hk⟩ := mem_sideRefs.1 ha
      simp only [if_false, Bool.false_eq_true] at hx hk
      by_cases hea : emp (.pv r .back k sh)
      · simp [hea] at hx
      · simp only [if_neg hea, List.mem_flatMap] at hx
        obtain ⟨b, hb, hx⟩ := hx
        obtain ⟨k', sh', rfl, hk'⟩ := mem_sideRefs.1 hb
        by_cases heb : emp (.pv (r + 1) .front k' sh')
        · simp [heb] at hx
        · exact ⟨r, .back, .front, k, k', sh, sh', by simp, mem_allRefs_pv.2 ⟨by omega, hk⟩,
            mem_allRefs_pv.2 ⟨by omega, hk'⟩, hea, heb, by simpa [heb] using hx⟩
  · rintro ⟨r, s, s', k, k', sh, sh', hss, ha, hb, hea, heb, hx⟩
    obtain ⟨hr, hk⟩ := mem_allRefs_pv.1 ha
    obtain ⟨hr', hk'⟩ := mem_allRefs_pv.1 hb
    refine ⟨r, by omega, ?_⟩
    cases s
    · cases s'
      · exact absurd rfl hss
      · left
        refine ⟨.pv r .front k sh, mem_sideRefs.2 ⟨k, sh, by simp, by simpa using hk⟩, ?_⟩
        rw [if_neg hea, List.mem_flatMap]
        refine ⟨.pv (r + 1) .back k' sh', mem_sideRefs.2 ⟨k', sh', by simp, by simpa using hk'⟩, ?_⟩
        simpa [heb] using hx
    · cases s'
      · right
        refine ⟨.pv r .back k sh, mem_sideRefs.2 ⟨k, sh, by simp, by simpa using hk⟩, ?_⟩
        rw [if_neg hea, List.mem_flatMap]
        refine ⟨.pv (r + 1) .front k' sh', mem_sideRefs.2 ⟨k', sh', by simp, by simpa using hk'⟩, ?_⟩
        simpa [heb] using hx
      · exact absurd rfl hss

/-- Every entry of the matrix (without sky) is given by the closed form. -/
theorem vfNoSky_eq {p : ArrayParams} {g : StepGeom} {emp : SurfRef → Prop} {a b : SurfRef}
    (ha : a ∈ allRefs p) (hb : b ∈ allRefs p) :
    vfNoSky p g emp (surfIndex p a) (surfIndex p b) = entryVF p g emp a b := by
  unfold vfNoSky
  -- facts on PV-ground assignments
  have G : ∀ x ∈ asgPvGnd p g emp, x.i = surfIndex p a → x.j = surfIndex p b →
      x.v = entryVF p g emp a b := by
    intro x hx hi hj
    obtain ⟨r, s, k, sh, sh', e, z, h1, h2, h3, h4, rfl | rfl⟩ := mem_asgPvGnd.1 hx
    · obtain rfl := surfIndex_inj h1 ha hi
      obtain rfl := surfIndex_inj h2 hb hj
      simp [entryVF, h3, h4]
    · obtain rfl := surfIndex_inj h2 ha hi
      obtain rfl := surfIndex_inj h1 hb hj
      simp [entryVF, h3, h4]
  have P : ∀ x ∈ asgPvPv p g emp, x.i = surfIndex p a → x.j = surfIndex p b →
      x.v = entryVF p g emp a b := by
    intro x hx hi hj
    obtain ⟨r, s, s', k, k', sh, sh', h0, h1, h2, h3, h4, rfl | rfl⟩ := mem_asgPvPv.1 hx
    · obtain rfl := surfIndex_inj h1 ha hi
      obtain rfl := surfIndex_inj h2 hb hj
      simp [entryVF, h3, h4, h0]
    · obtain rfl := surfIndex_inj h2 ha hi
      obtain rfl := surfIndex_inj h1 hb hj
      simp only [entryVF, h3, h4, or_self, if_false, ne_eq]
      rw [if_neg (by omega), if_pos ⟨by trivial, fun h => h0 h.symm⟩]
  refine applyAsg_eq _ _ _ _ _ P ?_
  by_cases hP : ∃ x ∈ asgPvPv p g emp, x.i = surfIndex p a ∧ x.j = surfIndex p b
  · exact Or.inr hP
  · left
    refine applyAsg_eq _ _ _ _ _ G ?_
    by_cases hG : ∃ x ∈ asgPvGnd p g emp, x.i = surfIndex p a ∧ x.j = surfIndex p b
    · exact Or.inr hG
    · left
      symm
      match a, b, ha, hb with
      | .gnd _ _ _, .gnd _ _ _, _, _ => rfl
      | .pv r s k sh, .gnd sh' e z, ha, hb =>
        simp only [entryVF]
        by_contra hne
        refine hG ⟨_, mem_asgPvGnd.2 ⟨r, s, k, sh, sh', e, z, ha, hb, ?_, ?_, Or.inl rfl⟩, rfl, rfl⟩
        · intro h; simp [h] at hne
        · intro h; simp [h] at hne
      | .gnd sh' e z, .pv r s k sh, hb, ha =>
        simp only [entryVF]
        by_contra hne
        refine hG ⟨_, mem_asgPvGnd.2 ⟨r, s, k, sh, sh', e, z, ha, hb, ?_, ?_, Or.inr rfl⟩, rfl, rfl⟩
        · intro h; simp [h] at hne
        · intro h; simp [h] at hne
      | .pv r s k sh, .pv r' s' k' sh', ha, hb =>
        simp only [entryVF]
        split_ifs with h1 h2 h3
        · rfl
        · exfalso
          push Not at h1
          obtain ⟨rfl, hs⟩ := h2
          exact hP ⟨_, mem_asgPvPv.2 ⟨r, s, s', k, k', sh, sh', hs, ha, hb, h1.1, h1.2, Or.inl rfl⟩,
            rfl, rfl⟩
        · exfalso
          push Not at h1
          obtain ⟨rfl, hs⟩ := h3
          exact hP ⟨_, mem_asgPvPv.2 ⟨r', s', s, k', k, sh', sh, fun h => hs h.symm, hb, ha, h1.2,
            h1.1, Or.inr rfl⟩, rfl, rfl⟩
        · rfl

theorem vfMatrix_eq {p : ArrayParams} {g : StepGeom} {emp : SurfRef → Prop} {a b : SurfRef}
    (ha : a ∈ allRefs p) (hb : b ∈ allRefs p) :
    vfMatrix p g emp (surfIndex p a) (surfIndex p b) = entryVF p g emp a b := by
  unfold vfMatrix
  have : ¬ surfIndex p b = nTsSurfaces p := (surfIndex_lt hb).ne
  simp only [this, false_and, if_false]
  exact vfNoSky_eq ha hb

theorem surfLen_eq {p : ArrayParams} {g : StepGeom} {a : SurfRef} (ha : a ∈ allRefs p) :
    surfLen p g (surfIndex p a) = (g.coords a).length := by
  simp [surfLen, getElem?_surfIndex ha]

/-- Sums over indices are sums over surfaces. -/
theorem sum_index {p : ArrayParams} (f : ℕ → ℝ) :
    ∑ k ∈ Finset.range (nTsSurfaces p), f k = ((allRefs p).map fun a => f (surfIndex p a)).sum := by
  have h : (allRefs p).map (fun a => f (surfIndex p a))
      = (List.range (nTsSurfaces p)).map f := by
    rw [← length_allRefs]
    apply List.ext_getElem
    · simp
    · intro i h1 h2
      simp only [List.getElem_map, List.getElem_range]
      congr 1
      rw [surfIndex_eq_idxOf (List.getElem_mem _)]
      exact (nodup_allRefs p).idxOf_getElem i _
  rw [h]
  rfl

end PVF

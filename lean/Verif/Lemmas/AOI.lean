import Verif.Model.AOI
import Verif.Lemmas.Entries
import Verif.Lemmas.Trig
import Mathlib.Tactic.Linarith
import Mathlib.Tactic.Positivity
import Mathlib.Tactic.FieldSimp

/-! # Closed form of the AOI matrix and wedge integrals -/

namespace PVF

/-! ## Entries -/

/-- AOI view factor from a PV surface to a ground surface. -/
noncomputable def aoiPvGndEntry (m : AOIMethods) (p : ArrayParams) (g : StepGeom)
    (emp : SurfRef → Prop) (r : ℕ) (s : RowSide) (a b : SurfRef) (z : ℕ) : ℝ :=
  vfAoiPvGnd (m.faoi (decide (s = .back))) m.nSections (g.uVec r s) (g.coords a) r p.nRows
    (g.rot.deg > 0) (fun k => (g.row k).full) (g.coords b) (decide (s = .back)) (decide (z ≤ r))
    (emp a) (emp b)

/-- AOI view factor between PV surfaces that see each other. -/
noncomputable def aoiPvPvEntry (m : AOIMethods) (g : StepGeom)
    (emp : SurfRef → Prop) (r : ℕ) (s : RowSide) (a b : SurfRef) : ℝ :=
  vfAoiSurfSurf (m.faoi (decide (s = .back))) m.nSections (g.uVec r s) (g.coords a) (g.coords b)
    (emp a) (emp b)

/-- AOI view factor from a PV surface to the sky. -/
noncomputable def aoiSkyEntry (m : AOIMethods) (p : ArrayParams) (g : StepGeom)
    (emp : SurfRef → Prop) (skyEmp : ℕ → Prop) (r : ℕ) (s : RowSide) (a : SurfRef) : ℝ :=
  open Classical in
  let k := if (g.rot.deg > 0 ↔ s = .front) then r else r + 1
  vfAoiSurfSurf (m.faoi (decide (s = .back))) m.nSections (g.uVec r s) (g.coords a)
    (dummySky p g k) (emp a) (skyEmp k)

theorem mem_asgAoiPvGnd {m : AOIMethods} {p : ArrayParams} {g : StepGeom} {emp : SurfRef → Prop}
    {x : Asg} : x ∈ asgAoiPvGnd m p g emp ↔ ∃ r s k sh sh' e z,
      SurfRef.pv r s k sh ∈ allRefs p ∧ SurfRef.gnd sh' e z ∈ allRefs p ∧
      x = ⟨surfIndex p (.pv r s k sh), surfIndex p (.gnd sh' e z),
        aoiPvGndEntry m p g emp r s (.pv r s k sh) (.gnd sh' e z) z⟩ := by
  unfold asgAoiPvGnd
  simp only [List.mem_flatMap, List.mem_range, List.mem_append, List.mem_map]
  constructor
  · rintro ⟨r, hr, ⟨a, ha, ⟨b, hb, rfl⟩ | ⟨b, hb, rfl⟩⟩ | ⟨a, ha, ⟨b, hb, rfl⟩ | ⟨b, hb, rfl⟩⟩⟩ <;>
    · obtain ⟨k, sh, rfl, hk⟩ := mem_sideRefs.1 ha
      have hb' := gndRefsSide_subset hr hb
      obtain ⟨sh', e, z, rfl, he, hz, hzr⟩ := (mem_gndRefsSide hr).1 hb
      exact ⟨r, _, k, sh, sh', e, z, mem_allRefs_pv.2 ⟨hr, hk⟩, hb',
        by simp [aoiPvGndEntry, ← hzr]⟩
  · rintro ⟨r, s, k, sh, sh', e, z, ha, hb, rfl⟩
    obtain ⟨hr, hk⟩ := mem_allRefs_pv.1 ha
    have hb2 := mem_allRefs_gnd.1 hb
    have hm : SurfRef.gnd sh' e z ∈ gndRefsSide p (decide (z ≤ r)) r :=
      (mem_gndRefsSide hr).2 ⟨_, _, _, rfl, hb2.1, hb2.2, rfl⟩
    refine ⟨r, hr, ?_⟩
    cases s
    · left
      refine ⟨.pv r .front k sh, mem_sideRefs.2 ⟨k, sh, rfl, hk⟩, ?_⟩
      by_cases hzr : z ≤ r
      · left; exact ⟨.gnd sh' e z, by simpa [hzr] using hm, by simp [aoiPvGndEntry, hzr]⟩
      · right; exact ⟨.gnd sh' e z, by simpa [hzr] using hm, by simp [aoiPvGndEntry, hzr]⟩
    · right
      refine ⟨.pv r .back k sh, mem_sideRefs.2 ⟨k, sh, rfl, hk⟩, ?_⟩
      by_cases hzr : z ≤ r
      · left; exact ⟨.gnd sh' e z, by simpa [hzr] using hm, by simp [aoiPvGndEntry, hzr]⟩
      · right; exact ⟨.gnd sh' e z, by simpa [hzr] using hm, by simp [aoiPvGndEntry, hzr]⟩

open Classical in
theorem mem_asgAoiPvPv {m : AOIMethods} {p : ArrayParams} {g : StepGeom} {emp : SurfRef → Prop}
    {x : Asg} : x ∈ asgAoiPvPv m p g emp ↔ ∃ r s s' k k' sh sh', s ≠ s' ∧
      SurfRef.pv r s k sh ∈ allRefs p ∧ SurfRef.pv (r + 1) s' k' sh' ∈ allRefs p ∧
      (x = ⟨surfIndex p (.pv r s k sh), surfIndex p (.pv (r + 1) s' k' sh'),
          if (g.rot.deg > 0 ↔ s = .front) then 0
          else aoiPvPvEntry m g emp r s (.pv r s k sh) (.pv (r + 1) s' k' sh')⟩ ∨
       x = ⟨surfIndex p (.pv (r + 1) s' k' sh'), surfIndex p (.pv r s k sh),
          if (g.rot.deg > 0 ↔ s = .front) then 0
          else aoiPvPvEntry m g emp (r + 1) s' (.pv (r + 1) s' k' sh') (.pv r s k sh)⟩) := by
  unfold asgAoiPvPv
  simp only [List.mem_flatMap, List.mem_range, List.mem_append, List.mem_cons, List.not_mem_nil,
    or_false]
  constructor
  · rintro ⟨r, hr, ⟨a, ha, b, hb, hx⟩ | ⟨a, ha, b, hb, hx⟩⟩
    · obtain ⟨k, sh, rfl, hk⟩ := mem_sideRefs.1 ha
      obtain ⟨k', sh', rfl, hk'⟩ := mem_sideRefs.1 hb
      refine ⟨r, .front, .back, k, k', sh, sh', by simp, mem_allRefs_pv.2 ⟨by omega, hk⟩,
        mem_allRefs_pv.2 ⟨by omega, hk'⟩, ?_⟩
      simpa [aoiPvPvEntry] using hx
    · obtain ⟨k, sh, rfl, hk⟩ := mem_sideRefs.1 ha
      obtain ⟨k', sh', rfl, hk'⟩ := mem_sideRefs.1 hb
      refine ⟨r, .back, .front, k, k', sh, sh', by simp, mem_allRefs_pv.2 ⟨by omega, hk⟩,
        mem_allRefs_pv.2 ⟨by omega, hk'⟩, ?_⟩
      by_cases hg : g.rot.deg > 0
      · simpa [aoiPvPvEntry, hg] using hx
      · simpa [aoiPvPvEntry, hg] using hx
  · rintro ⟨r, s, s', k, k', sh, sh', hss, ha, hb, hx⟩
    obtain ⟨hr, hk⟩ := mem_allRefs_pv.1 ha
    obtain ⟨hr', hk'⟩ := mem_allRefs_pv.1 hb
    refine ⟨r, by omega, ?_⟩
    cases s
    · cases s'
      · exact absurd rfl hss
      · left
        refine ⟨.pv r .front k sh, mem_sideRefs.2 ⟨k, sh, rfl, hk⟩, .pv (r + 1) .back k' sh',
          mem_sideRefs.2 ⟨k', sh', rfl, hk'⟩, ?_⟩
        simpa [aoiPvPvEntry] using hx
    · cases s'
      · right
        refine ⟨.pv r .back k sh, mem_sideRefs.2 ⟨k, sh, rfl, hk⟩, .pv (r + 1) .front k' sh',
          mem_sideRefs.2 ⟨k', sh', rfl, hk'⟩, ?_⟩
        by_cases hg : g.rot.deg > 0
        · simpa [aoiPvPvEntry, hg] using hx
        · simpa [aoiPvPvEntry, hg] using hx
      · exact absurd rfl hss

theorem mem_asgAoiSky {m : AOIMethods} {p : ArrayParams} {g : StepGeom} {emp : SurfRef → Prop}
    {skyEmp : ℕ → Prop} {x : Asg} : x ∈ asgAoiSky m p g emp skyEmp ↔ ∃ r s k sh,
      SurfRef.pv r s k sh ∈ allRefs p ∧
      x = ⟨surfIndex p (.pv r s k sh), nTsSurfaces p,
        aoiSkyEntry m p g emp skyEmp r s (.pv r s k sh)⟩ := by
  unfold asgAoiSky
  simp only [List.mem_flatMap, List.mem_range, List.mem_append, List.mem_map]
  constructor
  · rintro ⟨r, hr, ⟨a, ha, rfl⟩ | ⟨a, ha, rfl⟩⟩ <;>
    · obtain ⟨k, sh, rfl, hk⟩ := mem_sideRefs.1 ha
      refine ⟨r, _, k, sh, mem_allRefs_pv.2 ⟨hr, hk⟩, ?_⟩
      by_cases hg : g.rot.deg > 0 <;> simp [aoiSkyEntry, hg]
  · rintro ⟨r, s, k, sh, ha, rfl⟩
    obtain ⟨hr, hk⟩ := mem_allRefs_pv.1 ha
    refine ⟨r, hr, ?_⟩
    cases s
    · left
      refine ⟨.pv r .front k sh, mem_sideRefs.2 ⟨k, sh, rfl, hk⟩, ?_⟩
      by_cases hg : g.rot.deg > 0 <;> simp [aoiSkyEntry, hg]
    · right
      refine ⟨.pv r .back k sh, mem_sideRefs.2 ⟨k, sh, rfl, hk⟩, ?_⟩
      by_cases hg : g.rot.deg > 0 <;> simp [aoiSkyEntry, hg]

/-- Closed form of an entry of the AOI matrix (without sky column). -/
noncomputable def aoiEntry (m : AOIMethods) (p : ArrayParams) (g : StepGeom)
    (emp : SurfRef → Prop) : SurfRef → SurfRef → ℝ
  | a@(.gnd _ _ _), b => entryVF p g emp a b
  | a@(.pv r s _ _), b@(.gnd _ _ z) => aoiPvGndEntry m p g emp r s a b z
  | a@(.pv r s _ _), b@(.pv r' s' _ _) =>
    open Classical in
    if s ≠ s' ∧ ((r' = r + 1 ∧ ¬ (g.rot.deg > 0 ↔ s = .front)) ∨
      (r = r' + 1 ∧ (g.rot.deg > 0 ↔ s = .front))) then aoiPvPvEntry m g emp r s a b else 0

theorem asgAoi_value {m : AOIMethods} {p : ArrayParams} {g : StepGeom} {emp : SurfRef → Prop}
    {skyEmp : ℕ → Prop} {a b : SurfRef} (ha : a ∈ allRefs p) (hb : b ∈ allRefs p) {x : Asg}
    (hx : x ∈ asgAoi m p g emp skyEmp) (hi : x.i = surfIndex p a) (hj : x.j = surfIndex p b) :
    x.v = aoiEntry m p g emp a b := by
  unfold asgAoi at hx
  rw [List.mem_append, List.mem_append] at hx
  rcases hx with (hx | hx) | hx
  · obtain ⟨r, s, k, sh, sh', e, z, h1, h2, rfl⟩ := mem_asgAoiPvGnd.1 hx
    obtain rfl := surfIndex_inj h1 ha hi
    obtain rfl := surfIndex_inj h2 hb hj
    rfl
  · obtain ⟨r, s, s', k, k', sh, sh', h0, h1, h2, rfl | rfl⟩ := mem_asgAoiPvPv.1 hx
    · obtain rfl := surfIndex_inj h1 ha hi
      obtain rfl := surfIndex_inj h2 hb hj
      simp only [aoiEntry]
      by_cases hc : (g.rot.deg > 0 ↔ s = .front)
      · rw [if_pos hc, if_neg (by
          rintro ⟨_, ⟨_, h⟩ | ⟨h, _⟩⟩
          · exact h hc
          · omega)]
      · rw [if_neg hc, if_pos ⟨h0, Or.inl ⟨by trivial, hc⟩⟩]
    · obtain rfl := surfIndex_inj h2 ha hi
      obtain rfl := surfIndex_inj h1 hb hj
      have hflip : (g.rot.deg > 0 ↔ s' = .front) ↔ ¬ (g.rot.deg > 0 ↔ s = .front) := by
        cases s <;> cases s' <;> simp at h0 ⊢
      simp only [aoiEntry]
      by_cases hc : (g.rot.deg > 0 ↔ s = .front)
      · rw [if_pos hc, if_neg (by
          rintro ⟨_, ⟨h, _⟩ | ⟨_, h⟩⟩
          · omega
          · exact hflip.1 h hc)]
      · rw [if_neg hc, if_pos ⟨fun h => h0 h.symm, Or.inr ⟨by trivial, hflip.2 hc⟩⟩]
  · obtain ⟨r, s, k, sh, h1, rfl⟩ := mem_asgAoiSky.1 hx
    exact absurd hj.symm (surfIndex_lt hb).ne

theorem asgAoi_entry {m : AOIMethods} {p : ArrayParams} {g : StepGeom} {emp : SurfRef → Prop}
    {skyEmp : ℕ → Prop} {a b : SurfRef} (ha : a ∈ allRefs p) (hb : b ∈ allRefs p) :
    applyAsg (vfMatrix p g emp) (asgAoi m p g emp skyEmp) (surfIndex p a) (surfIndex p b)
      = aoiEntry m p g emp a b := by
  refine applyAsg_eq _ _ _ _ _ (fun x hx hi hj => asgAoi_value ha hb hx hi hj) ?_
  rw [vfMatrix_eq ha hb]
  match a, b, ha, hb with
  | .gnd _ _ _, _, _, _ => left; rfl
  | .pv r s k sh, .gnd sh' e z, ha, hb =>
    exact Or.inr ⟨_, List.mem_append_left _ (List.mem_append_left _
      (mem_asgAoiPvGnd.2 ⟨r, s, k, sh, sh', e, z, ha, hb, rfl⟩)), rfl, rfl⟩
  | .pv r s k sh, .pv r' s' k' sh', ha, hb =>
    by_cases hn : s ≠ s' ∧ (r' = r + 1 ∨ r = r' + 1)
    · right
      obtain ⟨hs, rfl | rfl⟩ := hn
      · exact ⟨_, List.mem_append_left _ (List.mem_append_right _
          (mem_asgAoiPvPv.2 ⟨r, s, s', k, k', sh, sh', hs, ha, hb, Or.inl rfl⟩)), rfl, rfl⟩
      · exact ⟨_, List.mem_append_left _ (List.mem_append_right _
          (mem_asgAoiPvPv.2 ⟨r', s', s, k', k, sh', sh, hs.symm, hb, ha, Or.inr rfl⟩)), rfl, rfl⟩
    · left
      simp only [entryVF, aoiEntry]
      rw [if_neg (c := s ≠ s' ∧ _) (by
        rintro ⟨h1, ⟨h2, _⟩ | ⟨h2, _⟩⟩
        · exact hn ⟨h1, Or.inl h2⟩
        · exact hn ⟨h1, Or.inr h2⟩)]
      split_ifs with h1 h2 h3
      · rfl
      · exact absurd ⟨h2.2, Or.inl h2.1⟩ hn
      · exact absurd ⟨h3.2, Or.inr h3.1⟩ hn
      · rfl

theorem asgAoi_sky {m : AOIMethods} {p : ArrayParams} {g : StepGeom} {emp : SurfRef → Prop}
    {skyEmp : ℕ → Prop} {r k : ℕ} {s : RowSide} {sh : Bool} (ha : SurfRef.pv r s k sh ∈ allRefs p) :
    applyAsg (vfMatrix p g emp) (asgAoi m p g emp skyEmp) (surfIndex p (.pv r s k sh)) (nTsSurfaces p)
      = aoiSkyEntry m p g emp skyEmp r s (.pv r s k sh) := by
  refine applyAsg_eq _ _ _ _ _ (fun x hx hi hj => ?_) (Or.inr ?_)
  · unfold asgAoi at hx
    rw [List.mem_append, List.mem_append] at hx
    rcases hx with (hx | hx) | hx
    · obtain ⟨r, s, k, sh, sh', e, z, h1, h2, rfl⟩ := mem_asgAoiPvGnd.1 hx
      exact absurd hj (surfIndex_lt h2).ne
    · obtain ⟨r, s, s', k, k', sh, sh', h0, h1, h2, rfl | rfl⟩ := mem_asgAoiPvPv.1 hx
      · exact absurd hj (surfIndex_lt h2).ne
      · exact absurd hj (surfIndex_lt h1).ne
    · obtain ⟨r, s, k, sh, h1, rfl⟩ := mem_asgAoiSky.1 hx
      have := surfIndex_inj h1 ha hi
      cases this
      rfl
  · exact ⟨_, List.mem_append_right _ (mem_asgAoiSky.2 ⟨r, s, k, sh, ha, rfl⟩), rfl, rfl⟩

/-- Rows of ground surfaces (and of the sky) are not touched. -/
theorem asgAoi_gnd {m : AOIMethods} {p : ArrayParams} {g : StepGeom} {emp : SurfRef → Prop}
    {skyEmp : ℕ → Prop} {sh : Bool} {e z : ℕ} (ha : SurfRef.gnd sh e z ∈ allRefs p) (j : ℕ) :
    applyAsg (vfMatrix p g emp) (asgAoi m p g emp skyEmp) (surfIndex p (.gnd sh e z)) j
      = vfMatrix p g emp (surfIndex p (.gnd sh e z)) j := by
  refine applyAsg_eq _ _ _ _ _ (fun x hx hi hj => ?_) (Or.inl rfl)
  exfalso
  unfold asgAoi at hx
  rw [List.mem_append, List.mem_append] at hx
  rcases hx with (hx | hx) | hx
  · obtain ⟨r, s, k, sh, sh', e, z, h1, h2, rfl⟩ := mem_asgAoiPvGnd.1 hx
    have := surfIndex_inj h1 ha hi; cases this
  · obtain ⟨r, s, s', k, k', sh, sh', h0, h1, h2, rfl | rfl⟩ := mem_asgAoiPvPv.1 hx
    · have := surfIndex_inj h1 ha hi; cases this
    · have := surfIndex_inj h2 ha hi; cases this
  · obtain ⟨r, s, k, sh, h1, rfl⟩ := mem_asgAoiSky.1 hx
    have := surfIndex_inj h1 ha hi; cases this

end PVF

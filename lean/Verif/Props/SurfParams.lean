import Verif.Spec.SurfParams
import Verif.Props.Shapely
import Verif.Lemmas.Cut

/-!
# Parameters when surfaces are cut, removed or merged
-/

namespace PVF

theorem blank_part (s : OSurf) (l : Line) : Blank s (s.part l) :=
  ⟨rfl, rfl, rfl, rfl, fun k hk => by simp [OSurf.part, newSurf, OSurf.getParam, hk],
    fun k hk => by simp [OSurf.part, newSurf, OSurf.getParam, hk]⟩

theorem cutLoopO_lines (q : Pt) (l : List OSurf) :
    (cutLoopO q l).map (fun r => (r.1.map OSurf.line, r.2.line)) = cutLoop q (l.map OSurf.line) := by
  induction l with
  | nil => rfl
  | cons s l ih =>
    by_cases h : containsPt s.line q ∧ distPt s.line.b1 q > TOL ∧ distPt s.line.b2 q > TOL
    · simp only [cutLoopO, cutLoop, List.map_cons, if_pos h, Option.map_some]
      rfl
    · simp only [cutLoopO, cutLoop, List.map_cons, if_neg h, ← ih]
      cases cutLoopO q l <;> rfl

/-- The lines of the surfaces are those of the geometric model, so that what is proved about lengths
holds for surfaces with parameters. -/
theorem C70_lines (near : Line → Line → Prop) (l : List OSurf) (q : Pt) (v : Line) (sh : Bool) :
    (cutAtPointO l q).map OSurf.line = cutAtPoint (l.map OSurf.line) q ∧
    (removeLinestringO near l v).map OSurf.line = removeLinestring near (l.map OSurf.line) v ∧
    (mergeSurfacesO sh l).map OSurf.line = mergeSurfaces (l.map OSurf.line) := by
  refine ⟨?_, ?_, ?_⟩
  · have h := cutLoopO_lines q l
    unfold cutAtPointO cutAtPoint
    rw [← h]
    rcases cutLoopO q l with _ | ⟨m, s⟩
    · rfl
    · simp
  · induction l with
    | nil => rfl
    | cons s l ih =>
      simp only [removeLinestringO, removeLinestring, List.flatMap_cons, List.map_append,
        List.map_cons] at ih ⊢
      rw [ih]
      congr 1
      by_cases h : near s.line v
      · simp only [if_pos h, List.map_map]
        exact List.map_id _
      · simp [if_neg h]
  · rcases l with _ | ⟨s, _ | ⟨t, rest⟩⟩
    · rfl
    · rfl
    · simp only [mergeSurfacesO, List.map_map]
      exact List.map_id _

theorem cutLoopO_none {q : Pt} {l : List OSurf} : cutLoopO q l = none ↔ ∀ s ∈ l, ¬ CutsAt q s := by
  induction l with
  | nil => simp [cutLoopO]
  | cons s l ih =>
    by_cases h : containsPt s.line q ∧ distPt s.line.b1 q > TOL ∧ distPt s.line.b2 q > TOL
    · simp only [cutLoopO, if_pos h, List.mem_cons, forall_eq_or_imp]
      exact ⟨fun e => by simp at e, fun e => absurd h e.1⟩
    · simp only [cutLoopO, if_neg h, List.mem_cons, forall_eq_or_imp, Option.map_eq_none_iff, ih]
      exact ⟨fun e => ⟨h, e⟩, fun e => e.2⟩

theorem cutLoopO_some {q : Pt} {l m : List OSurf} {r : OSurf} (h : cutLoopO q l = some (m, r)) :
    ∃ x s y, l = x ++ s :: y ∧ (∀ s' ∈ x, ¬ CutsAt q s') ∧ CutsAt q s ∧
      m = x ++ s.part ⟨s.line.b1, q⟩ :: y ∧ r = s.part ⟨q, s.line.b2⟩ := by
  induction l generalizing m r with
  | nil => simp [cutLoopO] at h
  | cons s l ih =>
    by_cases hc : containsPt s.line q ∧ distPt s.line.b1 q > TOL ∧ distPt s.line.b2 q > TOL
    · simp only [cutLoopO, if_pos hc, Option.some.injEq, Prod.mk.injEq] at h
      exact ⟨[], s, l, rfl, by simp, hc, h.1.symm, h.2.symm⟩
    · simp only [cutLoopO, if_neg hc, Option.map_eq_some_iff, Prod.mk.injEq] at h
      obtain ⟨⟨m', r'⟩, h1, rfl, rfl⟩ := h
      obtain ⟨x, s', y, e1, e2, e3, e4, e5⟩ := ih h1
      refine ⟨s :: x, s', y, by rw [e1]; rfl, ?_, e3, by rw [e4]; rfl, e5⟩
      intro s'' h''
      rcases List.mem_cons.1 h'' with rfl | h''
      · exact hc
      · exact e2 _ h''

/-- Cutting at a point: if the point is on no surface (or near an end) nothing changes.  Otherwise the
first surface that it is on is replaced by its part before the point, the part behind the point is
put at the end, both without index and parameter values, and all other surfaces stay as they are. -/
theorem C70_cut (l : List OSurf) (q : Pt) :
    ((∀ s ∈ l, ¬ CutsAt q s) → cutAtPointO l q = l) ∧
    ((∃ s ∈ l, CutsAt q s) → ∃ x s y r1 r2, l = x ++ s :: y ∧ (∀ s' ∈ x, ¬ CutsAt q s') ∧ CutsAt q s ∧
      cutAtPointO l q = x ++ r1 :: y ++ [r2] ∧ Blank s r1 ∧ Blank s r2 ∧
      r1.line = ⟨s.line.b1, q⟩ ∧ r2.line = ⟨q, s.line.b2⟩) := by
  refine ⟨fun h => ?_, fun h => ?_⟩
  · unfold cutAtPointO
    rw [cutLoopO_none.2 h]
  · rcases hc : cutLoopO q l with _ | ⟨m, r⟩
    · obtain ⟨s, hs, hq⟩ := h
      exact absurd hq (cutLoopO_none.1 hc s hs)
    · obtain ⟨x, s, y, e1, e2, e3, e4, e5⟩ := cutLoopO_some hc
      refine ⟨x, s, y, _, _, e1, e2, e3, ?_, blank_part s ⟨s.line.b1, q⟩, blank_part s ⟨q, s.line.b2⟩,
        rfl, rfl⟩
      unfold cutAtPointO
      rw [hc, e4, e5]

/-- Removing a line string: surfaces away from it stay as they are; of the others the remaining parts
are made anew, without index and parameter values, even if nothing was removed. -/
theorem C70_remove (near : Line → Line → Prop) (l : List OSurf) (v : Line) (r : OSurf) :
    r ∈ removeLinestringO near l v ↔ (r ∈ l ∧ ¬ near r.line v) ∨
      ∃ s ∈ l, near s.line v ∧ Blank s r ∧ r.line ∈ difference s.line v := by
  unfold removeLinestringO
  rw [List.mem_flatMap]
  constructor
  · rintro ⟨s, hs, hr⟩
    by_cases h : near s.line v
    · rw [if_pos h, List.mem_map] at hr
      obtain ⟨d, hd, rfl⟩ := hr
      exact Or.inr ⟨s, hs, h, blank_part s d, hd⟩
    · rw [if_neg h, List.mem_singleton] at hr
      subst hr
      exact Or.inl ⟨hs, h⟩
  · rintro (⟨h1, h2⟩ | ⟨s, hs, h, b, hd⟩)
    · exact ⟨r, h1, by rw [if_neg h2]; simp⟩
    · refine ⟨s, hs, ?_⟩
      rw [if_pos h, List.mem_map]
      refine ⟨r.line, hd, ?_⟩
      obtain ⟨rl, rn, rm, rp, ri, rs⟩ := r
      obtain ⟨b1, b2, b3, b4, b5, b6⟩ := b
      simp only at b1 b2 b3 b4
      subst b1 b2 b3 b4
      simp only [OSurf.part, newSurf, OSurf.mk.injEq, true_and, and_true]
      funext k
      by_cases hk : k ∈ s.names
      · rw [if_pos hk]; exact (b5 k hk).symm
      · rw [if_neg hk]; exact (b6 k hk).symm

/-- Merging several surfaces makes one without index and parameter values, with the names of the
first. -/
theorem C70_merge (s t : OSurf) (rest : List OSurf) :
    ∃ r, mergeSurfacesO s.shaded (s :: t :: rest) = [r] ∧ Blank s r := by
  refine ⟨_, rfl, blank_part s _⟩

theorem foldl_none (k : String) (l : List OSurf) :
    l.foldl (fun v s => v.bind fun v => (s.getParam k).bind fun x => x.map fun x =>
      v + s.line.length * x) (none : Option ℝ) = none := by
  induction l with
  | nil => rfl
  | cons s l ih => exact ih

theorem collWWO_none {k : String} {l : List OSurf} {s : OSurf} (hs : s ∈ l)
    (h : s.getParam k = none ∨ s.getParam k = some none) : collWWO k l = none := by
  unfold collWWO
  generalize (some 0 : Option ℝ) = v
  induction l generalizing v with
  | nil => simp at hs
  | cons a l ih =>
    rw [List.foldl_cons]
    rcases List.mem_cons.1 hs with rfl | hs
    · have e : (v.bind fun v => (s.getParam k).bind fun x => x.map fun x => v + s.line.length * x)
          = none := by
        cases v with
        | none => rfl
        | some v => rcases h with h | h <;> simp [h]
      rw [e, foldl_none]
    · exact ih hs _

/-- A surface without values spoils every weighted parameter of its collection: the call raises an
error, whatever the values of the other surfaces.  So it is after a cut that cuts something, after
removing a line string that leaves a part of a surface near it, and after merging several surfaces. -/
theorem C70_weighted (near : Line → Line → Prop) (l : List OSurf) (q : Pt) (v : Line) (k : String) :
    ((∃ s ∈ l, CutsAt q s) → collWWO k (cutAtPointO l q) = none) ∧
    ((∃ s ∈ l, near s.line v ∧ difference s.line v ≠ []) →
      collWWO k (removeLinestringO near l v) = none) ∧
    ∀ sh, 1 < l.length → collWWO k (mergeSurfacesO sh l) = none := by
  have hb : ∀ {s r : OSurf}, Blank s r → r.getParam k = none ∨ r.getParam k = some none := by
    intro s r b
    by_cases hk : k ∈ s.names
    · exact Or.inr (b.named k hk)
    · exact Or.inl (b.other k hk)
  refine ⟨fun h => ?_, fun h => ?_, fun sh h => ?_⟩
  · obtain ⟨x, s, y, r1, r2, -, -, -, e, b, -⟩ := (C70_cut l q).2 h
    exact collWWO_none (s := r1) (by rw [e]; simp) (hb b)
  · obtain ⟨s, hs, hn, hd⟩ := h
    obtain ⟨d, hd⟩ := List.exists_mem_of_ne_nil _ hd
    exact collWWO_none (s := s.part d)
      ((C70_remove near l v _).2 (Or.inr ⟨s, hs, hn, blank_part s d, hd⟩)) (hb (blank_part s d))
  · rcases l with _ | ⟨s, _ | ⟨t, rest⟩⟩
    · simp at h
    · simp at h
    · have e : ∃ d, mergeSurfacesO sh (s :: t :: rest) = [newSurf d s.normal sh s.names] := ⟨_, rfl⟩
      obtain ⟨d, e⟩ := e
      rw [e]
      refine collWWO_none (s := newSurf d s.normal sh s.names) (by simp) ?_
      by_cases hk : k ∈ s.names
      · right; simp [newSurf, OSurf.getParam, hk]
      · left; simp [newSurf, OSurf.getParam, hk]

/-- Setting a parameter of a surface changes that parameter and nothing else. -/
theorem C70_set_one (s : OSurf) (k k' : String) (x : ℝ) :
    (s.update k x).getParam k = some (some x) ∧
    (k' ≠ k → (s.update k x).getParam k' = s.getParam k') ∧
    (s.update k x).line = s.line ∧ (s.update k x).normal = s.normal ∧
    (s.update k x).names = s.names ∧ (s.update k x).index = s.index ∧
    (s.update k x).shaded = s.shaded := by
  refine ⟨by simp [OSurf.update, OSurf.getParam], fun h => ?_, rfl, rfl, rfl, rfl, rfl⟩
  simp [OSurf.update, OSurf.getParam, h]

/-- Setting a parameter on all surfaces makes it readable again. -/
theorem C70_set_again (l : List OSurf) (k : String) (x : ℝ) :
    collWWO k (l.map fun s => s.update k x) = some (x * totalLength (l.map OSurf.line)) := by
  have key : ∀ v : ℝ, (l.map fun s => s.update k x).foldl
      (fun v s => v.bind fun v => (s.getParam k).bind fun x => x.map fun x =>
        v + s.line.length * x) (some v) = some (v + x * totalLength (l.map OSurf.line)) := by
    induction l with
    | nil => intro v; simp [totalLength]
    | cons s l ih =>
      intro v
      have e : ((s.update k x).getParam k) = some (some x) := by
        simp [OSurf.update, OSurf.getParam]
      have e' : (s.update k x).line = s.line := rfl
      simp only [List.map_cons, List.foldl_cons, Option.bind_some, e, e', Option.map_some, ih,
        totalLength, List.sum_cons]
      congr 1
      ring
  unfold collWWO
  rw [key 0]
  simp

/-- The shadow cast on a segment of a row made by `at` has no parameters at all, because the
collections made by `at` have no parameter names: every key is a `KeyError`, and weighted parameters of
the shaded collection raise an error from then on. -/
theorem C70_cast (near : Line → Line → Prop) (inter : Intersect)
    (ti ts : List (Line × Pt × List String × (String → Option (Option ℝ)) × ℕ)) (n : Pt) (v w : Line)
    (h : inter ((collAt false ti).surfaces.map OSurf.line) v = [w]) :
    ∃ ill sh r, castShadowO near inter (collAt false ti) (collAt true ts) n v = some (ill, sh) ∧
      sh.surfaces = (collAt true ts).surfaces ++ [r] ∧ r.line = w ∧ r.shaded = true ∧
      r.index = none ∧ ∀ k, r.getParam k = none ∧ collWWO k sh.surfaces = none := by
  have e : castShadowO near inter (collAt false ti) (collAt true ts) n v
      = some ({ collAt false ti with surfaces := removeLinestringO near (collAt false ti).surfaces w },
        { collAt true ts with
          surfaces := (collAt true ts).surfaces ++ [newSurf w n true []] }) := by
    unfold castShadowO
    rw [h]
    rfl
  refine ⟨_, _, _, e, rfl, rfl, rfl, rfl, fun k => ?_⟩
  have hk : (newSurf w n true []).getParam k = none := by simp [newSurf, OSurf.getParam]
  exact ⟨hk, collWWO_none (by simp) (Or.inl hk)⟩

/-- A surface 2 m long with an incident irradiance of 5 W/m2. -/
noncomputable def demoSurf : OSurf :=
  ⟨⟨⟨0, 0⟩, ⟨2, 0⟩⟩, ⟨0, 1⟩, ["qinc"], fun k => if k = "qinc" then some (some 5) else none, some 3, false⟩

/-- Its weighted irradiance is 10 W/m; after a cut in the middle it is an error. -/
theorem C70_demo : collWWO "qinc" [demoSurf] = some 10 ∧
    collWWO "qinc" (cutAtPointO [demoSurf] ⟨1, 0⟩) = none := by
  constructor
  · have hl : demoSurf.line.length = 2 := by
      rw [demoSurf, Line.length_ground rfl]; norm_num
    simp only [collWWO, List.foldl_cons, List.foldl_nil, Option.bind_some, hl]
    have e : demoSurf.getParam "qinc" = some (some 5) := by simp [demoSurf, OSurf.getParam]
    rw [e]
    norm_num
  · refine (C70_weighted (fun _ _ => False) [demoSurf] ⟨1, 0⟩ ⟨⟨0, 0⟩, ⟨0, 0⟩⟩ "qinc").1
      ⟨demoSurf, by simp, ?_, ?_, ?_⟩
    · norm_num [containsPt, segDist, demoSurf, distPt, clip, TOL]
    · norm_num [demoSurf, distPt, TOL]
    · norm_num [demoSurf, distPt, TOL]

end PVF

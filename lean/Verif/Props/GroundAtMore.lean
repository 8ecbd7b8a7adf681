import Verif.Props.GroundAt

/-!
# C42, C43, C50: illuminated surfaces, arrays, parameters, findings
-/

namespace PVF
noncomputable section

/-! ## Illuminated surfaces -/

/-- At this time step every illuminated ground surface is a point or longer than the tolerance. -/
def GroundIn.NoTinyIllum (g : GroundIn) : Prop :=
  ∀ i ≤ g.nRows, ∀ s ∈ cutSurfaces (g.illumEl i) g.cuts, s.length = 0 ∨ TOL < s.length

theorem illumEl_brk (g : GroundIn) {i : ℕ} (hi : i ≤ g.nRows) :
    (g.illumEl i).b1.x = g.brk (2 * i) ∧ (g.illumEl i).b2.x = g.brk (2 * i + 1) := by
  have h := g.el_eq (k := 2 * i) (by omega)
  have e : g.el (2 * i) = g.illumEl i := by
    unfold GroundIn.el
    rw [if_pos (by omega)]
    congr 1
    omega
  rw [e] at h
  rw [h]
  exact ⟨rfl, rfl⟩

theorem illumEl_le {g : GroundIn} (ho : g.Ordered) {i : ℕ} (hi : i ≤ g.nRows) :
    (g.illumEl i).b1.x ≤ (g.illumEl i).b2.x := by
  obtain ⟨h1, h2⟩ := illumEl_brk g hi
  rw [h1, h2]
  exact GroundIn.brk_mono ho (by omega)

theorem illumEl_lt {g : GroundIn} (ho : g.Ordered) {i j : ℕ} (hij : i < j) (hj : j ≤ g.nRows) :
    (g.illumEl i).b2.x ≤ (g.illumEl j).b1.x := by
  rw [(illumEl_brk g (hij.le.trans hj)).2, (illumEl_brk g hj).1]
  exact GroundIn.brk_le ho (by omega) (by omega)

theorem illumEl_length {g : GroundIn} (ho : g.Ordered) {i : ℕ} (hi : i ≤ g.nRows) :
    (g.illumEl i).length = (g.illumEl i).b2.x - (g.illumEl i).b1.x := ground_length (illumEl_le ho hi)

theorem illum_chain {g : GroundIn} (ho : g.Ordered) (hc : g.cuts ≠ []) (ht : g.NoTinyIllum)
    (q : ℕ → ℕ → ℝ) {i : ℕ} (hi : i ≤ g.nRows) :
    GChain (g.illumEl i).b1.x (g.illumEl i).b2.x
      (nonPointSurfaces (g.illumEl i) g.cuts (q i)) := by
  rw [nonPointSurfaces_eq _ hc]
  exact (npPieces_chain (illumEl_inGround g i) (illumEl_le ho hi) g.cuts (q i) 0 (ht i hi)).1

theorem illum_point {g : GroundIn} (ho : g.Ordered) (hc : g.cuts ≠ []) (ht : g.NoTinyIllum)
    {i : ℕ} (hi : i ≤ g.nRows) (hn : ¬ TOL < (g.illumEl i).length) :
    (g.illumEl i).b1.x = (g.illumEl i).b2.x := by
  have h1 := illum_chain ho hc ht (fun _ _ => 0) hi
  by_contra hne
  have hlt : (g.illumEl i).b1.x < (g.illumEl i).b2.x := lt_of_le_of_ne (illumEl_le ho hi) hne
  obtain ⟨s, hs, -⟩ := h1.head hlt
  have hlen : TOL < s.line.length := by
    have := (List.mem_filter.1 hs).2
    simpa using this
  obtain ⟨k1, k2, k3, k4, k5⟩ := h1.mem hs
  rw [Line.length_ground (by rw [k4, k5]), abs_of_pos (by linarith)] at hlen
  rw [illumEl_length ho hi] at hn
  linarith

/-- What the list of illuminated surfaces has to be: surfaces on the ground, from left to right
without overlap, covering exactly the illuminated elements that are not points, with the length of
the ground that is not shaded as total length. -/
structure GroundIn.IllumOk (g : GroundIn) (out : List GSurf) : Prop where
  on_ground : ∀ s ∈ out, s.line.b1.x < s.line.b2.x ∧ s.line.b1.y = Y_GROUND ∧ s.line.b2.y = Y_GROUND
  left_to_right : out.Pairwise fun s t => s.line.b2.x ≤ t.line.b1.x
  covers : ∀ x, (∃ s ∈ out, s.line.b1.x ≤ x ∧ x ≤ s.line.b2.x) ↔
    ∃ i ≤ g.nRows, (g.illumEl i).b1.x < (g.illumEl i).b2.x ∧
      (g.illumEl i).b1.x ≤ x ∧ x ≤ (g.illumEl i).b2.x
  total : (out.map fun s => s.line.length).sum = g.length - g.shadedLength

theorem illumOk_flat {g : GroundIn} (ho : g.Ordered) (f : ℕ → List GSurf)
    (hf : ∀ i ≤ g.nRows, GChain (g.illumEl i).b1.x (g.illumEl i).b2.x (f i)) :
    g.IllumOk ((List.range (g.nRows + 1)).flatMap f) where
  on_ground := by
    intro s hs
    obtain ⟨i, hi, hs⟩ := List.mem_flatMap.1 hs
    obtain ⟨-, k2, -, k4, k5⟩ := (hf i (by have := List.mem_range.1 hi; omega)).mem hs
    exact ⟨k2, k4, k5⟩
  left_to_right := by
    rw [List.pairwise_flatMap]
    refine ⟨fun i hi => (hf i (by have := List.mem_range.1 hi; omega)).pairwise, ?_⟩
    refine List.pairwise_lt_range.imp_of_mem ?_
    intro i j hi hj hij s hs t ht'
    have hi' := List.mem_range.1 hi
    have hj' := List.mem_range.1 hj
    obtain ⟨-, -, k3, -⟩ := (hf i (by omega)).mem hs
    obtain ⟨m1, -⟩ := (hf j (by omega)).mem ht'
    exact k3.trans ((illumEl_lt ho hij (by omega)).trans m1)
  covers := by
    intro x
    constructor
    · rintro ⟨s, hs, h1, h2⟩
      obtain ⟨i, hi, hs⟩ := List.mem_flatMap.1 hs
      have hi' : i ≤ g.nRows := by have := List.mem_range.1 hi; omega
      obtain ⟨k1, k2, k3, -⟩ := (hf i hi').mem hs
      exact ⟨i, hi', by linarith, k1.trans h1, h2.trans k3⟩
    · rintro ⟨i, hi, hl, h1, h2⟩
      obtain ⟨s, hs, h3⟩ := (hf i hi).cover hl h1 h2
      exact ⟨s, List.mem_flatMap.2 ⟨i, List.mem_range.2 (by omega), hs⟩, h3⟩
  total := by
    have : ∀ l : List ℕ, (∀ i ∈ l, i ≤ g.nRows) →
        ((l.flatMap f).map fun s => s.line.length).sum
          = (l.map fun i => (g.illumEl i).length).sum := by
      intro l hl
      induction l with
      | nil => rfl
      | cons i l ih =>
        have hi := hl i List.mem_cons_self
        rw [List.flatMap_cons, List.map_append, List.sum_append, (hf i hi).total,
          ih fun j hj => hl j (List.mem_cons_of_mem _ hj), List.map_cons, List.sum_cons,
          illumEl_length ho hi]
    rw [this _ fun i hi => by have := List.mem_range.1 hi; omega]
    unfold GroundIn.length GroundIn.shadedLength
    ring

/-- C42 (illuminated surfaces).  With or without cut points, the illuminated surfaces made for a time
step lie on the ground, are ordered from left to right, cover exactly the illuminated elements and
have the length of the ground without the shadows as total length. -/
theorem C42_illum (g : GroundIn) (withCut : Bool) (q : ℕ → ℕ → ℝ) (qAll : ℝ)
    (ho : g.Ordered) (hc : g.cuts ≠ []) (ht : g.NoTinyIllum) :
    g.IllumOk (g.illumAt withCut q qAll) := by
  unfold GroundIn.illumAt
  split_ifs
  · exact illumOk_flat ho _ fun i hi => illum_chain ho hc ht q hi
  · have h := illumOk_flat ho (fun i => open Classical in
      if TOL < (g.illumEl i).length then [(⟨g.illumEl i, qAll⟩ : GSurf)] else []) (by
      intro i hi
      have hT := TOL_pos
      split_ifs with hl
      · refine ⟨rfl, rfl, ?_, rfl⟩
        rw [illumEl_length ho hi] at hl
        change (g.illumEl i).b1.x < (g.illumEl i).b2.x
        linarith
      · exact illum_point ho hc ht hi hl)
    have e : ∀ l : List ℕ, ((l.filter fun i => open Classical in decide ((g.illumEl i).length > TOL)).map
        fun i => (⟨g.illumEl i, qAll⟩ : GSurf)) = l.flatMap (fun i => open Classical in
          if TOL < (g.illumEl i).length then [(⟨g.illumEl i, qAll⟩ : GSurf)] else []) := by
      intro l
      induction l with
      | nil => rfl
      | cons i l ih =>
        rw [List.filter_cons, List.flatMap_cons, ← ih]
        by_cases hl : TOL < (g.illumEl i).length
        · rw [if_pos (by simpa using hl), if_pos hl]; rfl
        · rw [if_neg (by simpa using hl), if_neg hl]; rfl
    rw [e]
    exact h

/-! ## Arrays -/

/-- C42 for arrays: at a time step with the sun not on the horizon and not in the plane of the rows,
with the shading between rows either above the tolerance or absent and without tiny shadow
surfaces, the shaded surfaces are as they should be for all options, and cut points inside them are
boundaries between merged shadows. -/
theorem C42_array (p : ArrayParams) (u : StepIn) (hw : 0 < p.width) (hgcr : 0 < p.gcr)
    (hn : 0 < p.nRows) (merge withCut : Bool) (q : ℕ → ℕ → ℝ) (qAll : ℝ) :
    let g := fitStep p u
    g.sun.y ≠ 0 → frontDotSun g.rot.deg g.sun ≠ 0 →
    ShadeOk p g.rot.deg g.sun → g.ground.NoTinyShadow →
    g.ground.ShadedOk (g.ground.shadedAt merge withCut q qAll) ∧
    ∀ s ∈ g.ground.shadedAt merge true q qAll, ∀ c, XR.fin c ∈ g.ground.cuts →
      s.line.b1.x < c → c < s.line.b2.x →
      merge = true ∧ g.ground.flagOverlap ∧ ∃ i, i + 1 < p.nRows ∧ c = (g.ground.shadowEl i).b2.x := by
  intro g hy hF htiny ht
  have ho : g.ground.Ordered := fit_ordered p g.rot g.sun hw hgcr hy hF
    ((shadeOk_iff hw hgcr hy hF).1 htiny)
  have hc : g.ground.cuts ≠ [] := by
    have h := fit_cuts_length p g.rot g.sun
    intro h0
    have h' : g.ground.cuts.length = p.nRows := h
    rw [h0] at h'
    simp at h'
    omega
  have hs : SortedCuts g.ground.cuts := fit_sorted p g.rot g.sun (div_pos hw hgcr).le
  refine ⟨C42_shaded _ merge withCut q qAll ho hc ht, ?_⟩
  intro s hm c hcut h1 h2
  exact C42_cut_points g.ground merge q qAll ho hc ht hs hm hcut h1 h2

/-! ## Parameters -/

/-- Weighted sum of the parameters of a list of surfaces. -/
def GSurf.weighted (l : List GSurf) : ℝ := (l.map fun s => s.line.length * s.param).sum

theorem weighted_filter (l : List GSurf) (h : ∀ s ∈ l, s.line.length = 0 ∨ TOL < s.line.length) :
    GSurf.weighted (l.filter fun s => open Classical in decide (s.line.length > TOL))
      = GSurf.weighted l := by
  have hT := TOL_pos
  unfold GSurf.weighted
  induction l with
  | nil => rfl
  | cons s l ih =>
    have ih' := ih fun t ht => h t (List.mem_cons_of_mem _ ht)
    rw [List.filter_cons, List.map_cons, List.sum_cons]
    split_ifs with hl
    · rw [List.map_cons, List.sum_cons, ih']
    · rcases h s List.mem_cons_self with h0 | h0
      · rw [ih', h0]; ring
      · exact absurd (by simpa using h0) hl

/-- C50.  If shadows are not merged, the shaded surfaces made for a time step have the same
length-weighted sum of parameters as the surfaces of the time series. -/
theorem C50_weighted (g : GroundIn) (merge : Bool) (q : ℕ → ℕ → ℝ) (qAll : ℝ) (ho : g.Ordered)
    (hc : g.cuts ≠ []) (ht : g.NoTinyShadow) (hov : merge = false ∨ ¬ g.flagOverlap) :
    ((g.shadedAt merge true q qAll).map fun s => s.line.length * s.param).sum
      = ((List.range g.nRows).map fun i => (((cutSurfaces (g.shadowEl i) g.cuts).zipIdx).map
          fun s => s.1.length * q i s.2).sum).sum := by
  have e : g.shadedAt merge true q qAll
      = g.nonPointShadows.flatMap fun i => nonPointSurfaces (g.shadowEl i) g.cuts (q i) := by
    unfold GroundIn.shadedAt GroundIn.mergeShadowSurfaces
    rw [if_pos rfl]
    dsimp only
    rcases hov with rfl | h
    · rw [if_neg (by simp)]
    · simp only [h, false_and, if_false, ← List.flatMap_def, ite_self]
  have hel : ∀ i < g.nRows, GSurf.weighted (nonPointSurfaces (g.shadowEl i) g.cuts (q i))
      = (((cutSurfaces (g.shadowEl i) g.cuts).zipIdx).map fun s => s.1.length * q i s.2).sum := by
    intro i hi
    unfold nonPointSurfaces
    rw [weighted_filter]
    · unfold GSurf.weighted elSurfaces
      rw [if_neg hc, List.map_map]
      rfl
    · unfold elSurfaces
      rw [if_neg hc]
      intro s hs
      obtain ⟨a, ha, rfl⟩ := List.mem_map.1 hs
      have ha' : a.1 ∈ cutSurfaces (g.shadowEl i) g.cuts := by
        obtain ⟨x, n⟩ := a
        exact (List.mem_zipIdx' ha).2 ▸ List.getElem_mem _
      exact ht i hi _ ha'
  rw [e]
  change GSurf.weighted _ = _
  have key : ∀ l : List ℕ, (∀ i ∈ l, i < g.nRows) →
      GSurf.weighted ((l.filter fun i => open Classical in decide ((g.shadowEl i).length > TOL)).flatMap
        fun i => nonPointSurfaces (g.shadowEl i) g.cuts (q i))
      = (l.map fun i => (((cutSurfaces (g.shadowEl i) g.cuts).zipIdx).map
          fun s => s.1.length * q i s.2).sum).sum := by
    intro l hl
    induction l with
    | nil => rfl
    | cons i l ih =>
      have ih' := ih fun j hj => hl j (List.mem_cons_of_mem _ hj)
      have hi := hl i List.mem_cons_self
      rw [List.map_cons, List.sum_cons, ← ih', ← hel i hi, List.filter_cons]
      unfold GSurf.weighted
      split_ifs with h
      · rw [List.flatMap_cons, List.map_append, List.sum_append]
      · have hz := shadow_zero ho hc ht hi (by simpa using h)
        have hch := shadow_chain ho hc ht q hi
        rw [hz] at hch
        rw [hch.eq_nil]
        simp
  exact key _ fun i hi => List.mem_range.1 hi

/-! ## A concrete case: two overlapping shadows, two cut points -/

/-- Shadows from 0 to 3 and from 2 to 5, cut points at 1 and 4. -/
def demoGround : GroundIn where
  nRows := 2
  shadowXs := fun i => if i = 0 then (0, 3) else (2, 5)
  flagOverlap := True
  cuts := [.fin 1, .fin 4]

theorem clip_inner {x : ℝ} (h0 : -100 ≤ x) (h1 : x ≤ 100) : clip x MIN_X MAX_X = x := by
  unfold clip MIN_X MAX_X
  rw [max_eq_left h0, min_eq_left h1]

theorem demoGround_el0 : demoGround.shadowEl 0 = ⟨⟨0, Y_GROUND⟩, ⟨2, Y_GROUND⟩⟩ := by
  unfold GroundIn.shadowEl GroundIn.noOverlap demoGround
  norm_num [clip_inner]

theorem demoGround_el1 : demoGround.shadowEl 1 = ⟨⟨2, Y_GROUND⟩, ⟨5, Y_GROUND⟩⟩ := by
  unfold GroundIn.shadowEl GroundIn.noOverlap demoGround
  norm_num [clip_inner]

theorem demoGround_cut0 : cutSurfaces (demoGround.shadowEl 0) demoGround.cuts
    = [⟨⟨0, Y_GROUND⟩, ⟨1, Y_GROUND⟩⟩, ⟨⟨1, Y_GROUND⟩, ⟨2, Y_GROUND⟩⟩, ⟨⟨4, Y_GROUND⟩, ⟨4, Y_GROUND⟩⟩] := by
  rw [demoGround_el0]
  norm_num [demoGround, cutSurfaces, coordsLeftOfCut, coordsRightOfCut, leftOfCutX, rightOfCutX, MIN_X, MAX_X]

theorem demoGround_cut1 : cutSurfaces (demoGround.shadowEl 1) demoGround.cuts
    = [⟨⟨1, Y_GROUND⟩, ⟨1, Y_GROUND⟩⟩, ⟨⟨2, Y_GROUND⟩, ⟨4, Y_GROUND⟩⟩, ⟨⟨4, Y_GROUND⟩, ⟨5, Y_GROUND⟩⟩] := by
  rw [demoGround_el1]
  norm_num [demoGround, cutSurfaces, coordsLeftOfCut, coordsRightOfCut, leftOfCutX, rightOfCutX, MIN_X, MAX_X]

theorem glen (a b : ℝ) : (⟨⟨a, Y_GROUND⟩, ⟨b, Y_GROUND⟩⟩ : Line).length = |b - a| :=
  Line.length_ground rfl

theorem demoGround_noTiny : demoGround.NoTinyShadow := by
  intro i hi
  have h : i = 0 ∨ i = 1 := by
    have : i < 2 := hi
    omega
  rcases h with rfl | rfl
  · rw [demoGround_cut0]
    simp only [List.forall_mem_cons, List.not_mem_nil, false_implies, implies_true, and_true, glen, TOL]
    norm_num
  · rw [demoGround_cut1]
    simp only [List.forall_mem_cons, List.not_mem_nil, false_implies, implies_true, and_true, glen, TOL]
    norm_num

theorem demoGround_ordered : demoGround.Ordered := by
  refine ⟨fun i hi => ?_, fun i hi => ?_⟩
  · have h : i = 0 ∨ i = 1 := by
      have : i < 2 := hi
      omega
    rcases h with rfl | rfl <;> norm_num [GroundIn.noOverlap, demoGround]
  · have h : i = 0 := by
      have : i + 1 < 2 := hi
      omega
    subst h
    norm_num [GroundIn.noOverlap, demoGround]

theorem demoGround_sorted : demoGround.cuts.Pairwise fun a b => a.clipped ≤ b.clipped := by
  norm_num [demoGround, XR.clipped, MIN_X, MAX_X]

/-- The hypotheses of C42 are met: merging leaves a break at the cut point 1 inside the first
shadow and none at 2, where the shadows meet. -/
theorem C42_demo (q : ℕ → ℕ → ℝ) :
    demoGround.ShadedOk (demoGround.shadedAt true true q 0) ∧
    (∃ s ∈ demoGround.shadedAt true true q 0, ∃ r ∈ demoGround.shadedAt true true q 0,
      s.line.b2.x = 1 ∧ r.line.b1.x = 1) ∧
    ¬ (∃ s ∈ demoGround.shadedAt true true q 0, ∃ r ∈ demoGround.shadedAt true true q 0,
      s.line.b2.x = 2 ∧ r.line.b1.x = 2) := by
  have hb := C42_merged_breaks demoGround q 0 demoGround_ordered (by simp [demoGround])
    demoGround_noTiny demoGround_sorted trivial ⟨0, 1, by norm_num, by norm_num [demoGround],
      by rw [demoGround_el0, glen, TOL]; norm_num, by rw [demoGround_el1, glen, TOL]; norm_num⟩
  refine ⟨C42_shaded _ _ _ _ _ demoGround_ordered (by simp [demoGround]) demoGround_noTiny, ?_, ?_⟩
  · rw [hb]
    exact ⟨by simp [demoGround], 0, by norm_num [demoGround], by rw [demoGround_el0]; norm_num⟩
  · rw [hb]
    rintro ⟨h, -⟩
    norm_num [demoGround] at h

theorem demoGround_np0 (q : ℕ → ℝ) : nonPointSurfaces (demoGround.shadowEl 0) demoGround.cuts q
    = [⟨⟨⟨0, Y_GROUND⟩, ⟨1, Y_GROUND⟩⟩, q 0⟩, ⟨⟨⟨1, Y_GROUND⟩, ⟨2, Y_GROUND⟩⟩, q 1⟩] := by
  unfold nonPointSurfaces elSurfaces
  rw [if_neg (by simp [demoGround]), demoGround_cut0]
  norm_num [List.zipIdx_cons, List.filter_cons, glen, TOL]

theorem demoGround_np1 (q : ℕ → ℝ) : nonPointSurfaces (demoGround.shadowEl 1) demoGround.cuts q
    = [⟨⟨⟨2, Y_GROUND⟩, ⟨4, Y_GROUND⟩⟩, q 1⟩, ⟨⟨⟨4, Y_GROUND⟩, ⟨5, Y_GROUND⟩⟩, q 2⟩] := by
  unfold nonPointSurfaces elSurfaces
  rw [if_neg (by simp [demoGround]), demoGround_cut1]
  norm_num [List.zipIdx_cons, List.filter_cons, glen, TOL]

theorem demoGround_shadows : demoGround.nonPointShadows = [0, 1] := by
  unfold GroundIn.nonPointShadows
  have : demoGround.nRows = 2 := rfl
  rw [this]
  norm_num [List.range_succ, List.filter_cons, demoGround_el0, demoGround_el1, glen, TOL]

theorem demoGround_merged (q : ℕ → ℕ → ℝ) : demoGround.shadedAt true true q 0
    = [⟨⟨⟨0, Y_GROUND⟩, ⟨1, Y_GROUND⟩⟩, q 0 0⟩, ⟨⟨⟨1, Y_GROUND⟩, ⟨4, Y_GROUND⟩⟩, q 1 1⟩,
      ⟨⟨⟨4, Y_GROUND⟩, ⟨5, Y_GROUND⟩⟩, q 1 2⟩] := by
  unfold GroundIn.shadedAt GroundIn.mergeShadowSurfaces
  rw [if_pos rfl, if_pos rfl, demoGround_shadows]
  have : demoGround.flagOverlap := trivial
  simp only [List.map_cons, List.map_nil, demoGround_np0, demoGround_np1]
  rw [if_pos ⟨this, by norm_num⟩]
  simp [mergeLoop, mergeEl, mergeSurfStep, mergeWith, List.zipIdx_cons]

/-- C50 (finding).  Merging overlapping shadows gives a merged surface the parameters of its right
part only: the length-weighted sum of parameters of the shaded ground changes. -/
theorem C50_merged_counterexample : ∃ (g : GroundIn) (q : ℕ → ℕ → ℝ), g.Ordered ∧ g.cuts ≠ [] ∧
    g.NoTinyShadow ∧
    ((g.shadedAt true true q 0).map fun s => s.line.length * s.param).sum
      ≠ ((List.range g.nRows).map fun i => (((cutSurfaces (g.shadowEl i) g.cuts).zipIdx).map
          fun s => s.1.length * q i s.2).sum).sum := by
  refine ⟨demoGround, fun i z => if i = 0 ∧ z = 1 then 1 else 0, demoGround_ordered,
    by simp [demoGround], demoGround_noTiny, ?_⟩
  have : demoGround.nRows = 2 := rfl
  rw [demoGround_merged, this]
  norm_num [List.range_succ, demoGround_cut0, demoGround_cut1, List.zipIdx_cons, glen]

/-- C50 (demo).  Without merging the hypotheses of `C50_weighted` are met: the sum is the one of the
time series. -/
theorem C50_demo : ((demoGround.shadedAt false true (fun i z => if i = 0 ∧ z = 1 then 1 else 0) 0).map
    fun s => s.line.length * s.param).sum = 1 := by
  rw [C50_weighted demoGround false _ 0 demoGround_ordered (by simp [demoGround]) demoGround_noTiny
    (Or.inl rfl)]
  have : demoGround.nRows = 2 := rfl
  rw [this]
  norm_num [List.range_succ, demoGround_cut0, demoGround_cut1, List.zipIdx_cons, glen]

theorem demoGround_noTinyIllum : demoGround.NoTinyIllum := by
  have h0 : demoGround.illumEl 0 = ⟨⟨-100, Y_GROUND⟩, ⟨0, Y_GROUND⟩⟩ := by
    unfold GroundIn.illumEl
    rw [demoGround_el0]
    simp [demoGround, MIN_X]
  have h1 : demoGround.illumEl 1 = ⟨⟨2, Y_GROUND⟩, ⟨2, Y_GROUND⟩⟩ := by
    unfold GroundIn.illumEl
    rw [show 1 - 1 = 0 from rfl, demoGround_el0, demoGround_el1]
    simp [demoGround]
  have h2 : demoGround.illumEl 2 = ⟨⟨5, Y_GROUND⟩, ⟨100, Y_GROUND⟩⟩ := by
    unfold GroundIn.illumEl
    rw [show 2 - 1 = 1 from rfl, demoGround_el1]
    simp [demoGround, MAX_X]
  intro i hi
  have h : i = 0 ∨ i = 1 ∨ i = 2 := by
    have : i ≤ 2 := hi
    omega
  rcases h with rfl | rfl | rfl
  · rw [h0]
    norm_num [demoGround, cutSurfaces, coordsLeftOfCut, coordsRightOfCut, leftOfCutX, rightOfCutX,
      MIN_X, MAX_X, glen, TOL]
  · rw [h1]
    norm_num [demoGround, cutSurfaces, coordsLeftOfCut, coordsRightOfCut, leftOfCutX, rightOfCutX,
      MIN_X, MAX_X, glen, TOL]
  · rw [h2]
    norm_num [demoGround, cutSurfaces, coordsLeftOfCut, coordsRightOfCut, leftOfCutX, rightOfCutX,
      MIN_X, MAX_X, glen, TOL]

/-- The hypotheses of `C42_illum` are met. -/
theorem C42_demo_illum (q : ℕ → ℕ → ℝ) : demoGround.IllumOk (demoGround.illumAt true q 0) :=
  C42_illum _ _ _ _ demoGround_ordered (by simp [demoGround]) demoGround_noTinyIllum

/-! ## A cut point hidden by merging -/

/-- Shadows from 0 to 2 and from 2 to 5, cut point at 2. -/
def hiddenGround : GroundIn where
  nRows := 2
  shadowXs := fun i => if i = 0 then (0, 2) else (2, 5)
  flagOverlap := True
  cuts := [.fin 2]

/-- C42 (finding).  A cut point at the place where two merged shadows meet is no boundary of the
result: the one surface goes from 0 to 5 and holds the parameters of the part right of the cut
point, though nothing left of the cut point has them. -/
theorem C42_hidden_cut (q : ℕ → ℕ → ℝ) : hiddenGround.shadedAt true true q 0
    = [⟨⟨⟨0, Y_GROUND⟩, ⟨5, Y_GROUND⟩⟩, q 1 1⟩] := by
  have e0 : hiddenGround.shadowEl 0 = ⟨⟨0, Y_GROUND⟩, ⟨2, Y_GROUND⟩⟩ := by
    unfold GroundIn.shadowEl GroundIn.noOverlap hiddenGround
    norm_num [clip_inner]
  have e1 : hiddenGround.shadowEl 1 = ⟨⟨2, Y_GROUND⟩, ⟨5, Y_GROUND⟩⟩ := by
    unfold GroundIn.shadowEl GroundIn.noOverlap hiddenGround
    norm_num [clip_inner]
  have n0 : ∀ q, nonPointSurfaces (hiddenGround.shadowEl 0) hiddenGround.cuts q
      = [⟨⟨⟨0, Y_GROUND⟩, ⟨2, Y_GROUND⟩⟩, q 0⟩] := by
    intro q
    unfold nonPointSurfaces elSurfaces
    rw [if_neg (by simp [hiddenGround]), e0]
    norm_num [hiddenGround, cutSurfaces, coordsLeftOfCut, coordsRightOfCut, leftOfCutX, rightOfCutX,
      MIN_X, MAX_X, TOL, List.zipIdx_cons, List.filter_cons, glen]
  have n1 : ∀ q, nonPointSurfaces (hiddenGround.shadowEl 1) hiddenGround.cuts q
      = [⟨⟨⟨2, Y_GROUND⟩, ⟨5, Y_GROUND⟩⟩, q 1⟩] := by
    intro q
    unfold nonPointSurfaces elSurfaces
    rw [if_neg (by simp [hiddenGround]), e1]
    norm_num [hiddenGround, cutSurfaces, coordsLeftOfCut, coordsRightOfCut, leftOfCutX, rightOfCutX,
      MIN_X, MAX_X, TOL, List.zipIdx_cons, List.filter_cons, glen]
  have hn : hiddenGround.nRows = 2 := rfl
  have hsh : hiddenGround.nonPointShadows = [0, 1] := by
    unfold GroundIn.nonPointShadows
    rw [hn]
    norm_num [List.range_succ, List.filter_cons, e0, e1, glen, TOL]
  unfold GroundIn.shadedAt GroundIn.mergeShadowSurfaces
  rw [if_pos rfl, if_pos rfl, hsh]
  have : hiddenGround.flagOverlap := trivial
  simp only [List.map_cons, List.map_nil, n0, n1]
  rw [if_pos ⟨this, by norm_num⟩]
  simp [mergeLoop, mergeEl, mergeSurfStep, mergeWith, List.zipIdx_cons]

/-! ## A shadow that gets lost -/

/-- Shadows from 0 to 2 and from 2 to a little more than the tolerance after 2, with a cut point in
the middle of the second. -/
def lostGround : GroundIn where
  nRows := 2
  shadowXs := fun i => if i = 0 then (0, 2) else (2, 2 + 3 / 2 * TOL)
  flagOverlap := True
  cuts := [.fin (2 + 3 / 4 * TOL)]

/-- C42 (finding).  If the last shadow is longer than the tolerance but all its surfaces are shorter,
the surface kept for merging is lost: here a shaded length of more than 2 is reported as no shaded
surface at all. -/
theorem C42_lost_counterexample (q : ℕ → ℕ → ℝ) : lostGround.Ordered ∧ 2 < lostGround.shadedLength ∧
    lostGround.shadedAt true true q 0 = [] ∧
    2 ≤ ((lostGround.shadedAt false true q 0).map fun s => s.line.length).sum := by
  have hT : TOL = 1 / 100000000 := rfl
  have e0 : lostGround.shadowEl 0 = ⟨⟨0, Y_GROUND⟩, ⟨2, Y_GROUND⟩⟩ := by
    unfold GroundIn.shadowEl GroundIn.noOverlap lostGround
    norm_num [clip_inner]
  have e1 : lostGround.shadowEl 1 = ⟨⟨2, Y_GROUND⟩, ⟨2 + 3 / 2 * TOL, Y_GROUND⟩⟩ := by
    unfold GroundIn.shadowEl GroundIn.noOverlap lostGround
    norm_num [clip_inner, hT]
  have n0 : ∀ q, nonPointSurfaces (lostGround.shadowEl 0) lostGround.cuts q
      = [⟨⟨⟨0, Y_GROUND⟩, ⟨2, Y_GROUND⟩⟩, q 0⟩] := by
    intro q
    unfold nonPointSurfaces elSurfaces
    rw [if_neg (by simp [lostGround]), e0]
    norm_num [lostGround, cutSurfaces, coordsLeftOfCut, coordsRightOfCut, leftOfCutX, rightOfCutX,
      MIN_X, MAX_X, hT, List.zipIdx_cons, List.filter_cons, glen]
  have n1 : ∀ q, nonPointSurfaces (lostGround.shadowEl 1) lostGround.cuts q = [] := by
    intro q
    unfold nonPointSurfaces elSurfaces
    rw [if_neg (by simp [lostGround]), e1]
    norm_num [lostGround, cutSurfaces, coordsLeftOfCut, coordsRightOfCut, leftOfCutX, rightOfCutX,
      MIN_X, MAX_X, hT, List.zipIdx_cons, List.filter_cons, glen]
  have hn : lostGround.nRows = 2 := rfl
  have hsh : lostGround.nonPointShadows = [0, 1] := by
    unfold GroundIn.nonPointShadows
    rw [hn]
    norm_num [List.range_succ, List.filter_cons, e0, e1, glen, hT]
  refine ⟨⟨fun i hi => ?_, fun i hi => ?_⟩, ?_, ?_, ?_⟩
  · have h : i = 0 ∨ i = 1 := by
      have : i < 2 := hi
      omega
    rcases h with rfl | rfl <;> norm_num [GroundIn.noOverlap, lostGround, hT]
  · have h : i = 0 := by
      have : i + 1 < 2 := hi
      omega
    subst h
    norm_num [GroundIn.noOverlap, lostGround]
  · unfold GroundIn.shadedLength
    rw [hn]
    norm_num [List.range_succ, e0, e1, glen, hT]
  · unfold GroundIn.shadedAt GroundIn.mergeShadowSurfaces
    rw [if_pos rfl, if_pos rfl, hsh]
    have : lostGround.flagOverlap := trivial
    simp only [List.map_cons, List.map_nil, n0, n1]
    rw [if_pos ⟨this, by norm_num⟩]
    simp [mergeLoop, mergeEl, mergeSurfStep, mergeWith, List.zipIdx_cons]
  · unfold GroundIn.shadedAt
    rw [if_pos rfl, if_neg (by simp), hsh]
    simp only [List.flatMap_cons, List.flatMap_nil, n0, n1]
    norm_num [glen]

/-! ## C43 -/

/-- C43.  Whatever the index, the non-point surfaces reported are the surfaces longer than the
tolerance at time step 0: illuminated surfaces first, with the coordinates and parameters at time
step 0. -/
theorem C43_index_zero (gs : ℕ → GroundIn) (qi qs : ℕ → ℕ → ℕ → ℝ) (idx : ℕ)
    (hc : (gs 0).cuts ≠ []) (s : GSurf) :
    s ∈ nonPointSurfacesAt gs qi qs idx ↔ TOL < s.line.length ∧
      ((∃ i ≤ (gs 0).nRows, ∃ z, (cutSurfaces ((gs 0).illumEl i) (gs 0).cuts)[z]? = some s.line ∧
          s.param = qi 0 i z) ∨
       (∃ i < (gs 0).nRows, ∃ z, (cutSurfaces ((gs 0).shadowEl i) (gs 0).cuts)[z]? = some s.line ∧
          s.param = qs 0 i z)) := by
  have key : ∀ (l : Line) (q : ℕ → ℝ), s ∈ nonPointSurfaces l (gs 0).cuts q ↔
      TOL < s.line.length ∧ ∃ z, (cutSurfaces l (gs 0).cuts)[z]? = some s.line ∧ s.param = q z := by
    intro l q
    unfold nonPointSurfaces elSurfaces
    rw [if_neg hc, List.mem_filter, List.mem_map]
    simp only [gt_iff_lt, decide_eq_true_eq]
    rw [and_comm]
    apply and_congr_right
    intro _
    constructor
    · rintro ⟨⟨a, z⟩, ha, rfl⟩
      exact ⟨z, List.mem_zipIdx_iff_getElem?.1 ha, rfl⟩
    · rintro ⟨z, h1, h2⟩
      refine ⟨(s.line, z), List.mem_zipIdx_iff_getElem?.2 h1, ?_⟩
      cases s
      simp only at h2 ⊢
      rw [h2]
  unfold nonPointSurfacesAt nonPointIllumAt nonPointShadedAt
  simp only [List.mem_append, List.mem_flatMap, List.mem_range, key, Nat.lt_succ_iff]
  constructor
  · rintro (⟨i, hi, h1, h2⟩ | ⟨i, hi, h1, h2⟩)
    · exact ⟨h1, Or.inl ⟨i, hi, h2⟩⟩
    · exact ⟨h1, Or.inr ⟨i, hi, h2⟩⟩
  · rintro ⟨h1, ⟨i, hi, h2⟩ | ⟨i, hi, h2⟩⟩
    · exact Or.inl ⟨i, hi, h1, h2⟩
    · exact Or.inr ⟨i, hi, h1, h2⟩

open Classical in
/-- C43 (number).  The number of non-point surfaces reported for any index is the number of surfaces
longer than the tolerance at time step 0. -/
theorem C43_count_zero (gs : ℕ → GroundIn) (qi qs : ℕ → ℕ → ℕ → ℝ) (idx : ℕ)
    (hc : (gs 0).cuts ≠ []) :
    nNonPointSurfacesAt gs qi qs idx
      = ((List.range ((gs 0).nRows + 1)).map fun i =>
          (cutSurfaces ((gs 0).illumEl i) (gs 0).cuts).countP fun s => TOL < s.length).sum
        + ((List.range (gs 0).nRows).map fun i =>
          (cutSurfaces ((gs 0).shadowEl i) (gs 0).cuts).countP fun s => TOL < s.length).sum := by
  have key : ∀ (l : Line) (q : ℕ → ℝ), (nonPointSurfaces l (gs 0).cuts q).length
      = (cutSurfaces l (gs 0).cuts).countP fun s => TOL < s.length := by
    intro l q
    unfold nonPointSurfaces elSurfaces
    rw [if_neg hc, ← List.countP_eq_length_filter, List.countP_map]
    have h : ∀ (m : List Line) (k : ℕ), List.countP ((fun s : GSurf => decide (s.line.length > TOL)) ∘
        fun s : Line × ℕ => (⟨s.1, q s.2⟩ : GSurf)) (m.zipIdx k) = m.countP fun s => TOL < s.length := by
      intro m
      induction m with
      | nil => intro k; rfl
      | cons a m ih =>
        intro k
        rw [List.zipIdx_cons, List.countP_cons, List.countP_cons, ih]
        rfl
    exact h _ 0
  unfold nNonPointSurfacesAt nonPointSurfacesAt nonPointIllumAt nonPointShadedAt
  rw [List.length_append, List.length_flatMap, List.length_flatMap]
  simp only [key]

/-- One row whose shadow is 2 long at time step 0 and a point later. -/
def changingGround (t : ℕ) : GroundIn where
  nRows := 1
  shadowXs := fun _ => (0, if t = 0 then 2 else 0)
  flagOverlap := False
  cuts := [.fin 1]

/-- C43 (finding).  The number reported for time step 1 is wrong if the surfaces change between time
steps: 4 are reported and there are 3. -/
theorem C43_counterexample (qi qs : ℕ → ℕ → ℕ → ℝ) :
    nNonPointSurfacesAt changingGround qi qs 1 = 4 ∧
    nNonPointSurfacesAt (fun _ => changingGround 1) qi qs 1 = 3 := by
  have hT : TOL = 1 / 100000000 := rfl
  have hs : ∀ t, (changingGround t).shadowEl 0
      = ⟨⟨0, Y_GROUND⟩, ⟨if t = 0 then 2 else 0, Y_GROUND⟩⟩ := by
    intro t
    unfold GroundIn.shadowEl GroundIn.noOverlap changingGround
    split_ifs <;> first | (norm_num [clip_inner]; done) | simp_all
  have hi0 : ∀ t, (changingGround t).illumEl 0 = ⟨⟨-100, Y_GROUND⟩, ⟨0, Y_GROUND⟩⟩ := by
    intro t
    unfold GroundIn.illumEl
    rw [hs]
    simp [changingGround, MIN_X]
  have hi1 : ∀ t, (changingGround t).illumEl 1
      = ⟨⟨if t = 0 then 2 else 0, Y_GROUND⟩, ⟨100, Y_GROUND⟩⟩ := by
    intro t
    unfold GroundIn.illumEl
    rw [show 1 - 1 = 0 from rfl, hs]
    simp [changingGround, MAX_X]
  have hcut : ∀ t a b, cutSurfaces ⟨⟨a, Y_GROUND⟩, ⟨b, Y_GROUND⟩⟩ (changingGround t).cuts
      = [⟨⟨max (min a 1) (-100), Y_GROUND⟩, ⟨max (min b 1) (-100), Y_GROUND⟩⟩,
        ⟨⟨min (max a 1) 100, Y_GROUND⟩, ⟨min (max b 1) 100, Y_GROUND⟩⟩] := by
    intro t a b
    simp [changingGround, cutSurfaces, coordsLeftOfCut, coordsRightOfCut, leftOfCutX, rightOfCutX,
      MIN_X, MAX_X]
  have hn : ∀ t, (changingGround t).nRows = 1 := fun _ => rfl
  have hne : ∀ t, (changingGround t).cuts ≠ [] := fun t => by simp [changingGround]
  constructor
  · rw [C43_count_zero _ _ _ _ (hne 0), hn]
    norm_num [List.range_succ, hs, hi0, hi1, hcut, glen, hT]
  · rw [C43_count_zero _ _ _ _ (hne 1), hn]
    norm_num [List.range_succ, hs, hi0, hi1, hcut, glen, hT]

end
end PVF

import Verif.Lemmas.GroundGeom
import Verif.Props.Shading
import Mathlib.Data.List.GetD

/-! # Ground surfaces: C17, C18, C19, C20, C25 (flat rows) -/

namespace PVF

/-! ## C19 -/

/-- C19: an element `l` of the ground, from left to right, is cut by any list of cut points (finite
or infinite, in any order) into one piece more than there are cut points.  The lengths of the
pieces add up to the length of the element, all pieces are on the ground, and the pieces that are
not single points lie inside the element, follow each other from left to right without overlap,
and cover the element. -/
theorem C19_cut (l : Line) (cs : List XR) (h1 : -100 ≤ l.b1.x) (h2 : l.b1.x ≤ l.b2.x)
    (h3 : l.b2.x ≤ 100) (hy1 : l.b1.y = 0) (hy2 : l.b2.y = 0) :
    let ps := cutSurfaces l cs
    ps.length = cs.length + 1 ∧
    (ps.map Line.length).sum = l.length ∧
    (∀ s ∈ ps, s.b1.y = 0 ∧ s.b2.y = 0 ∧ -100 ≤ s.b1.x ∧ s.b1.x ≤ s.b2.x ∧ s.b2.x ≤ 100) ∧
    (∀ s ∈ ps, s.b1.x < s.b2.x → l.b1.x ≤ s.b1.x ∧ s.b2.x ≤ l.b2.x) ∧
    (ps.Pairwise fun s t => s.b1.x < s.b2.x → t.b1.x < t.b2.x → s.b2.x ≤ t.b1.x) ∧
    (l.b1.x < l.b2.x → ∀ x, l.b1.x ≤ x → x ≤ l.b2.x →
      ∃ s ∈ ps, s.b1.x < s.b2.x ∧ s.b1.x ≤ x ∧ x ≤ s.b2.x) := by
  intro ps
  have hin : LineInGround l :=
    ⟨⟨h1, h2.trans h3⟩, ⟨h1.trans h2, h3⟩, hy1, hy2⟩
  refine ⟨cutSurfaces_length l cs, ?_, ?_, cutSurfaces_inside hin h2 cs,
    cutSurfaces_pairwise hin h2 cs, fun hlt x hx0 hx1 => cutSurfaces_cover hin hlt cs hx0 hx1⟩
  · have e : ps.map Line.length = ps.map fun s => (fun x : ℝ => x) s.b2.x - (fun x => x) s.b1.x := by
      apply List.map_congr_left
      intro s hs
      have hs1 := cutSurfaces_inGround hin cs s hs
      have hs2 := cutSurfaces_ordered hin h2 cs s hs
      rw [Line.length_ground (hs1.2.2.1.trans hs1.2.2.2.symm), abs_of_nonneg (by linarith)]
    rw [e, cutSurfaces_telescope (fun x => x) hin cs, Line.length_ground (hy1.trans hy2.symm),
      abs_of_nonneg (by linarith)]
  · intro s hs
    have hs1 := cutSurfaces_inGround hin cs s hs
    exact ⟨hs1.2.2.1, hs1.2.2.2, hs1.1.1, cutSurfaces_ordered hin h2 cs s hs, hs1.2.1.2⟩

/-- Instance of C19: an element cut at an inner point, at infinity and at minus infinity. -/
theorem C19_demo : ((cutSurfaces ⟨⟨-3, 0⟩, ⟨5, 0⟩⟩ [.fin 1, .posInf, .negInf]).map Line.length).sum
    = 8 := by
  have h := (C19_cut ⟨⟨-3, 0⟩, ⟨5, 0⟩⟩ [.fin 1, .posInf, .negInf] (by norm_num) (by norm_num)
    (by norm_num) rfl rfl).2.1
  rw [h, Line.length_ground rfl]
  norm_num

/-! ## C20 -/

theorem nodup_gndRefsSide {p : ArrayParams} {left : Bool} {r : ℕ} (hr : r < p.nRows) :
    (gndRefsSide p left r).Nodup := by
  set zones := if left then (surfaceDict p.nRows).left r else (surfaceDict p.nRows).right r with hzn
  have hz : zones.Nodup := by
    cases left
    · simp only [hzn, Bool.false_eq_true, if_false, surfaceDict_right hr]
      exact List.nodup_range.filter _
    · simp only [hzn, if_true, surfaceDict_left hr]
      exact List.nodup_range
  have hpart : ∀ (sh : Bool) (l : List ℕ), l.Nodup →
      (l.flatMap fun e => zones.map fun z => SurfRef.gnd sh e z).Nodup := by
    intro sh l hl
    rw [List.nodup_flatMap]
    refine ⟨fun e _ => hz.map (fun a b h => by simpa using h), ?_⟩
    refine List.Pairwise.imp ?_ hl
    intro a b hab x hxa hxb
    simp only [List.mem_map] at hxa hxb
    obtain ⟨z, _, rfl⟩ := hxa
    obtain ⟨z', _, h⟩ := hxb
    simp at h
    exact hab h.1.symm
  have hdef : gndRefsSide p left r
      = ((List.range p.nRows).flatMap fun e => zones.map fun z => SurfRef.gnd true e z)
        ++ ((List.range (p.nRows + 1)).flatMap fun e => zones.map fun z => SurfRef.gnd false e z) :=
    rfl
  rw [hdef, List.nodup_append]
  refine ⟨hpart _ _ List.nodup_range, hpart _ _ List.nodup_range, ?_⟩
  intro a ha b hb hab
  subst hab
  simp only [List.mem_flatMap, List.mem_map] at ha hb
  obtain ⟨_, _, _, _, rfl⟩ := ha
  obtain ⟨_, _, _, _, h⟩ := hb
  simp at h

/-- C20: for the cut point of each row, the surfaces listed on its left together with the ones
listed on its right are all ground surfaces, each exactly once. -/
theorem C20_partition (p : ArrayParams) (r : ℕ) (hr : r < p.nRows) :
    (gndRefsSide p true r ++ gndRefsSide p false r).Perm (groundRefs p) := by
  rw [List.perm_ext_iff_of_nodup]
  · intro b
    rw [List.mem_append, mem_gndRefsSide hr, mem_gndRefsSide hr, mem_groundRefs]
    constructor
    · rintro (⟨sh, e, z, rfl, he, hz, _⟩ | ⟨sh, e, z, rfl, he, hz, _⟩)
      · exact ⟨sh, e, z, rfl, he, hz⟩
      · exact ⟨sh, e, z, rfl, he, hz⟩
    · rintro ⟨sh, e, z, rfl, he, hz⟩
      by_cases h : z ≤ r
      · exact Or.inl ⟨sh, e, z, rfl, he, hz, by simp [h]⟩
      · exact Or.inr ⟨sh, e, z, rfl, he, hz, by simp [h]⟩
  · rw [List.nodup_append]
    refine ⟨nodup_gndRefsSide hr, nodup_gndRefsSide hr, ?_⟩
    intro a ha b hb hab
    subst hab
    rw [mem_gndRefsSide hr] at ha hb
    obtain ⟨sh, e, z, rfl, _, _, h⟩ := ha
    obtain ⟨sh', e', z', h', _, _, h''⟩ := hb
    cases h'
    rw [← h''] at h
    cases h
  · exact nodup_groundRefs p

/-- C20: surfaces listed left of the cut point of row `r` end at or before it, surfaces listed
right of it start at or after it (the cut point being clipped to the ground, which ends at -100 and
100). -/
theorem C20_position (p : ArrayParams) (u : StepIn) (r : ℕ) (hr : r < p.nRows) (hw : 0 ≤ p.width)
    (hgcr : 0 ≤ p.gcr) :
    let g := fitStep p u
    let cut : ℝ := match g.ground.cuts[r]? with
      | some (.fin c) => max (-100) (min c 100)
      | some .negInf => -100
      | _ => 100
    (∀ b ∈ gndRefsSide p true r, (g.coords b).b1.x ≤ cut ∧ (g.coords b).b2.x ≤ cut) ∧
    (∀ b ∈ gndRefsSide p false r, cut ≤ (g.coords b).b1.x ∧ cut ≤ (g.coords b).b2.x) := by
  intro g cut
  have hd : 0 ≤ p.distance := div_nonneg hw hgcr
  have hcut : cut = g.ground.zoneHi r := by
    simp only [cut, GroundIn.zoneHi]
    have := fit_cut_get p g.rot g.sun hr
    change g.ground.cuts[r]? = _ at this
    rw [this]
    cases cutPointX (fullRowCoords (rowCenter p r) p.width g.rot.deg) g.rot <;>
      simp [XR.clipped, MIN_X, MAX_X]
  rw [hcut]
  constructor
  · intro b hb
    rw [mem_gndRefsSide hr] at hb
    obtain ⟨sh, e, z, rfl, _, hz, h⟩ := hb
    have hzr : z ≤ r := by simpa using h.symm
    have hc := coords_gnd (rot := g.rot) (sun := g.sun) hd sh e (show z ≤ p.nRows by omega)
    change g.coords _ = _ at hc
    rw [hc]
    have hm : g.ground.zoneHi z ≤ g.ground.zoneHi r := zoneHi_mono hd hzr
    exact ⟨(min_le_right _ _).trans hm, (min_le_right _ _).trans hm⟩
  · intro b hb
    rw [mem_gndRefsSide hr] at hb
    obtain ⟨sh, e, z, rfl, _, hz, h⟩ := hb
    have hzr : r < z := by simpa using h.symm
    have hc := coords_gnd (rot := g.rot) (sun := g.sun) hd sh e (show z ≤ p.nRows by omega)
    change g.coords _ = _ at hc
    rw [hc]
    have hlo : g.ground.zoneLo z = g.ground.zoneHi (z - 1) := by
      simp [GroundIn.zoneLo, show z ≠ 0 by omega]
    have hm : g.ground.zoneHi r ≤ g.ground.zoneHi (z - 1) := zoneHi_mono hd (by omega)
    have hm2 : g.ground.zoneHi (z - 1) ≤ g.ground.zoneHi z := zoneHi_mono hd (by omega)
    have key : ∀ x : ℝ, g.ground.zoneHi r ≤ g.ground.clampZone z x := by
      intro x
      unfold GroundIn.clampZone
      rw [hlo]
      exact le_min (hm.trans (le_max_right _ _)) (hm.trans hm2)
    exact ⟨key _, key _⟩

/-- C20: the cut point of a tilted row is the point where the line through the row meets the
ground. -/
theorem C20_cut_point (p : ArrayParams) (u : StepIn) (r : ℕ) (hr : r < p.nRows)
    (h0 : 0 < u.surfaceTilt) (h1 : u.surfaceTilt < 180) (hw : 0 < p.width) :
    let g := fitStep p u
    ∃ c : ℝ, g.ground.cuts[r]? = some (.fin c) ∧
      ∃ t : ℝ, lerp (g.row r).full.b1 (g.row r).full.b2 t = ⟨c, 0⟩ := by
  intro g
  obtain ⟨a, b, c⟩ := rotation_range (sa := u.surfaceAzimuth) (aa := p.axisAzimuth) h0 h1
  have hne : g.rot.deg ≠ 0 := c
  have hs : sind g.rot.deg ≠ 0 := by
    rcases lt_or_gt_of_ne hne with h | h
    · exact (sind_neg_of_neg h a).ne
    · exact (sind_pos h b).ne'
  have hc := fit_cut_get p g.rot g.sun hr
  change g.ground.cuts[r]? = _ at hc
  rw [cutPointX_row, if_neg hne] at hc
  refine ⟨_, hc, 1 / 2 - p.height / (p.width * sind g.rot.deg), ?_⟩
  have hrow : (g.row r).full = fullRowCoords (rowCenter p r) p.width g.rot.deg := rfl
  rw [hrow, lerp_full]
  simp only [rowPt, rowCenter, X_ORIGIN, Y_GROUND, Pt.mk.injEq]
  constructor
  · field_simp; ring
  · field_simp; ring

/-! ## C25, flat rows -/

/-- C25: with flat rows all ground is on the left of all cut points: a ground surface listed on the
right of a cut point is a single point, for every azimuth. -/
theorem C25_flat_ground (p : ArrayParams) (u : StepIn) (r : ℕ) (hr : r < p.nRows) (hw : 0 ≤ p.width)
    (hgcr : 0 ≤ p.gcr) (h : u.surfaceTilt = 0) :
    ∀ b ∈ gndRefsSide p false r, ((fitStep p u).coords b).length = 0 := by
  intro b hb
  set g := fitStep p u with hg
  have hd : 0 ≤ p.distance := div_nonneg hw hgcr
  have hcut : g.ground.zoneHi r = MAX_X := by
    have hc := fit_cut_get p g.rot g.sun hr
    change g.ground.cuts[r]? = _ at hc
    have := C25_flat_cut p u h _ (List.mem_of_getElem? hc)
    unfold GroundIn.zoneHi
    rw [hc, this]; rfl
  rw [mem_gndRefsSide hr] at hb
  obtain ⟨sh, e, z, rfl, _, hz, h⟩ := hb
  have hzr : r < z := by simpa using h.symm
  have hc := coords_gnd (rot := g.rot) (sun := g.sun) hd sh e (show z ≤ p.nRows by omega)
  change g.coords _ = _ at hc
  rw [hc]
  have hlo : g.ground.zoneLo z = g.ground.zoneHi (z - 1) := by
    simp [GroundIn.zoneLo, show z ≠ 0 by omega]
  have hm : g.ground.zoneHi r ≤ g.ground.zoneHi (z - 1) := zoneHi_mono hd (by omega)
  have hm2 : g.ground.zoneHi (z - 1) ≤ g.ground.zoneHi z := zoneHi_mono hd (by omega)
  have key : ∀ x : ℝ, g.ground.clampZone z x = MAX_X := by
    intro x
    have h1 := (g.ground.zoneHi_inGround z).2
    unfold GroundIn.clampZone
    apply le_antisymm
    · exact (min_le_right _ _).trans h1
    · rw [hlo]
      rw [hcut] at hm
      exact le_min (hm.trans (le_max_right _ _)) (hm.trans hm2)
  rw [Line.length_ground rfl]
  change |g.ground.clampZone z _ - g.ground.clampZone z _| = 0
  simp [key]

/-! ## C17 -/

/-- Shadows and gaps are ordered unless there is an overlap smaller than the tolerance. -/
theorem fit_ordered (p : ArrayParams) (rot : Rot) (sun : Pt) (hw : 0 < p.width) (hgcr : 0 < p.gcr)
    (hy : sun.y ≠ 0) (hF : frontDotSun rot.deg sun ≠ 0)
    (htiny : hasDirectShading p (arctan2 sun.y sun.x) rot.deg ∨
      interrowShading p (arctan2 sun.y sun.x) rot.deg = (0, 0)) :
    (fitGeom p rot sun).ground.Ordered := by
  set g := fitGeom p rot sun with hg
  have hd : 0 < p.distance := div_pos hw hgcr
  have hx : ∀ j, g.ground.shadowXs j = shadowXs (fullRowCoords (rowCenter p j) p.width rot.deg)
    (arctan2 sun.y sun.x) := fun j => rfl
  have hflag : g.ground.flagOverlap ↔ hasDirectShading p (arctan2 sun.y sun.x) rot.deg := Iff.rfl
  have hk : 0 ≤ p.width / 2 * |kappa (arctan2 sun.y sun.x) rot.deg| := by positivity
  have hsx := fun j => shadowXs_eq p (rot := rot.deg) (sin_alpha_ne (sun := sun) hy) j hw.le
  simp only at hsx
  constructor
  · intro i hi
    simp only [GroundIn.noOverlap, hx, hsx]
    split_ifs with h
    · push_cast; linarith
    · linarith
  · intro i hi
    simp only [GroundIn.noOverlap, hx, hsx]
    split_ifs with h
    · exact le_rfl
    · have hn : ¬ hasDirectShading p (arctan2 sun.y sun.x) rot.deg := fun h' => h ⟨hi, hflag.2 h'⟩
      have h0 := htiny.resolve_left hn
      have hov := shading_iff_overlap (sin_alpha_ne (sun := sun) hy) (sunFront_ne hF) hd hw
        (show 1 < p.nRows from lt_of_le_of_lt (by omega) hi)
      rw [h0] at hov
      have : ¬ p.distance < p.width * |kappa (arctan2 sun.y sun.x) rot.deg| := by
        rw [← hov]; simp
      push_cast
      linarith

/-- C17, for any rotation and sun vector. -/
theorem C17_tiling_gen (p : ArrayParams) (rot : Rot) (sun : Pt) (hw : 0 < p.width)
    (hgcr : 0 < p.gcr) (hy : sun.y ≠ 0) (hF : frontDotSun rot.deg sun ≠ 0)
    (hs : ShadeOk p rot.deg sun) :
    let g := fitGeom p rot sun
    ((groundRefs p).map fun a => (g.coords a).length).sum = 200 ∧
    g.ground.length = 200 ∧
    (∀ a ∈ groundRefs p, (g.coords a).b1.y = 0 ∧ (g.coords a).b2.y = 0 ∧
      -100 ≤ (g.coords a).b1.x ∧ (g.coords a).b1.x ≤ (g.coords a).b2.x ∧
      (g.coords a).b2.x ≤ 100) ∧
    (∀ x : ℝ, -100 ≤ x → x ≤ 100 → ∃ a ∈ groundRefs p,
      (g.coords a).b1.x < (g.coords a).b2.x ∧ (g.coords a).b1.x ≤ x ∧ x ≤ (g.coords a).b2.x) ∧
    (∀ a ∈ groundRefs p, ∀ b ∈ groundRefs p, a ≠ b → ∀ x : ℝ,
      ¬ ((g.coords a).b1.x < x ∧ x < (g.coords a).b2.x ∧
         (g.coords b).b1.x < x ∧ x < (g.coords b).b2.x)) := by
  intro g
  have hord : g.ground.Ordered := fit_ordered p rot sun hw hgcr hy hF
    ((shadeOk_iff hw hgcr hy hF).1 hs)
  have hd : 0 ≤ p.distance := (div_pos hw hgcr).le
  have hlen : g.ground.cuts.length = p.nRows := fit_cuts_length p rot sun
  have hnR : g.ground.nRows = p.nRows := rfl
  -- element number of a surface
  have hel : ∀ (sh : Bool) (e : ℕ), g.elem sh e = g.ground.el (2 * e + (if sh then 1 else 0)) := by
    intro sh e
    cases sh
    · simp [StepGeom.elem, GroundIn.el]
    · simp only [StepGeom.elem, GroundIn.el, if_true]
      rw [if_neg (by omega), show (2 * e + 1) / 2 = e by omega]
  have hk : ∀ (sh : Bool) (e : ℕ), e < (if sh then p.nRows else p.nRows + 1) →
      2 * e + (if sh then 1 else 0) < 2 * g.ground.nRows + 1 := by
    intro sh e he
    rw [hnR]
    cases sh
    · simp at he ⊢; omega
    · simp at he ⊢; omega
  have hele : ∀ (sh : Bool) (e : ℕ), e < (if sh then p.nRows else p.nRows + 1) →
      (g.elem sh e).b1.x ≤ (g.elem sh e).b2.x := by
    intro sh e he
    rw [hel, g.ground.el_eq (hk sh e he)]
    exact GroundIn.brk_mono hord (hk sh e he)
  have hmemc : ∀ (sh : Bool) (e z : ℕ), z < p.nRows + 1 →
      g.coords (.gnd sh e z) ∈ cutSurfaces (g.elem sh e) g.ground.cuts := by
    intro sh e z hz
    rw [coords_gnd_getD, List.getD_eq_getElem _ _ (by rw [cutSurfaces_length, hlen]; exact hz)]
    exact List.getElem_mem _
  have hpos : ∀ a ∈ groundRefs p, (g.coords a).b1.y = 0 ∧ (g.coords a).b2.y = 0 ∧
      -100 ≤ (g.coords a).b1.x ∧ (g.coords a).b1.x ≤ (g.coords a).b2.x ∧
      (g.coords a).b2.x ≤ 100 := by
    intro a ha
    rw [mem_groundRefs] at ha
    obtain ⟨sh, e, z, rfl, he, hz⟩ := ha
    have h1 := cutSurfaces_inGround (g.elem_inGround sh e) _ _ (hmemc sh e z hz)
    have h2 := cutSurfaces_ordered (g.elem_inGround sh e) (hele sh e he) _ _ (hmemc sh e z hz)
    exact ⟨h1.2.2.1, h1.2.2.2, h1.1.1, h2, h1.2.1.2⟩
  have hsumEl : ∀ B : ℝ → ℝ, _ := g.ground.sum_elements
  have hlenEl : ∀ (sh : Bool) (e : ℕ), e < (if sh then p.nRows else p.nRows + 1) →
      (g.elem sh e).length = (g.elem sh e).b2.x - (g.elem sh e).b1.x := by
    intro sh e he
    have hin := g.elem_inGround sh e
    rw [Line.length_ground (hin.2.2.1.trans hin.2.2.2.symm),
      abs_of_nonneg (by have := hele sh e he; linarith)]
  have hG : g.ground.length = 200 := by
    unfold GroundIn.length
    have e1 : ((List.range g.ground.nRows).map fun i => (g.ground.shadowEl i).length)
        = (List.range g.ground.nRows).map
          fun e => (g.ground.shadowEl e).b2.x - (g.ground.shadowEl e).b1.x := by
      apply List.map_congr_left
      intro e he
      exact hlenEl true e (by simpa [hnR] using he)
    have e2 : ((List.range (g.ground.nRows + 1)).map fun i => (g.ground.illumEl i).length)
        = (List.range (g.ground.nRows + 1)).map
          fun e => (g.ground.illumEl e).b2.x - (g.ground.illumEl e).b1.x := by
      apply List.map_congr_left
      intro e he
      exact hlenEl false e (by simpa [hnR] using he)
    rw [e1, e2, g.ground.sum_elements (fun x => x)]
    norm_num [MAX_X, MIN_X]
  refine ⟨?_, hG, hpos, ?_, ?_⟩
  · -- total length of the surfaces
    have hz : ∀ (sh : Bool) (e : ℕ), e < (if sh then p.nRows else p.nRows + 1) →
        ((List.range (p.nRows + 1)).map fun z => (g.coords (.gnd sh e z)).length).sum
        = (g.elem sh e).length := by
      intro sh e he
      have hin := g.elem_inGround sh e
      have hC := (C19_cut (g.elem sh e) g.ground.cuts hin.1.1 (hele sh e he) hin.2.1.2
        hin.2.2.1 hin.2.2.2).2.1
      rw [← hC]
      congr 1
      apply List.ext_getElem
      · simp [cutSurfaces_length, hlen]
      · intro i h1 h2
        simp only [List.getElem_map, List.getElem_range]
        rw [coords_gnd_getD, List.getD_eq_getElem]
    have hfm : ∀ (sh : Bool) (l : List ℕ),
        (∀ e ∈ l, e < (if sh then p.nRows else p.nRows + 1)) →
        ((l.flatMap fun e => (List.range (p.nRows + 1)).map fun z => SurfRef.gnd sh e z).map
          fun a => (g.coords a).length).sum = (l.map fun e => (g.elem sh e).length).sum := by
      intro sh l hl
      induction l with
      | nil => simp
      | cons e l ih =>
        rw [List.flatMap_cons, List.map_append, List.sum_append,
          ih (fun e he => hl e (List.mem_cons_of_mem _ he)), List.map_cons, List.sum_cons,
          List.map_map]
        congr 1
        exact hz sh e (hl e (List.mem_cons_self ..))
    rw [groundRefs, List.map_append, List.sum_append, hfm true _ (by simp), hfm false _ (by simp)]
    exact hG
  · intro x hx0 hx1
    obtain ⟨k, hkk, hlt, ha, hb⟩ := exists_interval (b := g.ground.brk)
      (m := 2 * g.ground.nRows + 1) (x := x)
      (by rw [GroundIn.brk_zero, GroundIn.brk_last]; exact MIN_lt_MAX)
      (by rw [GroundIn.brk_zero]; exact hx0) (by rw [GroundIn.brk_last]; exact hx1)
    obtain ⟨sh, e, he, rfl⟩ : ∃ (sh : Bool) (e : ℕ), e < (if sh then p.nRows else p.nRows + 1) ∧
        k = 2 * e + (if sh then 1 else 0) := by
      rw [hnR] at hkk
      rcases Nat.even_or_odd' k with ⟨c, rfl | rfl⟩
      · exact ⟨false, c, by simp; omega, by simp⟩
      · exact ⟨true, c, by simp; omega, by simp⟩
    have hE := g.ground.el_eq (hk sh e he)
    rw [← hel] at hE
    obtain ⟨s, hs, h1, h2, h3⟩ := cutSurfaces_cover (g.elem_inGround sh e) (cs := g.ground.cuts)
      (x := x) (by rw [hE]; exact hlt) (by rw [hE]; exact ha) (by rw [hE]; exact hb)
    obtain ⟨z, hz, rfl⟩ := List.getElem_of_mem hs
    have hz' : z < p.nRows + 1 := by rwa [cutSurfaces_length, hlen] at hz
    refine ⟨.gnd sh e z, mem_groundRefs.2 ⟨sh, e, z, rfl, he, hz'⟩, ?_⟩
    rw [coords_gnd_getD, List.getD_eq_getElem _ _ hz]
    exact ⟨h1, h2, h3⟩
  · intro a ha b hb hab x hx
    rw [mem_groundRefs] at ha hb
    obtain ⟨sh, e, z, rfl, he, hz⟩ := ha
    obtain ⟨sh', e', z', rfl, he', hz'⟩ := hb
    obtain ⟨h1, h2, h3, h4⟩ := hx
    have i1 := cutSurfaces_inside (g.elem_inGround sh e) (hele sh e he) _ _ (hmemc sh e z hz)
      (h1.trans h2)
    have i2 := cutSurfaces_inside (g.elem_inGround sh' e') (hele sh' e' he') _ _
      (hmemc sh' e' z' hz') (h3.trans h4)
    rcases Nat.lt_trichotomy (2 * e + (if sh then 1 else 0)) (2 * e' + (if sh' then 1 else 0))
      with hlt | heq | hgt
    · have := GroundIn.brk_le hord (Nat.succ_le_of_lt hlt) (hk sh' e' he').le
      have E1 := g.ground.el_eq (hk sh e he)
      have E2 := g.ground.el_eq (hk sh' e' he')
      rw [← hel] at E1 E2
      rw [E1] at i1; rw [E2] at i2
      simp only [Nat.succ_eq_add_one] at this i1 i2
      linarith [i1.2, i2.1]
    · have hse : sh = sh' ∧ e = e' := by
        cases sh <;> cases sh' <;> simp at heq ⊢ <;> omega
      obtain ⟨rfl, rfl⟩ := hse
      have hzz : z ≠ z' := by rintro rfl; exact hab rfl
      have hp := List.pairwise_iff_getElem.1
        (cutSurfaces_pairwise (g.elem_inGround sh e) (hele sh e he) g.ground.cuts)
      have hL : (cutSurfaces (g.elem sh e) g.ground.cuts).length = p.nRows + 1 := by
        rw [cutSurfaces_length, hlen]
      have c1 : g.coords (.gnd sh e z) = (cutSurfaces (g.elem sh e) g.ground.cuts)[z] := by
        rw [coords_gnd_getD, List.getD_eq_getElem]
      have c2 : g.coords (.gnd sh e z') = (cutSurfaces (g.elem sh e) g.ground.cuts)[z'] := by
        rw [coords_gnd_getD, List.getD_eq_getElem]
      rw [c1] at h1 h2; rw [c2] at h3 h4
      rcases Nat.lt_or_gt_of_ne hzz with hl | hl
      · have := hp z z' (by omega) (by omega) hl (h1.trans h2) (h3.trans h4)
        linarith
      · have := hp z' z (by omega) (by omega) hl (h3.trans h4) (h1.trans h2)
        linarith
    · have := GroundIn.brk_le hord (Nat.succ_le_of_lt hgt) (hk sh e he).le
      have E1 := g.ground.el_eq (hk sh e he)
      have E2 := g.ground.el_eq (hk sh' e' he')
      rw [← hel] at E1 E2
      rw [E1] at i1; rw [E2] at i2
      simp only [Nat.succ_eq_add_one] at this i1 i2
      linarith [i1.1, i2.2]

/-- C17: at a time step with the sun not on the horizon and not in the plane of the rows, and with
the inter-row shading either above the tolerance or absent, the ground surfaces tile the ground
from -100 to 100: their lengths add up to 200, which is also the reported ground length, they are
on the ground line, they cover it, and different surfaces have no inner point in common. -/
theorem C17_tiling (p : ArrayParams) (u : StepIn) (hw : 0 < p.width) (hgcr : 0 < p.gcr) :
    let g := fitStep p u
    g.sun.y ≠ 0 → frontDotSun g.rot.deg g.sun ≠ 0 →
    ShadeOk p g.rot.deg g.sun →
    ((groundRefs p).map fun a => (g.coords a).length).sum = 200 ∧
    g.ground.length = 200 ∧
    (∀ a ∈ groundRefs p, (g.coords a).b1.y = 0 ∧ (g.coords a).b2.y = 0 ∧
      -100 ≤ (g.coords a).b1.x ∧ (g.coords a).b1.x ≤ (g.coords a).b2.x ∧
      (g.coords a).b2.x ≤ 100) ∧
    (∀ x : ℝ, -100 ≤ x → x ≤ 100 → ∃ a ∈ groundRefs p,
      (g.coords a).b1.x < (g.coords a).b2.x ∧ (g.coords a).b1.x ≤ x ∧ x ≤ (g.coords a).b2.x) ∧
    (∀ a ∈ groundRefs p, ∀ b ∈ groundRefs p, a ≠ b → ∀ x : ℝ,
      ¬ ((g.coords a).b1.x < x ∧ x < (g.coords a).b2.x ∧
         (g.coords b).b1.x < x ∧ x < (g.coords b).b2.x)) := by
  intro g hy hF htiny
  exact C17_tiling_gen p g.rot g.sun hw hgcr hy hF htiny

/-! ## C18 -/

theorem clip_le_iff {a x : ℝ} (h0 : -100 < x) (h1 : x < 100) :
    (clip a MIN_X MAX_X ≤ x ↔ a ≤ x) ∧ (x ≤ clip a MIN_X MAX_X ↔ x ≤ a) := by
  unfold clip MIN_X MAX_X
  constructor
  · rw [min_le_iff, max_le_iff]
    constructor
    · rintro (h | h)
      · exact h.1
      · linarith
    · intro h; exact Or.inl ⟨h, h0.le⟩
  · rw [le_min_iff, le_max_iff]
    constructor
    · rintro ⟨h | h, _⟩
      · exact h
      · linarith
    · intro h; exact ⟨Or.inl h, h1.le⟩

theorem clip_lt {a b x : ℝ} (h0 : -100 < x) (h1 : x < 100) (hab : a < b) (ha : a ≤ x) (hb : x ≤ b) :
    clip a MIN_X MAX_X < clip b MIN_X MAX_X := by
  unfold clip MIN_X MAX_X
  rcases eq_or_lt_of_le hb with rfl | hb
  · rw [max_eq_left h0.le, min_eq_left h1.le, min_lt_iff, max_lt_iff]
    exact Or.inl ⟨hab, h0⟩
  · calc min (max a (-100)) 100 ≤ max a (-100) := min_le_left _ _
      _ ≤ x := max_le ha h0.le
      _ < min (max b (-100)) 100 := lt_min (lt_max_of_lt_left hb) h1

/-- C18, for any rotation and sun vector. -/
theorem C18_ray_tracing_gen (p : ArrayParams) (rot : Rot) (sun : Pt) (x : ℝ) (hw : 0 < p.width)
    (hgcr : 0 < p.gcr) (hy : 0 < sun.y) (hF : frontDotSun rot.deg sun ≠ 0)
    (habove : p.width / 2 * |sind rot.deg| < p.height) (hx0 : -100 < x) (hx1 : x < 100) :
    let g := fitGeom p rot sun
    (∃ e z, SurfRef.gnd true e z ∈ groundRefs p ∧
      (g.coords (.gnd true e z)).b1.x < (g.coords (.gnd true e z)).b2.x ∧
      (g.coords (.gnd true e z)).b1.x ≤ x ∧ x ≤ (g.coords (.gnd true e z)).b2.x) ↔
    ∃ i < p.nRows, SunRayHits sun ⟨x, 0⟩ (g.row i).full := by
  intro g
  have hd : 0 < p.distance := div_pos hw hgcr
  have hlen : g.ground.cuts.length = p.nRows := fit_cuts_length p rot sun
  have hray := fun i => ground_ray (p := p) (rot := rot.deg) (i := i) x hw hy habove
  have hrow : ∀ i, (g.row i).full = fullRowCoords (rowCenter p i) p.width rot.deg := fun i => rfl
  have hx : ∀ j, g.ground.shadowXs j = shadowXs (fullRowCoords (rowCenter p j) p.width rot.deg)
    (arctan2 sun.y sun.x) := fun j => rfl
  have hkne : kappa (arctan2 sun.y sun.x) rot.deg ≠ 0 := by
    rw [kappa_eq hy.ne']; exact div_ne_zero hF hy.ne'
  have hk : 0 < p.width / 2 * |kappa (arctan2 sun.y sun.x) rot.deg| :=
    mul_pos (by linarith) (abs_pos.2 hkne)
  have hsx := fun j => shadowXs_eq p (rot := rot.deg) (sin_alpha_ne (sun := sun) hy.ne') j hw.le
  simp only at hsx
  -- ordered boundaries of the elements
  have hlt : ∀ e < p.nRows, (g.ground.noOverlap e).1 < (g.ground.noOverlap e).2 := by
    intro e he
    simp only [GroundIn.noOverlap, hx, hsx]
    split_ifs
    · push_cast; linarith
    · linarith
  -- step 1: from surfaces to elements
  have s1 : (∃ e z, SurfRef.gnd true e z ∈ groundRefs p ∧
      (g.coords (.gnd true e z)).b1.x < (g.coords (.gnd true e z)).b2.x ∧
      (g.coords (.gnd true e z)).b1.x ≤ x ∧ x ≤ (g.coords (.gnd true e z)).b2.x) ↔
      ∃ e < p.nRows, (g.ground.noOverlap e).1 ≤ x ∧ x ≤ (g.ground.noOverlap e).2 := by
    constructor
    · rintro ⟨e, z, hm, h1, h2, h3⟩
      rw [mem_groundRefs] at hm
      obtain ⟨sh, e', z', heq, he, hz⟩ := hm
      cases heq
      have he : e < p.nRows := by simpa using he
      have hmem : g.coords (.gnd true e z) ∈ cutSurfaces (g.ground.shadowEl e) g.ground.cuts := by
        rw [coords_gnd_getD, List.getD_eq_getElem _ _ (by rw [cutSurfaces_length, hlen]; exact hz)]
        exact List.getElem_mem _
      have := cutSurfaces_inside (shadowEl_inGround g.ground e) (clip_mono (hlt e he).le) _ _
        hmem h1
      refine ⟨e, he, ?_, ?_⟩
      · rw [← (clip_le_iff hx0 hx1).1]; exact this.1.trans h2
      · rw [← (clip_le_iff hx0 hx1).2]; exact h3.trans this.2
    · rintro ⟨e, he, h1, h2⟩
      obtain ⟨s, hs, a1, a2, a3⟩ := cutSurfaces_cover (shadowEl_inGround g.ground e)
        (cs := g.ground.cuts) (x := x) (clip_lt hx0 hx1 (hlt e he) h1 h2)
        ((clip_le_iff hx0 hx1).1.2 h1) ((clip_le_iff hx0 hx1).2.2 h2)
      obtain ⟨z, hz, rfl⟩ := List.getElem_of_mem hs
      have hz' : z < p.nRows + 1 := by rwa [cutSurfaces_length, hlen] at hz
      refine ⟨e, z, mem_groundRefs.2 ⟨true, e, z, rfl, by simpa using he, hz'⟩, ?_⟩
      rw [coords_gnd_getD, show g.elem true e = g.ground.shadowEl e from rfl,
        List.getD_eq_getElem _ _ hz]
      exact ⟨a1, a2, a3⟩
  rw [s1]
  -- step 2: from elements to shadows
  simp only [hrow, show (0 : ℝ) = Y_GROUND from rfl, hray]
  by_cases hfl : g.ground.flagOverlap
  · have hov : 1 < p.nRows → p.distance < p.width * |kappa (arctan2 sun.y sun.x) rot.deg| := by
      intro hn
      rw [← shading_iff_overlap (sin_alpha_ne hy.ne') (sunFront_ne hF) hd hw hn]
      have hfl' : hasDirectShading p (arctan2 sun.y sun.x) rot.deg := hfl
      rcases hfl' with h | h
      · exact Or.inl (TOL_pos.trans h)
      · exact Or.inr (TOL_pos.trans h)
    constructor
    · rintro ⟨e, he, h1, h2⟩
      simp only [GroundIn.noOverlap, hx, hfl, and_true] at h1 h2
      refine ⟨e, he, h1, ?_⟩
      split_ifs at h2 with hc
      · have := hov (lt_of_le_of_lt (by omega) (show e + 1 < p.nRows from hc))
        rw [hsx] at h2 ⊢
        push_cast at h2
        simp only at h2 ⊢
        linarith
      · exact h2
    · rintro ⟨i, hi, h1, h2⟩
      -- the last element whose left end is at most x
      have hex : ∃ e, e < p.nRows ∧ (g.ground.shadowXs e).1 ≤ x := ⟨i, hi, h1⟩
      obtain ⟨e, he, hel, hmax⟩ : ∃ e, e < p.nRows ∧ (g.ground.shadowXs e).1 ≤ x ∧
          ∀ e', e' < p.nRows → (g.ground.shadowXs e').1 ≤ x → e' ≤ e := by
        classical
        refine ⟨Nat.findGreatest (fun e => e < p.nRows ∧ (g.ground.shadowXs e).1 ≤ x) p.nRows, ?_⟩
        have hsp := Nat.findGreatest_spec (P := fun e => e < p.nRows ∧ (g.ground.shadowXs e).1 ≤ x)
          (n := p.nRows) hi.le ⟨hi, h1⟩
        exact ⟨hsp.1, hsp.2, fun e' he' h' => Nat.le_findGreatest he'.le ⟨he', h'⟩⟩
      refine ⟨e, he, hel, ?_⟩
      simp only [GroundIn.noOverlap, hfl, and_true]
      split_ifs with hc
      · by_contra hcon
        have := hmax (e + 1) hc (not_le.1 hcon).le
        omega
      · have hie : i ≤ e := hmax i hi h1
        rw [hx, hsx]
        rw [hsx] at h2
        have : (i : ℝ) ≤ e := by exact_mod_cast hie
        simp only at h2 ⊢
        nlinarith
  · have : ∀ e, g.ground.noOverlap e = g.ground.shadowXs e := by
      intro e; simp [GroundIn.noOverlap, hfl]
    simp only [this, hx]

/-- C18: let the sun be above the horizon and not in the plane of the rows, and the rows be above
the ground.  A ground point strictly between -100 and 100 is in a shaded ground surface (not a
single point) if and only if the ray from it to the sun meets one of the rows. -/
theorem C18_ray_tracing (p : ArrayParams) (u : StepIn) (x : ℝ) (hw : 0 < p.width)
    (hgcr : 0 < p.gcr) (hx0 : -100 < x) (hx1 : x < 100) :
    let g := fitStep p u
    0 < g.sun.y → frontDotSun g.rot.deg g.sun ≠ 0 →
    p.width / 2 * |sind g.rot.deg| < p.height →
    ((∃ e z, SurfRef.gnd true e z ∈ groundRefs p ∧
      (g.coords (.gnd true e z)).b1.x < (g.coords (.gnd true e z)).b2.x ∧
      (g.coords (.gnd true e z)).b1.x ≤ x ∧ x ≤ (g.coords (.gnd true e z)).b2.x) ↔
    ∃ i < p.nRows, SunRayHits g.sun ⟨x, 0⟩ (g.row i).full) := by
  intro g hy hF habove
  exact C18_ray_tracing_gen p g.rot g.sun x hw hgcr hy hF habove hx0 hx1

/-! ## Instances -/

theorem dense_shading : hasDirectShading denseArray (fitStep denseArray shadeStep).alpha
    (fitStep denseArray shadeStep).rot.deg := by
  have h3 : (1.7 : ℝ) < Real.sqrt 3 := by
    rw [Real.lt_sqrt (by norm_num)]; norm_num
  have hy : (fitStep denseArray shadeStep).sun.y ≠ 0 := by rw [dense_sun]; norm_num
  have hF : frontDotSun (fitStep denseArray shadeStep).rot.deg
    (fitStep denseArray shadeStep).sun ≠ 0 := by rw [dense_front]; positivity
  have hd : denseArray.distance = 5 / 4 := by norm_num [ArrayParams.distance, denseArray]
  have h := interrowShading_eq (p := denseArray) (sin_alpha_ne hy) (sunFront_ne hF)
    (by rw [hd]; norm_num) (by norm_num [denseArray]) (by simp [denseArray])
  rw [kappa_eq hy, dense_front, dense_sun] at h
  left
  have ha : (fitStep denseArray shadeStep).alpha = arctan2 (fitStep denseArray shadeStep).sun.y
    (fitStep denseArray shadeStep).sun.x := rfl
  rw [ha, dense_sun, h, hd]
  simp only
  rw [if_pos (by positivity), gt_iff_lt, lt_max_iff]
  right
  have : (5 / 4 : ℝ) / (Real.sqrt 3 / 2 / (1 / 2)) ≤ 0.75 := by
    rw [div_le_iff₀ (by positivity)]; linarith
  simp only [denseArray, TOL]
  norm_num at this ⊢
  linarith

theorem dense_shadeOk : ShadeOk denseArray (fitStep denseArray shadeStep).rot.deg
    (fitStep denseArray shadeStep).sun :=
  (shadeOk_iff (by norm_num [denseArray]) (by norm_num [denseArray])
    (by rw [dense_sun]; norm_num) (by rw [dense_front]; positivity)).2 (Or.inl dense_shading)

/-- The hypotheses of C17 are met by an array with shading between rows. -/
theorem C17_demo : (fitStep denseArray shadeStep).ground.length = 200 :=
  (C17_tiling denseArray shadeStep (by norm_num [denseArray]) (by norm_num [denseArray])
    (by rw [dense_sun]; norm_num) (by rw [dense_front]; positivity) dense_shadeOk).2.1

/-- The hypotheses of C18 are met, in a case with a point in the shade. -/
theorem C18_demo : ∃ e z, SurfRef.gnd true e z ∈ groundRefs denseArray ∧
    ((fitStep denseArray shadeStep).coords (.gnd true e z)).b1.x ≤ 3 / 2 * Real.sqrt 3 ∧
    3 / 2 * Real.sqrt 3 ≤ ((fitStep denseArray shadeStep).coords (.gnd true e z)).b2.x := by
  have h3 : (1.7 : ℝ) < Real.sqrt 3 := by
    rw [Real.lt_sqrt (by norm_num)]; norm_num
  have h3' : Real.sqrt 3 < 1.8 := by
    rw [Real.sqrt_lt' (by norm_num)]; norm_num
  have h := (C18_ray_tracing denseArray shadeStep (3 / 2 * Real.sqrt 3) (by norm_num [denseArray])
    (by norm_num [denseArray]) (by linarith) (by linarith) (by rw [dense_sun]; norm_num)
    (by rw [dense_front]; positivity)
    (by rw [dense_rot, sind_30]; norm_num [denseArray])).2 ⟨0, by simp [denseArray], by
      rw [dense_sun]
      refine ⟨3, by norm_num, 1 / 2, by norm_num, by norm_num, ?_⟩
      have hrow : ((fitStep denseArray shadeStep).row 0).full
        = fullRowCoords (rowCenter denseArray 0) denseArray.width
          (fitStep denseArray shadeStep).rot.deg := rfl
      rw [hrow, lerp_full]
      simp only [rowPt, rowCenter, X_ORIGIN, Y_GROUND, denseArray, Pt.mk.injEq]
      constructor
      · norm_num; ring
      · norm_num⟩
  obtain ⟨e, z, hm, _, h2⟩ := h
  exact ⟨e, z, hm, h2⟩

/-- The hypotheses of C24 are met: the two shadows of the dense array overlap. -/
theorem C24_demo : ((fitStep denseArray shadeStep).ground.shadowXs 1).1
    < ((fitStep denseArray shadeStep).ground.shadowXs 0).2 :=
  (C24_overlap denseArray shadeStep (by norm_num [denseArray]) (by norm_num [denseArray]) 0
    (by simp [denseArray]) (by rw [dense_sun]; norm_num) (by rw [dense_front]; positivity)).1
    (by rcases dense_shading with h | h
        · exact Or.inl (TOL_pos.trans h)
        · exact Or.inr (TOL_pos.trans h))

/-- The hypotheses of C20 are met: the cut point of the second dense row is where its line meets the
ground. -/
theorem C20_demo : ∃ c : ℝ, (fitStep denseArray shadeStep).ground.cuts[1]? = some (.fin c) := by
  obtain ⟨c, hc, _⟩ := C20_cut_point denseArray shadeStep 1 (by simp [denseArray])
    (by norm_num [shadeStep]) (by norm_num [shadeStep]) (by norm_num [denseArray])
  exact ⟨c, hc⟩

/-- The hypotheses of C25 are met: tilt 20 degrees to the right becomes tilt 20 to the left. -/
theorem C25_demo : (rotationFromTiltAzimuth (90 + 180) 0 20).deg = 20 := by
  have h90 : sind (90 - 0) ≠ 0 := by rw [sub_zero, sind_90]; norm_num
  rw [C25_opposite 90 0 20 (by norm_num) h90, C25_orientation _ _ _ (by norm_num), if_neg]
  · norm_num
  · rw [sub_zero, sind_90]; norm_num

/-- The hypotheses of C27 are met by the dense array. -/
theorem C27_demo : rowShadedLengths denseArray (arctan2 (1 / 2) (Real.sqrt 3 / 2)) (-30) 0
    = rowShadedLengths denseArray (fitStep denseArray shadeStep).alpha 30 1 := by
  have h := C27_mirror_rows denseArray 30 ⟨-(Real.sqrt 3 / 2), 1 / 2⟩ 0 (by simp [denseArray])
    (by norm_num) (by norm_num)
    (by have := dense_front; rw [dense_rot, dense_sun] at this; rw [this]; positivity)
  have ha : (fitStep denseArray shadeStep).alpha = arctan2 (fitStep denseArray shadeStep).sun.y
    (fitStep denseArray shadeStep).sun.x := rfl
  rw [ha, dense_sun]
  simpa [denseArray] using h

/-- Two rows whose ground shadows overlap by less than the tolerance. -/
noncomputable def tinyArray : ArrayParams where
  axisAzimuth := 0
  gcr := 1 / (Real.sqrt 3 * (1 - TOL / 2))
  height := 3 / 2
  width := 1
  nRows := 2
  cut := fun _ => {}

/-- C17 needs its hypothesis on tiny shading: if the rows shade each other by less than the
tolerance, the shadow elements keep their overlap and the ground gets longer than 200. -/
theorem C17_tiny_overlap_counterexample :
    let g := fitStep tinyArray shadeStep
    tinyArray.gcr ≤ 1 ∧ 0 < g.sun.y ∧ frontDotSun g.rot.deg g.sun ≠ 0 ∧
    0 < (interrowShading tinyArray g.alpha g.rot.deg).1 ∧ 200 < g.ground.length := by
  intro g
  have h3 : (1.7 : ℝ) < Real.sqrt 3 := by
    rw [Real.lt_sqrt (by norm_num)]; norm_num
  have h3' : Real.sqrt 3 < 1.8 := by
    rw [Real.sqrt_lt' (by norm_num)]; norm_num
  have hT : TOL = 1 / 100000000 := rfl
  have hrot : g.rot.deg = 30 := dense_rot
  have hsun : g.sun = ⟨-(Real.sqrt 3 / 2), 1 / 2⟩ := dense_sun
  have hF : frontDotSun g.rot.deg g.sun = Real.sqrt 3 / 2 := dense_front
  have hy : g.sun.y ≠ 0 := by rw [hsun]; norm_num
  have hF0 : frontDotSun g.rot.deg g.sun ≠ 0 := by rw [hF]; positivity
  have hd : tinyArray.distance = Real.sqrt 3 * (1 - TOL / 2) := by
    simp [ArrayParams.distance, tinyArray]
  have hdpos : 0 < tinyArray.distance := by
    rw [hd, hT]; apply mul_pos (by positivity); norm_num
  have hk : kappa (arctan2 g.sun.y g.sun.x) g.rot.deg = Real.sqrt 3 := by
    rw [kappa_eq hy, hF, hsun]; ring
  have hI : interrowShading tinyArray (arctan2 g.sun.y g.sun.x) g.rot.deg = (TOL / 2, 0) := by
    rw [interrowShading_eq (sin_alpha_ne hy) (sunFront_ne hF0) hdpos (by norm_num [tinyArray])
      (by simp [tinyArray]), hk, hd]
    rw [if_pos (by positivity), if_neg (by rw [not_lt]; positivity),
      mul_div_cancel_left₀ _ (by positivity)]
    simp only [tinyArray, hT]
    norm_num
  refine ⟨?_, by rw [hsun]; norm_num, hF0, ?_, ?_⟩
  · simp only [tinyArray, hT]
    rw [div_le_one (by norm_num)]
    norm_num
    nlinarith
  · change 0 < (interrowShading tinyArray (arctan2 g.sun.y g.sun.x) g.rot.deg).1
    rw [hI]; simp only [hT]; norm_num
  · have hflag : ¬ g.ground.flagOverlap := by
      change ¬ hasDirectShading tinyArray (arctan2 g.sun.y g.sun.x) g.rot.deg
      unfold hasDirectShading
      rw [hI]
      simp only [hT]; norm_num
    have hsx := fun j => shadowXs_eq tinyArray (rot := g.rot.deg) (sin_alpha_ne hy) j
      (by norm_num [tinyArray])
    have hcot : g.sun.x / g.sun.y = - Real.sqrt 3 := by rw [hsun]; ring
    simp only [hk, cot_alpha hy, hcot, hd, abs_of_pos (show 0 < Real.sqrt 3 by positivity)] at hsx
    have hx : ∀ j, g.ground.noOverlap j = shadowXs (fullRowCoords (rowCenter tinyArray j)
        tinyArray.width g.rot.deg) (arctan2 g.sun.y g.sun.x) := by
      intro j
      have : g.ground.noOverlap j = g.ground.shadowXs j := by
        simp [GroundIn.noOverlap, hflag]
      rw [this]; rfl
    have hclip : ∀ x : ℝ, -100 ≤ x → x ≤ 100 → clip x MIN_X MAX_X = x := by
      intro x h0 h1
      unfold clip MIN_X MAX_X
      rw [max_eq_left h0, min_eq_left h1]
    have hn : g.ground.nRows = 2 := rfl
    have hw : tinyArray.width = 1 := rfl
    have hh : tinyArray.height = 3 / 2 := rfl
    have e0 : (g.ground.shadowEl 0) = ⟨⟨Real.sqrt 3, 0⟩, ⟨2 * Real.sqrt 3, 0⟩⟩ := by
      simp only [GroundIn.shadowEl, hx, hsx]
      simp only [hw, hh, Nat.cast_zero]
      rw [hclip _ (by linarith) (by linarith), hclip _ (by linarith) (by linarith)]
      simp only [Line.mk.injEq, Pt.mk.injEq, Y_GROUND, and_true]
      constructor <;> ring
    have e1 : (g.ground.shadowEl 1) = ⟨⟨2 * Real.sqrt 3 - Real.sqrt 3 * (TOL / 2), 0⟩,
        ⟨3 * Real.sqrt 3 - Real.sqrt 3 * (TOL / 2), 0⟩⟩ := by
      simp only [GroundIn.shadowEl, hx, hsx]
      simp only [hw, hh, Nat.cast_one]
      rw [hclip _ (by rw [hT]; linarith) (by rw [hT]; linarith),
        hclip _ (by rw [hT]; linarith) (by rw [hT]; linarith)]
      simp only [Line.mk.injEq, Pt.mk.injEq, Y_GROUND, and_true]
      constructor <;> ring
    have hlen : ∀ a b : ℝ, (Line.mk ⟨a, 0⟩ ⟨b, 0⟩).length = |b - a| :=
      fun a b => Line.length_ground rfl
    have i0 : (g.ground.illumEl 0).length = Real.sqrt 3 + 100 := by
      simp only [GroundIn.illumEl, hn, e0]
      simp only [if_true, show (0 : ℕ) < 2 by norm_num, Y_GROUND, hlen, MIN_X]
      rw [abs_of_pos (by linarith)]; ring
    have i1 : (g.ground.illumEl 1).length = Real.sqrt 3 * (TOL / 2) := by
      simp only [GroundIn.illumEl, hn, e0, e1, Nat.sub_self]
      simp only [show ¬ (1 : ℕ) = 0 by norm_num, if_false, show (1 : ℕ) < 2 by norm_num, if_true,
        Y_GROUND, hlen]
      rw [abs_of_neg (by rw [hT]; linarith)]; ring
    have i2 : (g.ground.illumEl 2).length = 100 - (3 * Real.sqrt 3 - Real.sqrt 3 * (TOL / 2)) := by
      simp only [GroundIn.illumEl, hn, show 2 - 1 = 1 from rfl, e1]
      simp only [show ¬ (2 : ℕ) = 0 by norm_num, if_false, lt_irrefl, Y_GROUND, hlen, MAX_X]
      rw [abs_of_pos (by rw [hT]; linarith)]
    have l0 : (g.ground.shadowEl 0).length = Real.sqrt 3 := by
      rw [e0, hlen, abs_of_pos (by linarith)]; ring
    have l1 : (g.ground.shadowEl 1).length = Real.sqrt 3 := by
      rw [e1, hlen, abs_of_pos (by linarith)]; ring
    have : g.ground.length = Real.sqrt 3 + Real.sqrt 3 + ((Real.sqrt 3 + 100)
        + Real.sqrt 3 * (TOL / 2) + (100 - (3 * Real.sqrt 3 - Real.sqrt 3 * (TOL / 2)))) := by
      unfold GroundIn.length
      rw [hn]
      simp only [List.range_succ, List.range_zero, List.nil_append, List.cons_append,
        List.map_cons, List.map_nil, List.sum_cons, List.sum_nil, add_zero, l0, l1, i0, i1, i2]
      ring
    rw [this, hT]
    linarith

end PVF

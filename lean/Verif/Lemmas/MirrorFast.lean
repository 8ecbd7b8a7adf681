import Verif.Lemmas.Mirror
import Verif.Spec.Mirror

/-! # View factors of fast mode in the mirror -/

namespace PVF

theorem clip_inside {x : ℝ} (h : InGround x) : clip x MIN_X MAX_X = x := by
  unfold clip; rw [max_eq_left h.1, min_eq_left h.2]

section
variable {p : ArrayParams} {rot : Rot} {sun : Pt} (h : Physical p rot.deg) (h0 : rot.deg ≠ 0)
    (ho : (fitGeom p rot sun).ground.Ordered)
    {r : ℕ} {k : ℕ} {sh : Bool} (ha : SurfRef.pv r .back k sh ∈ allRefs p)
include h h0 ho ha

/-- The view factors to the shadows, with strings to the unclipped cut point. -/
theorem fast_each_list :
    let g := fitGeom p rot sun
    let left := faceL rot.deg .back
    let A := g.coords (.pv r .back k sh)
    let C := fun x => strA p left rot.deg r (pvIv p rot sun r .back k sh).1
      (pvIv p rot sun r .back k sh).2 (clipTo left (cutX p rot.deg r) x)
    (fastVF p g r A).toEachGndShadow = (List.range p.nRows).map fun e =>
      if A.length > TOL then (C (g.ground.shadowEl e).b2.x - C (g.ground.shadowEl e).b1.x)
        / (2 * A.length) else 0 := by
  intro g left A C
  obtain ⟨hr, hk⟩ := mem_allRefs_pv.1 ha
  simp only [fastVF]
  apply List.map_congr_left
  intro e he
  have he : e < p.nRows := by simpa using he
  have hel : LineInGround (g.ground.shadowEl e) := g.elem_inGround true e
  have hord : (g.ground.shadowEl e).b1.x ≤ (g.ground.shadowEl e).b2.x :=
    elem_ordered (sh := true) ho (by simpa using he)
  have := (fast_each (sun := sun) h ha (fun h' => absurd h' h0) hel hord).1
  simp only [dphi_strA] at this
  have hz : (fitGeom p rot sun).ground.zoneHi r = (XR.fin (cutX p rot.deg r)).clipped := by
    rw [zoneHi_fit p rot sun hr, cutPointX_fin h0]
  rw [hz, clipTo_clipped (strA p left rot.deg r (pvIv p rot sun r .back k sh).1
    (pvIv p rot sun r .back k sh).2) left _ hel.1 hel.2.1] at this
  exact this

end

theorem sum_list_range_mirror (n : ℕ) (f : ℕ → ℝ) :
    ((List.range n).map f).sum = ∑ e ∈ Finset.range n, f e := rfl

/-- Sum over contiguous intervals. -/
theorem sum_contiguous (X : ℕ → ℝ) (y : ℝ) {n : ℕ} (hn : 0 < n) :
    ((List.range n).map fun e => (if e + 1 < n then X (e + 1) else y) - X e).sum = y - X 0 := by
  obtain ⟨m, rfl⟩ : ∃ m, n = m + 1 := ⟨n - 1, by omega⟩
  rw [sum_list_range_mirror, Finset.sum_range_succ, if_neg (by omega)]
  have : ∑ e ∈ Finset.range m, ((if e + 1 < m + 1 then X (e + 1) else y) - X e) = X m - X 0 := by
    rw [← Finset.sum_range_sub]
    refine Finset.sum_congr rfl fun e he => ?_
    rw [if_pos (by have := Finset.mem_range.1 he; omega)]
  rw [this]; ring

theorem ShadowsInside.ends {p : ArrayParams} {g : StepGeom} (h : ShadowsInside p g) (i : ℕ)
    (hi : i < p.nRows) :
    (InGround (g.ground.shadowXs i).1 ∧ InGround (g.ground.shadowXs i).2) ∧
    InGround (mirSum p - (g.ground.shadowXs i).1) ∧ InGround (mirSum p - (g.ground.shadowXs i).2) :=
  ⟨⟨(h i hi _ (Or.inl rfl)).1, (h i hi _ (Or.inr rfl)).1⟩, (h i hi _ (Or.inl rfl)).2,
    (h i hi _ (Or.inr rfl)).2⟩

section
variable {p : ArrayParams} {rot rot' : Rot} {sun : Pt} (h : Physical p rot.deg)
    (h' : Physical p.mirror rot'.deg) (h0 : rot.deg ≠ 0) (hrot : rot'.deg = -rot.deg)
    (hy : sun.y ≠ 0) (hF : frontDotSun rot.deg sun ≠ 0)
    (ho : (fitGeom p rot sun).ground.Ordered)
    (ho' : (fitGeom p.mirror rot' ⟨-sun.x, sun.y⟩).ground.Ordered)
    (hin : ShadowsInside p (fitGeom p rot sun))
    {r : ℕ} {k : ℕ} {sh : Bool} (ha : SurfRef.pv r .back k sh ∈ allRefs p)

include hrot hy hF in
theorem flag_mirror : (fitGeom p.mirror rot' ⟨-sun.x, sun.y⟩).ground.flagOverlap
    ↔ (fitGeom p rot sun).ground.flagOverlap := by
  have hs := C27_mirror_shading p rot.deg sun hy hF
  have hs' : interrowShading p.mirror (arctan2 sun.y (-sun.x)) (-rot.deg) = _ := hs
  change hasDirectShading p.mirror (arctan2 sun.y (-sun.x)) rot'.deg
    ↔ hasDirectShading p (arctan2 sun.y sun.x) rot.deg
  unfold hasDirectShading
  rw [hrot, hs']

include h hrot hy in
theorem shadow_mirror {i : ℕ} (hi : i < p.nRows) :
    ((fitGeom p.mirror rot' ⟨-sun.x, sun.y⟩).ground.shadowXs i).1
      = mirSum p - ((fitGeom p rot sun).ground.shadowXs (p.nRows - 1 - i)).2 ∧
    ((fitGeom p.mirror rot' ⟨-sun.x, sun.y⟩).ground.shadowXs i).2
      = mirSum p - ((fitGeom p rot sun).ground.shadowXs (p.nRows - 1 - i)).1 :=
  C27_mirror_shadows p rot rot' sun i hi hrot h.width.le hy

include h hrot hy hin in
/-- Ends of the shadow elements of both scenes. -/
theorem shadowEl_mirror {i : ℕ} (hi : i < p.nRows) :
    let G := (fitGeom p rot sun).ground
    let G' := (fitGeom p.mirror rot' ⟨-sun.x, sun.y⟩).ground
    (G.shadowEl i).b1.x = (G.shadowXs i).1 ∧
    ((G.shadowEl i).b2.x = open Classical in if i + 1 < p.nRows ∧ G.flagOverlap then
      (G.shadowXs (i + 1)).1 else (G.shadowXs i).2) ∧
    (G'.shadowEl i).b1.x = mirSum p - (G.shadowXs (p.nRows - 1 - i)).2 ∧
    ((G'.shadowEl i).b2.x = open Classical in if i + 1 < p.nRows ∧ G'.flagOverlap then
      mirSum p - (G.shadowXs (p.nRows - 1 - (i + 1))).2
      else mirSum p - (G.shadowXs (p.nRows - 1 - i)).1) := by
  intro G G'
  have hn : G.nRows = p.nRows := rfl
  have hn' : G'.nRows = p.nRows := rfl
  have hm := fun {i} (hi : i < p.nRows) => shadow_mirror (sun := sun) h hrot hy hi
  refine ⟨clip_inside (hin.ends i hi).1.1, ?_, ?_, ?_⟩
  · simp only [GroundIn.shadowEl, GroundIn.noOverlap, hn]
    by_cases hc : i + 1 < p.nRows ∧ G.flagOverlap
    · rw [if_pos hc, if_pos (show i + 1 < G.nRows ∧ G.flagOverlap from hc)]; exact clip_inside (hin.ends _ hc.1).1.1
    · rw [if_neg hc, if_neg (show ¬ (i + 1 < G.nRows ∧ G.flagOverlap) from hc)]; exact clip_inside (hin.ends i hi).1.2
  · simp only [GroundIn.shadowEl, GroundIn.noOverlap]
    rw [(hm hi).1]
    exact clip_inside (hin.ends _ (by omega)).2.2
  · simp only [GroundIn.shadowEl, GroundIn.noOverlap, hn']
    by_cases hc : i + 1 < p.nRows ∧ G'.flagOverlap
    · rw [if_pos hc, if_pos (show i + 1 < G'.nRows ∧ G'.flagOverlap from hc), (hm hc.1).1]
      exact clip_inside (hin.ends _ (by omega)).2.2
    · rw [if_neg hc, if_neg (show ¬ (i + 1 < G'.nRows ∧ G'.flagOverlap) from hc), (hm hi).2]
      exact clip_inside (hin.ends _ (by omega)).2.1

theorem mirrorPv_mem' {p : ArrayParams} {r k : ℕ} {s : RowSide} {sh : Bool}
    (ha : SurfRef.pv r s k sh ∈ allRefs p) : mirrorPv p r s k sh ∈ allRefs p.mirror := by
  obtain ⟨hr, hk⟩ := mem_allRefs_pv.1 ha
  exact mem_surfaces.1 (mirrorPv_mem p hr hk sh)

include h h' h0 hrot hy hF ha in
theorem length_mirror :
    ((fitGeom p.mirror rot' ⟨-sun.x, sun.y⟩).coords (mirrorPv p r .back k sh)).length
      = ((fitGeom p rot sun).coords (.pv r .back k sh)).length := by
  obtain ⟨hr, hk⟩ := mem_allRefs_pv.1 ha
  obtain ⟨hr', hk'⟩ := mem_allRefs_pv.1 (mirrorPv_mem' ha)
  have h0' : rot'.deg ≠ 0 := by rw [hrot]; exact neg_ne_zero.2 h0
  unfold mirrorPv
  rw [coords_pv_t hk sh h.width.le h.lo h.hi, coords_pv_t hk' sh h'.width.le h'.lo h'.hi, if_neg h0,
    if_neg h0', length_tPt, length_tPt, pvIv_mirror p hrot h0 hy hF hr .back hk sh]

include h h' h0 hrot hy hF ho ho' hin ha in
/-- The view factors to the shadows of the ground. -/
theorem fast_shadows_mirror :
    let g := fitGeom p rot sun
    let g' := fitGeom p.mirror rot' ⟨-sun.x, sun.y⟩
    let v := fastVF p g r (g.coords (.pv r .back k sh))
    let v' := fastVF p.mirror g' ((p.nRows - 1 - r : ℕ) : ℤ) (g'.coords (mirrorPv p r .back k sh))
    v'.toGndShaded = v.toGndShaded ∧
    (¬ g.ground.flagOverlap → v'.toEachGndShadow = v.toEachGndShadow.reverse) := by
  intro g g' v v'
  obtain ⟨hr, hk⟩ := mem_allRefs_pv.1 ha
  have ha' := mirrorPv_mem' ha
  have h0' : rot'.deg ≠ 0 := by rw [hrot]; exact neg_ne_zero.2 h0
  have hs : sind rot.deg ≠ 0 := by
    have := upY_pos h.lo h.hi h0
    unfold upY at this
    intro hs
    rw [hs] at this
    simp at this
  have e1 := fast_each_list h h0 ho ha
  have e2 := fast_each_list h' h0' ho' ha'
  have hL := length_mirror h h' h0 hrot hy hF ha
  simp only [show mirrorPv p r .back k sh
    = .pv (p.nRows - 1 - r) .back (p.nSeg r .back - 1 - k) sh from rfl] at e2 hL
  rw [hL, pvIv_mirror p hrot h0 hy hF hr .back hk sh] at e2
  have hnn : p.mirror.nRows = p.nRows := rfl
  rw [hrot, faceL_neg h0, cutX_mirror hs hr, hnn] at e2
  set left := faceL rot.deg .back
  set iv := pvIv p rot sun r .back k sh
  set L := (g.coords (.pv r .back k sh)).length
  set C : ℝ → ℝ := fun x => strA p left rot.deg r iv.1 iv.2 (clipTo left (cutX p rot.deg r) x) with hC
  set C' : ℝ → ℝ := fun x => strA p.mirror (!left) (-rot.deg) (p.nRows - 1 - r) iv.1 iv.2
    (clipTo (!left) (mirSum p - cutX p rot.deg r) x) with hC'
  have hCC : ∀ x y, C' (mirSum p - x) - C' (mirSum p - y) = C y - C x := by
    intro x y
    simp only [hC, hC', clipTo_mirror]
    exact strA_mirror h0 p left hr _ _ _ _
  have e1 : v.toEachGndShadow = (List.range p.nRows).map fun e => if L > TOL then
      (C (g.ground.shadowEl e).b2.x - C (g.ground.shadowEl e).b1.x) / (2 * L) else 0 := e1
  have e2 : v'.toEachGndShadow = (List.range p.nRows).map fun e => if L > TOL then
      (C' (g'.ground.shadowEl e).b2.x - C' (g'.ground.shadowEl e).b1.x) / (2 * L) else 0 := e2
  have s1 : v.toGndShaded = v.toEachGndShadow.sum := rfl
  have s2 : v'.toGndShaded = v'.toEachGndShadow.sum := rfl
  have hel := fun {i} (hi : i < p.nRows) => shadowEl_mirror (sun := sun) h hrot hy hin hi
  have hfl := flag_mirror (p := p) hrot hy hF
  by_cases hov : g.ground.flagOverlap
  · refine ⟨?_, fun hno => absurd hov hno⟩
    have hn : 0 < p.nRows := by omega
    have hov' : g'.ground.flagOverlap := hfl.2 hov
    rw [s1, s2, e1, e2]
    by_cases hT : L > TOL
    · simp only [if_pos hT, div_eq_mul_inv]
      rw [List.sum_map_mul_right, List.sum_map_mul_right]
      congr 1
      have c1 := sum_contiguous (fun e => C (g.ground.shadowXs e).1)
        (C (g.ground.shadowXs (p.nRows - 1)).2) hn
      have c2 := sum_contiguous
        (fun e => C' (mirSum p - (g.ground.shadowXs (p.nRows - 1 - e)).2))
        (C' (mirSum p - (g.ground.shadowXs 0).1)) hn
      rw [show p.nRows - 1 - 0 = p.nRows - 1 by omega, hCC] at c2
      trans C (g.ground.shadowXs (p.nRows - 1)).2 - C (g.ground.shadowXs 0).1
      · rw [← c2]
        congr 1
        apply List.map_congr_left
        intro e he
        have he : e < p.nRows := by simpa using he
        obtain ⟨-, -, q1, q2⟩ := hel he
        rw [q1, q2]
        by_cases hc : e + 1 < p.nRows
        · rw [if_pos ⟨hc, hov'⟩, if_pos hc]
        · rw [if_neg (fun hh => hc hh.1), if_neg hc, show p.nRows - 1 - e = 0 by omega]
      · rw [← c1]
        congr 1
        apply List.map_congr_left
        intro e he
        have he : e < p.nRows := by simpa using he
        obtain ⟨q1, q2, -, -⟩ := hel he
        rw [q1, q2]
        by_cases hc : e + 1 < p.nRows
        · rw [if_pos hc, if_pos ⟨hc, hov⟩]
        · rw [if_neg hc, if_neg (fun hh => hc hh.1), show p.nRows - 1 = e by omega]
    · simp only [if_neg hT]
  · have hrev : v'.toEachGndShadow = v.toEachGndShadow.reverse := by
      rw [e1, e2]
      have hov' : ¬ g'.ground.flagOverlap := fun hh => hov (hfl.1 hh)
      refine List.ext_getElem (by simp) fun e he _ => ?_
      have he : e < p.nRows := by simpa using he
      rw [List.getElem_reverse]
      simp only [List.getElem_map, List.getElem_range, List.length_map, List.length_range]
      obtain ⟨-, -, q1, q2⟩ := hel he
      obtain ⟨q3, q4, -, -⟩ := hel (i := p.nRows - 1 - e) (by omega)
      rw [if_neg (fun hh => hov' hh.2)] at q2
      rw [if_neg (fun hh => hov hh.2)] at q4
      rw [q1, q2, q3, q4, hCC]
    exact ⟨by rw [s1, s2, hrev, List.sum_reverse], fun _ => hrev⟩

include h h' h0 hrot hy hF ha in
/-- The view factor to the whole ground. -/
theorem fast_ground_mirror (hn : p.nRows = 1 ∨ HasNb (faceL rot.deg .back) p.nRows r) :
    let g := fitGeom p rot sun
    let g' := fitGeom p.mirror rot' ⟨-sun.x, sun.y⟩
    (fastVF p.mirror g' ((p.nRows - 1 - r : ℕ) : ℤ) (g'.coords (mirrorPv p r .back k sh))).toGndTotal
      = (fastVF p g r (g.coords (.pv r .back k sh))).toGndTotal := by
  intro g g'
  obtain ⟨hr, hk⟩ := mem_allRefs_pv.1 ha
  have ha' := mirrorPv_mem' ha
  have h0' : rot'.deg ≠ 0 := by rw [hrot]; exact neg_ne_zero.2 h0
  have hs : sind rot.deg ≠ 0 := by
    have := upY_pos h.lo h.hi h0
    unfold upY at this
    intro hs
    rw [hs] at this
    simp at this
  have hL := length_mirror h h' h0 hrot hy hF ha
  have hiv := pvIv_mirror p hrot h0 hy hF hr .back hk sh
  have hnn : p.mirror.nRows = p.nRows := rfl
  by_cases hb : HasNb (faceL rot.deg .back) p.nRows r
  · have e1 := fast_gnd_nb (sun := sun) h ha hb
    have e2 := fast_gnd_nb (sun := ⟨-sun.x, sun.y⟩) h' ha'
      (by rw [hrot, faceL_neg h0]; exact (hasNb_mirror hr _).2 hb)
    refine e2.trans (Eq.trans ?_ e1.symm)
    have hL : ((fitGeom p.mirror rot' ⟨-sun.x, sun.y⟩).coords (.pv (p.nRows - 1 - r) .back
      (p.nSeg r .back - 1 - k) sh)).length = _ := hL
    rw [hL, hiv, hrot, faceL_neg h0, kdist_mirror h0 p _ hr hb]
  · have h1 : p.nRows = 1 := hn.resolve_right hb
    have hc0 : mirSum p = 0 := by unfold mirSum; rw [h1]; simp
    have e1 := fast_gnd_edge (sun := sun) h ha hb
    have hb' : ¬ HasNb (faceL rot'.deg .back) p.mirror.nRows (p.nRows - 1 - r) := by
      rw [hrot, faceL_neg h0]; exact fun hh => hb ((hasNb_mirror hr _).1 hh)
    have e2 := fast_gnd_edge (sun := ⟨-sun.x, sun.y⟩) h' ha' hb'
    refine e2.trans (Eq.trans ?_ e1.symm)
    have hL : ((fitGeom p.mirror rot' ⟨-sun.x, sun.y⟩).coords (.pv (p.nRows - 1 - r) .back
      (p.nSeg r .back - 1 - k) sh)).length = _ := hL
    rw [hL, hiv, cutPointX_fin h0', cutPointX_fin h0, hrot, faceL_neg h0, cutX_mirror hs hr]
    set left := faceL rot.deg .back
    have q1 : edgeCut (!left) (XR.fin (mirSum p - cutX p rot.deg r))
        = mirSum p - edgeCut left (XR.fin (cutX p rot.deg r)) := by
      have hM : MAX_X = 0 - MIN_X := by norm_num [MIN_X, MAX_X]
      have hm : MIN_X = 0 - MAX_X := by norm_num [MIN_X, MAX_X]
      rw [hc0]
      unfold edgeCut
      cases left
      · simp only [minMaxX, maxMinX, Bool.not_false, if_true, Bool.false_eq_true, if_false]
        rw [hM, min_sub_sub_left]
      · simp only [minMaxX, maxMinX, Bool.not_true, if_true, Bool.false_eq_true, if_false]
        rw [hm, max_sub_sub_left]
    have q2 : (if (!left) = true then MIN_X else MAX_X)
        = mirSum p - (if left = true then MIN_X else MAX_X) := by
      rw [hc0]
      cases left <;> norm_num [MIN_X, MAX_X]
    rw [q1, q2, phi_mirror h0 p left hr, phi_mirror h0 p left hr]

include h h' h0 hrot hy hF ha in
/-- The view factors to the next row. -/
theorem fast_row_mirror :
    let g := fitGeom p rot sun
    let g' := fitGeom p.mirror rot' ⟨-sun.x, sun.y⟩
    let v := fastVF p g r (g.coords (.pv r .back k sh))
    let v' := fastVF p.mirror g' ((p.nRows - 1 - r : ℕ) : ℤ) (g'.coords (mirrorPv p r .back k sh))
    v'.toPvrowTotal = v.toPvrowTotal ∧ v'.toPvrowShaded = v.toPvrowShaded := by
  intro g g' v v'
  obtain ⟨hr, hk⟩ := mem_allRefs_pv.1 ha
  have ha' := mirrorPv_mem' ha
  have h0' : rot'.deg ≠ 0 := by rw [hrot]; exact neg_ne_zero.2 h0
  have hL : ((fitGeom p.mirror rot' ⟨-sun.x, sun.y⟩).coords (.pv (p.nRows - 1 - r) .back
      (p.nSeg r .back - 1 - k) sh)).length = _ := length_mirror h h' h0 hrot hy hF ha
  have hiv := pvIv_mirror p hrot h0 hy hF hr .back hk sh
  have hnn : p.mirror.nRows = p.nRows := rfl
  have hw : p.mirror.width = p.width := rfl
  obtain ⟨a1, a2⟩ := fast_row (sun := sun) h ha
  obtain ⟨b1, b2⟩ := fast_row (sun := ⟨-sun.x, sun.y⟩) h' ha'
  rw [hL, hiv, hrot, faceL_neg h0, hnn] at b1 b2
  change v'.toPvrowTotal = _ at b1
  change v'.toPvrowShaded = _ at b2
  change v.toPvrowTotal = _ at a1
  change v.toPvrowShaded = _ at a2
  rw [a1, a2, b1, b2]
  by_cases hb : HasNb (faceL rot.deg .back) p.nRows r
  · have hb' := (hasNb_mirror hr (faceL rot.deg .back)).2 hb
    have hS : sideShadedLength (g'.row (nb (!faceL rot.deg .back) (p.nRows - 1 - r))).front
        = sideShadedLength (g.row (nb (faceL rot.deg .back) r)).front := by
      have f1 := (front_shade (sun := sun) h (nb (faceL rot.deg .back) r)).1
      have f2 := (front_shade (sun := ⟨-sun.x, sun.y⟩) h'
        (nb (!faceL rot.deg .back) (p.nRows - 1 - r))).1
      refine f2.trans (Eq.trans ?_ f1.symm)
      obtain ⟨n1, n2⟩ := nb_mirror hr hb
      rw [n1, mirror_nSeg p n2, hrot]
      have := sideShade_mirror p h0 hy hF n2 .front
      simp only [this, neg_eq_zero]
    simp only [kdist_mirror h0 p _ hr hb, hw]
    have hS' : sideShadedLength ((fitGeom p.mirror rot' ⟨-sun.x, sun.y⟩).row
        (nb (!faceL rot.deg .back) (p.nRows - 1 - r))).front = _ := hS
    rw [hS']
    simp only [hb, hb', true_and]
    rfl
  · have hb' : ¬ HasNb (!faceL rot.deg .back) p.nRows (p.nRows - 1 - r) :=
      fun hh => hb ((hasNb_mirror hr _).1 hh)
    simp only [hb, hb', false_and, if_false, and_self]

end

end PVF

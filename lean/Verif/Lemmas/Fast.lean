import Verif.Model.Fast
import Verif.Lemmas.ViewRow
import Verif.Props.Time

/-! # Fast mode: view factors in terms of strings -/

namespace PVF

/-! ## Exact entries of the full view factor matrix -/

theorem pvGnd_exact {p : ArrayParams} {rot : Rot} {sun : Pt} (h : Physical p rot.deg)
    (hf : FlatOk rot) (ho : (fitGeom p rot sun).ground.Ordered) (emp : SurfRef → Prop) {r : ℕ}
    {s : RowSide} {k : ℕ} {sh sh' : Bool} {e z : ℕ}
    (ha : SurfRef.pv r s k sh ∈ allRefs p) (hb : SurfRef.gnd sh' e z ∈ allRefs p)
    (hemp : ∀ x, emp x → ((fitGeom p rot sun).coords x).length < TOL)
    (hlen : TOL < ((fitGeom p rot sun).coords (.pv r s k sh)).length)
    (hlb : ((fitGeom p rot sun).coords (.gnd sh' e z)).length = 0 ∨
      TOL < ((fitGeom p rot sun).coords (.gnd sh' e z)).length) :
    let g := fitGeom p rot sun
    let a := SurfRef.pv r s k sh
    let b := SurfRef.gnd sh' e z
    entryVF p g emp a b = if decide (z ≤ r) = faceL rot.deg s then
      dphi p (decide (z ≤ r)) rot.deg r (pvIv p rot sun r s k sh).1
        (pvIv p rot sun r s k sh).2 (g.coords b).b1.x (g.coords b).b2.x
        / (2 * (g.coords a).length) else 0 := by
  intro g a b
  obtain ⟨hr, hk⟩ := mem_allRefs_pv.1 ha
  obtain ⟨x1, x2, hc, hle, hz1, hz2⟩ := gnd_interval (rot := rot) (sun := sun) h.distance.le ho hb
  change g.coords b = _ at hc
  rcases hlb with h0 | hlb
  · rw [entryVF_point_col p g emp a b h0]
    have hx : x1 = x2 := by
      change (g.coords b).length = 0 at h0
      rw [hc] at h0
      simp only [Line.length, gp, sub_self] at h0
      have := (Real.sqrt_eq_zero (by positivity)).1 h0
      nlinarith
    rw [hc, hx]
    simp [dphi]
  · have na : ¬ emp a := fun he => absurd (hemp a he) (not_lt.2 hlen.le)
    have nb' : ¬ emp b := fun he => absurd (hemp b he) (not_lt.2 hlb.le)
    have hd := (pvGnd_bound h hf ho ha hb).1
    have hv := pvGnd_val (sun := sun) h hk sh (x1 := (g.coords b).b1.x) (x2 := (g.coords b).b2.x)
      (z := z) hd
    have hbc : (⟨gp (g.coords b).b1.x, gp (g.coords b).b2.x⟩ : Line) = g.coords b := by
      rw [hc]; rfl
    rw [hbc] at hv
    simp only [entryVF, a, b]
    rw [if_neg (by simp [a, b] at na nb'; simp [na, nb'])]
    simp only at hv
    rw [hv, if_pos hlen]

theorem pvPv_exact {p : ArrayParams} {rot : Rot} {sun : Pt} (h : Physical p rot.deg)
    (emp : SurfRef → Prop) {r r' : ℕ} {s s' : RowSide} {k k' : ℕ} {sh sh' : Bool}
    (ha : SurfRef.pv r s k sh ∈ allRefs p) (hb : SurfRef.pv r' s' k' sh' ∈ allRefs p)
    (hemp : ∀ x, emp x → ((fitGeom p rot sun).coords x).length < TOL)
    (hlen : TOL < ((fitGeom p rot sun).coords (.pv r s k sh)).length)
    (hlb : ((fitGeom p rot sun).coords (.pv r' s' k' sh')).length = 0 ∨
      TOL < ((fitGeom p rot sun).coords (.pv r' s' k' sh')).length)
    (hn : HasNb (faceL rot.deg s) p.nRows r) (hr' : r' = nb (faceL rot.deg s) r) (hs : s' ≠ s) :
    let g := fitGeom p rot sun
    let left := faceL rot.deg s
    let K := kdist p left rot.deg r (pvIv p rot sun r s k sh).1 (pvIv p rot sun r s k sh).2
    entryVF p g emp (.pv r s k sh) (.pv r' s' k' sh')
      = (K (pvIv p rot sun r' s' k' sh').2 - K (pvIv p rot sun r' s' k' sh').1)
        / (2 * (g.coords (.pv r s k sh)).length) := by
  intro g left K
  obtain ⟨hr, hk⟩ := mem_allRefs_pv.1 ha
  obtain ⟨_, hk'⟩ := mem_allRefs_pv.1 hb
  have hT := TOL_pos
  have hrot : g.rot.deg = rot.deg := rfl
  rcases hlb with h0 | hlb
  · rw [entryVF_point_col p g emp _ _ h0]
    rw [length_pv hk' sh' h.width.le h.lo h.hi] at h0
    rw [show (pvIv p rot sun r' s' k' sh').2 = (pvIv p rot sun r' s' k' sh').1 by linarith,
      sub_self, zero_div]
  have na : ¬ emp (.pv r s k sh) := fun he => absurd (hemp _ he) (not_lt.2 hlen.le)
  have nb' : ¬ emp (.pv r' s' k' sh') := fun he => absurd (hemp _ he) (not_lt.2 hlb.le)
  subst hr'
  obtain ⟨q1, q2, q3⟩ := vfSurfSurf_pv (sun := sun) h hn hk hk' sh sh'
    (g.coords (.pv r s k sh)).length
  obtain ⟨_, q2', _⟩ := vfSurfSurf_pv (sun := sun) h hn hk hk' sh sh'
    (g.coords (.pv (nb left r) s' k' sh')).length
  change vfSurfSurf (g.coords (.pv r s k sh)) (g.coords (.pv (nb left r) s' k' sh')) _
    = (if _ then (K _ - K _) / _ else 0) at q1
  change vfSurfSurf (g.coords (.pv (nb left r) s' k' sh')) (g.coords (.pv r s k sh)) _
    = (if _ then (K _ - K _) / _ else 0) at q2'
  change _ < (g.coords (.pv r s k sh)).length at hlen
  change _ < (g.coords (.pv (nb left r) s' k' sh')).length at hlb
  change HasNb left p.nRows r at hn
  change ¬ emp (.pv (nb left r) s' k' sh') at nb'
  change entryVF p g emp (.pv r s k sh) (.pv (nb left r) s' k' sh')
    = (K (pvIv p rot sun (nb left r) s' k' sh').2 - K (pvIv p rot sun (nb left r) s' k' sh').1) / _
  set lA := (g.coords (.pv r s k sh)).length with hlA
  set lB := (g.coords (.pv (nb left r) s' k' sh')).length with hlB
  rw [if_pos hlen] at q1
  rw [if_pos hlb] at q2'
  have he : ¬ (emp (.pv r s k sh) ∨ emp (.pv (nb left r) s' k' sh')) := by simp [na, nb']
  simp only [entryVF]
  rw [if_neg he]
  have hle : left = faceL rot.deg s := rfl
  clear_value K left
  cases left
  · have c1 : nb false r = r + 1 ∧ s ≠ s' := ⟨rfl, hs.symm⟩
    rw [if_pos c1]
    have sel : (vfPvPv (g.coords (.pv r s k sh)) (g.coords (.pv (nb false r) s' k' sh'))
        (g.rot.deg > 0) (decide (s = .front))).1
        = vfSurfSurf (g.coords (.pv r s k sh)) (g.coords (.pv (nb false r) s' k' sh')) lA := by
      unfold faceL at hle
      simp only [vfPvPv, hrot]
      cases s <;> by_cases h0 : 0 < rot.deg <;> simp [h0] at hle ⊢ <;> rfl
    rw [sel, q1, ← hle]
  · have c0 : ¬ (nb true r = r + 1 ∧ s ≠ s') := by simp only [nb, if_true]; omega
    have c1 : r = nb true r + 1 ∧ s ≠ s' := by
      simp only [HasNb, if_true] at hn
      simp only [nb, if_true]
      exact ⟨by omega, hs.symm⟩
    rw [if_neg c0, if_pos c1]
    have sel : (vfPvPv (g.coords (.pv (nb true r) s' k' sh')) (g.coords (.pv r s k sh))
        (g.rot.deg > 0) (decide (s' = .front))).2
        = if lA > TOL then vfSurfSurf (g.coords (.pv (nb true r) s' k' sh'))
            (g.coords (.pv r s k sh)) lB * lB / lA else 0 := by
      unfold faceL at hle
      simp only [vfPvPv, hrot]
      cases s <;> cases s' <;> by_cases h0 : 0 < rot.deg <;> simp [h0] at hle hs ⊢ <;> rfl
    rw [sel, q2', if_pos hlen, ← hle]
    have : 0 < lB := hT.trans hlb
    have : 0 < lA := hT.trans hlen
    field_simp

/-! ## Sums of entries of the full matrix -/

theorem shaded_telescope (w rot : ℝ) {n : ℕ} (hn : 0 < n) {L : ℝ} (h0 : 0 ≤ L) (hL : L ≤ w)
    (hr : rot ≠ 0) (A : ℝ → ℝ) :
    ((List.range n).map fun k => A (tIv w rot n L k true).2 - A (tIv w rot n L k true).1).sum
      = A L - A 0 := by
  have := tSeg_telescope w rot hn (fun x => A (min x L))
  simp only [min_eq_right hL, min_eq_left h0] at this
  rw [← this]
  congr 1
  apply List.map_congr_left
  intro k hk
  have hle := tSeg_le (h0.trans hL) rot n k
  simp only [tIv, hr, if_false, if_true]
  rcases le_total L (tSeg w rot n k).1 with h | h
  · rw [min_eq_right h, min_eq_right (h.trans hle), max_eq_left h]; ring
  · rw [min_eq_left h, max_eq_right (le_min hle h)]

/-- Position, moved to the edge of the part of the ground that the view goes to. -/
noncomputable def clipTo (left : Bool) (z x : ℝ) : ℝ := if left then min x z else max x z

theorem clipTo_mono {left : Bool} {z x y : ℝ} (h : x ≤ y) : clipTo left z x ≤ clipTo left z y := by
  unfold clipTo; split_ifs
  · exact min_le_min_right _ h
  · exact max_le_max_right _ h

/-- A function whose increments are those of the string differences. -/
noncomputable def strA (p : ArrayParams) (left : Bool) (rot : ℝ) (r : ℕ) (a b x : ℝ) : ℝ :=
  if left then phi p left rot r a b x else - phi p left rot r a b (-x)

theorem dphi_strA (p : ArrayParams) (left : Bool) (rot : ℝ) (r : ℕ) (a b x y : ℝ) :
    dphi p left rot r a b x y = strA p left rot r a b y - strA p left rot r a b x := by
  unfold dphi strA; split_ifs <;> ring

theorem strA_sx (p : ArrayParams) (left : Bool) (rot : ℝ) (r : ℕ) (a b x : ℝ) :
    phi p left rot r a b (sx left x) = if left then strA p left rot r a b x
      else - strA p left rot r a b x := by
  unfold sx strA; split_ifs <;> simp

/-- No surface is longer than a point but not longer than the tolerance. -/
def NoSliver (p : ArrayParams) (g : StepGeom) : Prop :=
  ∀ a ∈ allRefs p, (g.coords a).length = 0 ∨ TOL < (g.coords a).length

theorem zones_split (n r : ℕ) (hr : r < n) (f : ℕ → ℝ) :
    ((List.range (n + 1)).map f).sum = ((List.range (r + 1)).map f).sum
        + (((List.range (n + 1)).filter (r < ·)).map f).sum := by
  have h1 : List.range (n + 1)
      = List.range (r + 1) ++ (List.range (n - r)).map (fun i => r + 1 + i) := by
    rw [← List.range_add]; congr 1; omega
  rw [h1, List.filter_append, List.map_append, List.sum_append, List.map_append,
    List.sum_append]
  have h2 : (List.range (r + 1)).filter (r < ·) = [] := by
    rw [List.filter_eq_nil_iff]; intro z hz; simp at hz ⊢; omega
  have h3 : ((List.range (n - r)).map (fun i => r + 1 + i)).filter (r < ·)
      = (List.range (n - r)).map (fun i => r + 1 + i) := by
    rw [List.filter_eq_self]; intro z hz; simp at hz ⊢; obtain ⟨w, _, rfl⟩ := hz; omega
  rw [h2, h3]; simp

section
variable {p : ArrayParams} {rot : Rot} {sun : Pt} (h : Physical p rot.deg)
    (hf : FlatOk rot) (ho : (fitGeom p rot sun).ground.Ordered) (emp : SurfRef → Prop)
    {r : ℕ} {s : RowSide} {k : ℕ} {sh : Bool}
    (ha : SurfRef.pv r s k sh ∈ allRefs p)
    (hemp : ∀ x, emp x → ((fitGeom p rot sun).coords x).length < TOL)
    (hlen : TOL < ((fitGeom p rot sun).coords (.pv r s k sh)).length)
    (hsl : NoSliver p (fitGeom p rot sun))
include h hf ho ha hemp hlen hsl

/-- View factors to the surfaces of one ground element. -/
theorem gnd_elem_sum {sh' : Bool} {e : ℕ} (he : e < if sh' then p.nRows else p.nRows + 1) :
    let g := fitGeom p rot sun
    let left := faceL rot.deg s
    ((List.range (p.nRows + 1)).map fun z => entryVF p g emp (.pv r s k sh) (.gnd sh' e z)).sum
      = dphi p left rot.deg r (pvIv p rot sun r s k sh).1 (pvIv p rot sun r s k sh).2
          (clipTo left (g.ground.zoneHi r) (g.elem sh' e).b1.x)
          (clipTo left (g.ground.zoneHi r) (g.elem sh' e).b2.x)
        / (2 * (g.coords (.pv r s k sh)).length) := by
  intro g left
  obtain ⟨hr, hk⟩ := mem_allRefs_pv.1 ha
  have hd := h.distance.le
  set ia := (pvIv p rot sun r s k sh).1
  set ib := (pvIv p rot sun r s k sh).2
  set len := (g.coords (.pv r s k sh)).length
  have hx : ∀ z, z ≤ p.nRows → entryVF p g emp (.pv r s k sh) (.gnd sh' e z)
      = if decide (z ≤ r) = left then
          dphi p left rot.deg r ia ib (g.ground.clampZone z (g.elem sh' e).b1.x)
            (g.ground.clampZone z (g.elem sh' e).b2.x) / (2 * len) else 0 := by
    intro z hz
    have hb : SurfRef.gnd sh' e z ∈ allRefs p := mem_allRefs_gnd.2 ⟨he, by omega⟩
    have := pvGnd_exact h hf ho emp ha hb hemp hlen (hsl _ hb)
    simp only at this
    rw [this, coords_gnd hd sh' e hz]
    by_cases hl : decide (z ≤ r) = left
    · rw [if_pos hl, if_pos hl, hl]
    · rw [if_neg hl, if_neg hl]
  obtain ⟨i1, i2, _, _⟩ := g.elem_inGround sh' e
  rw [zones_split p.nRows r hr]
  set A : ℝ → ℝ := fun x => strA p left rot.deg r ia ib x / (2 * len) with hA
  have tl := sum_zones_left (p := p) (rot := rot) (sun := sun) hd A i1 i2 r
  have tr := sum_zones_right (p := p) (rot := rot) (sun := sun) hd A i1 i2 hr
  have hL : ((List.range (r + 1)).map fun z => entryVF p g emp (.pv r s k sh) (.gnd sh' e z)).sum
      = if left then A (min (g.elem sh' e).b2.x (g.ground.zoneHi r))
          - A (min (g.elem sh' e).b1.x (g.ground.zoneHi r)) else 0 := by
    split_ifs with hl
    · refine Eq.trans ?_ tl
      congr 1
      apply List.map_congr_left
      intro z hz
      have := List.mem_range.1 hz
      rw [hx z (by omega), if_pos (by rw [hl]; simp; omega), dphi_strA, hA]
      ring
    · apply list_sum_zero
      intro z hz
      have := List.mem_range.1 hz
      rw [hx z (by omega), if_neg (by
        have : left = false := by simpa using hl
        rw [this]; simp; omega)]
  have hR : (((List.range (p.nRows + 1)).filter (r < ·)).map
        fun z => entryVF p g emp (.pv r s k sh) (.gnd sh' e z)).sum
      = if left then 0 else A (max (g.elem sh' e).b2.x (g.ground.zoneHi r))
          - A (max (g.elem sh' e).b1.x (g.ground.zoneHi r)) := by
    split_ifs with hl
    · apply list_sum_zero
      intro z hz
      obtain ⟨hz1, hz2⟩ := List.mem_filter.1 hz
      have := List.mem_range.1 hz1
      simp at hz2
      rw [hx z (by omega), if_neg (by rw [hl]; simp; omega)]
    · have hl' : left = false := by simpa using hl
      refine Eq.trans ?_ tr
      congr 1
      apply List.map_congr_left
      intro z hz
      obtain ⟨hz1, hz2⟩ := List.mem_filter.1 hz
      have := List.mem_range.1 hz1
      simp at hz2
      rw [hx z (by omega), if_pos (by rw [hl']; simp; omega), dphi_strA, hA]
      ring
  rw [hL, hR, dphi_strA]
  unfold clipTo
  split_ifs
  · rw [hA]; ring
  · rw [hA]; ring

/-- View factors to the whole ground. -/
theorem gnd_total_sum :
    let g := fitGeom p rot sun
    let left := faceL rot.deg s
    ((groundRefs p).map (entryVF p g emp (.pv r s k sh))).sum
      = dphi p left rot.deg r (pvIv p rot sun r s k sh).1 (pvIv p rot sun r s k sh).2
          (clipTo left (g.ground.zoneHi r) MIN_X) (clipTo left (g.ground.zoneHi r) MAX_X)
        / (2 * (g.coords (.pv r s k sh)).length) := by
  intro g left
  set ia := (pvIv p rot sun r s k sh).1 with hia
  set ib := (pvIv p rot sun r s k sh).2 with hib
  set len := (g.coords (.pv r s k sh)).length with hl
  set B : ℝ → ℝ := fun x => strA p left rot.deg r ia ib (clipTo left (g.ground.zoneHi r) x)
    / (2 * len) with hB
  have key : ∀ sh' e, (e < if sh' then p.nRows else p.nRows + 1) →
      ((List.range (p.nRows + 1)).map fun z => entryVF p g emp (.pv r s k sh) (.gnd sh' e z)).sum
      = B (g.elem sh' e).b2.x - B (g.elem sh' e).b1.x := by
    intro sh' e he
    have := gnd_elem_sum h hf ho emp ha hemp hlen hsl he
    simp only at this
    rw [this, dphi_strA, hB]
    ring
  unfold groundRefs
  rw [List.map_append, List.sum_append, sum_map_flatMap, sum_map_flatMap]
  simp only [List.map_map, Function.comp_def]
  have e1 : ((List.range p.nRows).map fun e => ((List.range (p.nRows + 1)).map fun z =>
      entryVF p g emp (.pv r s k sh) (.gnd true e z)).sum).sum
      = ((List.range g.ground.nRows).map fun e => B (g.ground.shadowEl e).b2.x
          - B (g.ground.shadowEl e).b1.x).sum := by
    congr 1
    apply List.map_congr_left
    intro e he
    exact key true e (by simpa using he)
  have e2 : ((List.range (p.nRows + 1)).map fun e => ((List.range (p.nRows + 1)).map fun z =>
      entryVF p g emp (.pv r s k sh) (.gnd false e z)).sum).sum
      = ((List.range (g.ground.nRows + 1)).map fun e => B (g.ground.illumEl e).b2.x
          - B (g.ground.illumEl e).b1.x).sum := by
    congr 1
    apply List.map_congr_left
    intro e he
    exact key false e (by simpa using he)
  rw [e1, e2, g.ground.sum_elements B, dphi_strA, hB]
  ring

omit hf ho in
open Classical in
/-- View factors to a part of the front or back sides of the rows: only the facing side of the next
row counts. -/
theorem pv_part_sum (sel : Bool → Bool) :
    let g := fitGeom p rot sun
    let left := faceL rot.deg s
    let K := kdist p left rot.deg r (pvIv p rot sun r s k sh).1 (pvIv p rot sun r s k sh).2
    ((List.range p.nRows).map fun i => ([RowSide.front, .back].map fun s' =>
      ((List.range (p.nSeg i s')).map fun k' => ([false, true].map fun sh' =>
        if sel sh' then entryVF p g emp (.pv r s k sh) (.pv i s' k' sh') else 0).sum).sum).sum).sum
      = if HasNb left p.nRows r then
          ((List.range (p.nSeg (nb left r) s.other)).map fun k' => ([false, true].map fun sh' =>
            if sel sh' then (K (pvIv p rot sun (nb left r) s.other k' sh').2
              - K (pvIv p rot sun (nb left r) s.other k' sh').1) else 0).sum).sum
            / (2 * (g.coords (.pv r s k sh)).length)
        else 0 := by
  intro g left K
  obtain ⟨hr, hk⟩ := mem_allRefs_pv.1 ha
  set len := (g.coords (.pv r s k sh)).length
  have h0 : ∀ i s', i < p.nRows → ¬ (HasNb left p.nRows r ∧ i = nb left r ∧ s' ≠ s) →
      ((List.range (p.nSeg i s')).map fun k' => ([false, true].map fun sh' =>
        if sel sh' then entryVF p g emp (.pv r s k sh) (.pv i s' k' sh') else 0).sum).sum = 0 := by
    intro i s' hi hnot
    apply list_sum_zero
    intro k' hk'
    apply list_sum_zero
    intro sh' _
    split_ifs
    · exact (pvPv_val (sun := sun) h emp ha (mem_allRefs_pv.2 ⟨hi, List.mem_range.1 hk'⟩)).2.1 hnot
    · rfl
  split_ifs with hn
  · have hnlt : nb left r < p.nRows := by
      clear_value left
      cases left <;> simp [HasNb, nb] at hn ⊢ <;> omega
    have h1 : ((List.range (p.nSeg (nb left r) s.other)).map fun k' => ([false, true].map fun sh' =>
          if sel sh' then entryVF p g emp (.pv r s k sh) (.pv (nb left r) s.other k' sh')
          else 0).sum).sum
        = ((List.range (p.nSeg (nb left r) s.other)).map fun k' => ([false, true].map fun sh' =>
            if sel sh' then (K (pvIv p rot sun (nb left r) s.other k' sh').2
              - K (pvIv p rot sun (nb left r) s.other k' sh').1) else 0).sum).sum / (2 * len) := by
      rw [div_eq_mul_inv, ← List.sum_map_mul_right]
      congr 1
      apply List.map_congr_left
      intro k' hk'
      rw [← List.sum_map_mul_right]
      congr 1
      apply List.map_congr_left
      intro sh' _
      split_ifs
      · have hb : SurfRef.pv (nb left r) s.other k' sh' ∈ allRefs p :=
          mem_allRefs_pv.2 ⟨hnlt, List.mem_range.1 hk'⟩
        rw [pvPv_exact h emp ha hb hemp hlen (hsl _ hb) hn rfl (RowSide.ne_iff.2 rfl),
          div_eq_mul_inv]
      · rw [zero_mul]
    rw [← h1]
    have hterm : ∀ i ∈ List.range p.nRows, ([RowSide.front, .back].map fun s' =>
        ((List.range (p.nSeg i s')).map fun k' => ([false, true].map fun sh' =>
        if sel sh' then entryVF p g emp (.pv r s k sh) (.pv i s' k' sh') else 0).sum).sum).sum
        = if i = nb left r then ((List.range (p.nSeg (nb left r) s.other)).map fun k' =>
            ([false, true].map fun sh' => if sel sh' then entryVF p g emp (.pv r s k sh)
              (.pv (nb left r) s.other k' sh') else 0).sum).sum else 0 := by
      intro i hi
      have hi' := List.mem_range.1 hi
      split_ifs with hin
      · subst hin
        simp only [List.map_cons, List.map_nil, List.sum_cons, List.sum_nil, add_zero]
        simp only [List.map_cons, List.map_nil, List.sum_cons, List.sum_nil, add_zero] at h0
        cases s with
        | front => rw [h0 _ .front hi' (by simp), zero_add]; rfl
        | back => rw [h0 _ .back hi' (by simp), add_zero]; rfl
      · apply list_sum_zero
        intro s' _
        exact h0 i s' hi' (by simp [hin])
    rw [List.map_congr_left hterm, List.sum_map_ite_eq]
    have hcount : (List.range p.nRows).count (nb left r) = 1 :=
      List.count_eq_one_of_mem List.nodup_range (List.mem_range.2 hnlt)
    rw [hcount, one_smul, list_sum_zero (fun _ _ => rfl)]; ring
  · apply list_sum_zero
    intro i hi
    apply list_sum_zero
    intro s' _
    exact h0 i s' (List.mem_range.1 hi) (by simp [hn])

end

/-! ## Fast mode -/

theorem pyIdx_nat (n r : ℕ) : pyIdx n (r : ℤ) = r := by
  unfold pyIdx; rw [if_neg (by omega)]; omega

theorem pyIdx_pred (n : ℕ) {r : ℕ} (h : r ≠ 0) : pyIdx n ((r : ℤ) - 1) = r - 1 := by
  unfold pyIdx; rw [if_neg (by omega)]; omega

theorem pyIdx_succ (n r : ℕ) : pyIdx n ((r : ℤ) + 1) = r + 1 := by
  unfold pyIdx; rw [if_neg (by omega)]; omega

theorem faceL_back (rot : ℝ) : faceL rot .back = true ↔ ¬ 0 < rot := by
  unfold faceL; simp

/-- Difference of the distances of a point from the ends of a PV surface. -/
noncomputable def ddist (p : ArrayParams) (rot : ℝ) (r : ℕ) (a b : ℝ) (Q : Pt) : ℝ :=
  distPt (tPt (rowCenter p r) p.width rot b) Q - distPt (tPt (rowCenter p r) p.width rot a) Q

theorem vfSurf_pts {p : ArrayParams} {rot : Rot} {sun : Pt} (h : Physical p rot.deg) {r : ℕ}
    {s : RowSide} {k : ℕ} (hk : k < p.nSeg r s) (sh : Bool) (Q1 Q2 : Pt) (w : ℝ) :
    vfSurfSurf ((fitGeom p rot sun).coords (.pv r s k sh)) ⟨Q1, Q2⟩ w
      = if w > TOL then
          |ddist p rot.deg r (pvIv p rot sun r s k sh).1 (pvIv p rot sun r s k sh).2 Q2
            - ddist p rot.deg r (pvIv p rot sun r s k sh).1 (pvIv p rot sun r s k sh).2 Q1| / (2 * w)
        else 0 := by
  rw [coords_pv_t hk sh h.width.le h.lo h.hi]
  unfold vfSurfSurf ddist
  split_ifs
  · simp only; congr 2; ring
  · rfl
  · simp only; rw [← abs_neg]; congr 2; ring
  · rfl

theorem ddist_abs (p : ArrayParams) (rot : ℝ) (r : ℕ) {a b : ℝ} (hab : a ≤ b) (Q : Pt) :
    |ddist p rot r a b Q| ≤ b - a := by
  have hd : distPt (tPt (rowCenter p r) p.width rot a) (tPt (rowCenter p r) p.width rot b) = b - a := by
    have := length_tPt (rowCenter p r) p.width rot a b
    rw [abs_of_nonneg (by linarith)] at this
    exact this
  unfold ddist
  rw [abs_le]
  have t1 := distPt_triangle (tPt (rowCenter p r) p.width rot a) (tPt (rowCenter p r) p.width rot b) Q
  have t2 := distPt_triangle (tPt (rowCenter p r) p.width rot b) (tPt (rowCenter p r) p.width rot a) Q
  rw [distPt_comm (tPt (rowCenter p r) p.width rot b) (tPt (rowCenter p r) p.width rot a)] at t2
  constructor <;> linarith

theorem ddist_nb (p : ArrayParams) (left : Bool) (rot : ℝ) (r : ℕ) (a b t : ℝ) :
    ddist p rot r a b (tPt (rowCenter p (nb left r)) p.width rot t) = - kdist p left rot r a b t := by
  unfold ddist kdist vp
  rw [distPt_mirB, distPt_mirB]; ring

theorem ddist_low (p : ArrayParams) (rot : ℝ) (r : ℕ) {a b : ℝ} (ha : 0 ≤ a) (hab : a ≤ b) :
    ddist p rot r a b (tPt (rowCenter p r) p.width rot 0) = b - a := by
  have hd : ∀ t, 0 ≤ t → distPt (tPt (rowCenter p r) p.width rot t)
      (tPt (rowCenter p r) p.width rot 0) = t := by
    intro t ht
    have := length_tPt (rowCenter p r) p.width rot t 0
    rw [abs_sub_comm, abs_of_nonneg (by linarith)] at this
    simpa [distPt, Line.length] using this
  unfold ddist
  rw [hd b (ha.trans hab), hd a ha]

theorem ddist_gp (p : ArrayParams) (left : Bool) (rot : ℝ) (r : ℕ) (hn : ¬ HasNb left p.nRows r)
    (a b x : ℝ) : ddist p rot r a b (gp x) = phi p left rot r a b (sx left x) := by
  unfold ddist phi obs
  rw [if_neg hn]
  simp only [strO, dist_gp_vp]
  rw [distPt_comm, distPt_comm (gp x)]
  rw [distPt_comm (gp x)]

section
variable {p : ArrayParams} {rot : Rot} {sun : Pt} (h : Physical p rot.deg)
    {r : ℕ} {k : ℕ} {sh : Bool} (ha : SurfRef.pv r .back k sh ∈ allRefs p)
include h ha

/-- View factor to one ground shadow in fast mode. -/
theorem fast_each (hf : FlatOk rot) {el : Line} (hel : LineInGround el) (hord : el.b1.x ≤ el.b2.x) :
    let g := fitGeom p rot sun
    let left := faceL rot.deg .back
    let cut := g.ground.cuts.getD (pyIdx p.nRows r) .posInf
    let A := g.coords (.pv r .back k sh)
    let D := dphi p left rot.deg r (pvIv p rot sun r .back k sh).1
      (pvIv p rot sun r .back k sh).2 (clipTo left (g.ground.zoneHi r) el.b1.x)
      (clipTo left (g.ground.zoneHi r) el.b2.x)
    vfToShadow A r p.nRows (g.rot.deg > 0) g.row (coordsLeftOfCut el cut) (coordsRightOfCut el cut)
      A.length = (if A.length > TOL then D / (2 * A.length) else 0) ∧ 0 ≤ D := by
  intro g left cut A D
  obtain ⟨hr, hk⟩ := mem_allRefs_pv.1 ha
  obtain ⟨ia, iab, ib⟩ := pv_iv_bounds (rot := rot) (sun := sun) hk sh h.width.le
  have hrot : g.rot.deg = rot.deg := rfl
  have hcut : cut.clipped = g.ground.zoneHi r := by
    simp only [cut, pyIdx_nat]
    rw [List.getD_eq_getElem?_getD, fit_cut_get p rot sun hr, Option.getD_some, zoneHi_fit p rot sun hr]
  have hle : clipTo left (g.ground.zoneHi r) el.b1.x ≤ clipTo left (g.ground.zoneHi r) el.b2.x :=
    clipTo_mono hord
  have hD : 0 ≤ D := by
    rcases eq_or_lt_of_le hle with heq | hlt
    · simp only [D]; rw [heq]; unfold dphi; split_ifs <;> simp
    · simp only [D]
      clear_value left
      cases left
      · simp only [clipTo, Bool.false_eq_true, if_false] at hlt ⊢
        have hmax : g.ground.zoneHi r < MAX_X :=
          lt_of_le_of_lt (le_max_right _ _) (hlt.trans_le (max_le hel.2.1.2 (g.ground.zoneHi_inGround r).2))
        exact dphi_nonneg h ia iab hlt.le (onSide_right h hf hr (le_max_right _ _) hmax)
          (onSide_right h hf hr (le_max_right _ _) hmax)
      · simp only [clipTo, if_true] at hlt ⊢
        have hmin : MIN_X < g.ground.zoneHi r :=
          lt_of_lt_of_le (lt_of_le_of_lt (le_min hel.1.1 (g.ground.zoneHi_inGround r).1) hlt) (min_le_right _ _)
        exact dphi_nonneg h ia iab hlt.le (onSide_left h hr (min_le_right _ _) hmin)
          (onSide_left h hr (min_le_right _ _) hmin)
  refine ⟨?_, hD⟩
  have hz : ∃ z, decide (z ≤ r) = left := by
    clear_value left
    cases left
    · exact ⟨r + 1, by simp⟩
    · exact ⟨0, by simp⟩
  obtain ⟨z, hz⟩ := hz
  have hv := pvGnd_val (sun := sun) h hk sh (x1 := clipTo left (g.ground.zoneHi r) el.b1.x)
    (x2 := clipTo left (g.ground.zoneHi r) el.b2.x) (z := z) (by rw [hz]; exact hD)
  simp only [hz] at hv
  rw [if_pos rfl] at hv
  change _ = if _ then D / _ else 0 at hv
  rw [← hv]
  unfold vfToShadow pvGndVF vfPvGnd
  rw [hz, coordsLeft_eq hel, coordsRight_eq hel, hcut]
  have hl : left = faceL rot.deg .back := rfl
  have e0 : ((r : ℤ) = 0) ↔ r = 0 := by omega
  have en : ((r : ℤ) = (p.nRows : ℤ) - 1) ↔ r = p.nRows - 1 := by omega
  simp only [e0, en, pyIdx_succ, hrot]
  by_cases h0 : 0 < rot.deg
  · have : left = false := by rw [hl]; unfold faceL; simp [h0]
    simp only [this, clipTo, gp, h0, gt_iff_lt, Y_GROUND, Bool.false_eq_true, if_false, if_true,
      decide_true]
    simp
    rw [if_pos (show 0 < (fitGeom p rot sun).rot.deg from h0)]
  · have : left = true := by rw [hl]; unfold faceL; simp [h0]
    simp only [this, clipTo, gp, h0, gt_iff_lt, Y_GROUND, if_false, if_true, decide_true]
    by_cases hr0 : r = 0
    · simp only [A]
      subst hr0
      simp
      rw [if_neg (show ¬ 0 < (fitGeom p rot sun).rot.deg from h0)]
    · simp [hr0, pyIdx_pred]
      rw [if_neg (show ¬ 0 < (fitGeom p rot sun).rot.deg from h0)]

/-- View factor to the whole ground in fast mode: a row with a neighbour on the side it faces. -/
theorem fast_gnd_nb (hn : HasNb (faceL rot.deg .back) p.nRows r) :
    let g := fitGeom p rot sun
    let A := g.coords (.pv r .back k sh)
    let a := (pvIv p rot sun r .back k sh).1
    let b := (pvIv p rot sun r .back k sh).2
    (fastVF p g r A).toGndTotal = if A.length > TOL then
      (b - a + kdist p (faceL rot.deg .back) rot.deg r a b 0) / (2 * A.length) else 0 := by
  intro g A a b
  obtain ⟨hr, hk⟩ := mem_allRefs_pv.1 ha
  obtain ⟨ia, iab, ib⟩ := pv_iv_bounds (rot := rot) (sun := sun) hk sh h.width.le
  have hfull : ∀ j, (g.row j).full.lowest = tPt (rowCenter p j) p.width rot.deg 0 := fun j =>
    full_lowest h j
  have e0 : ((r : ℤ) = 0) ↔ r = 0 := by omega
  have en : ((r : ℤ) = (p.nRows : ℤ) - 1) ↔ r = p.nRows - 1 := by omega
  have hrot : g.rot.deg = rot.deg := rfl
  have hK := abs_le.1 (kdist_abs p (faceL rot.deg .back) rot.deg r iab 0)
  have k0 := ddist_nb p (faceL rot.deg .back) rot.deg r a b 0
  have l0 := ddist_low p rot.deg r ia iab
  change ddist p rot.deg r a b _ = b - a at l0
  change -(b - a) ≤ kdist _ _ _ _ a b 0 ∧ kdist _ _ _ _ a b 0 ≤ b - a at hK
  simp only [fastVF, vfToGnd, e0, en, pyIdx_nat, pyIdx_succ, hfull, hrot]
  by_cases h0 : 0 < rot.deg
  · have hl : faceL rot.deg .back = false := by unfold faceL; simp [h0]
    rw [hl] at hn k0 hK ⊢
    simp only [HasNb, Bool.false_eq_true, if_false] at hn
    simp only [gt_iff_lt, h0, if_true, hn, if_false]
    rw [vfSurf_pts h hk sh]
    change (if _ then |ddist p rot.deg r a b _ - ddist p rot.deg r a b _| / _ else 0) = _
    simp only [nb, Bool.false_eq_true, if_false] at k0
    rw [k0, l0, abs_of_nonpos (by linarith)]
    congr 2; ring
  · have hl : faceL rot.deg .back = true := by unfold faceL; simp [h0]
    rw [hl] at hn k0 hK ⊢
    simp only [HasNb, if_true] at hn
    simp only [gt_iff_lt, h0, hn, if_false, pyIdx_pred p.nRows hn]
    rw [vfSurf_pts h hk sh]
    change (if _ then |ddist p rot.deg r a b _ - ddist p rot.deg r a b _| / _ else 0) = _
    simp only [nb, if_true] at k0
    rw [k0, l0, abs_of_nonneg (by linarith)]
    congr 2; ring

/-- The part of the ground whose view factor fast mode takes for an edge row: the end of the ground
and the cut point, where the latter is only kept within the ground on the other side. -/
noncomputable def edgeCut (left : Bool) (c : XR) : ℝ := if left then minMaxX c else maxMinX c

omit h ha in
theorem edgeCut_clipped {left : Bool} {c : XR} (hc : c ≠ .negInf)
    (hl : left = false → c ≠ .posInf)
    (hx : ∀ x, c = .fin x → if left then MIN_X ≤ x else x ≤ MAX_X) : edgeCut left c = c.clipped := by
  unfold edgeCut
  cases c with
  | negInf => exact absurd rfl hc
  | fin x =>
    have hx := hx x rfl
    cases left
    · simp only [Bool.false_eq_true, if_false] at hx
      simp [maxMinX, XR.clipped, hx]
    · simp only [if_true] at hx
      simp only [if_true, minMaxX, XR.clipped]
      rw [min_comm, max_eq_right (le_min hx MIN_lt_MAX.le)]
  | posInf =>
    cases left
    · exact absurd rfl (hl rfl)
    · rfl

/-- View factor to the whole ground in fast mode: an edge row facing outwards. -/
theorem fast_gnd_edge (hn : ¬ HasNb (faceL rot.deg .back) p.nRows r) :
    let g := fitGeom p rot sun
    let A := g.coords (.pv r .back k sh)
    let a := (pvIv p rot sun r .back k sh).1
    let b := (pvIv p rot sun r .back k sh).2
    let left := faceL rot.deg .back
    let c := cutPointX (fullRowCoords (rowCenter p r) p.width rot.deg) rot
    let x1 := if left then MIN_X else MAX_X
    (fastVF p g r A).toGndTotal = if A.length > TOL then
      |phi p left rot.deg r a b (sx left (edgeCut left c)) - phi p left rot.deg r a b (sx left x1)|
        / (2 * A.length) else 0 := by
  intro g A a b left c x1
  obtain ⟨hr, hk⟩ := mem_allRefs_pv.1 ha
  have e0 : ((r : ℤ) = 0) ↔ r = 0 := by omega
  have en : ((r : ℤ) = (p.nRows : ℤ) - 1) ↔ r = p.nRows - 1 := by omega
  have hrot : g.rot.deg = rot.deg := rfl
  have hcut : g.ground.cuts.getD r .posInf = c := by
    rw [List.getD_eq_getElem?_getD, fit_cut_get p rot sun hr, Option.getD_some]
  simp only [fastVF, vfToGnd, e0, en, pyIdx_nat, hrot, hcut]
  change ¬ HasNb left p.nRows r at hn
  rw [← ddist_gp p left rot.deg r hn, ← ddist_gp p left rot.deg r hn]
  have hle : left = faceL rot.deg .back := rfl
  by_cases h0 : 0 < rot.deg
  · have hl : left = false := by rw [hle]; unfold faceL; simp [h0]
    clear_value left
    subst hl
    simp only [HasNb, Bool.false_eq_true, if_false, not_not] at hn
    simp only [gt_iff_lt, h0, if_true, if_pos hn, x1, edgeCut, Bool.false_eq_true, if_false]
    rw [vfSurf_pts h hk sh, abs_sub_comm]
    rfl
  · have hl : left = true := by rw [hle]; unfold faceL; simp [h0]
    clear_value left
    subst hl
    simp only [HasNb, if_true, not_not] at hn
    simp only [gt_iff_lt, h0, if_false, if_pos hn, x1, edgeCut, if_true]
    rw [vfSurf_pts h hk sh]
    rfl

omit h ha in
theorem interrow_bounds {p : ArrayParams} (hw : 0 ≤ p.width) (alpha rot : ℝ) :
    (0 ≤ (interrowShading p alpha rot).1 ∧ (interrowShading p alpha rot).1 ≤ p.width) ∧
    (0 ≤ (interrowShading p alpha rot).2 ∧ (interrowShading p alpha rot).2 ≤ p.width) := by
  unfold interrowShading
  have key : ∀ d : ℝ, 0 ≤ (if max 0 d > p.width then 0 else max 0 d) ∧
      (if max 0 d > p.width then 0 else max 0 d) ≤ p.width := by
    intro d
    split_ifs with h
    · exact ⟨le_rfl, hw⟩
    · exact ⟨le_max_left _ _, not_lt.1 h⟩
  split_ifs
  · exact ⟨key _, key _⟩
  · exact ⟨⟨le_rfl, hw⟩, ⟨le_rfl, hw⟩⟩

omit h ha in
theorem sideShade_bounds {p : ArrayParams} (hw : 0 ≤ p.width) (alpha rot : ℝ) (i : ℕ) (s : RowSide) :
    0 ≤ sideShade p alpha rot i s ∧ sideShade p alpha rot i s ≤ p.width := by
  obtain ⟨h1, h2⟩ := interrow_bounds hw alpha rot
  have h0 : (0 : ℝ) ≤ 0 ∧ 0 ≤ p.width := ⟨le_rfl, hw⟩
  unfold sideShade rowShadedLengths
  cases s <;> simp only <;> split_ifs <;> assumption

omit ha in
/-- The shaded length of the front of a row. -/
theorem front_shade (j : ℕ) :
    let g := fitGeom p rot sun
    let L := sideShade p (arctan2 sun.y sun.x) rot.deg j .front
    sideShadedLength (g.row j).front
      = (if rot.deg = 0 ∨ p.nSeg j .front = 0 then 0 else L) ∧
    0 ≤ sideShadedLength (g.row j).front ∧ sideShadedLength (g.row j).front ≤ p.width := by
  intro g L
  obtain ⟨hL0, hLw⟩ := sideShade_bounds h.width.le (arctan2 sun.y sun.x) rot.deg j .front
  have hseg : (g.row j).front = sideSegments (rowCenter p j) p.width rot.deg (p.nSeg j .front) L := rfl
  have hv : sideShadedLength (g.row j).front
      = (if rot.deg = 0 ∨ p.nSeg j .front = 0 then 0 else L) := by
    rw [hseg]
    split_ifs with h0
    · rcases h0 with h0 | h0
      · rw [h0]; exact C22_flat _ _ _ _
      · rw [h0]; simp [sideShadedLength, sideSegments]
    · push Not at h0
      exact C22_shaded_length _ _ _ _ _ (Nat.pos_of_ne_zero h0.2) h.lo h.hi h0.1 hL0 hLw
  refine ⟨hv, ?_⟩
  rw [hv]
  split_ifs
  · exact ⟨le_rfl, h.width.le⟩
  · exact ⟨hL0, hLw⟩

omit ha in
theorem shadedSideCoords_eq (j : ℕ) (L : ℝ) :
    let g := fitGeom p rot sun
    shadedSideCoords (g.row j).center p.width L (rot.deg > 0) rot.deg (g.row j).full.lowest
      = ⟨tPt (rowCenter p j) p.width rot.deg L, tPt (rowCenter p j) p.width rot.deg 0⟩ := by
  intro g
  have hfull : (g.row j).full.lowest = tPt (rowCenter p j) p.width rot.deg 0 := full_lowest h j
  rw [hfull]
  have hc : (g.row j).center = rowCenter p j := rfl
  unfold shadedSideCoords tPt rowPt
  rw [hc]
  simp only [gt_iff_lt]
  split_ifs <;> simp [cosd_add_180, sind_add_180] <;> constructor <;> ring

open Classical in
/-- View factors to the next row in fast mode. -/
theorem fast_row :
    let g := fitGeom p rot sun
    let A := g.coords (.pv r .back k sh)
    let left := faceL rot.deg .back
    let K := kdist p left rot.deg r (pvIv p rot sun r .back k sh).1 (pvIv p rot sun r .back k sh).2
    let L := sideShadedLength (g.row (nb left r)).front
    (fastVF p g r A).toPvrowTotal
      = (if HasNb left p.nRows r ∧ A.length > TOL then (K p.width - K 0) / (2 * A.length) else 0) ∧
    (fastVF p g r A).toPvrowShaded
      = (if HasNb left p.nRows r ∧ A.length > TOL then (K L - K 0) / (2 * A.length) else 0) := by
  intro g A left K L
  obtain ⟨hr, hk⟩ := mem_allRefs_pv.1 ha
  obtain ⟨ia, iab, ib⟩ := pv_iv_bounds (rot := rot) (sun := sun) hk sh h.width.le
  have e0 : ((r : ℤ) = 0) ↔ r = 0 := by omega
  have en : ((r : ℤ) = (p.nRows : ℤ) - 1) ↔ r = p.nRows - 1 := by omega
  have hrot : g.rot.deg = rot.deg := rfl
  have hL := (front_shade (sun := sun) h (nb left r)).2
  change 0 ≤ L ∧ L ≤ p.width at hL
  have hfull : ∀ j, (g.row j).full = if 0 < rot.deg then
      ⟨tPt (rowCenter p j) p.width rot.deg 0, tPt (rowCenter p j) p.width rot.deg p.width⟩ else
      ⟨tPt (rowCenter p j) p.width rot.deg p.width, tPt (rowCenter p j) p.width rot.deg 0⟩ := by
    intro j
    have : (g.row j).full = fullRowCoords (rowCenter p j) p.width rot.deg := rfl
    rw [this, fullRowCoords_eq]
    unfold tPt
    split_ifs
    · congr 2 <;> ring
    · congr 2 <;> ring
  have hvs : HasNb left p.nRows r → ∀ t, 0 ≤ t → vfSurfSurf A
      ⟨tPt (rowCenter p (nb left r)) p.width rot.deg t,
        tPt (rowCenter p (nb left r)) p.width rot.deg 0⟩ A.length
      = if A.length > TOL then (K t - K 0) / (2 * A.length) else 0 := by
    intro hn t ht
    simp only [A]
    rw [vfSurf_pts h hk sh, ddist_nb, ddist_nb]
    have : K 0 ≤ K t := kdist_mono hn iab ht
    change (if _ then |(- K 0) - (- K t)| / _ else 0) = _
    rw [abs_of_nonneg (by linarith)]
    congr 2; ring
  have hvt : HasNb left p.nRows r → vfSurfSurf A (g.row (nb left r)).full A.length
      = if A.length > TOL then (K p.width - K 0) / (2 * A.length) else 0 := by
    intro hn
    rw [hfull]
    split_ifs with h0 h1 h1
    · have := hvs hn p.width h.width.le
      rw [if_pos h1] at this
      rw [← this]
      simp only [A]
      rw [vfSurf_pts h hk sh, vfSurf_pts h hk sh, abs_sub_comm]
    · unfold vfSurfSurf
      rw [if_neg h1]
    · have := hvs hn p.width h.width.le
      rw [if_pos h1] at this
      exact this
    · have := hvs hn p.width h.width.le
      rw [if_neg h1] at this
      exact this
  have hvsh : HasNb left p.nRows r → vfSurfSurf A (shadedSideCoords (g.row (nb left r)).center
      p.width L (rot.deg > 0) rot.deg (g.row (nb left r)).full.lowest) A.length
      = if A.length > TOL then (K L - K 0) / (2 * A.length) else 0 := by
    intro hn
    rw [shadedSideCoords_eq h]
    exact hvs hn L hL.1
  simp only [fastVF, vfToPvrow, e0, en, pyIdx_succ, hrot]
  have hle : left = faceL rot.deg .back := rfl
  by_cases h0 : 0 < rot.deg
  · have hl : left = false := by rw [hle]; unfold faceL; simp [h0]
    have hnb : nb left r = r + 1 := by rw [hl]; rfl
    have hH : HasNb left p.nRows r ↔ r ≠ p.nRows - 1 := by rw [hl]; simp [HasNb]
    simp only [L, hH, hnb, gt_iff_lt, h0] at hvt hvsh ⊢
    by_cases hn : r = p.nRows - 1
    · simp only [hn]; simp
    · rw [if_pos trivial, if_pos trivial, if_neg hn]
      simp only
      rw [hvt hn, hvsh hn]
      simp [hn]
  · have hl : left = true := by rw [hle]; unfold faceL; simp [h0]
    have hnb : nb left r = r - 1 := by rw [hl]; rfl
    have hH : HasNb left p.nRows r ↔ r ≠ 0 := by rw [hl]; simp [HasNb]
    simp only [L, hH, hnb, gt_iff_lt, h0] at hvt hvsh ⊢
    by_cases hn : r = 0
    · simp [hn]
    · rw [if_neg not_false, if_neg not_false, if_neg hn]
      simp only [pyIdx_pred p.nRows hn]
      rw [hvt hn, hvsh hn]
      simp [hn]

end

end PVF

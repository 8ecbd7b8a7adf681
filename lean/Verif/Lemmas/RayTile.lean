import Verif.Lemmas.RayTotal
import Verif.Props.Ground

/-! # The surfaces of an array cover its scene -/

namespace PVF
open Real

theorem tSeg_cover {w : ℝ} (hw : 0 < w) (rot : ℝ) {n : ℕ} (hn : 0 < n) {t : ℝ} (h0 : 0 ≤ t)
    (h1 : t ≤ w) : ∃ k < n, (tSeg w rot n k).1 ≤ t ∧ t ≤ (tSeg w rot n k).2 := by
  have hn' : (0:ℝ) < n := by exact_mod_cast hn
  have hq : 0 < w / n := by positivity
  have hqn : (n:ℝ) * (w / n) = w := by field_simp
  have key : ∀ x, 0 ≤ x → x ≤ w → ∃ k < n, (k:ℝ) * (w / n) ≤ x ∧ x ≤ (k + 1) * (w / n) := by
    intro x x0 x1
    by_cases hx : x = w
    · refine ⟨n - 1, by omega, ?_, ?_⟩
      · rw [hx, Nat.cast_sub hn, Nat.cast_one]; nlinarith
      · rw [hx, Nat.cast_sub hn, Nat.cast_one]; nlinarith
    · refine ⟨⌊x / (w / n)⌋₊, ?_, ?_, ?_⟩
      · rw [Nat.floor_lt (by positivity), div_lt_iff₀ hq, hqn]
        exact lt_of_le_of_ne x1 hx
      · rw [← le_div_iff₀ hq]; exact Nat.floor_le (by positivity)
      · rw [← div_le_iff₀ hq]; exact (Nat.lt_floor_add_one _).le
  unfold tSeg
  split_ifs
  · exact key t h0 h1
  · obtain ⟨k, hk, a, b⟩ := key (w - t) (by linarith) (by linarith)
    exact ⟨k, hk, by simp only; linarith, by simp only; linarith⟩

theorem tIv_cover {w : ℝ} (hw : 0 < w) (rot : ℝ) {n : ℕ} (hn : 0 < n) (L : ℝ) {t : ℝ} (h0 : 0 ≤ t)
    (h1 : t ≤ w) : ∃ k < n, ∃ sh, (tIv w rot n L k sh).1 < (tIv w rot n L k sh).2 ∧
      (tIv w rot n L k sh).1 ≤ t ∧ t ≤ (tIv w rot n L k sh).2 := by
  obtain ⟨k, hk, a, b⟩ := tSeg_cover hw rot hn h0 h1
  have hlt : (tSeg w rot n k).1 < (tSeg w rot n k).2 := by
    have := tSeg_len w rot n k
    have : 0 < w / n := by positivity
    linarith
  refine ⟨k, hk, ?_⟩
  unfold tIv
  simp only
  by_cases hr : rot = 0
  · exact ⟨false, by simp [hr] at a b hlt ⊢; exact ⟨hlt, a, b⟩⟩
  · simp only [hr, if_false]
    set lo := (tSeg w rot n k).1
    set hi := (tSeg w rot n k).2
    have m1 : lo ≤ max lo (min hi L) := le_max_left _ _
    have m2 : max lo (min hi L) ≤ hi := max_le hlt.le (min_le_left _ _)
    set m := max lo (min hi L)
    by_cases c : t ≤ m ∧ lo < m
    · exact ⟨true, by simpa using ⟨c.2, a, c.1⟩⟩
    · refine ⟨false, ?_⟩
      simp only [Bool.false_eq_true, if_false]
      rcases not_and_or.1 c with c | c
      · have := not_le.1 c; exact ⟨by linarith, by linarith, b⟩
      · have := not_lt.1 c; exact ⟨by linarith, by linarith, b⟩

theorem tIv_in_seg {w : ℝ} (hw : 0 ≤ w) (rot : ℝ) (n : ℕ) (L : ℝ) (k : ℕ) (sh : Bool) :
    (tSeg w rot n k).1 ≤ (tIv w rot n L k sh).1 ∧ (tIv w rot n L k sh).2 ≤ (tSeg w rot n k).2 := by
  have h := tSeg_le hw rot n k
  have m1 := le_max_left (tSeg w rot n k).1 (min (tSeg w rot n k).2 L)
  have m2 : max (tSeg w rot n k).1 (min (tSeg w rot n k).2 L) ≤ (tSeg w rot n k).2 :=
    max_le h (min_le_left _ _)
  unfold tIv
  simp only
  split_ifs <;> constructor <;> simp only <;> linarith

theorem tSeg_sep {w : ℝ} (hw : 0 ≤ w) (rot : ℝ) (n : ℕ) {k k' : ℕ} (h : k ≠ k') :
    (tSeg w rot n k).2 ≤ (tSeg w rot n k').1 ∨ (tSeg w rot n k').2 ≤ (tSeg w rot n k).1 := by
  have hq : 0 ≤ w / n := by positivity
  have key : ∀ i j : ℕ, i < j → ((i:ℝ) + 1) * (w / n) ≤ j * (w / n) := by
    intro i j hij
    have : (i:ℝ) + 1 ≤ j := by exact_mod_cast hij
    exact mul_le_mul_of_nonneg_right this hq
  unfold tSeg
  rcases lt_or_gt_of_ne h with h | h
  · have := key _ _ h
    split_ifs
    · left; simpa using this
    · right; simp only; linarith
  · have := key _ _ h
    split_ifs
    · right; simpa using this
    · left; simp only; linarith

theorem tIv_overlap {w : ℝ} (hw : 0 ≤ w) (rot : ℝ) (n : ℕ) (L : ℝ) {k k' : ℕ} {sh sh' : Bool}
    (hne : (k, sh) ≠ (k', sh')) {t : ℝ} (h1 : (tIv w rot n L k sh).1 ≤ t)
    (h2 : t ≤ (tIv w rot n L k sh).2) (h1' : (tIv w rot n L k' sh').1 ≤ t)
    (h2' : t ≤ (tIv w rot n L k' sh').2) :
    t = (tIv w rot n L k sh).1 ∨ t = (tIv w rot n L k sh).2 := by
  obtain ⟨a, b⟩ := tIv_in_seg hw rot n L k sh
  obtain ⟨a', b'⟩ := tIv_in_seg hw rot n L k' sh'
  by_cases hk : k = k'
  · subst hk
    have hs : sh' = !sh := by
      cases sh <;> cases sh' <;> simp at hne ⊢
    subst hs
    revert h1 h2 h1' h2'
    unfold tIv
    simp only
    by_cases hr : rot = 0
    · cases sh <;> simp only [hr, if_true, Bool.false_eq_true, if_false, Bool.not_true, Bool.not_false] <;>
        intro h1 h2 h3 h4
      · right; linarith
      · right; linarith
    · cases sh <;> simp only [hr, if_true, Bool.false_eq_true, if_false, Bool.not_true, Bool.not_false] <;>
        intro h1 h2 h3 h4
      · left; linarith
      · right; linarith
  · rcases tSeg_sep hw rot n hk with h | h
    · right; linarith
    · left; linarith

theorem vp_row_unique {p : ArrayParams} {rot : ℝ} (h : Physical p rot) (hf : FlatApart p rot)
    {left : Bool} {r j : ℕ} {t t' : ℝ} (ht : 0 ≤ t) (ht1 : t ≤ p.width) (ht' : 0 ≤ t')
    (ht1' : t' ≤ p.width) (e : vp p left rot r t = vp p left rot j t') : r = j ∧ t = t' := by
  have hD := h.distance
  rw [vp_rel p left rot r j, vp_eq] at e
  simp only [Pt.mk.injEq] at e
  obtain ⟨e1, e2⟩ := e
  have hz : rowsTo left r j = 0 → r = j := by
    unfold rowsTo; cases left <;> simp <;> omega
  by_cases h0 : rot = 0
  · have hw := hf h0
    have hu : upX left rot = 1 ∨ upX left rot = -1 := by
      rw [h0, upX_zero]; cases left <;> simp
    by_cases hk : rowsTo left r j = 0
    · refine ⟨hz hk, ?_⟩
      rw [hk] at e1
      rcases hu with hu | hu <;> rw [hu] at e1 <;> simp at e1 <;> linarith
    · exfalso
      have : (1:ℝ) ≤ rowsTo left r j ∨ (rowsTo left r j : ℝ) ≤ -1 := by
        rcases lt_or_gt_of_ne hk with h' | h'
        · right; exact_mod_cast (by omega : rowsTo left r j ≤ -1)
        · left; exact_mod_cast h'
      rcases this with h' | h' <;> rcases hu with hu | hu <;> rw [hu] at e1 <;> nlinarith
  · have hv := upY_pos h.lo h.hi h0
    have htt : t = t' := by
      have : t * upY rot = t' * upY rot := by linarith
      exact mul_right_cancel₀ hv.ne' this
    refine ⟨hz ?_, htt⟩
    rw [htt] at e1
    have : (rowsTo left r j : ℝ) * p.distance = 0 := by linarith
    have := (mul_eq_zero.1 this).resolve_right hD.ne'
    exact_mod_cast this

/-- Along the row. -/
theorem full_vec (p : ArrayParams) (rot : ℝ) (r : ℕ) :
    (fullRowCoords (rowCenter p r) p.width rot).vec = ⟨p.width * cosd rot, p.width * sind rot⟩ := by
  rw [fullRowCoords_eq]
  simp only [Line.vec, rowPt, Pt.mk.injEq]
  constructor <;> ring

/-- The other side looks the other way. -/
theorem outward_neg (rot : ℝ) (r r' : ℕ) {s s' : RowSide} (hs : s' ≠ s) (k k' : ℕ) (sh sh' : Bool) :
    outward rot (.pv r' s' k' sh') = ⟨-(outward rot (.pv r s k sh)).x, -(outward rot (.pv r s k sh)).y⟩ := by
  cases s <;> cases s' <;> simp [outward] at hs ⊢

theorem mirB_true (Y : Pt) : mirB true Y = Y := by simp [mirB]

/-- The light leaving a surface arrives at surfaces or escapes. -/
theorem rayView_total {p : ArrayParams} {rot : Rot} {sun : Pt} (h : Physical p rot.deg)
    (hgcr : 0 < p.gcr) (hfa : FlatApart p rot.deg) (hy : sun.y ≠ 0) (hF : frontDotSun rot.deg sun ≠ 0)
    (hsh : hasDirectShading p (arctan2 sun.y sun.x) rot.deg ∨
      interrowShading p (arctan2 sun.y sun.x) rot.deg = (0, 0))
    (hcut : ∀ r < p.nRows, ∀ s, 0 < p.nSeg r s) {a : SurfRef} (ha : a ∈ surfaces p) :
    raySky p (fitGeom p rot sun) a + ∑ b ∈ surfaces p, rayView p (fitGeom p rot sun) a b = 1 := by
  classical
  set g := fitGeom p rot sun with hg
  have hw := h.width
  obtain ⟨_, _, c3, c4, c5⟩ := C17_tiling_gen p rot sun hw hgcr hy hF
    ((shadeOk_iff hw hgcr hy hF).2 hsh)
  have ho : g.ground.Ordered := fit_ordered p rot sun hw hgcr hy hF hsh
  have hrot : g.rot.deg = rot.deg := rfl
  have hpos : ∀ b, (g.coords b).length ≠ 0 → (g.coords b).vec.x ≠ 0 ∨ (g.coords b).vec.y ≠ 0 := by
    intro b hb
    by_contra hc
    simp only [not_or, not_not, ne_eq, Line.vec] at hc
    apply hb
    simp [Line.length, hc.1, hc.2]
  have hgnd : ∀ sh e z, SurfRef.gnd sh e z ∈ surfaces p → ∃ x1 x2, g.coords (.gnd sh e z)
      = ⟨gp x1, gp x2⟩ ∧ x1 ≤ x2 ∧ -100 ≤ x1 ∧ x2 ≤ 100 := by
    intro sh e z hm
    obtain ⟨x1, x2, hc, hle, _⟩ := gnd_interval (rot := rot) (sun := sun) h.distance.le ho (mem_surfaces.1 hm)
    have hm' : SurfRef.gnd sh e z ∈ groundRefs p := by
      have := mem_surfaces.1 hm
      simp only [allRefs, List.mem_append] at this
      rcases this with this | this
      · exact this
      · exfalso
        simp [rowRefs, sideRefs] at this
    obtain ⟨_, _, q1, _, q2⟩ := c3 _ hm'
    refine ⟨x1, x2, hc, hle, ?_, ?_⟩
    · rw [hc] at q1; exact q1
    · rw [hc] at q2; exact q2
  have hsum : ∑ b ∈ surfaces p, rayView p g a b
      = ∑ b ∈ (surfaces p).filter (fun b => (g.coords b).length ≠ 0), rayView p g a b := by
    rw [Finset.sum_filter]
    refine Finset.sum_congr rfl fun b _ => ?_
    split_ifs with hb
    · rfl
    · exact rayView_point (not_not.1 hb)
  rw [hsum]
  have hXy : ∀ s, 0 < s → s < 1 → 0 ≤ (lerp (g.coords a).b1 (g.coords a).b2 s).y := by
    intro s s0 s1
    match a, ha with
    | .gnd sh e z, ha =>
      obtain ⟨x1, x2, hc, _⟩ := hgnd sh e z ha
      rw [hc]; simp [lerp, gp]
    | .pv r sd k sh, ha =>
      obtain ⟨hr, hk⟩ := mem_allRefs_pv.1 (mem_surfaces.1 ha)
      have : OnSeg (lerp (g.coords (.pv r sd k sh)).b1 (g.coords (.pv r sd k sh)).b2 s)
          (g.coords (.pv r sd k sh)) := ⟨s, s0.le, s1.le, rfl⟩
      rw [onSeg_pv (sun := sun) h true hk, mirB_true] at this
      obtain ⟨t, t0, t1, e⟩ := this
      obtain ⟨ba, _, _⟩ := pv_iv_bounds (rot := rot) (sun := sun) hk sh hw.le
      rw [e]
      exact (vp_y_pos h true r (ba.trans t0)).le
  set K : Set Line := ((fun r => fullRowCoords (rowCenter p r) p.width rot.deg) '' {r | r < p.nRows}) ∪
    {⟨⟨MIN_X, 0⟩, ⟨MAX_X, 0⟩⟩} with hKdef
  have hsolid : ∀ Y, g.Solid p Y ↔ ∃ l ∈ K, OnSeg Y l := by
    intro Y
    unfold StepGeom.Solid
    constructor
    · rintro (⟨r, hr, hY⟩ | hY)
      · exact ⟨_, Or.inl ⟨r, hr, rfl⟩, hY⟩
      · exact ⟨_, Or.inr rfl, hY⟩
    · rintro ⟨l, ⟨r, hr, rfl⟩ | rfl, hY⟩
      · exact Or.inl ⟨r, hr, hY⟩
      · exact Or.inr hY
  have hMM : MIN_X < MAX_X := by unfold MIN_X MAX_X; norm_num
  have hcs := cosd_sq_add_sind_sq rot.deg
  have hout : ∀ d : Pt, (∀ l ∈ K, cr d l.vec ≠ 0) → ∀ r < p.nRows,
      d.x * (outward rot.deg (.pv r .front 0 false)).x + d.y * (outward rot.deg (.pv r .front 0 false)).y ≠ 0 := by
    intro d hd r hr
    have := hd _ (Or.inl ⟨r, hr, rfl⟩)
    simp only [full_vec] at this
    simp only [outward]
    intro e
    apply this
    simp only [cr]
    linear_combination (-p.width) * e
  refine ray_total (S := (surfaces p).filter fun b => (g.coords b).length ≠ 0) (L := fun b => g.coords b)
    (m := fun b => outward rot.deg b) (solid := g.Solid p) (K := K) ?_ hsolid ?_ ?_
    (outward_unit _ _) ?_ ?_
    (P := ⋃ b ∈ (surfaces p : Set SurfRef), {(g.coords b).b1, (g.coords b).b2}) ?_ ?_
  · exact ((Set.finite_lt_nat _).image _).union (Set.finite_singleton _)
  · rintro l (⟨r, hr, rfl⟩ | rfl)
    · simp only [full_vec]
      by_contra hc
      simp only [not_or, not_not, ne_eq, mul_eq_zero, hw.ne', false_or] at hc
      rw [hc.1, hc.2] at hcs; norm_num at hcs
    · left; simp only [Line.vec]; linarith
  · intro b hb; exact hpos b (Finset.mem_filter.1 hb).2
  · intro b hb Y hY
    have hb := (Finset.mem_filter.1 hb).1
    rw [solid_mir p true rot sun hw.le, mirB_true]
    match b, hb, hY with
    | .gnd sh e z, hb, hY =>
      obtain ⟨x1, x2, hc, hle, b1, b2⟩ := hgnd sh e z hb
      rw [hc, onSeg_gp true hle, mirB_true] at hY
      simp only [if_true] at hY
      exact Or.inr ⟨hY.1, by unfold MIN_X; linarith [hY.2.1], by unfold MAX_X; linarith [hY.2.2]⟩
    | .pv r sd k sh, hb, hY =>
      obtain ⟨hr, hk⟩ := mem_allRefs_pv.1 (mem_surfaces.1 hb)
      obtain ⟨ba, _, bb⟩ := pv_iv_bounds (rot := rot) (sun := sun) hk sh hw.le
      rw [onSeg_pv (sun := sun) h true hk, mirB_true] at hY
      obtain ⟨t, t0, t1, e⟩ := hY
      exact Or.inl ⟨r, hr, t, ba.trans t0, t1.trans bb, e⟩
  · intro s s0 s1 al _ _ hD l l0 hs
    have hX := hXy s s0 s1
    set d := turn (outward g.rot.deg a) al with hd
    set X := lerp (g.coords a).b1 (g.coords a).b2 s
    rcases (solid_mir p true rot sun hw.le _).1 hs with ⟨j, hj, t, t0, t1, e⟩ | ⟨e, x1, x2⟩
    · rw [mirB_true] at e
      have hne := hout d hD j hj
      obtain ⟨sd, hsd⟩ : ∃ sd, d.x * (outward rot.deg (.pv j sd 0 false)).x
          + d.y * (outward rot.deg (.pv j sd 0 false)).y < 0 := by
        rcases lt_or_gt_of_ne hne with h' | h'
        · exact ⟨.front, h'⟩
        · refine ⟨.back, ?_⟩
          rw [outward_neg rot.deg j j (s := .front) (s' := .back) (by simp) 0 0 false false]
          simp only; linarith
      obtain ⟨k, hk, sh, k1, k2, k3⟩ := tIv_cover hw rot.deg (hcut j hj sd)
        (sideShade p (arctan2 sun.y sun.x) rot.deg j sd) t0 t1
      refine ⟨.pv j sd k sh, Finset.mem_filter.2 ⟨mem_surfaces.2 (mem_allRefs_pv.2 ⟨hj, hk⟩), ?_⟩, ?_, ?_⟩
      · have hlen := length_pv (sun := sun) hk sh hw.le h.lo h.hi
        change ((fitGeom p rot sun).coords _).length ≠ 0
        rw [hlen]
        exact (sub_pos.2 k1).ne'
      · rw [onSeg_pv (sun := sun) h true hk, mirB_true]
        exact ⟨t, k2, k3, e⟩
      · have : outward rot.deg (.pv j sd k sh) = outward rot.deg (.pv j sd 0 false) := by
          cases sd <;> rfl
        rw [this]; exact hsd
    · rw [mirB_true] at e x1 x2
      have hdy0 : d.y ≠ 0 := by
        have := hD _ (Or.inr rfl)
        intro h0
        apply this
        simp only [cr, Line.vec, h0]; ring
      have hdy : d.y < 0 := by
        refine lt_of_le_of_ne ?_ hdy0
        have : X.y + l * d.y = 0 := e
        by_contra hc
        have := mul_pos l0 (not_le.1 hc)
        linarith
      obtain ⟨b, hb, b1, b2, b3⟩ := c4 (along X d l).x (by unfold MIN_X at x1; linarith) (by unfold MAX_X at x2; linarith)
      have hb' : b ∈ surfaces p := mem_surfaces.2 (by simp only [allRefs, List.mem_append]; exact Or.inl hb)
      obtain ⟨sh, e', z, rfl⟩ : ∃ sh e z, b = SurfRef.gnd sh e z := by
        match b, hb with
        | .gnd sh e z, _ => exact ⟨sh, e, z, rfl⟩
        | .pv r s k sh, hb => exfalso; simp [groundRefs] at hb
      obtain ⟨y1, y2, hc, hle, _⟩ := hgnd sh e' z hb'
      change (g.coords (.gnd sh e' z)).b1.x < (g.coords (.gnd sh e' z)).b2.x at b1
      change (g.coords (.gnd sh e' z)).b1.x ≤ _ at b2
      change _ ≤ (g.coords (.gnd sh e' z)).b2.x at b3
      rw [hc] at b1 b2 b3
      refine ⟨_, Finset.mem_filter.2 ⟨hb', ?_⟩, ?_, ?_⟩
      · rw [hc, length_gp hle]
        simp only [gp] at b1
        linarith
      · rw [hc, onSeg_gp true hle, mirB_true]
        simp only [if_true]
        exact ⟨e, b2, b3⟩
      · simp only [outward]; linarith
  · refine Set.Finite.biUnion (Finset.finite_toSet _) fun b _ => Set.toFinite _
  · intro d hD b hb b' hb' hne Y hY hY' hm hm'
    have hb := (Finset.mem_filter.1 hb).1
    have hb' := (Finset.mem_filter.1 hb').1
    have hmem : ∀ c ∈ surfaces p, (Y = (g.coords c).b1 ∨ Y = (g.coords c).b2) →
        Y ∈ ⋃ b ∈ (surfaces p : Set SurfRef), ({(g.coords b).b1, (g.coords b).b2} : Set Pt) := by
      intro c hc he
      exact Set.mem_biUnion (show c ∈ (surfaces p : Set SurfRef) from hc) he
    match b, hb, b', hb', hne, hY, hY', hm, hm' with
    | .gnd sh e z, hb, .gnd sh' e' z', hb', hne, hY, hY', hm, hm' =>
      obtain ⟨x1, x2, hc, hle, _⟩ := hgnd sh e z hb
      obtain ⟨x1', x2', hc', hle', _⟩ := hgnd sh' e' z' hb'
      have g1 : SurfRef.gnd sh e z ∈ groundRefs p := by
        have := mem_surfaces.1 hb
        simp only [allRefs, List.mem_append] at this
        rcases this with this | this
        · exact this
        · exfalso; simp [rowRefs, sideRefs] at this
      have g2 : SurfRef.gnd sh' e' z' ∈ groundRefs p := by
        have := mem_surfaces.1 hb'
        simp only [allRefs, List.mem_append] at this
        rcases this with this | this
        · exact this
        · exfalso; simp [rowRefs, sideRefs] at this
      have hno := c5 _ g1 _ g2 hne Y.x
      change ¬ ((g.coords (.gnd sh e z)).b1.x < Y.x ∧ Y.x < (g.coords (.gnd sh e z)).b2.x ∧
        (g.coords (.gnd sh' e' z')).b1.x < Y.x ∧ Y.x < (g.coords (.gnd sh' e' z')).b2.x) at hno
      rw [hc, onSeg_gp true hle, mirB_true] at hY
      rw [hc', onSeg_gp true hle', mirB_true] at hY'
      simp only [if_true, gndSeg] at hY hY'
      rw [hc, hc'] at hno
      simp only [gp] at hno
      have eY : ∀ x, Y.x = x → Y = gp x := by intro x hx; ext <;> simp [gp, hx, hY.1]
      by_cases q1 : Y.x = x1
      · exact hmem _ hb (Or.inl (by rw [hc]; exact eY _ q1))
      by_cases q2 : Y.x = x2
      · exact hmem _ hb (Or.inr (by rw [hc]; exact eY _ q2))
      by_cases q3 : Y.x = x1'
      · exact hmem _ hb' (Or.inl (by rw [hc']; exact eY _ q3))
      by_cases q4 : Y.x = x2'
      · exact hmem _ hb' (Or.inr (by rw [hc']; exact eY _ q4))
      exfalso
      exact hno ⟨lt_of_le_of_ne hY.2.1 (Ne.symm q1), lt_of_le_of_ne hY.2.2 q2,
        lt_of_le_of_ne hY'.2.1 (Ne.symm q3), lt_of_le_of_ne hY'.2.2 q4⟩
    | .gnd sh e z, hb, .pv r s k sh', hb', hne, hY, hY', hm, hm' =>
      exfalso
      obtain ⟨x1, x2, hc, hle, _⟩ := hgnd sh e z hb
      obtain ⟨hr, hk⟩ := mem_allRefs_pv.1 (mem_surfaces.1 hb')
      obtain ⟨ba, _, bb⟩ := pv_iv_bounds (rot := rot) (sun := sun) hk sh' hw.le
      rw [hc, onSeg_gp true hle, mirB_true] at hY
      rw [onSeg_pv (sun := sun) h true hk, mirB_true] at hY'
      obtain ⟨t, t0, t1, e⟩ := hY'
      have := vp_y_pos h true r (ba.trans t0)
      rw [← e, hY.1] at this
      exact lt_irrefl _ this
    | .pv r s k sh', hb', .gnd sh e z, hb, hne, hY', hY, hm, hm' =>
      exfalso
      obtain ⟨x1, x2, hc, hle, _⟩ := hgnd sh e z hb
      obtain ⟨hr, hk⟩ := mem_allRefs_pv.1 (mem_surfaces.1 hb')
      obtain ⟨ba, _, bb⟩ := pv_iv_bounds (rot := rot) (sun := sun) hk sh' hw.le
      rw [hc, onSeg_gp true hle, mirB_true] at hY
      rw [onSeg_pv (sun := sun) h true hk, mirB_true] at hY'
      obtain ⟨t, t0, t1, e⟩ := hY'
      have := vp_y_pos h true r (ba.trans t0)
      rw [← e, hY.1] at this
      exact lt_irrefl _ this
    | .pv r s k sh, hb, .pv r' s' k' sh', hb', hne, hY, hY', hm, hm' =>
      obtain ⟨hr, hk⟩ := mem_allRefs_pv.1 (mem_surfaces.1 hb)
      obtain ⟨hr', hk'⟩ := mem_allRefs_pv.1 (mem_surfaces.1 hb')
      obtain ⟨ba, _, bb⟩ := pv_iv_bounds (rot := rot) (sun := sun) hk sh hw.le
      obtain ⟨ba', _, bb'⟩ := pv_iv_bounds (rot := rot) (sun := sun) hk' sh' hw.le
      by_cases hs : s' = s
      · subst hs
        rw [onSeg_pv (sun := sun) h true hk, mirB_true] at hY
        rw [onSeg_pv (sun := sun) h true hk', mirB_true] at hY'
        obtain ⟨t, t0, t1, e⟩ := hY
        obtain ⟨t', t0', t1', e'⟩ := hY'
        obtain ⟨hrr, htt⟩ := vp_row_unique h hfa (ba.trans t0) (t1.trans bb) (ba'.trans t0')
          (t1'.trans bb') (e.symm.trans e')
        subst hrr htt
        have hkk : (k, sh) ≠ (k', sh') := by
          rintro hc
          simp only [Prod.mk.injEq] at hc
          exact hne (by rw [hc.1, hc.2])
        have hcc := coords_pv_t (sun := sun) hk sh hw.le h.lo h.hi
        change g.coords (.pv r s' k sh) = _ at hcc
        have ev : ∀ t, vp p true rot.deg r t = tPt (rowCenter p r) p.width rot.deg t := by
          intro t; unfold vp; rw [mirB_true]
        rcases tIv_overlap hw.le _ _ _ hkk t0 t1 t0' t1' with q | q
        · refine hmem _ hb ?_
          rw [hcc]
          split_ifs
          · right; rw [e, ev, q]; rfl
          · left; rw [e, ev, q]; rfl
        · refine hmem _ hb ?_
          rw [hcc]
          split_ifs
          · left; rw [e, ev, q]; rfl
          · right; rw [e, ev, q]; rfl
      · exfalso
        rw [outward_neg rot.deg r r' hs k k' sh sh'] at hm'
        simp only at hm'
        linarith

end PVF

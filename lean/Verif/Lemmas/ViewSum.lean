import Verif.Lemmas.ViewVF
import Mathlib.Algebra.BigOperators.Intervals
import Mathlib.Algebra.Order.BigOperators.Group.List
import Mathlib.Algebra.BigOperators.Ring.List

/-! # Sums of view factors of a surface -/

namespace PVF

/-! ## Position of ground surfaces -/

theorem zoneHi_fit (p : ArrayParams) (rot : Rot) (sun : Pt) {r : ℕ} (hr : r < p.nRows) :
    (fitGeom p rot sun).ground.zoneHi r
      = (cutPointX (fullRowCoords (rowCenter p r) p.width rot.deg) rot).clipped := by
  unfold GroundIn.zoneHi
  rw [fit_cut_get p rot sun hr]; rfl

/-- Rotation of a flat row is the negative zero. -/
def FlatOk (rot : Rot) : Prop := rot.deg = 0 → rot.negZero = true

theorem onSide_left {p : ArrayParams} {rot : Rot} {sun : Pt} (h : Physical p rot.deg) {r : ℕ}
    (hr : r < p.nRows) {x : ℝ} (hx : x ≤ (fitGeom p rot sun).ground.zoneHi r)
    (hlt : MIN_X < (fitGeom p rot sun).ground.zoneHi r) : OnSide p true rot.deg r x := by
  rw [zoneHi_fit p rot sun hr, cutPointX_row] at hx hlt
  have hl := h.lowY_pos
  unfold OnSide
  by_cases h0 : rot.deg = 0
  · simp only [upX, upY, h0, sx, lt_irrefl, if_false, if_true, cosd_zero, sind_zero]
    rw [h0] at hl
    linarith
  · rw [if_neg h0] at hx hlt
    simp only [XR.clipped] at hx hlt
    set c := (r * p.distance + (-(p.width / 2) * cosd rot.deg
      - (-(p.width / 2) * sind rot.deg + p.height) * cosd rot.deg / sind rot.deg)) with hc
    have hxc : x ≤ c := by
      rcases lt_max_iff.1 hlt with h' | h'
      · exact absurd h' (lt_irrefl _)
      · rw [max_eq_right h'.le] at hx
        exact hx.trans (min_le_left _ _)
    rcases lt_or_gt_of_ne h0 with hn | hp
    · have hs := sind_neg_of_neg hn h.lo
      have hs0 := hs.ne
      have e : c * sind rot.deg = r * p.distance * sind rot.deg - p.height * cosd rot.deg := by
        rw [hc]; field_simp; ring
      have hnp : ¬ 0 < rot.deg := not_lt.2 hn.le
      simp only [upX, upY, lowX, lowY, sx, if_neg hnp, if_true]
      nlinarith [mul_le_mul_of_nonpos_right hxc hs.le]
    · have hs := sind_pos hp h.hi
      have e : c * sind rot.deg = r * p.distance * sind rot.deg - p.height * cosd rot.deg := by
        rw [hc]; field_simp; ring
      simp only [upX, upY, lowX, lowY, sx, if_pos hp, if_true]
      nlinarith [mul_le_mul_of_nonneg_right hxc hs.le]

theorem onSide_right {p : ArrayParams} {rot : Rot} {sun : Pt} (h : Physical p rot.deg)
    (hf : FlatOk rot) {r : ℕ}
    (hr : r < p.nRows) {x : ℝ} (hx : (fitGeom p rot sun).ground.zoneHi r ≤ x)
    (hlt : (fitGeom p rot sun).ground.zoneHi r < MAX_X) : OnSide p false rot.deg r x := by
  rw [zoneHi_fit p rot sun hr, cutPointX_row] at hx hlt
  unfold OnSide
  by_cases h0 : rot.deg = 0
  · rw [if_pos h0, if_pos (hf h0)] at hlt
    exact absurd hlt (lt_irrefl _)
  · rw [if_neg h0] at hx hlt
    simp only [XR.clipped] at hx hlt
    set c := (r * p.distance + (-(p.width / 2) * cosd rot.deg
      - (-(p.width / 2) * sind rot.deg + p.height) * cosd rot.deg / sind rot.deg)) with hc
    have hxc : c ≤ x := by
      have h1 : min c MAX_X ≤ x := (le_max_right _ _).trans hx
      have h2 : min c MAX_X < MAX_X := (le_max_right _ _).trans_lt hlt
      rcases min_lt_iff.1 h2 with h' | h'
      · rwa [min_eq_left h'.le] at h1
      · exact absurd h' (lt_irrefl _)
    rcases lt_or_gt_of_ne h0 with hn | hp
    · have hs := sind_neg_of_neg hn h.lo
      have hs0 := hs.ne
      have e : c * sind rot.deg = r * p.distance * sind rot.deg - p.height * cosd rot.deg := by
        rw [hc]; field_simp; ring
      have hnp : ¬ 0 < rot.deg := not_lt.2 hn.le
      simp only [upX, upY, lowX, lowY, sx, if_neg hnp, Bool.false_eq_true, if_false]
      nlinarith [mul_le_mul_of_nonpos_right hxc hs.le]
    · have hs := sind_pos hp h.hi
      have e : c * sind rot.deg = r * p.distance * sind rot.deg - p.height * cosd rot.deg := by
        rw [hc]; field_simp; ring
      simp only [upX, upY, lowX, lowY, sx, if_pos hp, Bool.false_eq_true, if_false]
      nlinarith [mul_le_mul_of_nonneg_right hxc hs.le]

theorem elem_ordered {p : ArrayParams} {rot : Rot} {sun : Pt}
    (ho : (fitGeom p rot sun).ground.Ordered) {sh : Bool} {e : ℕ}
    (he : e < if sh then p.nRows else p.nRows + 1) :
    ((fitGeom p rot sun).elem sh e).b1.x ≤ ((fitGeom p rot sun).elem sh e).b2.x := by
  set g := fitGeom p rot sun
  have hN : g.ground.nRows = p.nRows := rfl
  have key : ∀ k < 2 * g.ground.nRows + 1, (g.ground.el k).b1.x ≤ (g.ground.el k).b2.x := by
    intro k hk
    rw [g.ground.el_eq hk]
    exact GroundIn.brk_mono ho hk
  cases sh
  · simp only [Bool.false_eq_true, if_false] at he
    have := key (2 * e) (by omega)
    have e0 : g.ground.el (2 * e) = g.ground.illumEl e := by
      unfold GroundIn.el; rw [if_pos (by omega)]; congr 1; omega
    rw [e0] at this
    exact this
  · simp only [if_true] at he
    have := key (2 * e + 1) (by omega)
    have e0 : g.ground.el (2 * e + 1) = g.ground.shadowEl e := by
      unfold GroundIn.el; rw [if_neg (by omega)]; congr 1; omega
    rw [e0] at this
    exact this

theorem zoneLo_le_zoneHi {p : ArrayParams} {rot : Rot} {sun : Pt} (hd : 0 ≤ p.distance) (z : ℕ) :
    (fitGeom p rot sun).ground.zoneLo z ≤ (fitGeom p rot sun).ground.zoneHi z := by
  unfold GroundIn.zoneLo
  split_ifs
  · exact ((fitGeom p rot sun).ground.zoneHi_inGround z).1
  · exact zoneHi_mono hd (by omega)

/-- A ground surface is an interval inside its zone. -/
theorem gnd_interval {p : ArrayParams} {rot : Rot} {sun : Pt} (hd : 0 ≤ p.distance)
    (ho : (fitGeom p rot sun).ground.Ordered) {sh : Bool} {e z : ℕ}
    (hb : SurfRef.gnd sh e z ∈ allRefs p) :
    let g := fitGeom p rot sun
    ∃ x1 x2, g.coords (.gnd sh e z) = ⟨gp x1, gp x2⟩ ∧ x1 ≤ x2 ∧
      g.ground.zoneLo z ≤ x1 ∧ x2 ≤ g.ground.zoneHi z := by
  intro g
  obtain ⟨he, hz⟩ := mem_allRefs_gnd.1 hb
  have hc := coords_gnd (rot := rot) (sun := sun) hd sh e (show z ≤ p.nRows by omega)
  have hle := elem_ordered ho he
  have hzl := zoneLo_le_zoneHi (p := p) (rot := rot) (sun := sun) hd z
  refine ⟨_, _, hc, ?_, ?_, ?_⟩
  · exact min_le_min_right _ (max_le_max_right _ hle)
  · exact le_min (le_max_right _ _) hzl
  · exact min_le_right _ _

theorem gnd_onSide {p : ArrayParams} {rot : Rot} {sun : Pt} (h : Physical p rot.deg)
    (hf : FlatOk rot) {z r : ℕ} (hr : r < p.nRows) {x1 x2 : ℝ} (hlt : x1 < x2)
    (h1 : (fitGeom p rot sun).ground.zoneLo z ≤ x1)
    (h2 : x2 ≤ (fitGeom p rot sun).ground.zoneHi z) :
    OnSide p (decide (z ≤ r)) rot.deg r x1 ∧ OnSide p (decide (z ≤ r)) rot.deg r x2 := by
  set g := (fitGeom p rot sun).ground with hg
  have hd := h.distance.le
  by_cases hz : z ≤ r
  · simp only [hz, decide_true]
    have hzr : g.zoneHi z ≤ g.zoneHi r := zoneHi_mono hd hz
    have hmin : MIN_X < g.zoneHi r := by
      have := (g.zoneLo_inGround z).1
      linarith
    exact ⟨onSide_left h hr (by linarith) hmin, onSide_left h hr (by linarith) hmin⟩
  · simp only [hz, decide_false]
    have hlo : g.zoneHi r ≤ g.zoneLo z := by
      unfold GroundIn.zoneLo
      rw [if_neg (by omega)]
      exact zoneHi_mono hd (by omega)
    have hmax : g.zoneHi r < MAX_X := by
      have := (g.zoneHi_inGround z).2
      linarith
    exact ⟨onSide_right h hf hr (by linarith) hmax, onSide_right h hf hr (by linarith) hmax⟩

/-! ## Sums over surfaces -/

theorem sum_map_flatMap {α β : Type*} (l : List α) (F : α → List β) (f : β → ℝ) :
    ((l.flatMap F).map f).sum = (l.map fun i => ((F i).map f).sum).sum := by
  induction l with
  | nil => simp
  | cons a l ih => simp [ih]

theorem sum_sideRefs (p : ArrayParams) (i : ℕ) (s : RowSide) (f : SurfRef → ℝ) :
    ((sideRefs p i s).map f).sum
      = ((List.range (p.nSeg i s)).map fun k => f (.pv i s k false) + f (.pv i s k true)).sum := by
  unfold sideRefs
  rw [sum_map_flatMap]
  simp

theorem sum_allRefs (p : ArrayParams) (f : SurfRef → ℝ) :
    ((allRefs p).map f).sum = ((groundRefs p).map f).sum
      + ((List.range p.nRows).map fun i =>
          ((sideRefs p i .front).map f).sum + ((sideRefs p i .back).map f).sum).sum := by
  unfold allRefs
  rw [List.map_append, List.sum_append, sum_map_flatMap]
  simp [rowRefs]

theorem list_sum_zero {α : Type*} {l : List α} {f : α → ℝ} (h : ∀ a ∈ l, f a = 0) :
    (l.map f).sum = 0 := by
  rw [List.map_congr_left h]; simp

theorem list_sum_le {α : Type*} {l : List α} {f g : α → ℝ} (h : ∀ a ∈ l, f a ≤ g a) :
    (l.map f).sum ≤ (l.map g).sum := List.sum_le_sum h

/-- The other side of a row. -/
def RowSide.other : RowSide → RowSide
  | .front => .back
  | .back => .front

theorem RowSide.ne_iff {s s' : RowSide} : s' ≠ s ↔ s' = s.other := by
  cases s <;> cases s' <;> simp [RowSide.other]

/-- Telescoping over the surfaces of a side of a row. -/
theorem sum_side_telescope {p : ArrayParams} {rot : Rot} {sun : Pt} {i : ℕ} {s : RowSide}
    {f : SurfRef → ℝ} {A : ℝ → ℝ} (hA : A 0 ≤ A p.width)
    (h : ∀ k sh, k < p.nSeg i s → f (.pv i s k sh)
      ≤ A (pvIv p rot sun i s k sh).2 - A (pvIv p rot sun i s k sh).1) :
    ((sideRefs p i s).map f).sum ≤ A p.width - A 0 := by
  rw [sum_sideRefs]
  rcases Nat.eq_zero_or_pos (p.nSeg i s) with h0 | h0
  · rw [h0]; simp; exact hA
  · refine le_trans (list_sum_le (g := fun k => (A (pvIv p rot sun i s k false).2
      - A (pvIv p rot sun i s k false).1) + (A (pvIv p rot sun i s k true).2
      - A (pvIv p rot sun i s k true).1)) fun k hk => ?_) ?_
    · have hk' := List.mem_range.1 hk
      exact add_le_add (h k false hk') (h k true hk')
    · exact (side_telescope p.width rot.deg h0 _ A).le

/-! ## PV surfaces -/

/-- View factor from a PV surface to a ground surface: bounds. -/
theorem pvGnd_bound {p : ArrayParams} {rot : Rot} {sun : Pt} (h : Physical p rot.deg)
    (hf : FlatOk rot) (ho : (fitGeom p rot sun).ground.Ordered) {r : ℕ}
    {s : RowSide} {k : ℕ} {sh sh' : Bool} {e z : ℕ}
    (ha : SurfRef.pv r s k sh ∈ allRefs p) (hb : SurfRef.gnd sh' e z ∈ allRefs p) :
    let g := fitGeom p rot sun
    let a := SurfRef.pv r s k sh
    let b := SurfRef.gnd sh' e z
    let D := dphi p (decide (z ≤ r)) rot.deg r (pvIv p rot sun r s k sh).1
      (pvIv p rot sun r s k sh).2 (g.coords b).b1.x (g.coords b).b2.x
    0 ≤ D ∧ 0 ≤ (pvGndVF p g r s (g.coords a) (g.coords b) z).1 ∧
    (decide (z ≤ r) ≠ faceL rot.deg s → (pvGndVF p g r s (g.coords a) (g.coords b) z).1 = 0) ∧
    (pvGndVF p g r s (g.coords a) (g.coords b) z).1 * (g.coords a).length ≤ D / 2 ∧
    ((g.coords a).length > TOL →
      (pvGndVF p g r s (g.coords a) (g.coords b) z).1 ≤ D / (2 * (g.coords a).length)) := by
  intro g a b D
  obtain ⟨hr, hk⟩ := mem_allRefs_pv.1 ha
  obtain ⟨x1, x2, hc, hle, hz1, hz2⟩ := gnd_interval (rot := rot) (sun := sun) h.distance.le ho hb
  obtain ⟨ia, iab, ib⟩ := pv_iv_bounds (rot := rot) (sun := sun) hk sh h.width.le
  have hT := TOL_pos
  have hD : D = dphi p (decide (z ≤ r)) rot.deg r (pvIv p rot sun r s k sh).1
      (pvIv p rot sun r s k sh).2 x1 x2 := by
    simp only [D, b, g, hc, gp]
  have hD0 : 0 ≤ D := by
    rw [hD]
    rcases eq_or_lt_of_le hle with heq | hlt
    · rw [heq]; unfold dphi; split_ifs <;> simp
    · obtain ⟨o1, o2⟩ := gnd_onSide h hf hr hlt hz1 hz2
      exact dphi_nonneg h ia iab hle o1 o2
  have hv : (pvGndVF p g r s (g.coords a) (g.coords b) z).1
      = if decide (z ≤ r) = faceL rot.deg s then
          (if (g.coords a).length > TOL then D / (2 * (g.coords a).length) else 0) else 0 := by
    have := pvGnd_val (sun := sun) h hk sh (x1 := x1) (x2 := x2) (z := z) (by rw [← hD]; exact hD0)
    rw [← hc, ← hD] at this
    exact this
  rw [hv]
  have hl := (g.coords a).length_nonneg
  refine ⟨hD0, ?_, ?_, ?_, ?_⟩
  · split_ifs
    · exact div_nonneg hD0 (by linarith)
    · exact le_rfl
    · exact le_rfl
  · intro hne; rw [if_neg hne]
  · split_ifs with h1 h2
    · have : 0 < (g.coords a).length := hT.trans h2
      apply le_of_eq; field_simp
    · rw [zero_mul]; linarith
    · rw [zero_mul]; linarith
  · intro hlen
    split_ifs
    · exact le_rfl
    · exact div_nonneg hD0 (by linarith)

/-- The view factors of a PV surface are not negative. -/
theorem pv_row_nonneg {p : ArrayParams} {rot : Rot} {sun : Pt} (h : Physical p rot.deg)
    (hf : FlatOk rot) (ho : (fitGeom p rot sun).ground.Ordered) (emp : SurfRef → Prop) {r : ℕ}
    {s : RowSide} {k : ℕ} {sh : Bool} (ha : SurfRef.pv r s k sh ∈ allRefs p) {b : SurfRef}
    (hb : b ∈ allRefs p) : 0 ≤ entryVF p (fitGeom p rot sun) emp (.pv r s k sh) b := by
  match b with
  | .gnd sh' e z =>
    simp only [entryVF]
    split_ifs
    · exact le_rfl
    · exact (pvGnd_bound h hf ho ha hb).2.1
  | .pv r' s' k' sh' => exact (pvPv_val h emp ha hb).1

/-- Sum of the view factors to the ground. -/
theorem pv_gnd_sum {p : ArrayParams} {rot : Rot} {sun : Pt} (h : Physical p rot.deg)
    (hf : FlatOk rot) (ho : (fitGeom p rot sun).ground.Ordered) (emp : SurfRef → Prop) {r : ℕ}
    {s : RowSide} {k : ℕ} {sh : Bool} (ha : SurfRef.pv r s k sh ∈ allRefs p)
    (hlen : ((fitGeom p rot sun).coords (.pv r s k sh)).length > TOL) (left : Bool) :
    let g := fitGeom p rot sun
    let ph := phi p left rot.deg r (pvIv p rot sun r s k sh).1 (pvIv p rot sun r s k sh).2
    ((gndRefsSide p left r).map fun b => entryVF p g emp (.pv r s k sh) b).sum
      ≤ if left = faceL rot.deg s then
          (if left then ph (g.ground.zoneHi r) - ph MIN_X
            else ph (-g.ground.zoneHi r) - ph (-MAX_X))
            / (2 * (g.coords (.pv r s k sh)).length) else 0 := by
  intro g ph
  obtain ⟨hr, hk⟩ := mem_allRefs_pv.1 ha
  have hzl : ∀ b ∈ gndRefsSide p left r, ∃ sh' e z, b = .gnd sh' e z ∧ b ∈ allRefs p ∧
      left = decide (z ≤ r) := by
    intro b hb
    obtain ⟨sh', e, z, rfl, he, hz, hl⟩ := (mem_gndRefsSide hr).1 hb
    exact ⟨sh', e, z, rfl, gndRefsSide_subset hr hb, hl⟩
  split_ifs with h1 h2
  · rw [← sub_nonneg]
    set A : ℝ → ℝ := fun x => ph x / (2 * (g.coords (.pv r s k sh)).length) with hA
    have ht := sum_gndRefsSide (rot := rot) (sun := sun) h.distance.le A left hr
    simp only [h2, if_true] at ht
    have : (ph (g.ground.zoneHi r) - ph MIN_X) / (2 * (g.coords (.pv r s k sh)).length)
        = A (g.ground.zoneHi r) - A MIN_X := by rw [hA]; ring
    rw [this, sub_nonneg, ← ht, h2]
    refine list_sum_le fun b hb => ?_
    rw [← h2] at hb
    obtain ⟨sh', e, z, rfl, hba, hl⟩ := hzl b hb
    obtain ⟨d0, _, _, _, d4⟩ := pvGnd_bound (k := k) (sh := sh) (s := s) h hf ho ha hba
    have hD : A ((g.coords (.gnd sh' e z)).b2.x) - A ((g.coords (.gnd sh' e z)).b1.x)
        = dphi p (decide (z ≤ r)) rot.deg r (pvIv p rot sun r s k sh).1
          (pvIv p rot sun r s k sh).2 (g.coords (.gnd sh' e z)).b1.x (g.coords (.gnd sh' e z)).b2.x
          / (2 * (g.coords (.pv r s k sh)).length) := by
      rw [← hl, dphi, if_pos h2, hA]; ring
    rw [hD]
    simp only [entryVF]
    split_ifs
    · exact div_nonneg d0 (by linarith [TOL_pos])
    · exact d4 hlen
  · set A : ℝ → ℝ := fun x => - ph (-x) / (2 * (g.coords (.pv r s k sh)).length) with hA
    have ht := sum_gndRefsSide (rot := rot) (sun := sun) h.distance.le A left hr
    have h2' : left = false := by simpa using h2
    simp only [h2', Bool.false_eq_true, if_false] at ht
    have : (ph (-g.ground.zoneHi r) - ph (-MAX_X)) / (2 * (g.coords (.pv r s k sh)).length)
        = A MAX_X - A (g.ground.zoneHi r) := by rw [hA]; ring
    rw [this, ← ht, h2']
    refine list_sum_le fun b hb => ?_
    rw [← h2'] at hb
    obtain ⟨sh', e, z, rfl, hba, hl⟩ := hzl b hb
    obtain ⟨d0, _, _, _, d4⟩ := pvGnd_bound (k := k) (sh := sh) (s := s) h hf ho ha hba
    have hD : A ((g.coords (.gnd sh' e z)).b2.x) - A ((g.coords (.gnd sh' e z)).b1.x)
        = dphi p (decide (z ≤ r)) rot.deg r (pvIv p rot sun r s k sh).1
          (pvIv p rot sun r s k sh).2 (g.coords (.gnd sh' e z)).b1.x (g.coords (.gnd sh' e z)).b2.x
          / (2 * (g.coords (.pv r s k sh)).length) := by
      rw [← hl, dphi, if_neg h2, hA]; ring
    rw [hD]
    simp only [entryVF]
    split_ifs
    · exact div_nonneg d0 (by linarith [TOL_pos])
    · exact d4 hlen
  · apply le_of_eq
    apply list_sum_zero
    intro b hb
    obtain ⟨sh', e, z, rfl, hba, hl⟩ := hzl b hb
    simp only [entryVF]
    split_ifs
    · rfl
    · exact (pvGnd_bound h hf ho ha hba).2.2.1 (by rw [← hl]; exact h1)

end PVF

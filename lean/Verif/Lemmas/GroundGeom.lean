import Verif.Lemmas.Cut
import Verif.Lemmas.Entries
import Verif.Lemmas.Shading

/-! # Ground elements and surfaces of a fitted array -/

namespace PVF

/-! ## Cutting one element -/

theorem cutSurfaces_inside {l : Line} (h : LineInGround l) (hle : l.b1.x ≤ l.b2.x) (cs : List XR) :
    ∀ s ∈ cutSurfaces l cs, s.b1.x < s.b2.x → l.b1.x ≤ s.b1.x ∧ s.b2.x ≤ l.b2.x := by
  induction cs generalizing l with
  | nil =>
    intro s hs _
    simp only [cutSurfaces, List.mem_singleton] at hs
    rw [hs]; exact ⟨le_rfl, le_rfl⟩
  | cons c cs ih =>
    intro s hs hlt
    simp only [cutSurfaces, List.mem_cons] at hs
    rcases hs with rfl | hs
    · rw [coordsLeft_eq h] at hlt ⊢
      simp only at hlt ⊢
      refine ⟨le_min le_rfl ?_, min_le_left _ _⟩
      by_contra hc
      rw [min_eq_right (not_le.1 hc).le, min_eq_right ((not_le.1 hc).le.trans hle)] at hlt
      exact lt_irrefl _ hlt
    · have h1 := ih (coordsRight_inGround h c) (by
        rw [coordsRight_eq h]; exact max_le_max_right _ hle) s hs hlt
      rw [coordsRight_eq h] at h1
      simp only at h1
      refine ⟨(le_max_left _ _).trans h1.1, h1.2.trans (max_le le_rfl ?_)⟩
      by_contra hc
      rw [max_eq_right (hle.trans (not_le.1 hc).le), max_eq_right (not_le.1 hc).le] at h1
      linarith [h1.1, h1.2]

theorem cutSurfaces_pairwise {l : Line} (h : LineInGround l) (hle : l.b1.x ≤ l.b2.x)
    (cs : List XR) : (cutSurfaces l cs).Pairwise fun s t =>
      s.b1.x < s.b2.x → t.b1.x < t.b2.x → s.b2.x ≤ t.b1.x := by
  induction cs generalizing l with
  | nil => simp [cutSurfaces]
  | cons c cs ih =>
    have hle' : (coordsRightOfCut l c).b1.x ≤ (coordsRightOfCut l c).b2.x := by
      rw [coordsRight_eq h]; exact max_le_max_right _ hle
    simp only [cutSurfaces, List.pairwise_cons]
    refine ⟨?_, ih (coordsRight_inGround h c) hle'⟩
    intro t ht _ hlt
    have := (cutSurfaces_inside (coordsRight_inGround h c) hle' cs t ht hlt).1
    rw [coordsRight_eq h] at this
    rw [coordsLeft_eq h]
    simp only at this ⊢
    exact (min_le_right _ _).trans ((le_max_right _ _).trans this)

theorem cutSurfaces_cover {l : Line} (h : LineInGround l) (hlt : l.b1.x < l.b2.x) (cs : List XR)
    {x : ℝ} (h0 : l.b1.x ≤ x) (h1 : x ≤ l.b2.x) :
    ∃ s ∈ cutSurfaces l cs, s.b1.x < s.b2.x ∧ s.b1.x ≤ x ∧ x ≤ s.b2.x := by
  induction cs generalizing l with
  | nil => exact ⟨l, by simp [cutSurfaces], hlt, h0, h1⟩
  | cons c cs ih =>
    have hin := coordsRight_inGround h c
    have hR := coordsRight_eq h c
    have hL := coordsLeft_eq h c
    simp only [cutSurfaces, List.mem_cons, exists_eq_or_imp]
    rcases le_or_gt l.b2.x c.clipped with hc | hc
    · left
      rw [hL]; simp only
      rw [min_eq_left hc, min_eq_left (hlt.le.trans hc)]
      exact ⟨hlt, h0, h1⟩
    · by_cases hx : x ≤ c.clipped ∧ l.b1.x < c.clipped
      · left
        rw [hL]; simp only
        rw [min_eq_right hc.le, min_eq_left hx.2.le]
        exact ⟨hx.2, h0, hx.1⟩
      · right
        apply ih hin
        · rw [hR]; simp only; rw [max_eq_left hc.le]; exact max_lt hlt hc
        · rw [hR]; simp only
          apply max_le h0
          by_contra h2
          push Not at h2 hx
          have := hx h2.le
          linarith
        · rw [hR]; simp only; rw [max_eq_left hc.le]; exact h1

/-! ## Elements -/

theorem clip_inGround (x : ℝ) : InGround (clip x MIN_X MAX_X) := by
  unfold clip
  exact ⟨le_min (le_max_right _ _) MIN_lt_MAX.le, min_le_right _ _⟩

theorem clip_mono {x y : ℝ} (h : x ≤ y) : clip x MIN_X MAX_X ≤ clip y MIN_X MAX_X :=
  min_le_min_right _ (max_le_max_right _ h)

theorem shadowEl_inGround (g : GroundIn) (i : ℕ) : LineInGround (g.shadowEl i) :=
  ⟨clip_inGround _, clip_inGround _, rfl, rfl⟩

theorem illumEl_inGround (g : GroundIn) (i : ℕ) : LineInGround (g.illumEl i) := by
  have h0 : InGround MIN_X := ⟨le_rfl, MIN_lt_MAX.le⟩
  have h1 : InGround MAX_X := ⟨MIN_lt_MAX.le, le_rfl⟩
  refine ⟨?_, ?_, rfl, rfl⟩
  · simp only [GroundIn.illumEl]
    split_ifs
    · exact h0
    · exact clip_inGround _
  · simp only [GroundIn.illumEl]
    split_ifs
    · exact clip_inGround _
    · exact h1

/-- Shadow boundaries are ordered from left to right. -/
def GroundIn.Ordered (g : GroundIn) : Prop :=
  (∀ i < g.nRows, (g.noOverlap i).1 ≤ (g.noOverlap i).2) ∧
  (∀ i, i + 1 < g.nRows → (g.noOverlap i).2 ≤ (g.noOverlap (i + 1)).1)

/-- Element number `k` from left to right. -/
noncomputable def GroundIn.el (g : GroundIn) (k : ℕ) : Line :=
  if k % 2 = 0 then g.illumEl (k / 2) else g.shadowEl (k / 2)

/-- Break points between elements from left to right. -/
noncomputable def GroundIn.brk (g : GroundIn) (k : ℕ) : ℝ :=
  if k = 0 then MIN_X else if 2 * g.nRows < k then MAX_X
  else if k % 2 = 1 then (g.shadowEl (k / 2)).b1.x else (g.shadowEl (k / 2 - 1)).b2.x

theorem GroundIn.el_eq (g : GroundIn) {k : ℕ} (hk : k < 2 * g.nRows + 1) :
    g.el k = ⟨⟨g.brk k, Y_GROUND⟩, ⟨g.brk (k + 1), Y_GROUND⟩⟩ := by
  unfold GroundIn.el GroundIn.brk
  rcases Nat.even_or_odd' k with ⟨c, rfl | rfl⟩
  · have a1 : (2 * c) % 2 = 0 := by omega
    have a2 : 2 * c / 2 = c := by omega
    have a3 : (2 * c + 1) % 2 = 1 := by omega
    have a4 : (2 * c + 1) / 2 = c := by omega
    have a5 : (2 * c = 0) ↔ c = 0 := by omega
    have a6 : ¬ 2 * g.nRows < 2 * c := by omega
    have a7 : (2 * g.nRows < 2 * c + 1) ↔ ¬ c < g.nRows := by omega
    simp only [a1, if_true, a2, a3, a4, a5, a6, a7, GroundIn.illumEl, if_false, zero_ne_one]
    simp only [if_false, Line.mk.injEq, Pt.mk.injEq,
      true_and, and_true, Nat.succ_ne_zero]
    split_ifs <;> simp_all
  · have a1 : (2 * c + 1) % 2 = 1 := by omega
    have a2 : (2 * c + 1) / 2 = c := by omega
    have a3 : (2 * c + 1 + 1) % 2 = 0 := by omega
    have a4 : (2 * c + 1 + 1) / 2 - 1 = c := by omega
    have a6 : ¬ 2 * g.nRows < 2 * c + 1 := by omega
    have a7 : ¬ 2 * g.nRows < 2 * c + 1 + 1 := by omega
    simp only [a1, a2, a3, a4, a6, a7, if_false, if_true, one_ne_zero, zero_ne_one]
    simp only [if_false, Nat.succ_ne_zero]
    rfl

theorem GroundIn.brk_zero (g : GroundIn) : g.brk 0 = MIN_X := by simp [GroundIn.brk]

theorem GroundIn.brk_last (g : GroundIn) : g.brk (2 * g.nRows + 1) = MAX_X := by
  simp [GroundIn.brk]

theorem GroundIn.el_inGround (g : GroundIn) (k : ℕ) : LineInGround (g.el k) := by
  unfold GroundIn.el
  split_ifs
  · exact illumEl_inGround g _
  · exact shadowEl_inGround g _

theorem GroundIn.brk_mono {g : GroundIn} (h : g.Ordered) {k : ℕ} (hk : k < 2 * g.nRows + 1) :
    g.brk k ≤ g.brk (k + 1) := by
  obtain ⟨h1, h2⟩ := h
  have hin := g.el_inGround k
  have e := g.el_eq hk
  have b1 : (g.el k).b1.x = g.brk k := by rw [e]
  have b2 : (g.el k).b2.x = g.brk (k + 1) := by rw [e]
  rw [← b1, ← b2]
  unfold GroundIn.el
  rcases Nat.even_or_odd' k with ⟨c, rfl | rfl⟩
  · have a1 : (2 * c) % 2 = 0 := by omega
    have a2 : 2 * c / 2 = c := by omega
    simp only [a1, if_true, a2, GroundIn.illumEl]
    split_ifs with hc hn hn
    · exact (clip_inGround _).1
    · exact MIN_lt_MAX.le
    · obtain ⟨c, rfl⟩ := Nat.exists_eq_succ_of_ne_zero hc
      exact clip_mono (h2 c hn)
    · exact (clip_inGround _).2
  · have a1 : (2 * c + 1) % 2 = 1 := by omega
    have a2 : (2 * c + 1) / 2 = c := by omega
    simp only [a1, one_ne_zero, if_false, a2]
    exact clip_mono (h1 c (by omega))

theorem GroundIn.brk_le {g : GroundIn} (h : g.Ordered) {j k : ℕ} (hjk : j ≤ k)
    (hk : k ≤ 2 * g.nRows + 1) : g.brk j ≤ g.brk k := by
  induction k with
  | zero => have : j = 0 := by omega
            subst this; exact le_rfl
  | succ k ih =>
    rcases Nat.lt_or_ge j (k + 1) with hlt | hge
    · exact (ih (by omega) (by omega)).trans (GroundIn.brk_mono h (by omega))
    · have : j = k + 1 := by omega
      subst this; exact le_rfl

theorem exists_interval {b : ℕ → ℝ} {m : ℕ} {x : ℝ} (hlt : b 0 < b m) (h0 : b 0 ≤ x)
    (h1 : x ≤ b m) : ∃ k < m, b k < b (k + 1) ∧ b k ≤ x ∧ x ≤ b (k + 1) := by
  induction m with
  | zero => exact absurd hlt (lt_irrefl _)
  | succ m ih =>
    by_cases hx : x ≤ b m ∧ b 0 < b m
    · obtain ⟨k, hk, h⟩ := ih hx.2 hx.1
      exact ⟨k, by omega, h⟩
    · by_cases hx2 : b m ≤ x ∧ b m < b (m + 1)
      · exact ⟨m, by omega, hx2.2, hx2.1, h1⟩
      · exfalso
        push Not at hx hx2
        rcases le_or_gt x (b m) with hc | hc
        · have := hx hc
          have h3 := hx2 (this.trans h0)
          linarith
        · have := hx2 hc.le
          linarith

/-- Sum of increments over all elements. -/
theorem GroundIn.sum_elements (g : GroundIn) (B : ℝ → ℝ) :
    ((List.range g.nRows).map fun e => B (g.shadowEl e).b2.x - B (g.shadowEl e).b1.x).sum
    + ((List.range (g.nRows + 1)).map fun e => B (g.illumEl e).b2.x - B (g.illumEl e).b1.x).sum
    = B MAX_X - B MIN_X := by
  have key : ∀ m ≤ g.nRows,
      ((List.range m).map fun e => B (g.shadowEl e).b2.x - B (g.shadowEl e).b1.x).sum
      + ((List.range m).map fun e => B (g.illumEl e).b2.x - B (g.illumEl e).b1.x).sum
      = B (g.illumEl m).b1.x - B MIN_X := by
    intro m
    induction m with
    | zero => intro _; simp [GroundIn.illumEl]
    | succ m ih =>
      intro hm
      have ih := ih (by omega)
      rw [List.range_succ, List.map_append, List.sum_append, List.map_append, List.sum_append]
      simp only [List.map_singleton, List.sum_singleton]
      have e1 : (g.illumEl m).b2.x = (g.shadowEl m).b1.x := by
        simp [GroundIn.illumEl, show m < g.nRows by omega]
      have e2 : (g.illumEl (m + 1)).b1.x = (g.shadowEl m).b2.x := by
        simp [GroundIn.illumEl]
      rw [e1, e2]
      linarith
  have := key g.nRows le_rfl
  rw [List.range_succ, List.map_append, List.sum_append]
  simp only [List.map_singleton, List.sum_singleton]
  have e1 : (g.illumEl g.nRows).b2.x = MAX_X := by simp [GroundIn.illumEl]
  rw [e1]
  linarith

/-! ## Surfaces of a fitted array -/

/-- Clipped cut point of row `z`; the ground's right end for `z = nRows`. -/
noncomputable def GroundIn.zoneHi (g : GroundIn) (z : ℕ) : ℝ := ((g.cuts[z]?).map XR.clipped).getD MAX_X

/-- Left end of zone `z`. -/
noncomputable def GroundIn.zoneLo (g : GroundIn) (z : ℕ) : ℝ := if z = 0 then MIN_X else g.zoneHi (z - 1)

/-- Clamp to a zone. -/
noncomputable def GroundIn.clampZone (g : GroundIn) (z : ℕ) (x : ℝ) : ℝ :=
  min (max x (g.zoneLo z)) (g.zoneHi z)

theorem GroundIn.zoneHi_inGround (g : GroundIn) (z : ℕ) : InGround (g.zoneHi z) := by
  unfold GroundIn.zoneHi
  cases g.cuts[z]? with
  | none => exact ⟨MIN_lt_MAX.le, le_rfl⟩
  | some c => exact c.clipped_inGround

theorem GroundIn.zoneLo_inGround (g : GroundIn) (z : ℕ) : InGround (g.zoneLo z) := by
  unfold GroundIn.zoneLo
  split_ifs
  · exact ⟨le_rfl, MIN_lt_MAX.le⟩
  · exact g.zoneHi_inGround _

theorem fit_cuts_length (p : ArrayParams) (rot : Rot) (sun : Pt) :
    (fitGeom p rot sun).ground.cuts.length = p.nRows := by
  simp [fitGeom, groundFromRows]

theorem fit_nRows (p : ArrayParams) (rot : Rot) (sun : Pt) :
    (fitGeom p rot sun).ground.nRows = p.nRows := rfl

theorem fit_cut_get (p : ArrayParams) (rot : Rot) (sun : Pt) {i : ℕ} (hi : i < p.nRows) :
    (fitGeom p rot sun).ground.cuts[i]? = some (cutPointX (fullRowCoords (rowCenter p i) p.width
      rot.deg) rot) := by
  simp [fitGeom, groundFromRows, hi, rowGeom, rowFromRawInputs]

theorem clipped_mono {a b : ℝ} (h : a ≤ b) : (XR.fin a).clipped ≤ (XR.fin b).clipped :=
  max_le_max_left _ (min_le_min_right _ h)

theorem cutPointX_row (p : ArrayParams) (rot : Rot) (i : ℕ) :
    cutPointX (fullRowCoords (rowCenter p i) p.width rot.deg) rot =
      if rot.deg = 0 then (if rot.negZero then XR.posInf else XR.negInf)
      else XR.fin (i * p.distance + (-(p.width / 2) * cosd rot.deg
        - (-(p.width / 2) * sind rot.deg + p.height) * cosd rot.deg / sind rot.deg)) := by
  unfold cutPointX
  rw [fullRowCoords_eq]
  simp only [rowPt, rowCenter, X_ORIGIN, Y_GROUND]
  split_ifs
  · rfl
  · rfl
  · congr 1; ring

theorem fit_sorted (p : ArrayParams) (rot : Rot) (sun : Pt) (hd : 0 ≤ p.distance) :
    SortedCuts (fitGeom p rot sun).ground.cuts := by
  have : (fitGeom p rot sun).ground.cuts = (List.range p.nRows).map fun i =>
      cutPointX (fullRowCoords (rowCenter p i) p.width rot.deg) rot := rfl
  rw [SortedCuts, this, List.pairwise_map]
  refine List.Pairwise.imp ?_ List.pairwise_lt_range
  intro a b hab
  rw [cutPointX_row, cutPointX_row]
  split_ifs
  · exact le_rfl
  · exact le_rfl
  · apply clipped_mono
    have : (a : ℝ) ≤ b := by exact_mod_cast hab.le
    nlinarith

/-- The element a ground surface belongs to. -/
noncomputable def StepGeom.elem (g : StepGeom) (sh : Bool) (e : ℕ) : Line :=
  if sh then g.ground.shadowEl e else g.ground.illumEl e

theorem StepGeom.elem_inGround (g : StepGeom) (sh : Bool) (e : ℕ) : LineInGround (g.elem sh e) := by
  cases sh
  · exact illumEl_inGround _ _
  · exact shadowEl_inGround _ _

theorem coords_gnd_getD (g : StepGeom) (sh : Bool) (e z : ℕ) :
    g.coords (.gnd sh e z) = (cutSurfaces (g.elem sh e) g.ground.cuts).getD z default := by
  cases sh <;> rfl

theorem coords_gnd {p : ArrayParams} {rot : Rot} {sun : Pt} (hd : 0 ≤ p.distance) (sh : Bool)
    (e : ℕ) {z : ℕ} (hz : z ≤ p.nRows) :
    let g := fitGeom p rot sun
    g.coords (.gnd sh e z) = ⟨⟨g.ground.clampZone z (g.elem sh e).b1.x, Y_GROUND⟩,
      ⟨g.ground.clampZone z (g.elem sh e).b2.x, Y_GROUND⟩⟩ := by
  intro g
  have hlen : g.ground.cuts.length = p.nRows := fit_cuts_length p rot sun
  have := cutSurfaces_getElem (g.elem_inGround sh e) (fit_sorted p rot sun hd) z (by
    rw [hlen]; exact hz)
  rw [coords_gnd_getD, List.getD_eq_getElem?_getD, this, Option.getD_some]
  have hlo : (if z = 0 then MIN_X else ((g.ground.cuts[z - 1]?).map XR.clipped).getD 0)
      = g.ground.zoneLo z := by
    unfold GroundIn.zoneLo
    split_ifs with hz0
    · rfl
    · unfold GroundIn.zoneHi
      have : z - 1 < g.ground.cuts.length := by omega
      simp [this]
  simp only [GroundIn.clampZone]
  rw [show (fitGeom p rot sun).ground.cuts = g.ground.cuts from rfl, hlo]
  rfl

theorem zoneHi_mono {p : ArrayParams} {rot : Rot} {sun : Pt} (hd : 0 ≤ p.distance) {y z : ℕ}
    (hyz : y ≤ z) : (fitGeom p rot sun).ground.zoneHi y ≤ (fitGeom p rot sun).ground.zoneHi z := by
  set g := fitGeom p rot sun with hg
  have hlen : g.ground.cuts.length = p.nRows := fit_cuts_length p rot sun
  rcases Nat.lt_or_ge z p.nRows with hz | hz
  · rcases eq_or_lt_of_le hyz with rfl | hlt
    · exact le_rfl
    · have h1 : y < g.ground.cuts.length := by omega
      have h2 : z < g.ground.cuts.length := by omega
      have := List.pairwise_iff_getElem.1 (fit_sorted p rot sun hd) y z h1 h2 hlt
      simpa [GroundIn.zoneHi, h1, h2] using this
  · have h3 : ¬ z < g.ground.cuts.length := by omega
    have : g.ground.zoneHi z = MAX_X := by simp [GroundIn.zoneHi, h3]
    rw [this]
    exact (g.ground.zoneHi_inGround y).2

theorem zoneHi_last (p : ArrayParams) (rot : Rot) (sun : Pt) :
    (fitGeom p rot sun).ground.zoneHi p.nRows = MAX_X := by
  have hlen := fit_cuts_length p rot sun
  simp [GroundIn.zoneHi, hlen]

/-- Sum over the zones up to `r`, for any function of the position. -/
theorem sum_zones_left {p : ArrayParams} {rot : Rot} {sun : Pt} (hd : 0 ≤ p.distance)
    (A : ℝ → ℝ) {a b : ℝ} (ha : InGround a) (hb : InGround b) (r : ℕ) :
    let g := (fitGeom p rot sun).ground
    ((List.range (r + 1)).map fun z => A (g.clampZone z b) - A (g.clampZone z a)).sum
      = A (min b (g.zoneHi r)) - A (min a (g.zoneHi r)) := by
  intro g
  induction r with
  | zero =>
    simp [GroundIn.clampZone, GroundIn.zoneLo, ha.1, hb.1]
  | succ r ih =>
    rw [List.range_succ, List.map_append, List.sum_append, ih]
    simp only [List.map_singleton, List.sum_singleton]
    have hm : g.zoneHi r ≤ g.zoneHi (r + 1) := zoneHi_mono hd (Nat.le_succ r)
    have key : ∀ x : ℝ, A (min x (g.zoneHi r)) + A (g.clampZone (r + 1) x)
        = A (min x (g.zoneHi (r + 1))) + A (g.zoneHi r) := by
      intro x
      have hlo : g.zoneLo (r + 1) = g.zoneHi r := by simp [GroundIn.zoneLo]
      unfold GroundIn.clampZone
      rw [hlo]
      rcases le_total x (g.zoneHi r) with h | h
      · rw [min_eq_left h, max_eq_right h, min_eq_left hm, min_eq_left (h.trans hm)]
      · rw [min_eq_right h, max_eq_left h]; ring
    have k1 := key a
    have k2 := key b
    linarith

theorem sum_zones_right {p : ArrayParams} {rot : Rot} {sun : Pt} (hd : 0 ≤ p.distance)
    (A : ℝ → ℝ) {a b : ℝ} (ha : InGround a) (hb : InGround b) {r : ℕ} (hr : r < p.nRows) :
    let g := (fitGeom p rot sun).ground
    (((List.range (p.nRows + 1)).filter (r < ·)).map
        fun z => A (g.clampZone z b) - A (g.clampZone z a)).sum
      = A (max b (g.zoneHi r)) - A (max a (g.zoneHi r)) := by
  intro g
  have hall := sum_zones_left (sun := sun) (rot := rot) hd A ha hb p.nRows
  have hle := sum_zones_left (sun := sun) (rot := rot) hd A ha hb r
  simp only at hall hle
  have hsplit : ∀ f : ℕ → ℝ, ((List.range (p.nRows + 1)).map f).sum
      = ((List.range (r + 1)).map f).sum
        + (((List.range (p.nRows + 1)).filter (r < ·)).map f).sum := by
    intro f
    have h1 : List.range (p.nRows + 1)
        = List.range (r + 1) ++ (List.range (p.nRows - r)).map (fun i => r + 1 + i) := by
      rw [← List.range_add]; congr 1; omega
    rw [h1, List.filter_append, List.map_append, List.sum_append, List.map_append,
      List.sum_append]
    have h2 : (List.range (r + 1)).filter (r < ·) = [] := by
      rw [List.filter_eq_nil_iff]; intro z hz; simp at hz ⊢; omega
    have h3 : ((List.range (p.nRows - r)).map (fun i => r + 1 + i)).filter (r < ·)
        = (List.range (p.nRows - r)).map (fun i => r + 1 + i) := by
      rw [List.filter_eq_self]; intro z hz; simp at hz ⊢; obtain ⟨w, _, rfl⟩ := hz; omega
    rw [h2, h3]; simp
  rw [hsplit, hle] at hall
  change _ = A (min b (g.zoneHi p.nRows)) - A (min a (g.zoneHi p.nRows)) at hall
  rw [show g.zoneHi p.nRows = MAX_X from zoneHi_last p rot sun, min_eq_left ha.2,
    min_eq_left hb.2] at hall
  have key : ∀ x : ℝ, A (min x (g.zoneHi r)) + A (max x (g.zoneHi r)) = A x + A (g.zoneHi r) := by
    intro x
    rcases le_total x (g.zoneHi r) with h | h
    · rw [min_eq_left h, max_eq_right h]
    · rw [min_eq_right h, max_eq_left h]; ring
  have k1 := key a
  have k2 := key b
  change A (min b (g.zoneHi r)) - A (min a (g.zoneHi r)) + _ = A b - A a at hall
  linarith

/-- Sum over all ground surfaces on one side of a cut point, for any function of the position. -/
theorem sum_gndRefsSide {p : ArrayParams} {rot : Rot} {sun : Pt} (hd : 0 ≤ p.distance)
    (A : ℝ → ℝ) (left : Bool) {r : ℕ} (hr : r < p.nRows) :
    let g := fitGeom p rot sun
    ((gndRefsSide p left r).map fun b => A (g.coords b).b2.x - A (g.coords b).b1.x).sum
      = if left then A (g.ground.zoneHi r) - A MIN_X else A MAX_X - A (g.ground.zoneHi r) := by
  intro g
  set zones := if left then (surfaceDict p.nRows).left r else (surfaceDict p.nRows).right r with hzn
  have hmem : ∀ z ∈ zones, z ≤ p.nRows := by
    intro z hz
    cases left
    · simp [hzn, surfaceDict_right hr] at hz; omega
    · simp [hzn, surfaceDict_left hr] at hz; omega
  have hE : ∀ sh e, (zones.map fun z =>
      A (g.coords (.gnd sh e z)).b2.x - A (g.coords (.gnd sh e z)).b1.x).sum
      = (fun x => if left then A (min x (g.ground.zoneHi r)) else A (max x (g.ground.zoneHi r)))
          (g.elem sh e).b2.x
        - (fun x => if left then A (min x (g.ground.zoneHi r)) else A (max x (g.ground.zoneHi r)))
          (g.elem sh e).b1.x := by
    intro sh e
    have hin := g.elem_inGround sh e
    rw [show (zones.map fun z =>
        A (g.coords (.gnd sh e z)).b2.x - A (g.coords (.gnd sh e z)).b1.x)
      = zones.map fun z => A (g.ground.clampZone z (g.elem sh e).b2.x)
          - A (g.ground.clampZone z (g.elem sh e).b1.x) from ?_]
    · cases left
      · simp only [hzn, Bool.false_eq_true, if_false, surfaceDict_right hr]
        exact sum_zones_right hd A hin.1 hin.2.1 hr
      · simp only [hzn, if_true, surfaceDict_left hr]
        exact sum_zones_left hd A hin.1 hin.2.1 r
    · apply List.map_congr_left
      intro z hz
      have := coords_gnd (rot := rot) (sun := sun) hd sh e (hmem z hz)
      simp only at this
      rw [this]
  have hdef : gndRefsSide p left r
      = ((List.range p.nRows).flatMap fun e => zones.map fun z => SurfRef.gnd true e z)
        ++ ((List.range (p.nRows + 1)).flatMap fun e => zones.map fun z => SurfRef.gnd false e z) :=
    rfl
  have hfm : ∀ (sh : Bool) (l : List ℕ), ((l.flatMap fun e => zones.map fun z => SurfRef.gnd sh e z).map
      fun b => A (g.coords b).b2.x - A (g.coords b).b1.x).sum
      = (l.map fun e => (zones.map fun z =>
          A (g.coords (.gnd sh e z)).b2.x - A (g.coords (.gnd sh e z)).b1.x).sum).sum := by
    intro sh l
    induction l with
    | nil => simp
    | cons e l ih =>
      rw [List.flatMap_cons, List.map_append, List.sum_append, ih, List.map_cons, List.sum_cons,
        List.map_map]
      rfl
  rw [hdef, List.map_append, List.sum_append, hfm, hfm]
  simp only [hE]
  have := g.ground.sum_elements
    (fun x => if left then A (min x (g.ground.zoneHi r)) else A (max x (g.ground.zoneHi r)))
  have hz := g.ground.zoneHi_inGround r
  rw [show g.ground.nRows = p.nRows from rfl] at this
  simp only [StepGeom.elem, if_true, Bool.false_eq_true, if_false]
  refine this.trans ?_
  cases left
  · simp [hz.1, hz.2]
  · simp [hz.1, hz.2]

end PVF

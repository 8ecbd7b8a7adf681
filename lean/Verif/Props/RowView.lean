import Verif.Spec.RowView
import Verif.Props.Segments
import Verif.Lemmas.RayClear

/-!
# How much neighbouring rows see of each other (C88)
-/

namespace PVF

variable {ι : Type*} [Fintype ι]

theorem ends_both (w rot L : ℝ) (A : ℝ → ℝ) :
    ends w rot L true A + ends w rot L false A = A w - A 0 := by
  unfold ends
  split_ifs <;> simp_all

/-! ## The formula as a function -/

theorem parallelStrips_neg (w d c : ℝ) : parallelStrips w d (-c) = parallelStrips w d c := by
  unfold parallelStrips
  rw [show d ^ 2 + w ^ 2 + 2 * d * w * -c = d ^ 2 + w ^ 2 - 2 * d * w * c by ring,
    show d ^ 2 + w ^ 2 - 2 * d * w * -c = d ^ 2 + w ^ 2 + 2 * d * w * c by ring]
  ring

theorem parallelStrips_abs (w d c : ℝ) : parallelStrips w d |c| = parallelStrips w d c := by
  rcases abs_choice c with h | h <;> rw [h]
  exact parallelStrips_neg w d c

theorem parallelStrips_anti {w d c c' : ℝ} (hw : 0 < w) (hd : 0 < d) (hc1 : |c'| ≤ 1)
    (h : |c| ≤ |c'|) : parallelStrips w d c' ≤ parallelStrips w d c := by
  have key : ∀ x : ℝ, |x| ≤ 1 → 0 ≤ d ^ 2 + w ^ 2 + 2 * d * w * x ∧
      0 ≤ d ^ 2 + w ^ 2 - 2 * d * w * x := by
    intro x hx
    have := abs_le.1 hx
    have hdw := mul_pos hd hw
    constructor <;> nlinarith [sq_nonneg (d - w)]
  obtain ⟨a1, a2⟩ := key c (h.trans hc1)
  obtain ⟨b1, b2⟩ := key c' hc1
  have hsq : c ^ 2 ≤ c' ^ 2 := sq_le_sq.2 h
  unfold parallelStrips
  refine div_le_div_of_nonneg_right (sub_le_sub_right ?_ _) (by linarith)
  refine abs_le_of_sq_le_sq' ?_ (by positivity) |>.2
  have e : ∀ x : ℝ, 0 ≤ d ^ 2 + w ^ 2 + 2 * d * w * x → 0 ≤ d ^ 2 + w ^ 2 - 2 * d * w * x →
      (Real.sqrt (d ^ 2 + w ^ 2 + 2 * d * w * x) + Real.sqrt (d ^ 2 + w ^ 2 - 2 * d * w * x)) ^ 2
        = 2 * (d ^ 2 + w ^ 2)
          + 2 * Real.sqrt ((d ^ 2 + w ^ 2) ^ 2 - (2 * d * w) ^ 2 * x ^ 2) := by
    intro x h1 h2
    have e1 := Real.mul_self_sqrt h1
    have e2 := Real.mul_self_sqrt h2
    have e3 := Real.sqrt_mul h1 (d ^ 2 + w ^ 2 - 2 * d * w * x)
    rw [show (d ^ 2 + w ^ 2) ^ 2 - (2 * d * w) ^ 2 * x ^ 2
      = (d ^ 2 + w ^ 2 + 2 * d * w * x) * (d ^ 2 + w ^ 2 - 2 * d * w * x) by ring, e3]
    nlinarith
  rw [e c' b1 b2, e c a1 a2]
  have : Real.sqrt ((d ^ 2 + w ^ 2) ^ 2 - (2 * d * w) ^ 2 * c' ^ 2)
      ≤ Real.sqrt ((d ^ 2 + w ^ 2) ^ 2 - (2 * d * w) ^ 2 * c ^ 2) := by
    apply Real.sqrt_le_sqrt
    nlinarith [mul_le_mul_of_nonneg_left hsq (sq_nonneg (2 * d * w))]
  linarith

/-- `√(x² + q²) - x` decreases. -/
theorem sqrt_sub_anti {x y q : ℝ} (h : x ≤ y) :
    Real.sqrt (y ^ 2 + q ^ 2) - y ≤ Real.sqrt (x ^ 2 + q ^ 2) - x := by
  have h1 : Real.sqrt (y ^ 2 + q ^ 2) ≤ Real.sqrt (x ^ 2 + q ^ 2) + (y - x) := by
    rw [Real.sqrt_le_left (by have := Real.sqrt_nonneg (x ^ 2 + q ^ 2); linarith)]
    have hs := Real.sq_sqrt (show 0 ≤ x ^ 2 + q ^ 2 by positivity)
    have hx : x ≤ Real.sqrt (x ^ 2 + q ^ 2) := by
      refine (le_abs_self x).trans ?_
      rw [← Real.sqrt_sq_eq_abs]
      exact Real.sqrt_le_sqrt (by nlinarith [sq_nonneg q])
    nlinarith [mul_nonneg (sub_nonneg.2 h) (sub_nonneg.2 hx)]
  linarith

theorem strips_split {w d c s : ℝ} (h : s ^ 2 + c ^ 2 = 1) :
    parallelStrips w d c
      = ((Real.sqrt ((d + w * c) ^ 2 + (w * s) ^ 2) - (d + w * c))
        + (Real.sqrt ((d - w * c) ^ 2 + (w * s) ^ 2) - (d - w * c))) / (2 * w) := by
  unfold parallelStrips
  rw [show d ^ 2 + w ^ 2 + 2 * d * w * c = (d + w * c) ^ 2 + (w * s) ^ 2 by
      linear_combination (- w ^ 2) * h,
    show d ^ 2 + w ^ 2 - 2 * d * w * c = (d - w * c) ^ 2 + (w * s) ^ 2 by
      linear_combination (- w ^ 2) * h]
  ring

theorem parallelStrips_distance {w d d' c s : ℝ} (hw : 0 < w) (h : s ^ 2 + c ^ 2 = 1)
    (hd : d ≤ d') : parallelStrips w d' c ≤ parallelStrips w d c := by
  rw [strips_split h, strips_split h]
  refine div_le_div_of_nonneg_right (add_le_add ?_ ?_) (by linarith)
  · exact sqrt_sub_anti (by linarith)
  · exact sqrt_sub_anti (by linarith)

theorem parallelStrips_nonneg {w d c s : ℝ} (hw : 0 < w) (h : s ^ 2 + c ^ 2 = 1) :
    0 ≤ parallelStrips w d c := by
  have k : ∀ x q : ℝ, 0 ≤ Real.sqrt (x ^ 2 + q ^ 2) - x := by
    intro x q
    rw [sub_nonneg]
    refine (le_abs_self x).trans ?_
    rw [← Real.sqrt_sq_eq_abs]
    exact Real.sqrt_le_sqrt (by nlinarith [sq_nonneg q])
  rw [strips_split h]
  exact div_nonneg (add_nonneg (k _ _) (k _ _)) (by linarith)

theorem parallelStrips_le {w d c s : ℝ} (hw : 0 < w) (h : s ^ 2 + c ^ 2 = 1)
    (h1 : w * |c| < d) :
    parallelStrips w d c ≤ w * d * s ^ 2 / (2 * (d ^ 2 - (w * c) ^ 2)) := by
  have k : ∀ x q : ℝ, 0 < x → Real.sqrt (x ^ 2 + q ^ 2) - x ≤ q ^ 2 / (2 * x) := by
    intro x q hx
    rw [sub_le_iff_le_add, Real.sqrt_le_left (by positivity)]
    have : (q ^ 2 / (2 * x) + x) ^ 2 = x ^ 2 + q ^ 2 + (q ^ 2 / (2 * x)) ^ 2 := by
      field_simp; ring
    rw [this]
    nlinarith [sq_nonneg (q ^ 2 / (2 * x))]
  have hwc : |w * c| < d := by rw [abs_mul, abs_of_pos hw]; exact h1
  obtain ⟨l, r⟩ := abs_lt.1 hwc
  have p1 : 0 < d + w * c := by linarith
  have p2 : 0 < d - w * c := by linarith
  rw [strips_split h]
  calc _ ≤ ((w * s) ^ 2 / (2 * (d + w * c)) + (w * s) ^ 2 / (2 * (d - w * c))) / (2 * w) :=
        div_le_div_of_nonneg_right (add_le_add (k _ _ p1) (k _ _ p2)) (by linarith)
    _ = w * d * s ^ 2 / (2 * (d ^ 2 - (w * c) ^ 2)) := by
        rw [show d ^ 2 - (w * c) ^ 2 = (d + w * c) * (d - w * c) by ring]
        field_simp
        ring

/-! ## The view factors of the engine -/

theorem rowStr_whole (p : ArrayParams) (left : Bool) (rot : ℝ) (r : ℕ) (hd : 0 < p.distance)
    (hn : HasNb left p.nRows r) (hw : 0 < p.width) :
    ((rowStr p left rot r p.width p.width - rowStr p left rot r p.width 0)
      - (rowStr p left rot r 0 p.width - rowStr p left rot r 0 0)) / p.width
      = parallelStrips p.width p.distance (cosd rot) := by
  have hs := up_sq left rot
  have e : ∀ a b : ℝ, distPt (vp p left rot r a) (vp p left rot (nb left r) b)
      = Real.sqrt (p.distance ^ 2 + (a - b) ^ 2 + 2 * p.distance * (a - b) * upX left rot) := by
    intro a b
    rw [distPt, vp_nb hn, vp_eq]
    congr 1
    simp only
    linear_combination ((a - b) ^ 2) * hs
  have h0 : ∀ a : ℝ, distPt (vp p left rot r a) (vp p left rot (nb left r) a) = p.distance := by
    intro a
    rw [e, sub_self]
    rw [show p.distance ^ 2 + 0 ^ 2 + 2 * p.distance * 0 * upX left rot = p.distance ^ 2 by ring,
      Real.sqrt_sq hd.le]
  have hx : |upX left rot| = |cosd rot| := by
    unfold upX sx
    cases left <;> split_ifs <;> simp
  have hfinal : ((rowStr p left rot r p.width p.width - rowStr p left rot r p.width 0)
      - (rowStr p left rot r 0 p.width - rowStr p left rot r 0 0)) / p.width
      = parallelStrips p.width p.distance (upX left rot) := by
    unfold rowStr parallelStrips
    rw [h0, h0, e, e]
    rw [show p.distance ^ 2 + (p.width - 0) ^ 2 + 2 * p.distance * (p.width - 0) * upX left rot
        = p.distance ^ 2 + p.width ^ 2 + 2 * p.distance * p.width * upX left rot by ring,
      show p.distance ^ 2 + (0 - p.width) ^ 2 + 2 * p.distance * (0 - p.width) * upX left rot
        = p.distance ^ 2 + p.width ^ 2 - 2 * p.distance * p.width * upX left rot by ring]
    field_simp
    ring
  rw [hfinal, ← parallelStrips_abs, hx, parallelStrips_abs]

section
variable (p : ArrayParams) (u : ι → StepIn) (t : ι) (hp : PhysicalArray p)
    (hu : PhysicalStep p (u t)) (hc : CleanCut p (u t))
include hp hu hc

theorem sideView_eq {r r' : ℕ} (hr : r < p.nRows) (hr' : r' < p.nRows) (s s' : RowSide) :
    sideView p (u t) (tsVfMatrix p u t) r s r' s'
      = ((rowPart p (u t) r s r' s' p.width p.width - rowPart p (u t) r s r' s' p.width 0)
        - (rowPart p (u t) r s r' s' 0 p.width - rowPart p (u t) r s r' s' 0 0)) / p.width := by
  unfold sideView
  have ex : ∀ sh sh', exchange p (u t) (tsVfMatrix p u t) (.side r s sh) (.side r' s' sh')
      = closedExchange p (u t) (.side r s sh) (.side r' s' sh') := fun sh sh' =>
    exchange_eq p u t hp hu hc.lengths hc.segments (.side r s sh) (.side r' s' sh') hr hr'
  simp only [ex]
  congr 1
  simp only [closedExchange, sideEnds]
  set A := rowPart p (u t) r s r' s'
  set rot := rotAt p (u t)
  have k : ∀ sh, ends p.width rot (shadeAt p (u t) r s) sh
        (fun x => ends p.width rot (shadeAt p (u t) r' s') true (A x))
      + ends p.width rot (shadeAt p (u t) r s) sh
        (fun x => ends p.width rot (shadeAt p (u t) r' s') false (A x))
      = ends p.width rot (shadeAt p (u t) r s) sh (fun x => A x p.width - A x 0) := by
    intro sh
    have hb : ∀ x, A x p.width - A x 0 = ends p.width rot (shadeAt p (u t) r' s') true (A x)
        + ends p.width rot (shadeAt p (u t) r' s') false (A x) :=
      fun x => (ends_both _ _ _ _).symm
    simp only [hb]
    unfold ends
    split_ifs <;> ring
  rw [k true, add_assoc, k false, ends_both]

end

/-- C88: whole sides of neighbouring rows that face each other see each other by the textbook value
for two equal parallel strips, however they are cut and wherever the sun stands; other sides of
rows see nothing of each other. -/
theorem C88_value (p : ArrayParams) (u : ι → StepIn) (t : ι) (hp : PhysicalArray p)
    (hu : PhysicalStep p (u t)) (hc : CleanCut p (u t)) (htilt : (u t).surfaceTilt ≠ 0)
    (r r' : ℕ) (hr : r < p.nRows) (hr' : r' < p.nRows) (s s' : RowSide) :
    let v := sideView p (u t) (tsVfMatrix p u t) r s r' s'
    let rot := (fitStep p (u t)).rot.deg
    (RowsFacing p.nRows rot r s r' s' →
      v = parallelStrips p.width (p.width / p.gcr) (cosd (u t).surfaceTilt)) ∧
    (¬ RowsFacing p.nRows rot r s r' s' → v = 0) := by
  intro v rot
  have ht0 : 0 < (u t).surfaceTilt := lt_of_le_of_ne hu.tilt_nonneg htilt.symm
  obtain ⟨r0, r1, r2⟩ := rotation_range (sa := (u t).surfaceAzimuth) (aa := p.axisAzimuth)
    ht0 hu.tilt_lt
  have hcos : cosd rot = cosd (u t).surfaceTilt := by
    have : rot = if sind ((u t).surfaceAzimuth - p.axisAzimuth) < 0 then (u t).surfaceTilt
      else -(u t).surfaceTilt := C25_orientation _ _ _ ht0
    rw [this]; split_ifs <;> simp [cosd_neg]
  have hrot : rotAt p (u t) = rot := rfl
  have hl : ∀ s, faceL rot s = true ↔ FacesLeft rot s := by
    intro s
    unfold faceL
    cases s
    · simp [FacesLeft]
    · simp only [FacesLeft, decide_eq_true_iff]
      constructor
      · intro h
        rcases lt_or_gt_of_ne r2 with h' | h'
        · exact h'
        · exact absurd (h.2 h') (by simp)
      · intro h
        constructor
        · intro h'; simp at h'
        · intro h'; exact absurd h' (not_lt.2 (le_of_lt h))
  have hopp : ∀ s s', s ≠ s' → (FacesLeft rot s' ↔ ¬ FacesLeft rot s) := by
    have hr2 : rot ≠ 0 := r2
    intro s s' hss
    cases s <;> cases s' <;> simp only [FacesLeft, not_lt] at *
    · exact absurd rfl hss
    · exact ⟨fun h => h.le, fun h => lt_of_le_of_ne h hr2⟩
    · exact ⟨fun h => h.le, fun h => lt_of_le_of_ne h hr2.symm⟩
    · exact absurd rfl hss
  have hcond : (HasNb (faceL rot s) p.nRows r ∧ r' = nb (faceL rot s) r ∧ s' ≠ s) ↔
      RowsFacing p.nRows rot r s r' s' := by
    unfold RowsFacing
    constructor
    · rintro ⟨h1, h2, h3⟩
      refine ⟨Ne.symm h3, ?_⟩
      cases hf : faceL rot s
      · rw [hf] at h1 h2
        have hnl : ¬ FacesLeft rot s := fun h => by rw [(hl s).2 h] at hf; exact absurd hf (by simp)
        simp only [HasNb, nb, Bool.false_eq_true, if_false] at h1 h2
        exact Or.inr ⟨(hopp s s' (Ne.symm h3)).2 hnl, h2, by omega⟩
      · rw [hf] at h1 h2
        simp only [HasNb, nb, if_true] at h1 h2
        exact Or.inl ⟨(hl s).1 hf, by omega, by omega⟩
    · rintro ⟨h1, h2 | h2⟩
      · have hf := (hl s).2 h2.1
        rw [hf]
        simp only [HasNb, nb, if_true]
        exact ⟨by omega, by omega, Ne.symm h1⟩
      · have hnl : ¬ FacesLeft rot s := (hopp s s' h1).1 h2.1
        have hf : faceL rot s = false := by
          cases h : faceL rot s
          · rfl
          · exact absurd ((hl s).1 h) hnl
        rw [hf]
        simp only [HasNb, nb, Bool.false_eq_true, if_false]
        exact ⟨by omega, h2.2.1, Ne.symm h1⟩
  have hd : 0 < p.distance := div_pos hp.width_pos hp.gcr_pos
  constructor
  · intro hface
    have hh := hcond.2 hface
    have e : rowPart p (u t) r s r' s' = rowStr p (faceL rot s) rot r := if_pos hh
    simp only [v]
    rw [sideView_eq p u t hp hu hc hr hr', e, rowStr_whole p _ _ _ hd hh.1 hp.width_pos, hcos]
    rfl
  · intro hface
    have e : rowPart p (u t) r s r' s' = 0 := if_neg (fun h => hface (hcond.1 h))
    simp only [v]
    rw [sideView_eq p u t hp hu hc hr hr', e]
    simp

section
variable (p p' : ArrayParams) (u u' : ι → StepIn) (t : ι) (hp : PhysicalArray p)
    (hp' : PhysicalArray p') (hu : PhysicalStep p (u t)) (hu' : PhysicalStep p' (u' t))
    (hc : CleanCut p (u t)) (hc' : CleanCut p' (u' t)) (htilt : (u t).surfaceTilt ≠ 0)
    (htilt' : (u' t).surfaceTilt ≠ 0) {r r' q q' : ℕ} (hr : r < p.nRows) (hr' : r' < p.nRows)
    (hq : q < p'.nRows) (hq' : q' < p'.nRows) {s s' x x' : RowSide}
    (hf : RowsFacing p.nRows (fitStep p (u t)).rot.deg r s r' s')
    (hf' : RowsFacing p'.nRows (fitStep p' (u' t)).rot.deg q x q' x')
include hp hp' hu hu' hc hc' htilt htilt' hr hr' hq hq' hf hf'

/-- C88: what rows see of each other depends on ground coverage ratio and tilt only; the steeper the
rows and the closer they stand, the more they see of each other. -/
theorem C88_more (hg : p.gcr ≤ p'.gcr) (hs : |cosd (u' t).surfaceTilt| ≤ |cosd (u t).surfaceTilt|) :
    sideView p (u t) (tsVfMatrix p u t) r s r' s'
      ≤ sideView p' (u' t) (tsVfMatrix p' u' t) q x q' x' := by
  rw [(C88_value p u t hp hu hc htilt r r' hr hr' s s').1 hf,
    (C88_value p' u' t hp' hu' hc' htilt' q q' hq hq' x x').1 hf']
  have scale : ∀ (w g c : ℝ), 0 < w → 0 < g →
      parallelStrips w (w / g) c = parallelStrips 1 (1 / g) c := by
    intro w g c hw hg
    unfold parallelStrips
    have e : ∀ y : ℝ, Real.sqrt ((w / g) ^ 2 + w ^ 2 + 2 * (w / g) * w * y)
        = w * Real.sqrt ((1 / g) ^ 2 + 1 ^ 2 + 2 * (1 / g) * 1 * y) := by
      intro y
      rw [show (w / g) ^ 2 + w ^ 2 + 2 * (w / g) * w * y
        = w ^ 2 * ((1 / g) ^ 2 + 1 ^ 2 + 2 * (1 / g) * 1 * y) by field_simp,
        Real.sqrt_mul (sq_nonneg w), Real.sqrt_sq hw.le]
    have e' := e (-c)
    rw [show (w / g) ^ 2 + w ^ 2 + 2 * (w / g) * w * -c
        = (w / g) ^ 2 + w ^ 2 - 2 * (w / g) * w * c by ring,
      show (1 / g) ^ 2 + 1 ^ 2 + 2 * (1 / g) * 1 * -c
        = (1 / g) ^ 2 + 1 ^ 2 - 2 * (1 / g) * 1 * c by ring] at e'
    rw [e c, e']
    field_simp
  rw [scale _ _ _ hp.width_pos hp.gcr_pos, scale _ _ _ hp'.width_pos hp'.gcr_pos]
  have hs2 : sind (u t).surfaceTilt ^ 2 + cosd (u t).surfaceTilt ^ 2 = 1 := by
    rw [add_comm]; exact cosd_sq_add_sind_sq _
  calc parallelStrips 1 (1 / p.gcr) (cosd (u t).surfaceTilt)
      ≤ parallelStrips 1 (1 / p'.gcr) (cosd (u t).surfaceTilt) :=
        parallelStrips_distance one_pos hs2 (one_div_le_one_div_of_le hp.gcr_pos hg)
    _ ≤ _ := parallelStrips_anti one_pos (one_div_pos.2 hp'.gcr_pos) (Real.abs_cos_le_one _) hs

end

/-- C88: what rows see of each other is at most about half the ground coverage ratio times the
squared sine of the tilt. -/
theorem C88_bound (p : ArrayParams) (u : ι → StepIn) (t : ι) (hp : PhysicalArray p)
    (hu : PhysicalStep p (u t)) (hc : CleanCut p (u t)) (htilt : (u t).surfaceTilt ≠ 0)
    (r r' : ℕ) (hr : r < p.nRows) (hr' : r' < p.nRows) (s s' : RowSide)
    (hg : p.gcr * |cosd (u t).surfaceTilt| < 1) :
    sideView p (u t) (tsVfMatrix p u t) r s r' s'
      ≤ p.gcr * sind (u t).surfaceTilt ^ 2 / (2 * (1 - (p.gcr * cosd (u t).surfaceTilt) ^ 2)) := by
  have hw := hp.width_pos
  have hgp := hp.gcr_pos
  have hs2 : sind (u t).surfaceTilt ^ 2 + cosd (u t).surfaceTilt ^ 2 = 1 := by
    rw [add_comm]; exact cosd_sq_add_sind_sq _
  have hlt : (p.gcr * cosd (u t).surfaceTilt) ^ 2 < 1 := by
    have : |p.gcr * cosd (u t).surfaceTilt| < 1 := by rw [abs_mul, abs_of_pos hgp]; exact hg
    exact (sq_lt_one_iff_abs_lt_one _).2 this
  have hb := C88_value p u t hp hu hc htilt r r' hr hr' s s'
  by_cases hf : RowsFacing p.nRows (fitStep p (u t)).rot.deg r s r' s'
  · rw [hb.1 hf]
    have h1 : p.width * |cosd (u t).surfaceTilt| < p.width / p.gcr := by
      rw [lt_div_iff₀ hgp]
      nlinarith
    refine (parallelStrips_le hw hs2 h1).trans (le_of_eq ?_)
    have e : (p.width / p.gcr) ^ 2 - (p.width * cosd (u t).surfaceTilt) ^ 2
        = (p.width / p.gcr) ^ 2 * (1 - (p.gcr * cosd (u t).surfaceTilt) ^ 2) := by
      field_simp
    rw [e]
    have : (1 - (p.gcr * cosd (u t).surfaceTilt) ^ 2) ≠ 0 := by linarith
    field_simp
  · rw [hb.2 hf]
    exact div_nonneg (mul_nonneg hgp.le (sq_nonneg _)) (by linarith)

/-- Vertical rows with ground coverage ratio 2/5: the front of the second row sees
`(√29 - 5)/2` of the first row, which has two segments on that side. -/
theorem C88_demo (t : Fin 3) :
    sideView vertArray vertStep (tsVfMatrix vertArray (fun _ => vertStep) t) 1 .front 0 .back
      = (Real.sqrt 29 - 5) / 2 ∧
    sideView vertArray vertStep (tsVfMatrix vertArray (fun _ => vertStep) t) 0 .front 1 .back = 0
    := by
  have hrot : (fitStep vertArray vertStep).rot.deg = 90 := congrArg Rot.deg vert_rot
  have hcl : CleanCut vertArray vertStep := vert_cleanCut
  constructor
  · have := (C88_value vertArray (fun _ : Fin 3 => vertStep) t vert_physicalArray
      vert_physicalStep hcl (by norm_num [vertStep]) 1 0 (by simp [vertArray])
      (by simp [vertArray]) .front .back).1 (by
        refine ⟨by simp, Or.inl ⟨?_, rfl, by simp [vertArray]⟩⟩
        simp only [FacesLeft]; rw [hrot]; norm_num)
    rw [this]
    have hc : cosd vertStep.surfaceTilt = 0 := cosd_90
    rw [hc, parallelStrips]
    norm_num [vertArray]
    ring
  · refine (C88_value vertArray (fun _ : Fin 3 => vertStep) t vert_physicalArray
      vert_physicalStep hcl (by norm_num [vertStep]) 0 1 (by simp [vertArray])
      (by simp [vertArray]) .front .back).2 ?_
    rintro ⟨_, h | h⟩
    · exact absurd h.2.1 (by norm_num)
    · have := h.1
      simp only [FacesLeft] at this
      rw [hrot] at this
      norm_num at this

end PVF

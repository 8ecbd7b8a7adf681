import Verif.Spec.Horizon
import Verif.Spec.Scene
import Verif.Lemmas.Rays
import Verif.Lemmas.View
import Verif.Model.Irradiance
import Mathlib.Analysis.SpecialFunctions.Trigonometric.Arctan

/-! # Rays to the horizon band -/

namespace PVF
open Real

theorem rowCenter_sub (p : ArrayParams) (i j : ℕ) :
    (rowCenter p i).x - (rowCenter p j).x = ((i : ℝ) - j) * p.distance ∧
      (rowCenter p i).y = (rowCenter p j).y := by
  simp only [rowCenter]
  exact ⟨by ring, trivial⟩

/-- Sign of a direction. -/
noncomputable def sgnR (right : Bool) : ℝ := if right then 1 else -1

theorem sgnR_sq (right : Bool) : sgnR right * sgnR right = 1 := by cases right <;> simp [sgnR]

theorem horizonDir_eq (right : Bool) (e : ℝ) : horizonDir right e = ⟨sgnR right * cosd e, sind e⟩ := by
  cases right <;> simp [horizonDir, sgnR]

/-- There is a row next to row `r` in this direction. -/
def NextIn (n r : ℕ) (right : Bool) : Prop := if right then r + 1 < n else 0 < r

/-- Index of the next row. -/
def nextIdx (r : ℕ) (right : Bool) : ℕ := if right then r + 1 else r - 1

theorem nextIdx_sub {n r : ℕ} {right : Bool} (h : NextIn n r right) :
    ((nextIdx r right : ℕ) : ℝ) - r = sgnR right := by
  cases right
  · have h : 0 < r := by simpa [NextIn] using h
    simp [nextIdx, sgnR, Nat.cast_sub h]
  · simp [nextIdx, sgnR]

/-- Position of the highest point of a row, from its middle. -/
noncomputable def topPos (w rot : ℝ) : ℝ := if sind rot ≤ 0 then -(w / 2) else w / 2

theorem topPos_max {w rot ρ : ℝ} (h0 : -(w / 2) ≤ ρ) (h1 : ρ ≤ w / 2) :
    ρ * sind rot ≤ topPos w rot * sind rot := by
  unfold topPos
  split_ifs with h
  · nlinarith
  · push Not at h; nlinarith

theorem topPos_bounds {w : ℝ} (hw : 0 < w) (rot : ℝ) :
    -(w / 2) ≤ topPos w rot ∧ topPos w rot ≤ w / 2 := by
  unfold topPos; split_ifs <;> constructor <;> linarith

theorem highest_full (c : Pt) {w : ℝ} (hw : 0 < w) (rot : ℝ) :
    (fullRowCoords c w rot).highest = rowPt c rot (topPos w rot) := by
  rw [fullRowCoords_eq]
  unfold Line.highest topPos rowPt
  simp only
  by_cases h : sind rot ≤ 0
  · have : w / 2 * sind rot + c.y ≤ -(w / 2) * sind rot + c.y := by nlinarith
    rw [if_pos this, if_pos this, if_pos h]
  · have : ¬ w / 2 * sind rot + c.y ≤ -(w / 2) * sind rot + c.y := by
      push Not at h ⊢; nlinarith
    rw [if_neg this, if_neg this, if_neg h]

theorem shift_pos {w rot D ρ ρ' σ k : ℝ} (hov : w * |cosd rot| < D) (hσ : σ * σ = 1)
    (hk : 1 ≤ k) (h0 : -(w / 2) ≤ ρ) (h1 : ρ ≤ w / 2) (h0' : -(w / 2) ≤ ρ') (h1' : ρ' ≤ w / 2) :
    0 < k * D + σ * ((ρ' - ρ) * cosd rot) := by
  have hw : 0 ≤ w := by linarith
  have hD : 0 < D := lt_of_le_of_lt (by positivity) hov
  have hs : |σ| = 1 := by
    have := abs_mul_abs_self σ
    rw [hσ] at this
    nlinarith [abs_nonneg σ]
  have h2 : |σ * ((ρ' - ρ) * cosd rot)| ≤ w * |cosd rot| := by
    rw [abs_mul, hs, one_mul, abs_mul]
    exact mul_le_mul_of_nonneg_right (abs_le.2 ⟨by linarith, by linarith⟩) (abs_nonneg _)
  have h3 := (abs_le.1 h2).1
  nlinarith

/-- A ray towards the horizon band meets a solid exactly if there is a row in this direction and the
ray passes below its highest point. -/
theorem escapes_iff {p : ArrayParams} {rot : Rot} {sun : Pt} (hph : Physical p rot.deg)
    (hov : p.width * |cosd rot.deg| < p.distance) {r : ℕ} (hr : r < p.nRows) {ρ : ℝ}
    (h0 : -(p.width / 2) ≤ ρ) (h1 : ρ ≤ p.width / 2) (right : Bool) {e : ℝ} (hc : 0 < cosd e)
    (hs : 0 ≤ sind e) (hpar : sgnR right * cosd e * sind rot.deg ≠ sind e * cosd rot.deg) :
    Escapes ((fitGeom p rot sun).Solid p) (rowPt (rowCenter p r) rot.deg ρ) (horizonDir right e) ↔
      ¬ (NextIn p.nRows r right ∧
        sind e * (p.distance + sgnR right * ((topPos p.width rot.deg - ρ) * cosd rot.deg))
          ≤ (topPos p.width rot.deg - ρ) * sind rot.deg * cosd e) := by
  have hw := hph.width
  have hD := hph.distance
  have hσ := sgnR_sq right
  obtain ⟨t0, t1⟩ := topPos_bounds hw rot.deg
  have hmax : ∀ {ρ'}, -(p.width / 2) ≤ ρ' → ρ' ≤ p.width / 2 → _ :=
    fun {ρ'} a b => topPos_max (rot := rot.deg) a b
  set T := topPos p.width rot.deg
  set σ := sgnR right with hσd
  rw [horizonDir_eq]
  constructor
  · rintro hesc ⟨hn, hle⟩
    -- the point of the next row on the ray
    set v := T - ρ with hv
    have hpos := shift_pos (ρ := ρ) (ρ' := T) hov hσ le_rfl h0 h1 t0 t1
    rw [one_mul] at hpos
    have hden : ∃ θ : ℝ, 0 ≤ θ ∧ θ ≤ 1 ∧
        θ * v * sind rot.deg * cosd e = sind e * (p.distance + σ * (θ * v * cosd rot.deg)) := by
      set P := v * sind rot.deg * cosd e - sind e * (σ * (v * cosd rot.deg)) with hP
      have h2 : sind e * p.distance ≤ P := by rw [hP]; nlinarith
      rcases (mul_nonneg hs hD.le).eq_or_lt with h3 | h3
      · refine ⟨0, le_rfl, zero_le_one, ?_⟩
        simp only [zero_mul, mul_zero, add_zero]; exact h3
      · have hP0 : 0 < P := lt_of_lt_of_le h3 h2
        refine ⟨sind e * p.distance / P, by positivity, (div_le_one hP0).2 h2, ?_⟩
        have h4 : sind e * p.distance / P * P = sind e * p.distance := by field_simp
        rw [hP] at h4 ⊢
        linear_combination h4
    obtain ⟨θ, th0, th1, hθ⟩ := hden
    have b0 : -(p.width / 2) ≤ ρ + θ * v := by rw [hv]; nlinarith
    have b1 : ρ + θ * v ≤ p.width / 2 := by rw [hv]; nlinarith
    have hpos2 := shift_pos (ρ := ρ) (ρ' := ρ + θ * v) hov hσ le_rfl h0 h1 b0 b1
    rw [one_mul, add_sub_cancel_left] at hpos2
    have hl : 0 < (p.distance + σ * (θ * v * cosd rot.deg)) / cosd e := by positivity
    apply hesc _ hl
    left
    refine ⟨nextIdx r right, ?_, ?_⟩
    · cases right
      · simp only [nextIdx]; simp; omega
      · simpa [nextIdx, NextIn] using hn
    · change OnSeg _ (fullRowCoords (rowCenter p (nextIdx r right)) p.width rot.deg)
      rw [onSeg_full hw]
      refine ⟨ρ + θ * v, b0, b1, ?_⟩
      obtain ⟨c1, c2⟩ := rowCenter_sub p (nextIdx r right) r
      rw [nextIdx_sub hn, ← hσd] at c1
      simp only [along, rowPt, Pt.mk.injEq]
      constructor
      · have : (p.distance + σ * (θ * v * cosd rot.deg)) / cosd e * (σ * cosd e)
          = σ * p.distance + θ * v * cosd rot.deg := by
          field_simp; linear_combination (θ * v * cosd rot.deg) * hσ
        rw [this]; linear_combination -c1
      · have : (p.distance + σ * (θ * v * cosd rot.deg)) / cosd e * sind e = θ * v * sind rot.deg := by
          rw [div_mul_eq_mul_div, div_eq_iff hc.ne']; linear_combination -hθ
        rw [this, c2]; ring
  · intro hnot l hl hsol
    apply hnot
    rcases hsol with ⟨j, hj, hon⟩ | hon
    · change OnSeg _ (fullRowCoords (rowCenter p j) p.width rot.deg) at hon
      rw [onSeg_full hw] at hon
      obtain ⟨ρ', b0, b1, he⟩ := hon
      simp only [along, rowPt, Pt.mk.injEq] at he
      obtain ⟨c1, c2⟩ := rowCenter_sub p j r
      obtain ⟨e1, e2⟩ := he
      rw [c2] at e2
      have e1' : l * (σ * cosd e) = ((j : ℝ) - r) * p.distance + (ρ' - ρ) * cosd rot.deg := by
        linear_combination e1 + c1
      have e2' : l * sind e = (ρ' - ρ) * sind rot.deg := by linear_combination e2
      rcases eq_or_ne j r with hjr | hjr
      · exfalso
        rw [hjr, sub_self, zero_mul, zero_add] at e1'
        apply hpar
        have : l * (σ * cosd e * sind rot.deg - sind e * cosd rot.deg) = 0 := by
          linear_combination sind rot.deg * e1' - cosd rot.deg * e2'
        rcases mul_eq_zero.1 this with h | h
        · exact absurd h hl.ne'
        · linarith
      · -- the row lies in this direction
        have hk : 1 ≤ σ * ((j : ℝ) - r) := by
          by_contra hlt
          have hle : σ * ((j : ℝ) - r) ≤ -1 := by
            have hz : σ * ((j : ℝ) - r) = (((if right then (j : ℤ) - r else r - j) : ℤ) : ℝ) := by
              cases right <;> simp [hσd, sgnR]
            rw [hz] at hlt ⊢
            have h2 : (if right then (j : ℤ) - r else r - j) ≠ 0 := by
              cases right <;> simp <;> omega
            have h3 : ¬ (1 : ℤ) ≤ (if right then (j : ℤ) - r else r - j) := by
              intro h; apply hlt; exact_mod_cast h
            have h4 : (if right then (j : ℤ) - r else r - j) ≤ -1 := by omega
            exact_mod_cast h4
          have h5 := shift_pos (ρ := ρ') (ρ' := ρ) (k := -(σ * ((j : ℝ) - r))) hov hσ (by linarith)
            b0 b1 h0 h1
          have h6 : 0 < l * cosd e := by positivity
          have h7 : l * cosd e = σ * (((j : ℝ) - r) * p.distance + (ρ' - ρ) * cosd rot.deg) := by
            rw [← e1']; linear_combination -(l * cosd e) * hσ
          rw [h7] at h6
          nlinarith
        refine ⟨?_, ?_⟩
        · cases right
          · simp only [NextIn, hσd, sgnR] at hk ⊢
            simp at hk ⊢
            by_contra h; 
            have : r = 0 := by omega
            rw [this] at hk
            have := Nat.cast_nonneg (α := ℝ) j
            simp at hk; linarith
          · simp only [NextIn, hσd, sgnR] at hk ⊢
            simp at hk ⊢
            have : (r : ℝ) + 1 ≤ j := by linarith
            have : r + 1 ≤ j := by exact_mod_cast this
            omega
        · have h7 : l * cosd e = σ * ((j : ℝ) - r) * p.distance + σ * ((ρ' - ρ) * cosd rot.deg) := by
            linear_combination (-(l * cosd e)) * hσ + σ * e1'
          have hm := hmax b0 b1
          set k := σ * ((j : ℝ) - r)
          -- l * (goal)
          have h8 : l * (sind e * (p.distance + σ * ((T - ρ) * cosd rot.deg)))
              ≤ l * ((T - ρ) * sind rot.deg * cosd e) := by
            have g1 : l * (sind e * (p.distance + σ * ((T - ρ) * cosd rot.deg)))
              = (ρ' - ρ) * sind rot.deg * p.distance
                + (ρ' - ρ) * sind rot.deg * (σ * ((T - ρ) * cosd rot.deg)) := by
              linear_combination (p.distance + σ * ((T - ρ) * cosd rot.deg)) * e2'
            have g2 : l * ((T - ρ) * sind rot.deg * cosd e)
              = (T - ρ) * sind rot.deg * (k * p.distance)
                + (T - ρ) * sind rot.deg * (σ * ((ρ' - ρ) * cosd rot.deg)) := by
              linear_combination ((T - ρ) * sind rot.deg) * h7
            rw [g1, g2]
            have hm0 := hmax h0 h1
            have q1 : (ρ' - ρ) * sind rot.deg * p.distance ≤ (T - ρ) * sind rot.deg * p.distance :=
              mul_le_mul_of_nonneg_right (by linarith) hD.le
            have q2 : (T - ρ) * sind rot.deg * p.distance ≤ (T - ρ) * sind rot.deg * (k * p.distance) :=
              mul_le_mul_of_nonneg_left (by nlinarith) (by linarith)
            have q3 : (ρ' - ρ) * sind rot.deg * (σ * ((T - ρ) * cosd rot.deg))
              = (T - ρ) * sind rot.deg * (σ * ((ρ' - ρ) * cosd rot.deg)) := by ring
            linarith
          exact le_of_mul_le_mul_left h8 hl
    · exfalso
      obtain ⟨t, _, _, he⟩ := hon
      simp only [along, rowPt, lerp, Pt.mk.injEq] at he
      have hy : 0 < ρ * sind rot.deg + (rowCenter p r).y := by
        have ha := hph.above
        have h2 : |ρ * sind rot.deg| ≤ p.width / 2 * |sind rot.deg| := by
          rw [abs_mul]
          exact mul_le_mul_of_nonneg_right (abs_le.2 ⟨by linarith, h1⟩) (abs_nonneg _)
        have h3 := (abs_le.1 h2).1
        have h4 : (rowCenter p r).y = p.height := by simp [rowCenter, Y_GROUND]
        rw [h4]; linarith
      have := he.2
      nlinarith


/-! ## The band -/

theorem deg_trig {e : ℝ} (h0 : 0 ≤ e) (h1 : e < 90) : 0 < cosd e ∧ 0 ≤ sind e := by
  have hpi := pi_pos
  have a : 0 ≤ deg2rad e := by unfold deg2rad; positivity
  have b : deg2rad e < π / 2 := by unfold deg2rad; nlinarith
  exact ⟨cos_pos_of_mem_Ioo ⟨by linarith, b⟩, sin_nonneg_of_nonneg_of_le_pi a (by linarith)⟩

theorem le_arctan_deg {e Y Z : ℝ} (h0 : 0 ≤ e) (h1 : e < 90) (hZ : 0 < Z) :
    sind e * Z ≤ Y * cosd e ↔ e ≤ rad2deg (arctan (Y / Z)) := by
  have hpi := pi_pos
  obtain ⟨hc, hs⟩ := deg_trig h0 h1
  have a : 0 ≤ deg2rad e := by unfold deg2rad; positivity
  have b : deg2rad e < π / 2 := by unfold deg2rad; nlinarith
  have e1 : e ≤ rad2deg (arctan (Y / Z)) ↔ deg2rad e ≤ arctan (Y / Z) := by
    unfold rad2deg deg2rad
    rw [le_div_iff₀ hpi, div_le_iff₀ (by norm_num : (0:ℝ) < 180)]
  rw [e1]
  have e2 : arctan (tan (deg2rad e)) = deg2rad e := arctan_tan (by linarith) b
  rw [← e2, arctan_strictMono.le_iff_le, tan_eq_sin_div_cos]
  change _ ↔ sind e / cosd e ≤ Y / Z
  rw [div_le_div_iff₀ hc hZ]

theorem abs_arctan_side {σ Y Z : ℝ} (hσ : σ * σ = 1) (hY : 0 ≤ Y) (hZ : 0 < Z) :
    |arctan (Y / (σ * Z))| = arctan (Y / Z) := by
  have h : σ = 1 ∨ σ = -1 := by
    rcases mul_self_eq_one_iff.1 hσ with h | h
    · exact Or.inl h
    · exact Or.inr h
  have hq : 0 ≤ arctan (Y / Z) := arctan_nonneg.2 (by positivity)
  rcases h with h | h
  · rw [h, one_mul, abs_of_nonneg hq]
  · rw [h, neg_one_mul, div_neg, arctan_neg, abs_neg, abs_of_nonneg hq]

theorem share_below {band A : ℝ} (hb : 0 < band) (hA : 0 ≤ A) (Q : ℝ → Prop) [DecidablePred Q]
    {F : Set ℝ} (hF : F.Countable) (hQ : ∀ e, 0 ≤ e → e ≤ band → e ∉ F → (Q e ↔ ¬ e ≤ A)) :
    (∫ e in (0:ℝ)..band, if Q e then (1:ℝ) else 0) = band - min A band := by
  have h1 : (∫ e in (0:ℝ)..band, if Q e then (1:ℝ) else 0)
      = ∫ e in (0:ℝ)..band, Set.indicator (Set.Ioi A) (fun _ => (1:ℝ)) e := by
    apply intervalIntegral.integral_congr_ae
    have : ∀ᵐ e ∂(MeasureTheory.volume : MeasureTheory.Measure ℝ), e ∉ F := hF.ae_notMem _
    filter_upwards [this] with e he hmem
    rw [Set.uIoc_of_le hb.le] at hmem
    have h2 := hQ e hmem.1.le hmem.2 he
    by_cases h3 : e ≤ A
    · rw [if_neg (by rw [h2]; exact not_not.2 h3), Set.indicator_of_notMem (by simpa using h3)]
    · rw [if_pos (h2.2 h3), Set.indicator_of_mem (by simpa using h3)]
  rw [h1, intervalIntegral.integral_of_le hb.le,
    MeasureTheory.setIntegral_indicator measurableSet_Ioi]
  have h4 : Set.Ioc 0 band ∩ Set.Ioi A = Set.Ioc (min A band) band := by
    ext x
    simp only [Set.mem_inter_iff, Set.mem_Ioc, Set.mem_Ioi, min_lt_iff]
    constructor
    · rintro ⟨⟨_, a⟩, b⟩; exact ⟨Or.inl b, a⟩
    · rintro ⟨a | a, b⟩
      · exact ⟨⟨by linarith, b⟩, a⟩
      · exact absurd b (not_le.2 a)
  rw [h4]
  have h5 : min A band ≤ band := min_le_right _ _
  simp [MeasureTheory.integral_const, h5]

theorem parallel_countable (σ rot : ℝ) (hσ : σ * σ = 1) :
    {e : ℝ | 0 ≤ e ∧ e < 90 ∧ σ * cosd e * sind rot = sind e * cosd rot}.Countable := by
  apply Set.Subsingleton.countable
  rintro e ⟨e0, e1, he⟩ f ⟨f0, f1, hf⟩
  have hpi := pi_pos
  obtain ⟨ce, se⟩ := deg_trig e0 e1
  obtain ⟨cf, sf⟩ := deg_trig f0 f1
  have hone : cosd rot ^ 2 + sind rot ^ 2 = 1 := by
    unfold cosd sind; exact cos_sq_add_sin_sq _
  have hc0 : cosd rot ≠ 0 := by
    intro h0
    rw [h0, mul_zero] at he
    have h1 : sind rot ≠ 0 := by intro h1; rw [h0, h1] at hone; norm_num at hone
    have h2 : σ ≠ 0 := by rintro rfl; norm_num at hσ
    exact (mul_ne_zero (mul_ne_zero h2 ce.ne') h1) he
  have h3 : sind e * cosd f - cosd e * sind f = 0 := by
    have : cosd rot * (sind e * cosd f - cosd e * sind f) = 0 := by
      linear_combination -cosd f * he + cosd e * hf
    exact (mul_eq_zero.1 this).resolve_left hc0
  have h4 : sin (deg2rad e - deg2rad f) = 0 := by rw [sin_sub]; exact h3
  have h5 : |deg2rad e - deg2rad f| < π := by
    unfold deg2rad
    rw [abs_lt]
    constructor <;> nlinarith
  have h6 := (sin_eq_zero_iff_of_lt_of_lt (abs_lt.1 h5).1 (abs_lt.1 h5).2).1 h4
  unfold deg2rad at h6
  nlinarith

/-- Open share of the band from a point of a row. -/
theorem bandOpen_row {p : ArrayParams} {rot : Rot} {sun : Pt} (hph : Physical p rot.deg)
    (hov : p.width * |cosd rot.deg| < p.distance) {r : ℕ} (hr : r < p.nRows) {ρ : ℝ}
    (h0 : -(p.width / 2) ≤ ρ) (h1 : ρ ≤ p.width / 2) (right : Bool) {band : ℝ} (hb : 0 < band)
    (hb1 : band < 90) :
    bandOpen ((fitGeom p rot sun).Solid p) (rowPt (rowCenter p r) rot.deg ρ) right band
      = open Classical in 1 - (if NextIn p.nRows r right then
          horizonBandShading (shadingAngleTo
            ((fitGeom p rot sun).row (nextIdx r right)).full (rowPt (rowCenter p r) rot.deg ρ)) band
          else 0) / 100 := by
  classical
  have hw := hph.width
  have hσ := sgnR_sq right
  obtain ⟨t0, t1⟩ := topPos_bounds hw rot.deg
  have hY : 0 ≤ (topPos p.width rot.deg - ρ) * sind rot.deg := by
    have := topPos_max (rot := rot.deg) h0 h1; linarith
  have hZ := shift_pos (ρ := ρ) (ρ' := topPos p.width rot.deg) hov hσ le_rfl h0 h1 t0 t1
  rw [one_mul] at hZ
  set Y := (topPos p.width rot.deg - ρ) * sind rot.deg with hYd
  set Z := p.distance + sgnR right * ((topPos p.width rot.deg - ρ) * cosd rot.deg) with hZd
  set A := rad2deg (arctan (Y / Z)) with hA
  have hA0 : 0 ≤ A := by
    have := pi_pos
    have := arctan_nonneg.2 (div_nonneg hY hZ.le)
    rw [hA]; unfold rad2deg; positivity
  unfold bandOpen
  have key : ∀ e, 0 ≤ e → e ≤ band →
      e ∉ {e : ℝ | 0 ≤ e ∧ e < 90 ∧ sgnR right * cosd e * sind rot.deg = sind e * cosd rot.deg} →
      (Escapes ((fitGeom p rot sun).Solid p) (rowPt (rowCenter p r) rot.deg ρ) (horizonDir right e) ↔
        ¬ (NextIn p.nRows r right ∧ e ≤ A)) := by
    intro e e0 e1 he
    have e2 : e < 90 := by linarith
    obtain ⟨hc, hs⟩ := deg_trig e0 e2
    rw [escapes_iff hph hov hr h0 h1 right hc hs (fun h => he ⟨e0, e2, h⟩),
      le_arctan_deg e0 e2 hZ]
  by_cases hn : NextIn p.nRows r right
  · rw [if_pos hn]
    have hang : shadingAngleTo ((fitGeom p rot sun).row (nextIdx r right)).full
        (rowPt (rowCenter p r) rot.deg ρ) = A := by
      unfold shadingAngleTo
      have hfull : ((fitGeom p rot sun).row (nextIdx r right)).full
        = fullRowCoords (rowCenter p (nextIdx r right)) p.width rot.deg := rfl
      rw [hfull, highest_full _ hw]
      obtain ⟨c1, c2⟩ := rowCenter_sub p (nextIdx r right) r
      rw [nextIdx_sub hn] at c1
      have ex : (rowPt (rowCenter p (nextIdx r right)) rot.deg (topPos p.width rot.deg)).x
          - (rowPt (rowCenter p r) rot.deg ρ).x = sgnR right * Z := by
        simp only [rowPt, hZd]
        linear_combination c1 - ((topPos p.width rot.deg - ρ) * cosd rot.deg) * hσ
      have ey : (rowPt (rowCenter p (nextIdx r right)) rot.deg (topPos p.width rot.deg)).y
          - (rowPt (rowCenter p r) rot.deg ρ).y = Y := by
        simp only [rowPt, hYd, c2]; ring
      rw [ex, ey, abs_arctan_side hσ hY hZ]
    rw [hang, share_below hb hA0 _ (parallel_countable _ rot.deg hσ)
      (fun e a b c => by rw [key e a b c]; simp [hn])]
    unfold horizonBandShading
    simp only
    rcases le_or_gt band A with h | h
    · rw [if_neg (by intro h2; linarith [h2.2]), if_pos h, min_eq_right h]; norm_num
    · rw [if_pos ⟨hA0, h⟩, min_eq_left h.le]; field_simp
  · rw [if_neg hn]
    have : (∫ e in (0:ℝ)..band, if Escapes ((fitGeom p rot sun).Solid p)
        (rowPt (rowCenter p r) rot.deg ρ) (horizonDir right e) then (1:ℝ) else 0)
        = ∫ e in (0:ℝ)..band, (1:ℝ) := by
      apply intervalIntegral.integral_congr_ae
      have h2 := (parallel_countable (sgnR right) rot.deg hσ).ae_notMem
        (MeasureTheory.volume : MeasureTheory.Measure ℝ)
      filter_upwards [h2] with e he hmem
      rw [Set.uIoc_of_le hb.le] at hmem
      rw [if_pos]
      rw [key e hmem.1.le hmem.2 he]
      exact fun h => hn h.1
    rw [this]
    simp [hb.ne']

end PVF

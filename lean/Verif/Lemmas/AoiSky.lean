import Verif.Lemmas.AoiRays

/-! # Rays from a row to the sky -/

namespace PVF
open Real

/-- Downward rays that meet nothing pass beyond the end of the ground, at a side without a row. -/
def ReachesM (p : ArrayParams) (left : Bool) (rot : ℝ) (r : ℕ) (t : ℝ) : Prop :=
  ∀ a l x, -(π / 2) < a → a < π / 2 → 0 < l →
    along (vp p left rot r t) (turn (nu left rot) a) l = gp x →
    (∀ k, 0 < k → k < l → ¬ mSolid p left rot (along (vp p left rot r t) (turn (nu left rot) a) k)) →
    (MIN_X ≤ x ∧ x ≤ MAX_X) ∨ (¬ HasNb left p.nRows r ∧ x < MIN_X)

/-- A downward ray gets to the height of the ground. -/
theorem down_hits {p : ArrayParams} {rot : ℝ} (h : Physical p rot) {left : Bool} {r : ℕ} {t a : ℝ}
    (ht0 : 0 ≤ t) (hd : (turn (nu left rot) a).y < 0) :
    ∃ l > 0, ∃ x, along (vp p left rot r t) (turn (nu left rot) a) l = gp x := by
  have hy := vp_y_pos h left r ht0
  refine ⟨(vp p left rot r t).y / -(turn (nu left rot) a).y, div_pos hy (by linarith),
    (along (vp p left rot r t) (turn (nu left rot) a)
      ((vp p left rot r t).y / -(turn (nu left rot) a).y)).x, ?_⟩
  have hne : (turn (nu left rot) a).y ≠ 0 := hd.ne
  simp only [along, gp, Pt.mk.injEq]
  refine ⟨trivial, ?_⟩
  field_simp
  ring

theorem sky_between_nb {p : ArrayParams} {rot : ℝ} (h : Physical p rot) (h0 : rot ≠ 0)
    {left : Bool} {r : ℕ} (hr : r < p.nRows) (hn : HasNb left p.nRows r) {t : ℝ} (ht0 : 0 ≤ t)
    (ht1 : t ≤ p.width) (hre : ReachesM p left rot r t) :
    Between (nu left rot) (Escapes (mSolid p left rot) (vp p left rot r t))
      (sr p left rot t p.width) 1 := by
  have sq1 := up_sq left rot
  have hD := h.distance
  have hv := upY_pos h.lo h.hi h0
  have hDv : 0 < p.distance * upY rot := mul_pos hD hv
  have bd : ∀ u, -1 ≤ sr p left rot t u ∧ sr p left rot t u ≤ 1 := fun u =>
    sn_bounds hDv.le (Or.inr hDv.ne')
  have m1 : rowsTo left r (nb left r) = 1 := rowsTo_nb hn
  have hyX := vp_y_pos h left r ht0
  refine ⟨(bd _).1, (bd _).2, le_rfl, ?_, ?_⟩
  · intro a a1 a2 hs _ l hl
    have hc := cos_pos' a1 a2
    unfold sr at hs
    rw [sn_lt_sin hDv.le (Or.inr hDv.ne') a1 a2] at hs
    have hw := h.width
    rintro (⟨j, hj, t', t0', t1', e⟩ | ⟨e, _, _⟩)
    · obtain ⟨e1, e2⟩ := along_row (rot := rot) e
      have hm : (1:ℝ) ≤ rowsTo left r j := by
        have : 0 < (rowsTo left r j : ℝ) := by
          by_contra hneg
          have : (rowsTo left r j : ℝ) * p.distance * upY rot ≤ 0 := by
            have := not_lt.1 hneg
            nlinarith
          have : 0 < l * cos a := mul_pos hl hc
          nlinarith
        exact_mod_cast this
      have hlc : 0 < l * cos a := mul_pos hl hc
      set m : ℝ := (rowsTo left r j : ℝ)
      -- tangent of the direction
      have k1 : (p.width - p.distance * upX left rot - t) * (l * cos a)
          < p.distance * upY rot * (l * sin a) := by nlinarith
      have e1' : l * cos a = m * (p.distance * upY rot) := by linarith
      have e2' : l * sin a = t' - m * (p.distance * upX left rot) - t := by linarith
      rw [e1', e2'] at k1
      have k2 : (p.width - p.distance * upX left rot - t) * m
          < t' - m * (p.distance * upX left rot) - t := by
        have : (p.distance * upY rot) * ((p.width - p.distance * upX left rot - t) * m)
          < (p.distance * upY rot) * (t' - m * (p.distance * upX left rot) - t) := by linarith
        exact lt_of_mul_lt_mul_left this hDv.le
      nlinarith
    · -- the ground is below
      have hdy : 0 < (turn (nu left rot) a).y := by
        rw [turn_nu]
        simp only
        have : 0 < p.distance * upY rot * (upX left rot * cos a + upY rot * sin a) := by
          have k := mul_lt_mul_of_pos_left hs hv
          have k3 : 0 ≤ upY rot * (upY rot * 0 + (p.width - t)) * cos a :=
            mul_nonneg (mul_nonneg hv.le (by linarith)) hc.le
          nlinarith
        exact pos_of_mul_pos_right this hDv.le
      simp only [along] at e
      have := mul_pos hl hdy
      linarith
  · intro a a1 a2 hE
    refine ⟨?_, sin_le_one a⟩
    by_contra hlt
    have hlt := not_le.1 hlt
    have hc := cos_pos' a1 a2
    have hlt' : p.distance * upY rot * sin a < (p.width - p.distance * upX left rot - t) * cos a := by
      have := (sn_lt_sin hDv.le (Or.inr hDv.ne') a1 a2 (E := p.width - p.distance * upX left rot - t)).not
      unfold sr at hlt
      have h2 := this.1 (not_lt.2 hlt.le)
      rcases eq_or_lt_of_le (not_lt.1 h2) with e | e
      · exfalso
        apply hlt.ne
        have hk : p.width - p.distance * upX left rot - t = (p.distance * upY rot / cos a) * sin a := by
          field_simp; linarith
        have hk2 : p.distance * upY rot = (p.distance * upY rot / cos a) * cos a := by field_simp
        rw [hk]
        nth_rewrite 2 [hk2]
        exact (sn_sin_cos (div_pos hDv hc)).symm
      · exact e
    by_cases hlow : (-(p.distance * upX left rot) - t) * cos a ≤ p.distance * upY rot * sin a
    · -- meets the next row
      set l := p.distance * upY rot / cos a with hl
      have l0 : 0 < l := div_pos hDv hc
      have elc : l * cos a = p.distance * upY rot := by rw [hl]; field_simp
      set t' := t + p.distance * upX left rot + l * sin a with ht'
      have els : l * sin a * cos a = p.distance * upY rot * sin a := by
        rw [mul_right_comm, elc]
      have t0' : 0 ≤ t' := by
        have : 0 ≤ t' * cos a := by rw [ht']; nlinarith
        exact nonneg_of_mul_nonneg_left this hc
      have t1' : t' ≤ p.width := by
        have : 0 ≤ (p.width - t') * cos a := by rw [ht']; nlinarith
        have := nonneg_of_mul_nonneg_left this hc
        linarith
      apply hE l l0
      refine Or.inl ⟨nb left r, nb_lt hn hr, t', t0', t1', ?_⟩
      rw [vp_rel p left rot r (nb left r), m1, vp_eq, turn_nu]
      simp only [along, Pt.mk.injEq]
      constructor
      · rw [ht']; push_cast
        linear_combination (-(upY rot)) * elc - p.distance * sq1
      · rw [ht']
        linear_combination upX left rot * elc
    · -- passes below the next row
      have hlow := not_le.1 hlow
      have hdy : (turn (nu left rot) a).y < 0 := by
        rw [turn_nu]
        simp only
        have : p.distance * upY rot * (upX left rot * cos a + upY rot * sin a) < 0 := by
          have k := mul_lt_mul_of_pos_left hlow hv
          have k3 : 0 ≤ upY rot * t * cos a := mul_nonneg (mul_nonneg hv.le ht0) hc.le
          nlinarith
        by_contra hneg
        have := mul_nonneg hDv.le (not_lt.1 hneg)
        linarith
      obtain ⟨l, l0, x, e⟩ := down_hits h (r := r) ht0 hdy
      rcases hre a l x a1 a2 l0 e (fun k k0 _ => hE k k0) with hx | hx
      · apply hE l l0
        rw [e]
        exact Or.inr ⟨rfl, hx.1, hx.2⟩
      · exact hx.1 hn

theorem sky_between_end {p : ArrayParams} {rot : ℝ} (h : Physical p rot) (h0 : rot ≠ 0)
    {left : Bool} {r : ℕ} (hr : r < p.nRows) (hn : ¬ HasNb left p.nRows r) {t : ℝ} (ht0 : 0 ≤ t)
    (hend : 0 ≤ gH p left rot r MIN_X) (hre : ReachesM p left rot r t) :
    Between (nu left rot) (Escapes (mSolid p left rot) (vp p left rot r t))
      (sn (gE p left rot r MIN_X - t) (gH p left rot r MIN_X)) 1 := by
  have sq1 := up_sq left rot
  have hv := upY_pos h.lo h.hi h0
  have hD := h.distance
  have hne := gnd_ne h left r ht0 MIN_X
  have bd := sn_bounds hend hne
  refine ⟨bd.1, bd.2, le_rfl, ?_, ?_⟩
  · intro a a1 a2 hs _ l hl
    have hc := cos_pos' a1 a2
    have hlc : 0 < l * cos a := mul_pos hl hc
    rintro (⟨j, hj, t', t0', t1', e⟩ | ⟨e, hx1, hx2⟩)
    · obtain ⟨e1, e2⟩ := along_row (rot := rot) e
      have : 0 < (rowsTo left r j : ℝ) := by
        by_contra hneg
        have : (rowsTo left r j : ℝ) * p.distance * upY rot ≤ 0 := by
          have := not_lt.1 hneg
          have := mul_pos hD hv
          nlinarith
        nlinarith
      exact hn (hasNb_of_rowsTo hr hj (by exact_mod_cast this))
    · set Y := along (vp p left rot r t) (turn (nu left rot) a) l with hY
      have eY : Y = gp Y.x := by ext <;> simp [gp, e]
      obtain ⟨g1, g2⟩ := along_gnd (hY ▸ eY)
      have hs2 : sn (gE p left rot r Y.x - t) (gH p left rot r Y.x) = sin a := by
        rw [g1, g2]; exact sn_sin_cos hl
      have := (sn_gnd_mono h (left := left) (r := r) ht0 (x := MIN_X) (y := Y.x) hend (by rw [g1]; exact hlc.le)
        (Or.inr (by rw [g1]; exact hlc))).2 hx1
      rw [hs2] at this
      linarith
  · intro a a1 a2 hE
    refine ⟨?_, sin_le_one a⟩
    by_contra hlt
    have hlt := not_le.1 hlt
    have hc := cos_pos' a1 a2
    have hle : gH p left rot r MIN_X * sin a ≤ (gE p left rot r MIN_X - t) * cos a :=
      not_lt.1 ((sn_lt_sin hend hne a1 a2).not.1 (not_lt.2 hlt.le))
    have hid : upX left rot * gH p left rot r MIN_X + upY rot * (gE p left rot r MIN_X - t)
        = -(lowY p rot + t * upY rot) := by
      unfold gE gH; linear_combination (-(lowY p rot)) * sq1
    have hpos : 0 < lowY p rot + t * upY rot := by
      have := h.lowY_pos; positivity
    have hHpos : 0 < gH p left rot r MIN_X := by
      rcases eq_or_lt_of_le hend with e | e
      · exfalso
        rw [← e] at hid hle hlt
        have : gE p left rot r MIN_X - t < 0 := by
          by_contra hneg
          have := mul_nonneg hv.le (not_lt.1 hneg)
          linarith
        nlinarith
      · exact e
    have hdy : (turn (nu left rot) a).y < 0 := by
      rw [turn_nu]
      simp only
      have : gH p left rot r MIN_X * (upX left rot * cos a + upY rot * sin a) < 0 := by
        have k := mul_le_mul_of_nonneg_left hle hv.le
        have k3 : 0 < (lowY p rot + t * upY rot) * cos a := mul_pos hpos hc
        have k4 : (upX left rot * gH p left rot r MIN_X + upY rot * (gE p left rot r MIN_X - t)) * cos a
          = -((lowY p rot + t * upY rot) * cos a) := by rw [hid]; ring
        nlinarith
      by_contra hneg
      have := mul_nonneg hHpos.le (not_lt.1 hneg)
      linarith
    obtain ⟨l, l0, x, e⟩ := down_hits h (r := r) ht0 hdy
    have hlc : 0 < l * cos a := mul_pos l0 hc
    rcases hre a l x a1 a2 l0 e (fun k k0 _ => hE k k0) with hx | hx
    · apply hE l l0
      rw [e]
      exact Or.inr ⟨rfl, hx.1, hx.2⟩
    · obtain ⟨g1, g2⟩ := along_gnd e
      have hs2 : sn (gE p left rot r x - t) (gH p left rot r x) = sin a := by
        rw [g1, g2]; exact sn_sin_cos l0
      have := (sn_gnd_mono h (left := left) (r := r) ht0 (x := x) (y := MIN_X) (by rw [g1]; exact hlc.le) hend
        (Or.inr hHpos)).2 hx.2.le
      rw [hs2] at this
      linarith

end PVF

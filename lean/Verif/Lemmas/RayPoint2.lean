import Verif.Lemmas.RayPoint

/-! # Share of the light of a ground point that arrives at a row, and light between rows -/

namespace PVF
open Real

/-- Part of a row between two distances from its lower end. -/
def rowSeg (p : ArrayParams) (left : Bool) (rot : ℝ) (r : ℕ) (a b : ℝ) (Y : Pt) : Prop :=
  ∃ t, a ≤ t ∧ t ≤ b ∧ Y = vp p left rot r t

/-- Sine of the angle between the vertical and the direction from a ground point to `P`. -/
noncomputable def sq (x : ℝ) (P : Pt) : ℝ := sn (P.x - x) P.y

theorem sq_lt {x : ℝ} {P Q : Pt} (hP : 0 < P.y) (hQ : 0 < Q.y) : sq x P < sq x Q ↔ cot x P < cot x Q := by
  rw [sq, sq, sn_lt hP.le hQ.le (Or.inr hP.ne') (Or.inr hQ.ne') (Or.inl hP), cot_lt_cot hP hQ]

theorem sq_le {x : ℝ} {P Q : Pt} (hP : 0 < P.y) (hQ : 0 < Q.y) : sq x P ≤ sq x Q ↔ cot x P ≤ cot x Q := by
  rw [← not_lt, ← not_lt, sq_lt hQ hP]

open Classical in
/-- Sine of the direction to the obstruction of the view, seen from the ground. -/
noncomputable def sqo (p : ArrayParams) (left : Bool) (rot : ℝ) (r : ℕ) (x : ℝ) : ℝ :=
  if HasNb left p.nRows r then sq x (vp p left rot (nb left r) 0) else -1

/-- Sine of the direction from the ground to a point of the row, or to the obstruction in the way. -/
noncomputable def sv (p : ArrayParams) (left : Bool) (rot : ℝ) (r : ℕ) (x t : ℝ) : ℝ :=
  max (sq x (vp p left rot r t)) (sqo p left rot r x)

theorem sq_bounds {x : ℝ} {P : Pt} (hP : 0 < P.y) : -1 ≤ sq x P ∧ sq x P ≤ 1 :=
  sn_bounds hP.le (Or.inr hP.ne')

theorem sqo_bounds {p : ArrayParams} {rot : ℝ} (h : Physical p rot) (left : Bool) (r : ℕ) (x : ℝ) :
    -1 ≤ sqo p left rot r x ∧ sqo p left rot r x ≤ 1 := by
  unfold sqo
  split_ifs
  · exact sq_bounds (vp_y_pos h left _ le_rfl)
  · norm_num

theorem turn_up (a : ℝ) : turn ⟨0, 1⟩ a = ⟨sin a, cos a⟩ := by simp [turn]

/-- Distance of a ground point from the plane of the row, by the way to a point of the row. -/
theorem gH_eq (p : ArrayParams) (left : Bool) (rot : ℝ) (r : ℕ) (x t : ℝ) :
    gH p left rot r x
      = upY rot * ((vp p left rot r t).x - x) - upX left rot * (vp p left rot r t).y := by
  rw [vp_eq]; unfold gH; ring

theorem sq_vp_mono {p : ArrayParams} {rot : ℝ} (h : Physical p rot) {left : Bool} {r : ℕ} {x : ℝ}
    (hx : 0 ≤ gH p left rot r x) {s t : ℝ} (hs : 0 ≤ s) (hst : s ≤ t) :
    sq x (vp p left rot r t) ≤ sq x (vp p left rot r s) := by
  rw [sq_le (vp_y_pos h left r (hs.trans hst)) (vp_y_pos h left r hs)]
  have e : sx left (sx left x) = x := by unfold sx; cases left <;> simp
  have := cot_vp (left := left) (r := r) (x := sx left x) h (by rw [onSide_iff, e]; exact hx) hs hst
  rwa [e] at this

/-- Light from a ground point that arrives at a piece of a row. -/
theorem gnd_pv_point {p : ArrayParams} {rot : ℝ} (h : Physical p rot) (hf : FlatApart p rot)
    {left : Bool} {r : ℕ} (hr : r < p.nRows) {a b : ℝ} (ha : 0 ≤ a) (hab : a < b)
    (hb : b ≤ p.width) {x : ℝ} (hx : 0 < gH p left rot r x) :
    lightShare ⟨0, 1⟩
      (Arrives (mSolid p left rot) (rowSeg p left rot r a b) (nu left rot) (gp x))
      = (sv p left rot r x a - sv p left rot r x b) / 2 := by
  have sq1 := up_sq left rot
  have hb0 := ha.trans hab.le
  have pa := vp_y_pos h left r ha
  have pb := vp_y_pos h left r hb0
  have ba := sq_bounds (x := x) pa
  have bb := sq_bounds (x := x) pb
  have bo := sqo_bounds h left r x
  have hm := sq_vp_mono h hx.le ha hab.le
  apply lightShare_eq
  · exact le_max_of_le_left bb.1
  · exact max_le_max_right _ hm
  · exact max_le ba.2 bo.2
  · intro f l1 l2 s2 s1
    have hc := cos_pos' l1 l2
    obtain ⟨s2, so2⟩ := max_lt_iff.1 s2
    have s1 : sin f < sq x (vp p left rot r a) := by
      rcases lt_max_iff.1 s1 with h' | h'
      · exact h'
      · linarith
    unfold sq at s1 s2
    rw [sn_lt_sin pb.le (Or.inr pb.ne') l1 l2] at s2
    rw [sin_lt_sn pa.le (Or.inr pa.ne') l1 l2] at s1
    have hden : 0 < upY rot * sin f - upX left rot * cos f := by
      rw [vp_eq] at s1 s2
      simp only at s1 s2
      have : 0 < (b - a) * (upY rot * sin f - upX left rot * cos f) := by nlinarith
      exact pos_of_mul_pos_right this (by linarith)
    set l := gH p left rot r x / (upY rot * sin f - upX left rot * cos f) with hl
    have l0 : 0 < l := div_pos hx hden
    have ll : l * (upY rot * sin f - upX left rot * cos f) = gH p left rot r x :=
      div_mul_cancel₀ _ hden.ne'
    set t := upX left rot * (x - lowX p left rot r) - upY rot * lowY p rot
      + l * (upX left rot * sin f + upY rot * cos f) with ht
    have ll' : l * (upY rot * sin f - upX left rot * cos f)
      = upY rot * (lowX p left rot r - x) - upX left rot * lowY p rot := ll
    have eg : along (gp x) (turn ⟨0, 1⟩ f) l = vp p left rot r t := by
      rw [vp_eq, turn_up]
      simp only [along, gp, Pt.mk.injEq]
      constructor
      · rw [ht]
        linear_combination upY rot * ll' + (lowX p left rot r - x - l * sin f) * sq1
      · rw [ht]
        linear_combination (-(upX left rot)) * ll' + (lowY p rot - l * cos f) * sq1
    have ex : l * sin f = (vp p left rot r t).x - x := by rw [← eg, turn_up]; simp [along, gp]
    have ey : l * cos f = (vp p left rot r t).y := by rw [← eg, turn_up]; simp [along, gp]
    have at_ : a ≤ t := by
      have e : ((vp p left rot r a).x - x) * cos f - (vp p left rot r a).y * sin f
          = (t - a) * (upY rot * sin f - upX left rot * cos f) := by
        have : ((vp p left rot r t).x - x) * cos f - (vp p left rot r t).y * sin f = 0 := by
          rw [← ex, ← ey]; ring
        rw [vp_eq] at this ⊢
        simp only at this ⊢
        linear_combination this
      have : 0 < (t - a) * (upY rot * sin f - upX left rot * cos f) := by rw [← e]; linarith
      have := pos_of_mul_pos_left this hden.le
      linarith
    have tb : t ≤ b := by
      have e : (vp p left rot r b).y * sin f - ((vp p left rot r b).x - x) * cos f
          = (b - t) * (upY rot * sin f - upX left rot * cos f) := by
        have : ((vp p left rot r t).x - x) * cos f - (vp p left rot r t).y * sin f = 0 := by
          rw [← ex, ← ey]; ring
        rw [vp_eq] at this ⊢
        simp only at this ⊢
        linear_combination -this
      have : 0 < (b - t) * (upY rot * sin f - upX left rot * cos f) := by rw [← e]; linarith
      have := pos_of_mul_pos_left this hden.le
      linarith
    have t0 := ha.trans at_
    refine ⟨?_, l, l0, ⟨t, at_, tb, eg⟩, ?_⟩
    · rw [turn_up]; simp only [nu]; linarith
    · rw [clear_along l0, eg, clear_lerp_symm, clear_iff h hf hr t0 (tb.trans hb) hx]
      intro O hO
      have pO := (obs_spec h left r r t0 O hO)
      rw [← sq_lt pO.1 (vp_y_pos h left r t0)]
      have : sq x (vp p left rot r t) = sin f := by
        unfold sq; rw [← ex, ← ey, sn_sin_cos l0]
      rw [this]
      unfold obs at hO
      unfold sqo at so2
      split_ifs at hO with hn
      · simp only [Option.mem_def, Option.some.injEq] at hO
        subst hO
        rwa [if_pos hn] at so2
      · simp at hO
  · rintro f l1 l2 ⟨_, l, l0, ⟨t, at_, tb, eg⟩, hcl⟩
    have t0 := ha.trans at_
    have ex : l * sin f = (vp p left rot r t).x - x := by rw [← eg, turn_up]; simp [along, gp]
    have ey : l * cos f = (vp p left rot r t).y := by rw [← eg, turn_up]; simp [along, gp]
    have es : sin f = sq x (vp p left rot r t) := by unfold sq; rw [← ex, ← ey, sn_sin_cos l0]
    rw [clear_along l0, eg, clear_lerp_symm, clear_iff h hf hr t0 (tb.trans hb) hx] at hcl
    constructor
    · refine max_le ?_ ?_
      · rw [es]; exact sq_vp_mono h hx.le t0 tb
      · unfold sqo
        split_ifs with hn
        · rw [es, sq_le (vp_y_pos h left _ le_rfl) (vp_y_pos h left r t0)]
          exact (hcl _ (by unfold obs; rw [if_pos hn]; rfl)).le
        · exact neg_one_le_sin f
    · refine le_max_of_le_left ?_
      rw [es]; exact sq_vp_mono h hx.le ha at_

/-- No light from the ground arrives at a side of a row that looks away from it. -/
theorem gnd_pv_point_zero {p : ArrayParams} {rot : ℝ} 
    {left : Bool} {r : ℕ} {a b x : ℝ} (hx : gH p left rot r x ≤ 0) :
    lightShare ⟨0, 1⟩
      (Arrives (mSolid p left rot) (rowSeg p left rot r a b) (nu left rot) (gp x)) = 0 := by
  apply lightShare_zero
  rintro f l1 l2 ⟨hd, l, l0, ⟨t, at_, tb, eg⟩, hcl⟩
  have ex : l * sin f = (vp p left rot r t).x - x := by rw [← eg, turn_up]; simp [along, gp]
  have ey : l * cos f = (vp p left rot r t).y := by rw [← eg, turn_up]; simp [along, gp]
  rw [gH_eq p left rot r x t, ← ex, ← ey] at hx
  rw [turn_up] at hd
  simp only [nu] at hd
  have : 0 < l * (upY rot * sin f - upX left rot * cos f) := mul_pos l0 (by linarith)
  linarith

/-- No light from the ground arrives at the ground. -/
theorem gnd_gnd_point_zero {solid : Pt → Prop} {m : Pt} {y1 y2 x : ℝ} :
    lightShare ⟨0, 1⟩ (Arrives solid (gndSeg y1 y2) m (gp x)) = 0 := by
  apply lightShare_zero
  rintro f l1 l2 ⟨hd, l, l0, ⟨hy, _⟩, hcl⟩
  rw [turn_up] at hy
  simp only [along, gp] at hy
  have := mul_pos l0 (cos_pos' l1 l2)
  linarith

/-- A ray from one row to another. -/
theorem along_row {p : ArrayParams} {rot : ℝ} {left : Bool} {r j : ℕ} {t t' a l : ℝ}
    (e : along (vp p left rot r t) (turn (nu left rot) a) l = vp p left rot j t') :
    rowsTo left r j * (p.distance * upY rot) = l * cos a ∧
      t' - rowsTo left r j * (p.distance * upX left rot) - t = l * sin a := by
  have sq1 := up_sq left rot
  rw [vp_rel p left rot r j, vp_eq, turn_nu] at e
  simp only [along, Pt.mk.injEq] at e
  obtain ⟨e1, e2⟩ := e
  constructor
  · linear_combination upY rot * e1 - upX left rot * e2 + l * cos a * sq1
  · linear_combination (-(upX left rot)) * e1 - upY rot * e2 + (t - t' + l * sin a) * sq1

/-- Sine of the direction to a point of the next row. -/
noncomputable def sr (p : ArrayParams) (left : Bool) (rot : ℝ) (t t' : ℝ) : ℝ :=
  sn (t' - p.distance * upX left rot - t) (p.distance * upY rot)

/-- Light from a point of a row that arrives at a piece of the next row. -/
theorem pv_pv_between {p : ArrayParams} {rot : ℝ} (h : Physical p rot) (h0 : rot ≠ 0)
    {left : Bool} {r : ℕ} (hn : HasNb left p.nRows r) {t : ℝ} (ht0 : 0 ≤ t) {a b : ℝ} (ha : 0 ≤ a)
    (hab : a ≤ b) :
    Between (nu left rot)
      (Arrives (mSolid p left rot) (rowSeg p left rot (nb left r) a b) ⟨upY rot, -upX left rot⟩
        (vp p left rot r t))
      (sr p left rot t a) (sr p left rot t b) := by
  have sq1 := up_sq left rot
  have hD := h.distance
  have hv := upY_pos h.lo h.hi h0
  have hDv : 0 < p.distance * upY rot := mul_pos hD hv
  have mono : ∀ u w, u ≤ w → sr p left rot t u ≤ sr p left rot t w := by
    intro u w huw
    unfold sr
    rw [sn_le hDv.le hDv.le (Or.inr hDv.ne') (Or.inr hDv.ne') (Or.inl hDv)]
    nlinarith
  have bd : ∀ u, -1 ≤ sr p left rot t u ∧ sr p left rot t u ≤ 1 := fun u =>
    sn_bounds hDv.le (Or.inr hDv.ne')
  have m1 : rowsTo left r (nb left r) = 1 := rowsTo_nb hn
  constructor
  · exact (bd a).1
  · exact mono _ _ hab
  · exact (bd b).2
  · intro f l1 l2 s2 s1
    have hc := cos_pos' l1 l2
    unfold sr at s1 s2
    rw [sn_lt_sin hDv.le (Or.inr hDv.ne') l1 l2] at s2
    rw [sin_lt_sn hDv.le (Or.inr hDv.ne') l1 l2] at s1
    set l := p.distance * upY rot / cos f with hl
    have l0 : 0 < l := div_pos hDv hc
    have ll : l * cos f = p.distance * upY rot := div_mul_cancel₀ _ hc.ne'
    set t' := p.distance * upX left rot + t + l * sin f with ht'
    have eg : along (vp p left rot r t) (turn (nu left rot) f) l = vp p left rot (nb left r) t' := by
      rw [vp_rel p left rot r (nb left r), m1, vp_eq, turn_nu]
      simp only [along, Pt.mk.injEq, Int.cast_one]
      constructor
      · rw [ht']; linear_combination (-(upY rot)) * ll - p.distance * sq1
      · rw [ht']; linear_combination (upX left rot) * ll
    have et : t' * cos f = (p.distance * upX left rot + t) * cos f
        + p.distance * upY rot * sin f := by
      rw [ht']; linear_combination sin f * ll
    have t1 : a ≤ t' := by
      have : a * cos f ≤ t' * cos f := by rw [et]; linarith
      exact le_of_mul_le_mul_right this hc
    have t2 : t' ≤ b := by
      have : t' * cos f ≤ b * cos f := by rw [et]; linarith
      exact le_of_mul_le_mul_right this hc
    refine ⟨?_, l, l0, ⟨t', t1, t2, eg⟩, ?_⟩
    · rw [turn_nu]; simp only
      have : (-(upY rot * cos f) + upX left rot * sin f) * upY rot
          + (upX left rot * cos f + upY rot * sin f) * -upX left rot = - cos f := by
        linear_combination (-(cos f)) * sq1
      rw [this]; linarith
    · rintro k k0 k1 (⟨j, hj, u, u0, u1, e⟩ | ⟨hy, _⟩)
      · obtain ⟨e1, _⟩ := along_row e
        have a1 : 0 < (rowsTo left r j : ℝ) * (p.distance * upY rot) := by rw [e1]; positivity
        have a2 : (rowsTo left r j : ℝ) * (p.distance * upY rot) < 1 * (p.distance * upY rot) := by
          rw [e1, one_mul, ← ll]; exact mul_lt_mul_of_pos_right k1 hc
        have b1 : 0 < (rowsTo left r j : ℝ) := pos_of_mul_pos_left a1 hDv.le
        have b2 : (rowsTo left r j : ℝ) < 1 := lt_of_mul_lt_mul_right a2 hDv.le
        have c1 : 0 < rowsTo left r j := by exact_mod_cast b1
        have c2 : rowsTo left r j < 1 := by exact_mod_cast b2
        omega
      · have y1 := vp_y_pos h left r ht0
        have y2 := vp_y_pos h left (nb left r) (ha.trans t1)
        rw [← eg] at y2
        simp only [along] at y2 hy
        set dy := (turn (nu left rot) f).y
        set y := (vp p left rot r t).y
        have : l * (y + k * dy) = (l - k) * y + k * (y + l * dy) := by ring
        rw [hy, mul_zero] at this
        have : 0 < (l - k) * y + k * (y + l * dy) := by
          have := mul_pos (sub_pos.2 k1) y1
          have := mul_pos k0 y2
          linarith
        linarith
  · rintro f l1 l2 ⟨_, l, l0, ⟨t', t1, t2, eg⟩, hcl⟩
    obtain ⟨e1, e2⟩ := along_row eg
    rw [m1] at e1 e2
    simp only [Int.cast_one, one_mul] at e1 e2
    have es : sin f = sr p left rot t t' := by
      unfold sr; rw [e1, e2, sn_sin_cos l0]
    rw [es]
    exact ⟨mono _ _ t1, mono _ _ t2⟩

theorem pv_pv_point {p : ArrayParams} {rot : ℝ} (h : Physical p rot) (h0 : rot ≠ 0)
    {left : Bool} {r : ℕ} (hn : HasNb left p.nRows r) {t : ℝ} (ht0 : 0 ≤ t) {a b : ℝ} (ha : 0 ≤ a)
    (hab : a ≤ b) :
    lightShare (nu left rot)
      (Arrives (mSolid p left rot) (rowSeg p left rot (nb left r) a b) ⟨upY rot, -upX left rot⟩
        (vp p left rot r t))
      = (sr p left rot t b - sr p left rot t a) / 2 :=
  (pv_pv_between h h0 hn ht0 ha hab).share

/-- No light arrives at any other row. -/
theorem pv_pv_noWay {p : ArrayParams} {rot : ℝ} (h : Physical p rot)
    {left : Bool} {r j : ℕ} (hr : r < p.nRows) (hj : j < p.nRows)
    (hne : rowsTo left r j ≠ 1 ∨ rot = 0) {t : ℝ} (ht0 : 0 ≤ t)
    (ht1 : t ≤ p.width) {a b : ℝ} (ha : 0 ≤ a) (hb : b ≤ p.width) {m : Pt} :
    NoWay (nu left rot)
      (Arrives (mSolid p left rot) (rowSeg p left rot j a b) m (vp p left rot r t)) := by
  have hD := h.distance
  rintro f l1 l2 ⟨_, l, l0, ⟨t', t1, t2, eg⟩, hcl⟩
  have hc := cos_pos' l1 l2
  obtain ⟨e1, e2⟩ := along_row eg
  have a1 : 0 < (rowsTo left r j : ℝ) * (p.distance * upY rot) := by rw [e1]; positivity
  have h0 : rot ≠ 0 := by
    rintro rfl
    rw [upY_zero] at a1
    simp at a1
  have hDv : 0 < p.distance * upY rot := mul_pos hD (upY_pos h.lo h.hi h0)
  have b1 : 0 < (rowsTo left r j : ℝ) := pos_of_mul_pos_left a1 hDv.le
  have c1 : 0 < rowsTo left r j := by exact_mod_cast b1
  have c2 : 2 ≤ rowsTo left r j := by
    rcases hne with hne | hne
    · omega
    · exact absurd hne h0
  have b2 : (2 : ℝ) ≤ (rowsTo left r j : ℝ) := by exact_mod_cast c2
  have hn := hasNb_of_rowsTo hr hj c1
  have m1 : rowsTo left r (nb left r) = 1 := rowsTo_nb hn
  set m := (rowsTo left r j : ℝ) with hm
  have sq1 := up_sq left rot
  -- the ray passes the next row inside
  refine hcl (l / m) (by positivity) (by rw [div_lt_iff₀ b1]; nlinarith) (Or.inl
    ⟨nb left r, nb_lt hn hr, t + (t' - t) / m, ?_, ?_, ?_⟩)
  · have : t + (t' - t) / m = ((m - 1) * t + t') / m := by field_simp; ring
    rw [this]
    apply div_nonneg _ b1.le
    nlinarith
  · have : t + (t' - t) / m = ((m - 1) * t + t') / m := by field_simp; ring
    rw [this, div_le_iff₀ b1]
    nlinarith
  · rw [vp_rel p left rot r (nb left r), m1, vp_eq, turn_nu]
    simp only [along, Pt.mk.injEq, Int.cast_one]
    constructor
    · field_simp
      linear_combination (upY rot) * e1 - (upX left rot) * e2 - m * p.distance * sq1
    · field_simp
      linear_combination (-(upX left rot)) * e1 - upY rot * e2

theorem pv_pv_point_zero {p : ArrayParams} {rot : ℝ} (h : Physical p rot)
    {left : Bool} {r j : ℕ} (hr : r < p.nRows) (hj : j < p.nRows)
    (hne : rowsTo left r j ≠ 1 ∨ rot = 0) {t : ℝ} (ht0 : 0 ≤ t)
    (ht1 : t ≤ p.width) {a b : ℝ} (ha : 0 ≤ a) (hb : b ≤ p.width) {m : Pt} :
    lightShare (nu left rot)
      (Arrives (mSolid p left rot) (rowSeg p left rot j a b) m (vp p left rot r t)) = 0 :=
  lightShare_zero (pv_pv_noWay h hr hj hne ht0 ht1 ha hb)

/-- No light arrives at a side that looks in the same direction. -/
theorem pv_pv_noWay_same {rot : ℝ} {left : Bool} {solid T : Pt → Prop} {X : Pt} :
    NoWay (nu left rot) (Arrives solid T (nu left rot) X) := by
  rintro f l1 l2 ⟨hd, _⟩
  have hc := cos_pos' l1 l2
  have sq1 := up_sq left rot
  rw [turn_nu] at hd
  simp only [nu] at hd
  have : (-(upY rot * cos f) + upX left rot * sin f) * -upY rot
      + (upX left rot * cos f + upY rot * sin f) * upX left rot = cos f := by
    linear_combination (cos f) * sq1
  linarith

theorem pv_pv_point_same {p : ArrayParams} {rot : ℝ} {left : Bool} {solid T : Pt → Prop} {X : Pt} :
    lightShare (nu left rot) (Arrives solid T (nu left rot) X) = 0 :=
  lightShare_zero pv_pv_noWay_same

end PVF

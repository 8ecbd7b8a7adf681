import Verif.Lemmas.RayClear

/-! # Share of the light of a point of a row that arrives at the ground or at the next row -/

namespace PVF
open Real

/-- Normal of the side of a row that looks in the direction of the view. -/
noncomputable def nu (left : Bool) (rot : ℝ) : Pt := ⟨-upY rot, upX left rot⟩

open Classical in
/-- Sine of the direction to the obstruction of the view. -/
noncomputable def so (p : ArrayParams) (left : Bool) (rot : ℝ) (r : ℕ) (t : ℝ) : ℝ :=
  if HasNb left p.nRows r then sn (-(p.distance * upX left rot) - t) (p.distance * upY rot) else 1

/-- Sine of the direction to a ground point, or to the obstruction in the way. -/
noncomputable def sg (p : ArrayParams) (left : Bool) (rot : ℝ) (r : ℕ) (t x : ℝ) : ℝ :=
  min (sn (gE p left rot r x - t) (gH p left rot r x)) (so p left rot r t)

theorem gnd_ne {p : ArrayParams} {rot : ℝ} (h : Physical p rot) (left : Bool) (r : ℕ) {t : ℝ}
    (ht : 0 ≤ t) (x : ℝ) : gE p left rot r x - t ≠ 0 ∨ gH p left rot r x ≠ 0 := by
  by_contra hc
  simp only [not_or, ne_eq, not_not] at hc
  have sq := up_sq left rot
  have hl := h.lowY_pos
  have hu := h.upY_nonneg
  have e : upX left rot * gH p left rot r x + upY rot * (gE p left rot r x - t)
      = -(lowY p rot + t * upY rot) := by
    unfold gE gH; linear_combination (-(lowY p rot)) * sq
  rw [hc.1, hc.2] at e
  have : 0 ≤ t * upY rot := mul_nonneg ht hu
  linarith

theorem obs_ne {p : ArrayParams} {rot : ℝ} (h : Physical p rot) (hf : FlatApart p rot) {left : Bool}
    {r : ℕ} {t : ℝ} (ht1 : t ≤ p.width) {x : ℝ} (hH : 0 < gH p left rot r x) :
    -(p.distance * upX left rot) - t ≠ 0 ∨ p.distance * upY rot ≠ 0 := by
  have hD := h.distance
  by_cases h0 : rot = 0
  · left
    rw [flat_upX h hH h0]
    have := hf h0
    linarith
  · right
    exact (mul_pos hD (upY_pos h.lo h.hi h0)).ne'

theorem so_bounds {p : ArrayParams} {rot : ℝ} (h : Physical p rot) (hf : FlatApart p rot)
    {left : Bool} {r : ℕ} {t : ℝ} (ht1 : t ≤ p.width) {x : ℝ} (hH : 0 < gH p left rot r x) :
    -1 ≤ so p left rot r t ∧ so p left rot r t ≤ 1 := by
  unfold so
  split_ifs
  · exact sn_bounds (mul_nonneg h.distance.le h.upY_nonneg) (obs_ne h hf ht1 hH)
  · norm_num

theorem turn_nu (left : Bool) (rot a : ℝ) : turn (nu left rot) a
    = ⟨-(upY rot * cos a) + upX left rot * sin a, upX left rot * cos a + upY rot * sin a⟩ := by
  simp only [turn, nu, Pt.mk.injEq]; constructor <;> ring

theorem along_lerp (X d : Pt) (l s : ℝ) : along X d (s * l) = lerp X (along X d l) s := by
  simp only [along, lerp, Pt.mk.injEq]; constructor <;> ring

theorem clear_along {solid : Pt → Prop} {X d : Pt} {l : ℝ} (hl : 0 < l) :
    (∀ k, 0 < k → k < l → ¬ solid (along X d k)) ↔
      ∀ s, 0 < s → s < 1 → ¬ solid (lerp X (along X d l) s) := by
  constructor
  · intro h s h0 h1
    rw [← along_lerp]
    exact h _ (by positivity) (by nlinarith)
  · intro h k h0 h1
    have := h (k / l) (by positivity) (by rwa [div_lt_one hl])
    rw [← along_lerp] at this
    rwa [div_mul_cancel₀ _ hl.ne'] at this

theorem clear_lerp_symm {solid : Pt → Prop} {X Y : Pt} :
    (∀ s, 0 < s → s < 1 → ¬ solid (lerp X Y s)) ↔ ∀ s, 0 < s → s < 1 → ¬ solid (lerp Y X s) := by
  have e : ∀ (X Y : Pt) s, lerp X Y s = lerp Y X (1 - s) := by
    intro X Y s; simp only [lerp, Pt.mk.injEq]; constructor <;> ring
  constructor
  · intro h s h0 h1; rw [e]; exact h _ (by linarith) (by linarith)
  · intro h s h0 h1; rw [e]; exact h _ (by linarith) (by linarith)

/-- The obstruction is not in the way, in terms of directions. -/
theorem cot_obs_iff {p : ArrayParams} {rot : ℝ} (h : Physical p rot) (hf : FlatApart p rot)
    {left : Bool} {r : ℕ} {t : ℝ} (ht0 : 0 ≤ t) (ht1 : t ≤ p.width) {x : ℝ}
    (hH : 0 < gH p left rot r x) :
    (∀ O ∈ obs p left rot r, cot x O < cot x (vp p left rot r t)) ↔
      (HasNb left p.nRows r → sn (gE p left rot r x - t) (gH p left rot r x) < so p left rot r t) := by
  unfold obs so
  by_cases hn : HasNb left p.nRows r
  · rw [if_pos hn, if_pos hn]
    simp only [Option.mem_def, Option.some.injEq, forall_eq', hn, forall_true_left]
    rw [(cot_frame h hn ht0).2, sn_lt hH.le (mul_nonneg h.distance.le h.upY_nonneg)
      (gnd_ne h left r ht0 x) (obs_ne h hf ht1 hH) (Or.inl hH)]
  · simp [hn]

/-- The direction to a ground point turns monotonically. -/
theorem sn_gnd_mono {p : ArrayParams} {rot : ℝ} (h : Physical p rot) {left : Bool} {r : ℕ} {t : ℝ}
    (ht0 : 0 ≤ t) {x y : ℝ} (hx : 0 ≤ gH p left rot r x) (hy : 0 ≤ gH p left rot r y)
    (hp : 0 < gH p left rot r x ∨ 0 < gH p left rot r y) :
    sn (gE p left rot r y - t) (gH p left rot r y) ≤ sn (gE p left rot r x - t) (gH p left rot r x)
      ↔ x ≤ y := by
  rw [sn_le hy hx (gnd_ne h left r ht0 y) (gnd_ne h left r ht0 x) hp.symm]
  have sq := up_sq left rot
  have e : (gE p left rot r x - t) * gH p left rot r y - (gE p left rot r y - t) * gH p left rot r x
      = (y - x) * (lowY p rot + t * upY rot) := by
    unfold gE gH; linear_combination (y - x) * lowY p rot * sq
  have hpos : 0 < lowY p rot + t * upY rot := by
    have := h.lowY_pos; have := h.upY_nonneg; positivity
  constructor
  · intro hle
    have : 0 ≤ (y - x) * (lowY p rot + t * upY rot) := by linarith
    have := nonneg_of_mul_nonneg_left this hpos
    linarith
  · intro hle
    have : 0 ≤ (y - x) * (lowY p rot + t * upY rot) := mul_nonneg (by linarith) hpos.le
    linarith

/-- A ray from a row that meets the ground. -/
theorem along_gnd {p : ArrayParams} {rot : ℝ} {left : Bool} {r : ℕ} {t a l x : ℝ}
    (e : along (vp p left rot r t) (turn (nu left rot) a) l = gp x) :
    gH p left rot r x = l * cos a ∧ gE p left rot r x - t = l * sin a := by
  have sq := up_sq left rot
  rw [vp_eq, turn_nu] at e
  simp only [along, gp, Pt.mk.injEq] at e
  obtain ⟨e1, e2⟩ := e
  unfold gH gE
  constructor
  · linear_combination upY rot * e1 - upX left rot * e2 + l * cos a * sq
  · linear_combination (-(upX left rot)) * e1 - upY rot * e2 + (t + l * sin a) * sq


/-- Exactly the directions between two sines (up to the boundary) satisfy `Q`. -/
structure Between (n : Pt) (Q : Pt → Prop) (s1 s2 : ℝ) : Prop where
  lo : -1 ≤ s1
  le : s1 ≤ s2
  hi : s2 ≤ 1
  inside : ∀ a, -(π / 2) < a → a < π / 2 → s1 < sin a → sin a < s2 → Q (turn n a)
  outside : ∀ a, -(π / 2) < a → a < π / 2 → Q (turn n a) → s1 ≤ sin a ∧ sin a ≤ s2

open Classical in
theorem Between.share {n : Pt} {Q : Pt → Prop} {s1 s2 : ℝ} (h : Between n Q s1 s2) :
    lightShare n Q = (s2 - s1) / 2 := by
  unfold lightShare
  rw [cos_integral_between (Q := fun a => Q (turn n a)) h.lo h.le h.hi h.inside h.outside]
  ring

theorem lightShare_eq {n : Pt} {Q : Pt → Prop} {s1 s2 : ℝ} (h1 : -1 ≤ s1)
    (h12 : s1 ≤ s2) (h2 : s2 ≤ 1)
    (hin : ∀ a, -(π / 2) < a → a < π / 2 → s1 < sin a → sin a < s2 → Q (turn n a))
    (hout : ∀ a, -(π / 2) < a → a < π / 2 → Q (turn n a) → s1 ≤ sin a ∧ sin a ≤ s2) :
    lightShare n Q = (s2 - s1) / 2 :=
  Between.share ⟨h1, h12, h2, hin, hout⟩

/-- No direction satisfies `Q`. -/
def NoWay (n : Pt) (Q : Pt → Prop) : Prop := ∀ a, -(π / 2) < a → a < π / 2 → ¬ Q (turn n a)

open Classical in
theorem lightShare_zero {n : Pt} {Q : Pt → Prop} (h : NoWay n Q) : lightShare n Q = 0 := by
  unfold lightShare
  rw [cos_integral_none (Q := fun a => Q (turn n a)) h, mul_zero]

/-- Ground between two points. -/
def gndSeg (y1 y2 : ℝ) (Y : Pt) : Prop := Y.y = 0 ∧ y1 ≤ Y.x ∧ Y.x ≤ y2

/-- Light from a point of a row that arrives at a piece of the ground. -/
theorem pv_gnd_between {p : ArrayParams} {rot : ℝ} (h : Physical p rot) (hf : FlatApart p rot)
    {left : Bool} {r : ℕ} (hr : r < p.nRows) {t : ℝ} (ht0 : 0 ≤ t) (ht1 : t ≤ p.width) {y1 y2 : ℝ}
    (hy : y1 ≤ y2) (h1 : 0 < gH p left rot r y1) (h2 : 0 ≤ gH p left rot r y2) :
    Between (nu left rot)
      (Arrives (mSolid p left rot) (gndSeg y1 y2) ⟨0, 1⟩ (vp p left rot r t))
      (sg p left rot r t y2) (sg p left rot r t y1) := by
  have sq := up_sq left rot
  have hpos : 0 < lowY p rot + t * upY rot := by
    have := h.lowY_pos; have := h.upY_nonneg; positivity
  have b1 := sn_bounds h1.le (gnd_ne h left r ht0 y1)
  have b2 := sn_bounds h2 (gnd_ne h left r ht0 y2)
  have bo := so_bounds (r := r) h hf ht1 h1
  have m12 := (sn_gnd_mono h (r := r) ht0 h1.le h2 (Or.inl h1)).2 hy
  have hgH : ∀ x, y1 ≤ x → x ≤ y2 → 0 ≤ gH p left rot r x := by
    intro x hx _
    have hu := h.upY_nonneg
    unfold gH at h2 ⊢
    nlinarith
  constructor
  · exact le_min b2.1 bo.1
  · exact min_le_min_right _ m12
  · exact (min_le_left _ _).trans b1.2
  · intro a l1 l2 s2 s1
    have hc := cos_pos' l1 l2
    have so1 : sin a < so p left rot r t := lt_of_lt_of_le s1 (min_le_right _ _)
    have s1' : sin a < sn (gE p left rot r y1 - t) (gH p left rot r y1) :=
      lt_of_lt_of_le s1 (min_le_left _ _)
    have s2' : sn (gE p left rot r y2 - t) (gH p left rot r y2) < sin a := by
      rcases min_lt_iff.1 s2 with h' | h'
      · exact h'
      · linarith
    rw [sin_lt_sn h1.le (gnd_ne h left r ht0 y1) l1 l2] at s1'
    rw [sn_lt_sin h2 (gnd_ne h left r ht0 y2) l1 l2] at s2'
    have e1 : upX left rot * gH p left rot r y1 + upY rot * (gE p left rot r y1 - t)
        = -(lowY p rot + t * upY rot) := by
      unfold gE gH; linear_combination (-(lowY p rot)) * sq
    have hu := h.upY_nonneg
    have dy : upX left rot * cos a + upY rot * sin a < 0 := by
      have : (upX left rot * cos a + upY rot * sin a) * gH p left rot r y1
          ≤ cos a * (-(lowY p rot + t * upY rot)) := by
        rw [← e1]; nlinarith
      have : (upX left rot * cos a + upY rot * sin a) * gH p left rot r y1 < 0 := by nlinarith
      by_contra hcon
      have := mul_nonneg (not_lt.1 hcon) h1.le
      linarith
    set l := (lowY p rot + t * upY rot) / -(upX left rot * cos a + upY rot * sin a) with hl
    have l0 : 0 < l := div_pos hpos (by linarith)
    have ll : l * (upX left rot * cos a + upY rot * sin a) = -(lowY p rot + t * upY rot) := by
      have hne : upX left rot * cos a + upY rot * sin a ≠ 0 := dy.ne
      rw [hl, div_neg, neg_mul, div_mul_cancel₀ _ hne]
    set x := lowX p left rot r + t * upX left rot
      + l * (-(upY rot * cos a) + upX left rot * sin a) with hx
    have eg : along (vp p left rot r t) (turn (nu left rot) a) l = gp x := by
      rw [vp_eq, turn_nu]
      simp only [along, gp, Pt.mk.injEq]
      exact ⟨hx.symm, by linarith⟩
    obtain ⟨eH, eE⟩ := along_gnd eg
    have hHx : 0 < gH p left rot r x := by rw [eH]; positivity
    have x1 : y1 ≤ x := by
      rw [← sn_gnd_mono h (r := r) (left := left) ht0 h1.le hHx.le (Or.inl h1),
        sn_le hHx.le h1.le (gnd_ne h left r ht0 x) (gnd_ne h left r ht0 y1) (Or.inl hHx), eE, eH]
      nlinarith
    have x2 : x ≤ y2 := by
      rw [← sn_gnd_mono h (r := r) (left := left) ht0 hHx.le h2 (Or.inl hHx),
        sn_le h2 hHx.le (gnd_ne h left r ht0 y2) (gnd_ne h left r ht0 x) (Or.inr hHx), eE, eH]
      nlinarith
    refine ⟨?_, l, l0, ?_, ?_⟩
    · rw [turn_nu]; simp only; linarith
    · rw [eg]; exact ⟨rfl, x1, x2⟩
    · rw [clear_along l0, eg, clear_iff h hf hr ht0 ht1 hHx, cot_obs_iff h hf ht0 ht1 hHx]
      intro _
      rw [eE, eH, sn_sin_cos l0]
      exact so1
  · rintro a l1 l2 ⟨_, l, l0, ⟨hY, hx1, hx2⟩, hcl⟩
    have hc := cos_pos' l1 l2
    set Y := along (vp p left rot r t) (turn (nu left rot) a) l with hYdef
    have eg : Y = gp Y.x := by ext <;> simp [gp, hY]
    obtain ⟨eH, eE⟩ := along_gnd (hYdef.symm.trans eg)
    have hHx : 0 < gH p left rot r Y.x := by rw [eH]; positivity
    have es : sin a = sn (gE p left rot r Y.x - t) (gH p left rot r Y.x) := by
      rw [eE, eH, sn_sin_cos l0]
    rw [clear_along l0, ← hYdef, eg, clear_iff h hf hr ht0 ht1 hHx,
      cot_obs_iff h hf ht0 ht1 hHx] at hcl
    constructor
    · refine (min_le_left _ _).trans ?_
      rw [es]
      exact (sn_gnd_mono h (r := r) ht0 hHx.le h2 (Or.inl hHx)).2 hx2
    · refine le_min ?_ ?_
      · rw [es]
        exact (sn_gnd_mono h (r := r) ht0 h1.le hHx.le (Or.inl h1)).2 hx1
      · by_cases hn : HasNb left p.nRows r
        · rw [es]; exact (hcl hn).le
        · unfold so; rw [if_neg hn]; exact sin_le_one a

theorem pv_gnd_point {p : ArrayParams} {rot : ℝ} (h : Physical p rot) (hf : FlatApart p rot)
    {left : Bool} {r : ℕ} (hr : r < p.nRows) {t : ℝ} (ht0 : 0 ≤ t) (ht1 : t ≤ p.width) {y1 y2 : ℝ}
    (hy : y1 ≤ y2) (h1 : 0 < gH p left rot r y1) (h2 : 0 ≤ gH p left rot r y2) :
    lightShare (nu left rot)
      (Arrives (mSolid p left rot) (gndSeg y1 y2) ⟨0, 1⟩ (vp p left rot r t))
      = (sg p left rot r t y1 - sg p left rot r t y2) / 2 :=
  (pv_gnd_between h hf hr ht0 ht1 hy h1 h2).share

/-- No light arrives at ground on the other side of the row. -/
theorem pv_gnd_noWay {p : ArrayParams} {rot : ℝ} (h : Physical p rot)
    {left : Bool} {r : ℕ} {t : ℝ} {y1 y2 : ℝ} (h1 : gH p left rot r y1 ≤ 0) :
    NoWay (nu left rot)
      (Arrives (mSolid p left rot) (gndSeg y1 y2) ⟨0, 1⟩ (vp p left rot r t)) := by
  rintro a l1 l2 ⟨_, l, l0, ⟨hY, hx1, hx2⟩, _⟩
  have hc := cos_pos' l1 l2
  set Y := along (vp p left rot r t) (turn (nu left rot) a) l with hYdef
  have eg : Y = gp Y.x := by ext <;> simp [gp, hY]
  obtain ⟨eH, eE⟩ := along_gnd (hYdef.symm.trans eg)
  have hHx : 0 < gH p left rot r Y.x := by rw [eH]; positivity
  have hu := h.upY_nonneg
  unfold gH at h1 hHx
  nlinarith

theorem pv_gnd_point_zero {p : ArrayParams} {rot : ℝ} (h : Physical p rot)
    {left : Bool} {r : ℕ} {t : ℝ} {y1 y2 : ℝ} (h1 : gH p left rot r y1 ≤ 0) :
    lightShare (nu left rot)
      (Arrives (mSolid p left rot) (gndSeg y1 y2) ⟨0, 1⟩ (vp p left rot r t)) = 0 :=
  lightShare_zero (pv_gnd_noWay h h1)

end PVF

import Verif.Lemmas.ViewVF
import Verif.Lemmas.Lambert

/-! # Rays between rows and ground: what is in the way -/

namespace PVF
open Real

/-- Number of rows from row `r` to row `j` in the direction of the view. -/
def rowsTo (left : Bool) (r j : ℕ) : ℤ := if left then (r : ℤ) - j else (j : ℤ) - r

theorem vp_rel (p : ArrayParams) (left : Bool) (rot : ℝ) (r j : ℕ) (t : ℝ) :
    vp p left rot j t = ⟨lowX p left rot r - rowsTo left r j * p.distance + t * upX left rot,
      lowY p rot + t * upY rot⟩ := by
  rw [vp_eq]
  congr 1
  unfold lowX rowsTo sx
  cases left <;> simp <;> ring

theorem rowsTo_nb {left : Bool} {n r : ℕ} (h : HasNb left n r) : rowsTo left r (nb left r) = 1 := by
  unfold rowsTo nb
  unfold HasNb at h
  cases left
  · simp
  · simp only [if_true] at h ⊢; omega

theorem hasNb_of_rowsTo {left : Bool} {n r j : ℕ} (hr : r < n) (hj : j < n)
    (h : 0 < rowsTo left r j) : HasNb left n r := by
  unfold rowsTo at h
  unfold HasNb
  cases left
  · simp only [Bool.false_eq_true, if_false] at h ⊢; omega
  · simp only [if_true] at h ⊢; omega

theorem nb_lt {left : Bool} {n r : ℕ} (h : HasNb left n r) (hr : r < n) : nb left r < n := by
  unfold HasNb at h
  unfold nb
  cases left
  · simp only [Bool.false_eq_true, if_false] at h ⊢; omega
  · simp only [if_true] at h ⊢; omega

theorem up_sq (left : Bool) (rot : ℝ) : upX left rot ^ 2 + upY rot ^ 2 = 1 := by
  have := cosd_sq_add_sind_sq rot
  unfold upX upY sx
  cases left <;> split_ifs <;> linarith

/-- Solids of the scene, mirrored for views to the right: the rows and the ground. -/
def mSolid (p : ArrayParams) (left : Bool) (rot : ℝ) (Y : Pt) : Prop :=
  (∃ j < p.nRows, ∃ t, 0 ≤ t ∧ t ≤ p.width ∧ Y = vp p left rot j t) ∨
    (Y.y = 0 ∧ MIN_X ≤ Y.x ∧ Y.x ≤ MAX_X)

/-- Distance of a ground point from the plane of the row. -/
noncomputable def gH (p : ArrayParams) (left : Bool) (rot : ℝ) (r : ℕ) (x : ℝ) : ℝ :=
  upY rot * (lowX p left rot r - x) - upX left rot * lowY p rot

/-- Position of a ground point along the row. -/
noncomputable def gE (p : ArrayParams) (left : Bool) (rot : ℝ) (r : ℕ) (x : ℝ) : ℝ :=
  upX left rot * (x - lowX p left rot r) - upY rot * lowY p rot

theorem onSide_iff (p : ArrayParams) (left : Bool) (rot : ℝ) (r : ℕ) (x : ℝ) :
    OnSide p left rot r x ↔ 0 ≤ gH p left rot r (sx left x) := by
  unfold OnSide gH; constructor <;> intro h <;> linarith

/-- Rows that are flat do not touch. -/
def FlatApart (p : ArrayParams) (rot : ℝ) : Prop := rot = 0 → p.width < p.distance

theorem upX_zero {left : Bool} : upX left 0 = if left then -1 else 1 := by
  unfold upX sx; cases left <;> simp [cosd_zero]

theorem upY_zero : upY 0 = 0 := by unfold upY; simp [sind_zero]

/-- A ground point at the side of the row that the view goes to. -/
theorem flat_upX {p : ArrayParams} {left : Bool} {rot : ℝ} (h : Physical p rot) {r : ℕ} {x : ℝ}
    (hH : 0 < gH p left rot r x) (h0 : rot = 0) : upX left rot = -1 := by
  subst h0
  have hl := h.lowY_pos
  unfold gH at hH
  rw [upY_zero] at hH
  have := up_sq left 0
  rw [upX_zero] at hH ⊢
  cases left
  · simp only [Bool.false_eq_true, if_false] at hH; linarith
  · rfl

/-- Comparison of cotangents in the frame of the row. -/
theorem cot_frame {p : ArrayParams} {left : Bool} {rot : ℝ} (h : Physical p rot) {r : ℕ} {t x : ℝ}
    (hn : HasNb left p.nRows r) (ht : 0 ≤ t) :
    (cot x (vp p left rot r t) < cot x (vp p left rot (nb left r) 0) ↔
      (-(p.distance * upX left rot) - t) * gH p left rot r x
        < (gE p left rot r x - t) * (p.distance * upY rot)) ∧
    (cot x (vp p left rot (nb left r) 0) < cot x (vp p left rot r t) ↔
      (gE p left rot r x - t) * (p.distance * upY rot)
        < (-(p.distance * upX left rot) - t) * gH p left rot r x) := by
  have sq := up_sq left rot
  have e : ((vp p left rot (nb left r) 0).x - x) * (vp p left rot r t).y
      - ((vp p left rot r t).x - x) * (vp p left rot (nb left r) 0).y
      = (gE p left rot r x - t) * (p.distance * upY rot)
        - (-(p.distance * upX left rot) - t) * gH p left rot r x := by
    rw [vp_nb hn, vp_eq]
    unfold gE gH
    simp only
    linear_combination p.distance * lowY p rot * sq
  rw [cot_lt_cot (vp_y_pos h left r ht) (vp_y_pos h left _ le_rfl),
    cot_lt_cot (vp_y_pos h left _ le_rfl) (vp_y_pos h left r ht)]
  constructor <;> constructor <;> intro h <;> linarith

/-- The ground point `x` is in free sight of the point at `t` of the row exactly if the lower end of
the next row is not in the way. -/
theorem clear_iff {p : ArrayParams} {left : Bool} {rot : ℝ} (h : Physical p rot)
    (hf : FlatApart p rot) {r : ℕ} (hr : r < p.nRows) {t x : ℝ} (ht0 : 0 ≤ t) (ht1 : t ≤ p.width)
    (hH : 0 < gH p left rot r x) :
    (∀ s, 0 < s → s < 1 → ¬ mSolid p left rot (lerp (vp p left rot r t) (gp x) s)) ↔
      ∀ O ∈ obs p left rot r, cot x O < cot x (vp p left rot r t) := by
  have sq := up_sq left rot
  have hD := h.distance
  have hy := vp_y_pos h left r ht0
  have hl := h.lowY_pos
  have hu := h.upY_nonneg
  set c := upX left rot with hc
  set v := upY rot with hv
  set H := gH p left rot r x with hHdef
  set E := gE p left rot r x with hEdef
  have eH : H = v * (lowX p left rot r - x) - c * lowY p rot := rfl
  have eE : E = c * (x - lowX p left rot r) - v * lowY p rot := rfl
  constructor
  · intro hcl O hO
    unfold obs at hO
    split_ifs at hO with hn
    swap
    · simp at hO
    simp only [Option.mem_def, Option.some.injEq] at hO
    subst hO
    rw [(cot_frame h hn ht0).2]
    by_contra hcon
    rw [not_lt] at hcon
    change (-(p.distance * c) - t) * H ≤ (E - t) * (p.distance * v) at hcon
    have hvp : 0 < v := by
      rcases eq_or_lt_of_le hu with h0 | h0
      · exfalso
        rw [← h0] at hcon
        have hrot : rot = 0 := by
          by_contra hne
          exact (upY_pos h.lo h.hi hne).ne h0
        have c1 : c = -1 := flat_upX h hH hrot
        have := hf hrot
        rw [c1] at hcon
        nlinarith
      · exact h0
    set s := p.distance * v / H with hs
    have hs0 : 0 < s := by positivity
    have hsH : s * H = p.distance * v := by rw [hs]; field_simp
    set t' := p.distance * c + t + s * (E - t) with ht'
    have hX : lerp (vp p left rot r t) (gp x) s = vp p left rot (nb left r) t' := by
      rw [vp_nb hn, vp_eq]
      simp only [lerp, gp, Pt.mk.injEq]
      rw [← hc, ← hv]
      constructor
      · rw [ht']
        linear_combination (-(s * (x - lowX p left rot r)) - p.distance) * sq - v * hsH
          + s * v * eH - s * c * eE
      · rw [ht']
        linear_combination s * lowY p rot * sq + c * hsH - s * c * eH - s * v * eE
    have t0 : 0 ≤ t' := by
      have : t' * H = p.distance * c * H + t * H + (E - t) * (p.distance * v) := by
        rw [ht']; linear_combination (E - t) * hsH
      have : 0 ≤ t' * H := by rw [this]; nlinarith
      exact nonneg_of_mul_nonneg_left this hH
    have hyy : (1 - s) * (vp p left rot r t).y = lowY p rot + t' * v := by
      have := congrArg Pt.y hX
      rw [vp_eq p left rot (nb left r)] at this
      simp only [lerp, gp] at this
      linarith
    have s1 : s < 1 := by
      have : 0 < (1 - s) * (vp p left rot r t).y := by rw [hyy]; positivity
      have := pos_of_mul_pos_left this hy.le
      linarith
    have t1 : t' ≤ t := by
      have e : (vp p left rot r t).y = lowY p rot + t * v := by rw [vp_eq]
      have : lowY p rot + t' * v ≤ lowY p rot + t * v := by rw [← hyy, ← e]; nlinarith
      exact le_of_mul_le_mul_right (by linarith) hvp
    exact hcl s hs0 s1 (Or.inl ⟨_, nb_lt hn hr, t', t0, t1.trans ht1, hX⟩)
  · rintro hO s hs0 hs1 (⟨j, hj, t', t0, t1, hX⟩ | ⟨hy0, _⟩)
    · rw [vp_rel p left rot r j, vp_eq] at hX
      simp only [lerp, gp, Pt.mk.injEq] at hX
      obtain ⟨hX, hY⟩ := hX
      rw [← hc] at hX
      rw [← hv] at hY
      set m : ℝ := (rowsTo left r j : ℝ) with hm
      have a1 : s * H = m * (p.distance * v) := by
        linear_combination s * eH - v * hX + c * hY
      have a2 : t' = m * p.distance * c + t + s * (E - t) := by
        linear_combination -(s * eE) - c * hX - v * hY + (t - t' - s * t) * sq
      have mp : 0 < m := by
        have : 0 < m * (p.distance * v) := by rw [← a1]; positivity
        by_contra hcon
        have := mul_nonpos_of_nonpos_of_nonneg (not_lt.1 hcon) (mul_nonneg hD.le hu)
        linarith
      have mp' : 0 < rowsTo left r j := by rw [hm] at mp; exact_mod_cast mp
      have m1 : 1 ≤ m := by rw [hm]; exact_mod_cast mp'
      have hn := hasNb_of_rowsTo hr hj mp'
      have := hO (vp p left rot (nb left r) 0) (by unfold obs; rw [if_pos hn]; rfl)
      rw [(cot_frame h hn ht0).2] at this
      change (E - t) * (p.distance * v) < (-(p.distance * c) - t) * H at this
      have e : t' * H = m * p.distance * c * H + t * H + m * ((E - t) * (p.distance * v)) := by
        rw [a2]; linear_combination (E - t) * a1
      have : t' * H < (1 - m) * t * H := by
        rw [e]; nlinarith
      have : (1 - m) * t * H ≤ 0 := by
        have : (1 - m) * t ≤ 0 := by nlinarith
        nlinarith
      have : 0 ≤ t' * H := by positivity
      linarith
    · simp only [lerp, gp] at hy0
      have : 0 < (1 - s) * (vp p left rot r t).y := mul_pos (by linarith) hy
      linarith

end PVF

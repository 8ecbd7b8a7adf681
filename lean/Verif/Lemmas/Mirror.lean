import Verif.Props.Shape
import Verif.Props.FastFull

/-!
# Strings in the mirror

Positions on the ground are mirrored about the middle of the array.
-/

namespace PVF

/-- A position on the ground and its mirror image add up to this. -/
noncomputable def mirSum (p : ArrayParams) : ℝ := (p.nRows - 1) * p.distance

/-- A point moved sideways. -/
def shiftX (δ : ℝ) (P : Pt) : Pt := ⟨P.x + δ, P.y⟩

theorem distPt_shift (δ : ℝ) (P Q : Pt) : distPt (shiftX δ P) (shiftX δ Q) = distPt P Q := by
  simp only [distPt, shiftX]; congr 1; ring

theorem gp_shift (δ x : ℝ) : gp (x + δ) = shiftX δ (gp x) := rfl

theorem cot_shift (δ x : ℝ) (P : Pt) : cot (x + δ) (shiftX δ P) = cot x P := by
  simp only [cot, shiftX]; congr 1; ring

theorem strO_shift (δ x : ℝ) (O : Option Pt) (P : Pt) :
    strO (O.map (shiftX δ)) (shiftX δ P) (x + δ) = strO O P x := by
  cases O with
  | none => simp only [Option.map_none, strO, gp_shift, distPt_shift]
  | some O => simp only [Option.map_some, strO, strL, gp_shift, distPt_shift, cot_shift]

section
variable {rot : ℝ} (h0 : rot ≠ 0)
include h0

theorem neg_pos_iff : 0 < -rot ↔ ¬ 0 < rot := by
  constructor
  · intro h h'; linarith
  · intro h; have := lt_of_le_of_ne (not_lt.1 h) h0; linarith

theorem upY_neg : upY (-rot) = upY rot := by
  unfold upY
  by_cases h : 0 < rot
  · rw [if_neg (by linarith), if_pos h, sind_neg, neg_neg]
  · rw [if_pos ((neg_pos_iff h0).2 h), if_neg h, sind_neg]

theorem upX_neg (left : Bool) : upX (!left) (-rot) = upX left rot := by
  unfold upX
  by_cases h : 0 < rot
  · rw [if_neg (by linarith), if_pos h, cosd_neg]
    cases left <;> simp [sx]
  · rw [if_pos ((neg_pos_iff h0).2 h), if_neg h, cosd_neg]
    cases left <;> simp [sx]

theorem faceL_neg (s : RowSide) : faceL (-rot) s = !faceL rot s := by
  unfold faceL
  by_cases h : 0 < rot
  · have : ¬ 0 < -rot := by linarith
    cases s <;> simp [h, this]
  · have := (neg_pos_iff h0).2 h
    cases s <;> simp [h, this]

theorem vp_mirror (p : ArrayParams) (left : Bool) {r : ℕ} (hr : r < p.nRows) (t : ℝ) :
    vp p.mirror (!left) (-rot) (p.nRows - 1 - r) t
      = shiftX (sx left (-mirSum p)) (vp p left rot r t) := by
  have hc : ((p.nRows - 1 - r : ℕ) : ℝ) = p.nRows - 1 - r := by
    rw [Nat.cast_sub (by omega), Nat.cast_sub (by omega)]; simp
  have hd : p.mirror.distance = p.distance := rfl
  have hw : p.mirror.width = p.width := rfl
  have hh : p.mirror.height = p.height := rfl
  rw [vp_eq, vp_eq]
  unfold lowX lowY shiftX
  rw [upX_neg h0, upY_neg h0, hc, hd, hw, hh]
  unfold mirSum
  ext
  · cases left <;> simp only [sx, Bool.not_true, Bool.not_false, if_true, if_false,
      Bool.false_eq_true] <;> ring
  · rfl

end

theorem hasNb_mirror {n r : ℕ} (hr : r < n) (left : Bool) :
    HasNb (!left) n (n - 1 - r) ↔ HasNb left n r := by
  unfold HasNb
  cases left <;> simp <;> omega

theorem nb_mirror {n r : ℕ} (hr : r < n) {left : Bool} (h : HasNb left n r) :
    nb (!left) (n - 1 - r) = n - 1 - nb left r ∧ nb left r < n := by
  unfold HasNb at h
  unfold nb
  cases left <;> simp at * <;> omega

theorem sx_mirror (left : Bool) (c x : ℝ) : sx (!left) (c - x) = sx left x + sx left (-c) := by
  cases left <;> simp [sx] <;> ring

section
variable {rot : ℝ} (h0 : rot ≠ 0) (p : ArrayParams) (left : Bool) {r : ℕ} (hr : r < p.nRows)
include h0 hr

theorem obs_mirror : obs p.mirror (!left) (-rot) (p.nRows - 1 - r)
    = (obs p left rot r).map (shiftX (sx left (-mirSum p))) := by
  have hn : p.mirror.nRows = p.nRows := rfl
  unfold obs
  rw [hn]
  by_cases h : HasNb left p.nRows r
  · rw [if_pos h, if_pos ((hasNb_mirror hr left).2 h), (nb_mirror hr h).1,
      vp_mirror h0 p left (nb_mirror hr h).2]; rfl
  · rw [if_neg h, if_neg (fun h' => h ((hasNb_mirror hr left).1 h'))]; rfl

theorem phi_mirror (a b x : ℝ) :
    phi p.mirror (!left) (-rot) (p.nRows - 1 - r) a b (sx (!left) (mirSum p - x))
      = phi p left rot r a b (sx left x) := by
  unfold phi
  rw [obs_mirror h0 p left hr, vp_mirror h0 p left hr, vp_mirror h0 p left hr, sx_mirror,
    strO_shift, strO_shift]

theorem strA_mirror (a b x y : ℝ) :
    strA p.mirror (!left) (-rot) (p.nRows - 1 - r) a b (mirSum p - x)
        - strA p.mirror (!left) (-rot) (p.nRows - 1 - r) a b (mirSum p - y)
      = strA p left rot r a b y - strA p left rot r a b x := by
  have e := fun x => phi_mirror h0 p left hr a b x
  simp only [strA_sx] at e
  have e1 := e x
  have e2 := e y
  cases left <;> simp only [Bool.not_true, Bool.not_false, if_true, if_false,
    Bool.false_eq_true] at e1 e2 ⊢ <;> linarith

theorem kdist_mirror (hn : HasNb left p.nRows r) (a b t : ℝ) :
    kdist p.mirror (!left) (-rot) (p.nRows - 1 - r) a b t = kdist p left rot r a b t := by
  unfold kdist
  rw [(nb_mirror hr hn).1, vp_mirror h0 p left hr, vp_mirror h0 p left hr,
    vp_mirror h0 p left (nb_mirror hr hn).2, distPt_shift, distPt_shift]

end

/-! ## Cut points -/

theorem clipTo_mirror (left : Bool) (c z x : ℝ) :
    clipTo (!left) (c - z) (c - x) = c - clipTo left z x := by
  unfold clipTo
  cases left
  · simp only [Bool.not_false, if_true, Bool.false_eq_true, if_false]
    rcases le_total x z with h | h
    · rw [max_eq_right h, min_eq_right (by linarith)]
    · rw [max_eq_left h, min_eq_left (by linarith)]
  · simp only [Bool.not_true, if_true, Bool.false_eq_true, if_false]
    rcases le_total x z with h | h
    · rw [min_eq_left h, max_eq_left (by linarith)]
    · rw [min_eq_right h, max_eq_right (by linarith)]

/-- Between points of the ground it does not matter whether the cut point is kept within the
ground. -/
theorem clipTo_clipped (A : ℝ → ℝ) (left : Bool) (z : ℝ) {x y : ℝ} (hx : InGround x)
    (hy : InGround y) :
    A (clipTo left (XR.fin z).clipped y) - A (clipTo left (XR.fin z).clipped x)
      = A (clipTo left z y) - A (clipTo left z x) := by
  have hM := MIN_lt_MAX
  obtain ⟨x1, x2⟩ := hx
  obtain ⟨y1, y2⟩ := hy
  simp only [XR.clipped]
  rcases lt_or_ge z MIN_X with h | h
  · rw [min_eq_left (by linarith), max_eq_left h.le]
    unfold clipTo
    cases left
    · simp only [Bool.false_eq_true, if_false]
      rw [max_eq_left x1, max_eq_left y1, max_eq_left (by linarith), max_eq_left (by linarith)]
    · simp only [if_true]
      rw [min_eq_right x1, min_eq_right y1, min_eq_right (by linarith), min_eq_right (by linarith)]
      ring
  · rcases le_or_gt z MAX_X with h' | h'
    · rw [min_eq_left h', max_eq_right h]
    · rw [min_eq_right h'.le, max_eq_right hM.le]
      unfold clipTo
      cases left
      · simp only [Bool.false_eq_true, if_false]
        rw [max_eq_right x2, max_eq_right y2, max_eq_right (by linarith), max_eq_right (by linarith)]
        ring
      · simp only [if_true]
        rw [min_eq_left x2, min_eq_left y2, min_eq_left (by linarith), min_eq_left (by linarith)]

/-- The cut point of a tilted row. -/
noncomputable def cutX (p : ArrayParams) (rot : ℝ) (i : ℕ) : ℝ :=
  i * p.distance + (-(p.width / 2) * cosd rot
    - (-(p.width / 2) * sind rot + p.height) * cosd rot / sind rot)

theorem cutPointX_fin {p : ArrayParams} {rot : Rot} (h0 : rot.deg ≠ 0) (i : ℕ) :
    cutPointX (fullRowCoords (rowCenter p i) p.width rot.deg) rot = .fin (cutX p rot.deg i) := by
  rw [cutPointX_row, if_neg h0]; rfl

theorem cutX_mirror {p : ArrayParams} {rot : ℝ} (hs : sind rot ≠ 0) {r : ℕ} (hr : r < p.nRows) :
    cutX p.mirror (-rot) (p.nRows - 1 - r) = mirSum p - cutX p rot r := by
  have hc : ((p.nRows - 1 - r : ℕ) : ℝ) = p.nRows - 1 - r := by
    rw [Nat.cast_sub (by omega), Nat.cast_sub (by omega)]; simp
  have hd : p.mirror.distance = p.distance := rfl
  have hw : p.mirror.width = p.width := rfl
  have hh : p.mirror.height = p.height := rfl
  unfold cutX mirSum
  rw [hc, hd, hw, hh, cosd_neg, sind_neg]
  field_simp
  ring

/-! ## Places on rows -/

theorem tSeg_mirror (w : ℝ) {rot : ℝ} (h0 : rot ≠ 0) {n k : ℕ} (hk : k < n) :
    tSeg w (-rot) n (n - 1 - k) = tSeg w rot n k := by
  have hn : (n : ℝ) ≠ 0 := by
    have : 0 < n := by omega
    positivity
  have hc : ((n - 1 - k : ℕ) : ℝ) = n - 1 - k := by
    rw [Nat.cast_sub (by omega), Nat.cast_sub (by omega)]; simp
  unfold tSeg
  rw [hc]
  by_cases h : 0 < rot
  · rw [if_neg (by linarith), if_pos h]
    ext <;> simp only <;> field_simp <;> ring
  · rw [if_pos ((neg_pos_iff h0).2 h), if_neg h]
    ext <;> simp only <;> field_simp <;> ring

theorem sideShade_mirror (p : ArrayParams) {rot : ℝ} {sun : Pt} (h0 : rot ≠ 0) (hy : sun.y ≠ 0)
    (hF : frontDotSun rot sun ≠ 0) {i : ℕ} (hi : i < p.nRows) (s : RowSide) :
    sideShade p.mirror (arctan2 sun.y (-sun.x)) (-rot) (p.nRows - 1 - i) s
      = sideShade p (arctan2 sun.y sun.x) rot i s := by
  have h := C27_mirror_rows p rot sun (p.nRows - 1 - i) (by omega) h0 hy hF
  rw [show p.nRows - 1 - (p.nRows - 1 - i) = i by omega] at h
  have h' : rowShadedLengths p.mirror (arctan2 sun.y (-sun.x)) (-rot) (p.nRows - 1 - i) = _ := h
  cases s <;> simp only [sideShade, h']

theorem pvIv_mirror (p : ArrayParams) {rot rot' : Rot} {sun : Pt} (hrot : rot'.deg = -rot.deg)
    (h0 : rot.deg ≠ 0) (hy : sun.y ≠ 0) (hF : frontDotSun rot.deg sun ≠ 0) {i : ℕ}
    (hi : i < p.nRows) (s : RowSide) {k : ℕ} (hk : k < p.nSeg i s) (sh : Bool) :
    pvIv p.mirror rot' ⟨-sun.x, sun.y⟩ (p.nRows - 1 - i) s (p.nSeg i s - 1 - k) sh
      = pvIv p rot sun i s k sh := by
  have hw : p.mirror.width = p.width := rfl
  unfold pvIv
  rw [hrot, sideShade_mirror p h0 hy hF hi s, mirror_nSeg p hi s, hw]
  unfold tIv
  rw [tSeg_mirror _ h0 hk, if_neg h0, if_neg (neg_ne_zero.2 h0)]

end PVF

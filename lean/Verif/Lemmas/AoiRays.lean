import Verif.Lemmas.WedgeIntegral
import Verif.Lemmas.RayScene

/-! # Angles of the AOI methods are directions of rays -/

namespace PVF
open Real

/-- Component of the way from `X` to `P` along the surface, clockwise from the normal `n`. -/
def alongSurf (n X P : Pt) : ℝ := (P.x - X.x) * n.y - (P.y - X.y) * n.x

/-- Component of that way along the normal. -/
def alongNormal (n X P : Pt) : ℝ := (P.x - X.x) * n.x + (P.y - X.y) * n.y

theorem aoiAngle_seen {n : Pt} (hn : n.x ^ 2 + n.y ^ 2 = 1) {w : ℝ} (hw : 0 < w) (X P : Pt) :
    aoiAngle (uVector ⟨w * n.x, w * n.y⟩) X P = seenAt (sn (alongSurf n X P) (alongNormal n X P)) := by
  have hsq : alongSurf n X P ^ 2 + alongNormal n X P ^ 2 = (P.x - X.x) ^ 2 + (P.y - X.y) ^ 2 := by
    unfold alongSurf alongNormal
    linear_combination ((P.x - X.x) ^ 2 + (P.y - X.y) ^ 2) * hn
  have hu : √((-(w * n.y)) ^ 2 + (w * n.x) ^ 2) = w := by
    rw [show (-(w * n.y)) ^ 2 + (w * n.x) ^ 2 = w ^ 2 by linear_combination w ^ 2 * hn, sqrt_sq hw.le]
  have hdot : (-(w * n.y) * (P.x - X.x) + w * n.x * (P.y - X.y))
      / (w * √((P.x - X.x) ^ 2 + (P.y - X.y) ^ 2)) = -sn (alongSurf n X P) (alongNormal n X P) := by
    unfold sn
    rw [hsq]
    rw [show -(w * n.y) * (P.x - X.x) + w * n.x * (P.y - X.y) = w * -alongSurf n X P by
      unfold alongSurf; ring, mul_div_mul_left _ _ hw.ne', neg_div]
  have hb : -1 ≤ sn (alongSurf n X P) (alongNormal n X P) ∧
      sn (alongSurf n X P) (alongNormal n X P) ≤ 1 := by
    unfold sn
    have h1 : |alongSurf n X P| ≤ √(alongSurf n X P ^ 2 + alongNormal n X P ^ 2) := by
      apply Real.abs_le_sqrt; nlinarith [sq_nonneg (alongNormal n X P)]
    have h0 : 0 ≤ √(alongSurf n X P ^ 2 + alongNormal n X P ^ 2) := sqrt_nonneg _
    have h2 := abs_le.1 (show |alongSurf n X P / √(alongSurf n X P ^ 2 + alongNormal n X P ^ 2)| ≤ 1 by
      rw [abs_div, abs_of_nonneg h0]; exact div_le_one_of_le₀ h1 h0)
    exact h2
  unfold aoiAngle uVector
  simp only
  rw [hu, hdot]
  unfold clip rad2deg seenAt
  rw [max_eq_left (by linarith [hb.2]), min_eq_left (by linarith [hb.1]), arccos, arcsin_neg]
  have := pi_pos.ne'
  field_simp
  ring

theorem sn_neg (E h : ℝ) : sn (-E) h = -sn E h := by
  unfold sn; rw [neg_sq, neg_div]

/-- In the frame of the row. -/
theorem aoiAngle_frame {p : ArrayParams} {rot : ℝ} (hw : 0 < p.width) {r k : ℕ} {s : RowSide} {sh : Bool}
    {X P : Pt} :
    aoiAngle (uVector (sideNormal (fullRowCoords (rowCenter p r) p.width rot) s)) X P
      = seenAt (if faceL rot s then
          sn (alongSurf (nu (faceL rot s) rot) (mirB (faceL rot s) X) (mirB (faceL rot s) P))
            (alongNormal (nu (faceL rot s) rot) (mirB (faceL rot s) X) (mirB (faceL rot s) P))
        else -sn (alongSurf (nu (faceL rot s) rot) (mirB (faceL rot s) X) (mirB (faceL rot s) P))
            (alongNormal (nu (faceL rot s) rot) (mirB (faceL rot s) X) (mirB (faceL rot s) P))) := by
  have e : sideNormal (fullRowCoords (rowCenter p r) p.width rot) s
      = ⟨p.width * (outward rot (.pv r s k sh)).x, p.width * (outward rot (.pv r s k sh)).y⟩ := by
    rw [fullRowCoords_eq]
    cases s <;> simp only [sideNormal, outward, rowPt, Pt.mk.injEq] <;> constructor <;> ring
  rw [e, aoiAngle_seen (outward_unit _ _) hw, ← outward_pv rot r s k sh]
  congr 1
  cases faceL rot s
  · simp only [Bool.false_eq_true, if_false]
    rw [← sn_neg]
    congr 1 <;> simp only [alongSurf, alongNormal, mirB, Pt.mir, Bool.false_eq_true, if_false] <;> ring
  · simp [mirB]

theorem along_gnd_frame (p : ArrayParams) (left : Bool) (rot : ℝ) (r : ℕ) (t x : ℝ) :
    alongSurf (nu left rot) (vp p left rot r t) (gp x) = gE p left rot r x - t ∧
    alongNormal (nu left rot) (vp p left rot r t) (gp x) = gH p left rot r x := by
  have sq := up_sq left rot
  rw [vp_eq]
  unfold alongSurf alongNormal nu gp gE gH
  simp only
  constructor
  · linear_combination (-t) * sq
  · ring

theorem along_row_frame (p : ArrayParams) (left : Bool) (rot : ℝ) (r j : ℕ) (t t' : ℝ) :
    alongSurf (nu left rot) (vp p left rot r t) (vp p left rot j t')
      = t' - rowsTo left r j * p.distance * upX left rot - t ∧
    alongNormal (nu left rot) (vp p left rot r t) (vp p left rot j t')
      = rowsTo left r j * p.distance * upY rot := by
  have sq := up_sq left rot
  rw [vp_rel p left rot r j, vp_eq]
  unfold alongSurf alongNormal nu
  simp only
  constructor
  · linear_combination (t' - t) * sq
  · ring

/-- `v` is the wedge between the first and the last of the directions that satisfy `Q`. -/
def Seen (f : ℝ → ℝ) (N : ℕ) (n : Pt) (Q : Pt → Prop) (v : ℝ) : Prop :=
  ∃ s1 s2, Between n Q s1 s2 ∧ v = vfAoiWedge f N (seenAt s1) (seenAt s2)

theorem wedge_same (f : ℝ → ℝ) (N : ℕ) (x : ℝ) : vfAoiWedge f N x x = 0 := by
  unfold vfAoiWedge
  rw [if_pos (by rw [sub_self, abs_zero]; unfold TOL; norm_num)]

theorem NoWay.seen {n : Pt} {Q : Pt → Prop} (h : NoWay n Q) (f : ℝ → ℝ) (N : ℕ) : Seen f N n Q 0 :=
  ⟨0, 0, ⟨by norm_num, le_rfl, by norm_num, fun a _ _ h1 h2 => absurd h1 (not_lt.2 h2.le),
    fun a h1 h2 h3 => absurd h3 (h a h1 h2)⟩, (wedge_same f N _).symm⟩

theorem point_seen {n X P m : Pt} (hn : n.x ^ 2 + n.y ^ 2 = 1) {S T : Pt → Prop}
    (hT : ∀ Y, T Y → Y = P) (f : ℝ → ℝ) (N : ℕ) : Seen f N n (Arrives S T m X) 0 := by
  by_cases hex : ∃ a, -(π / 2) < a ∧ a < π / 2 ∧ Arrives S T m X (turn n a)
  · obtain ⟨a, l1, l2, _, l, l0, hY, _⟩ := hex
    have hP := hT _ hY
    refine ⟨sin a, sin a, ⟨neg_one_le_sin a, le_rfl, sin_le_one a, fun b _ _ h1 h2 => by linarith, ?_⟩,
      (wedge_same f N _).symm⟩
    rintro b _ _ ⟨_, k, k0, hY', _⟩
    have hP' := hT _ hY'
    have e := hP.trans hP'.symm
    simp only [along, turn, Pt.mk.injEq] at e
    obtain ⟨e1, e2⟩ := e
    have es : l * sin a = k * sin b := by
      linear_combination (n.y) * e1 - n.x * e2 - (l * sin a - k * sin b) * hn
    have ec : l * cos a = k * cos b := by
      linear_combination (n.x) * e1 + n.y * e2 - (l * cos a - k * cos b) * hn
    have : l ^ 2 = k ^ 2 := by
      have s1 := sin_sq_add_cos_sq a
      have s2 := sin_sq_add_cos_sq b
      linear_combination (l * sin a + k * sin b) * es + (l * cos a + k * cos b) * ec
        - l ^ 2 * s1 + k ^ 2 * s2
    have hlk : l = k := by nlinarith
    rw [hlk] at es
    have := mul_left_cancel₀ k0.ne' es
    rw [this]; exact ⟨le_rfl, le_rfl⟩
  · exact NoWay.seen (fun a l1 l2 hA => hex ⟨a, l1, l2, hA⟩) f N

/-- In the frame of the row. -/
theorem Between.seen_mir {left : Bool} {n : Pt} {Q Q' : Pt → Prop} {s1 s2 : ℝ}
    (h : Between (mirB left n) Q s1 s2) (hQ : ∀ d, Q' d ↔ Q (mirB left d)) {f : ℝ → ℝ} {N : ℕ} {x y : ℝ}
    (hx : x = seenAt (if left then s1 else -s1)) (hy : y = seenAt (if left then s2 else -s2)) :
    Seen f N n Q' (vfAoiAngles f N x y) ∧ Seen f N n Q' (vfAoiAngles f N y x) := by
  have hb := h.mir hQ
  have hle := seenAt_mono hb.le
  subst hx hy
  cases left
  · simp only [Bool.false_eq_true, if_false] at hle hb ⊢
    have := angles_ordered (f := f) (n := N) hle
    exact ⟨⟨_, _, hb, this.2⟩, ⟨_, _, hb, this.1⟩⟩
  · simp only [if_true] at hle hb ⊢
    have := angles_ordered (f := f) (n := N) hle
    exact ⟨⟨_, _, hb, this.1⟩, ⟨_, _, hb, this.2⟩⟩

theorem lerp_half (A B : Pt) : (Line.mk A B).centroid = lerp A B (1 / 2) := by
  simp only [Line.centroid, lerp, Pt.mk.injEq]; constructor <;> ring

/-- Middle of a PV surface, in the frame of its row. -/
theorem middle_pv {p : ArrayParams} {rot : Rot} {sun : Pt} (h : Physical p rot.deg) (left : Bool)
    {r : ℕ} {s : RowSide} {k : ℕ} (hk : k < p.nSeg r s) (sh : Bool) :
    mirB left ((fitGeom p rot sun).coords (.pv r s k sh)).centroid
      = vp p left rot.deg r (((pvIv p rot sun r s k sh).1 + (pvIv p rot sun r s k sh).2) / 2) := by
  rw [coords_pv_t hk sh h.width.le h.lo h.hi]
  unfold vp
  congr 1
  split_ifs <;> rw [lerp_half, ray_lerp_tPt] <;> congr 1 <;> ring

/-- The angle to a ground point, with the next row in the way. -/
theorem gnd_angle {p : ArrayParams} {rot : ℝ} (h : Physical p rot) (hf : FlatApart p rot)
    {r : ℕ} (hr : r < p.nRows) {s : RowSide} {t : ℝ} (ht0 : 0 ≤ t) (ht1 : t ≤ p.width) {X : Pt}
    (hX : mirB (faceL rot s) X = vp p (faceL rot s) rot r t) {x y : ℝ}
    (hx : 0 ≤ gH p (faceL rot s) rot r (sx (faceL rot s) x))
    (hy : 0 < gH p (faceL rot s) rot r y) :
    (open Classical in
      if (faceL rot s = true ∧ r = 0) ∨ (¬ faceL rot s = true ∧ r = p.nRows - 1) then
        aoiAngle (uVector (sideNormal (fullRowCoords (rowCenter p r) p.width rot) s)) X (gp x)
      else aoiAngleObstr (uVector (sideNormal (fullRowCoords (rowCenter p r) p.width rot) s)) X (gp x)
        (fullRowCoords (rowCenter p (if faceL rot s = true then r - 1 else r + 1)) p.width rot).lowest
          (faceL rot s))
      = seenAt (if faceL rot s then sg p (faceL rot s) rot r t (sx (faceL rot s) x)
        else -sg p (faceL rot s) rot r t (sx (faceL rot s) x)) := by
  set left := faceL rot s with hleft
  have hw := h.width
  have hD := h.distance
  have hu := h.upY_nonneg
  have hgp : mirB left (gp x) = gp (sx left x) := (gp_sx left x).symm
  have hg := aoiAngle_frame (p := p) (rot := rot) hw (r := r) (k := 0) (s := s) (sh := false) (X := X) (P := gp x)
  rw [← hleft, hX, hgp, (along_gnd_frame p left rot r t (sx left x)).1,
    (along_gnd_frame p left rot r t (sx left x)).2] at hg
  by_cases hn : HasNb left p.nRows r
  · rw [if_neg (by rw [noObstr_iff]; exact not_not.2 hn)]
    rw [show (if left = true then r - 1 else r + 1) = nb left r from rfl, full_lowest h]
    set O := tPt (rowCenter p (nb left r)) p.width rot 0 with hO
    have hOm : mirB left O = vp p left rot (nb left r) 0 := rfl
    have hob := aoiAngle_frame (p := p) (rot := rot) hw (r := r) (k := 0) (s := s) (sh := false) (X := X) (P := O)
    rw [← hleft, hX, hOm, (along_row_frame p left rot r (nb left r) t 0).1,
      (along_row_frame p left rot r (nb left r) t 0).2, rowsTo_nb hn] at hob
    have eo : sn (0 - ((1:ℤ):ℝ) * p.distance * upX left rot - t) (((1:ℤ):ℝ) * p.distance * upY rot)
        = so p left rot r t := by
      unfold so; rw [if_pos hn]; congr 1 <;> push_cast <;> ring
    rw [eo] at hob
    have hXpos : 0 < X.y := by
      have := vp_y_pos h left r ht0; rw [← hX, mirB_y] at this; exact this
    have hOpos : 0 < O.y := by
      have := vp_y_pos h left (nb left r) (le_refl 0); rw [← hOm, mirB_y] at this; exact this
    have hcot : ∀ Z : Pt, cot (sx left x) (mirB left Z) = sx left (cot x Z) := by
      intro Z; cases left <;> simp [sx, mirB, cot, Pt.mir]; ring
    -- the obstruction test
    have htest : (if left = true then angleX (gp x) X > angleX (gp x) O
        else angleX (gp x) X < angleX (gp x) O) ↔
        so p left rot r t < sn (gE p left rot r (sx left x) - t) (gH p left rot r (sx left x)) := by
      have c1 : (if left = true then angleX (gp x) X > angleX (gp x) O
          else angleX (gp x) X < angleX (gp x) O) ↔
          cot (sx left x) (vp p left rot r t) < cot (sx left x) (vp p left rot (nb left r) 0) := by
        rw [← hX, ← hOm, hcot, hcot]
        cases left
        · simp only [Bool.false_eq_true, if_false, sx, angleX_lt hXpos hOpos]
          constructor <;> intro <;> linarith
        · simp only [if_true, sx, gt_iff_lt, angleX_lt hOpos hXpos]
      rw [c1, (cot_frame h hn ht0).1]
      unfold so
      rw [if_pos hn]
      have hpos : 0 < p.distance * upY rot ∨ 0 < gH p left rot r (sx left x) := by
        by_cases h0 : rot = 0
        · right
          have := hy
          unfold gH at this ⊢
          rw [h0, upY_zero] at this ⊢
          linarith
        · left; exact mul_pos hD (upY_pos h.lo h.hi h0)
      rw [sn_lt (mul_nonneg hD.le hu) hx (obs_ne h hf ht1 hy) (gnd_ne h left r ht0 _) hpos]
    unfold aoiAngleObstr
    simp only
    by_cases hc : so p left rot r t < sn (gE p left rot r (sx left x) - t) (gH p left rot r (sx left x))
    · have hc' := htest.2 hc
      rw [if_pos hc', if_pos hc']
      change aoiAngle _ X O = _
      rw [hob]
      unfold sg
      rw [min_eq_right hc.le]
    · have hc' := fun h' => hc (htest.1 h')
      rw [if_neg hc', if_neg hc']
      change aoiAngle _ X (gp x) = _
      rw [hg]
      unfold sg
      rw [min_eq_left (not_lt.1 hc)]
  · rw [if_pos (by rw [noObstr_iff]; exact hn), hg]
    have : so p left rot r t = 1 := by unfold so; rw [if_neg hn]
    unfold sg
    rw [this, min_eq_left (sn_bounds hx (gnd_ne h left r ht0 _)).2]

end PVF

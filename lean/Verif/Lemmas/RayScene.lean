import Verif.Lemmas.RayMean
import Verif.Lemmas.Fast
import Verif.Spec.Scene

/-! # The scene of an array in the frames of its rows -/

namespace PVF
open Real

theorem onSeg_flip {Y A B : Pt} : OnSeg Y ⟨A, B⟩ ↔ OnSeg Y ⟨B, A⟩ := by
  have e : ∀ (A B : Pt) s, lerp A B s = lerp B A (1 - s) := by
    intro A B s; simp only [lerp, Pt.mk.injEq]; constructor <;> ring
  constructor
  · rintro ⟨t, h0, h1, rfl⟩; exact ⟨1 - t, by linarith, by linarith, e _ _ _⟩
  · rintro ⟨t, h0, h1, rfl⟩; exact ⟨1 - t, by linarith, by linarith, e _ _ _⟩

theorem onSeg_affine {P : ℝ → Pt} (hP : ∀ a b s, lerp (P a) (P b) s = P (a + (b - a) * s)) {a b : ℝ}
    (hab : a ≤ b) {Y : Pt} : OnSeg Y ⟨P a, P b⟩ ↔ ∃ t, a ≤ t ∧ t ≤ b ∧ Y = P t := by
  constructor
  · rintro ⟨s, h0, h1, rfl⟩
    refine ⟨a + (b - a) * s, ?_, ?_, hP _ _ _⟩
    · have := mul_nonneg (sub_nonneg.2 hab) h0; linarith
    · nlinarith [mul_nonneg (sub_nonneg.2 hab) (sub_nonneg.2 h1)]
  · rintro ⟨t, h0, h1, rfl⟩
    rcases eq_or_lt_of_le hab with rfl | hlt
    · refine ⟨0, le_rfl, zero_le_one, ?_⟩
      simp only at hP ⊢
      rw [hP]; simp; congr 1; linarith
    · have hne : b - a ≠ 0 := by linarith
      refine ⟨(t - a) / (b - a), div_nonneg (by linarith) (by linarith), ?_, ?_⟩
      · rw [div_le_one (by linarith)]; linarith
      · simp only
        rw [hP]; congr 1; field_simp; ring

theorem ray_lerp_tPt (c : Pt) (w rot a b s : ℝ) :
    lerp (tPt c w rot a) (tPt c w rot b) s = tPt c w rot (a + (b - a) * s) := by
  rw [tPt_affine c w rot a, tPt_affine c w rot b, tPt_affine c w rot (a + _)]
  simp only [lerp, Pt.mk.injEq]; constructor <;> ring

theorem mirB_tPt (p : ArrayParams) (left : Bool) (rot : ℝ) (r : ℕ) (t : ℝ) {Y : Pt} :
    Y = tPt (rowCenter p r) p.width rot t ↔ mirB left Y = vp p left rot r t := by
  unfold vp
  constructor
  · rintro rfl; rfl
  · intro h
    have := congrArg (mirB left) h
    rwa [mirB_mirB, mirB_mirB] at this

theorem ray_onSeg_tPt (p : ArrayParams) (left : Bool) (rot : ℝ) (r : ℕ) {a b : ℝ} (hab : a ≤ b)
    {Y : Pt} : OnSeg Y ⟨tPt (rowCenter p r) p.width rot a, tPt (rowCenter p r) p.width rot b⟩ ↔
      rowSeg p left rot r a b (mirB left Y) := by
  rw [onSeg_affine (P := fun t => tPt (rowCenter p r) p.width rot t) (ray_lerp_tPt _ _ _) hab]
  unfold rowSeg
  simp only [mirB_tPt p left rot r]

theorem ray_onSeg_full (p : ArrayParams) (left : Bool) (rot : ℝ) (r : ℕ) (hw : 0 ≤ p.width) {Y : Pt} :
    OnSeg Y (fullRowCoords (rowCenter p r) p.width rot) ↔
      rowSeg p left rot r 0 p.width (mirB left Y) := by
  rw [← ray_onSeg_tPt p left rot r hw, fullRowCoords_eq]
  unfold tPt
  split_ifs
  · rw [show -(p.width / 2) + 0 = -(p.width / 2) by ring,
      show -(p.width / 2) + p.width = p.width / 2 by ring]
  · rw [onSeg_flip, show p.width / 2 - 0 = p.width / 2 by ring,
      show p.width / 2 - p.width = -(p.width / 2) by ring]

theorem onSeg_gp (left : Bool) {x1 x2 : ℝ} (h : x1 ≤ x2) {Y : Pt} :
    OnSeg Y ⟨gp x1, gp x2⟩ ↔
      gndSeg (if left then x1 else -x2) (if left then x2 else -x1) (mirB left Y) := by
  rw [onSeg_affine (P := gp) lerp_gp h]
  unfold gndSeg
  rw [mirB_y]
  constructor
  · rintro ⟨t, h0, h1, rfl⟩
    cases left
    · simp only [mirB, gp, Pt.mir, Bool.false_eq_true, if_false]
      exact ⟨trivial, by linarith, by linarith⟩
    · simp only [mirB, gp, if_true]
      exact ⟨trivial, h0, h1⟩
  · rintro ⟨hy, h0, h1⟩
    refine ⟨Y.x, ?_, ?_, by ext <;> simp [gp, hy]⟩
    · cases left
      · simp only [mirB, Pt.mir, Bool.false_eq_true, if_false] at h0 h1; linarith
      · simpa [mirB] using h0
    · cases left
      · simp only [mirB, Pt.mir, Bool.false_eq_true, if_false] at h0 h1; linarith
      · simpa [mirB] using h1

theorem solid_mir (p : ArrayParams) (left : Bool) (rot : Rot) (sun : Pt) (hw : 0 ≤ p.width) (Y : Pt) :
    (fitGeom p rot sun).Solid p Y ↔ mSolid p left rot.deg (mirB left Y) := by
  unfold StepGeom.Solid mSolid
  have e : ∀ r, ((fitGeom p rot sun).row r).full = fullRowCoords (rowCenter p r) p.width rot.deg :=
    fun r => rfl
  have hg := onSeg_gp left (x1 := MIN_X) (x2 := MAX_X) (by unfold MIN_X MAX_X; norm_num) (Y := Y)
  simp only [e, ray_onSeg_full p left rot.deg _ hw]
  have hg' : OnSeg Y ⟨⟨MIN_X, 0⟩, ⟨MAX_X, 0⟩⟩ ↔
      gndSeg MIN_X MAX_X (mirB left Y) := by
    change OnSeg Y ⟨gp MIN_X, gp MAX_X⟩ ↔ _
    rw [hg]
    have h1 : -MAX_X = MIN_X := rfl
    have h2 : -MIN_X = MAX_X := by unfold MIN_X MAX_X; norm_num
    rw [h1, h2]
    cases left <;> simp
  rw [hg']
  rfl

theorem outward_pv (rot : ℝ) (r : ℕ) (s : RowSide) (k : ℕ) (sh : Bool) :
    mirB (faceL rot s) (outward rot (.pv r s k sh)) = nu (faceL rot s) rot := by
  unfold faceL outward nu upX upY sx mirB Pt.mir
  cases s <;> by_cases h : 0 < rot <;> simp [h]

theorem outward_pv_other (rot : ℝ) (r : ℕ) {s s' : RowSide} (hs : s' ≠ s) (k : ℕ) (sh : Bool) :
    mirB (faceL rot s) (outward rot (.pv r s' k sh))
      = ⟨upY rot, -upX (faceL rot s) rot⟩ := by
  unfold faceL outward upX upY sx mirB Pt.mir
  cases s <;> cases s' <;> by_cases h : 0 < rot <;> simp [h] at hs ⊢

theorem outward_gnd (left : Bool) (rot : ℝ) (sh : Bool) (e z : ℕ) :
    mirB left (outward rot (.gnd sh e z)) = ⟨0, 1⟩ := by
  unfold outward mirB Pt.mir; cases left <;> simp

/-- A PV surface as target. -/
theorem onSeg_pv {p : ArrayParams} {rot : Rot} {sun : Pt} (h : Physical p rot.deg) (left : Bool)
    {r : ℕ} {s : RowSide} {k : ℕ} {sh : Bool} (hk : k < p.nSeg r s) (Y : Pt) :
    OnSeg Y ((fitGeom p rot sun).coords (.pv r s k sh)) ↔
      rowSeg p left rot.deg r (pvIv p rot sun r s k sh).1 (pvIv p rot sun r s k sh).2
        (mirB left Y) := by
  obtain ⟨_, hab, _⟩ := pv_iv_bounds (rot := rot) (sun := sun) hk sh h.width.le
  rw [coords_pv_t hk sh h.width.le h.lo h.hi, ← ray_onSeg_tPt p left rot.deg r hab]
  split_ifs
  · exact onSeg_flip
  · rfl

/-- Light from a PV surface, in the frame of its row. -/
theorem meanShare_pv {p : ArrayParams} {rot : Rot} {sun : Pt} (h : Physical p rot.deg)
    {r : ℕ} {s : RowSide} {k : ℕ} {sh : Bool} (hk : k < p.nSeg r s) {Q Q' : Pt → Pt → Prop}
    (hQ : ∀ X d, Q X d ↔ Q' (mirB (faceL rot.deg s) X) (mirB (faceL rot.deg s) d)) :
    meanShare ((fitGeom p rot sun).coords (.pv r s k sh)) (outward rot.deg (.pv r s k sh)) Q
      = meanShare ⟨vp p (faceL rot.deg s) rot.deg r (pvIv p rot sun r s k sh).1,
          vp p (faceL rot.deg s) rot.deg r (pvIv p rot sun r s k sh).2⟩
          (nu (faceL rot.deg s) rot.deg) Q' := by
  rw [meanShare_mir (faceL rot.deg s) _ _ hQ, outward_pv, coords_pv_t hk sh h.width.le h.lo h.hi]
  split_ifs
  · rw [meanShare_flip]; rfl
  · rfl

/-- Light from a ground surface, mirrored for views to the right. -/
theorem meanShare_gnd (left : Bool) {rot : ℝ} {x1 x2 : ℝ} {sh : Bool} {e z : ℕ}
    {Q Q' : Pt → Pt → Prop} (hQ : ∀ X d, Q X d ↔ Q' (mirB left X) (mirB left d)) :
    meanShare ⟨gp x1, gp x2⟩ (outward rot (.gnd sh e z)) Q
      = meanShare ⟨gp (if left then x1 else -x2), gp (if left then x2 else -x1)⟩ ⟨0, 1⟩ Q' := by
  rw [meanShare_mir left _ _ hQ, outward_gnd]
  cases left
  · rw [meanShare_flip]
    simp [mirB, gp, Pt.mir]
  · simp [mirB]

theorem dphi_eq (p : ArrayParams) (left : Bool) (rot : ℝ) (r : ℕ) (a b x1 x2 : ℝ) :
    dphi p left rot r a b x1 x2
      = phi p left rot r a b (if left then x2 else -x1) - phi p left rot r a b (if left then x1 else -x2) := by
  unfold dphi; cases left <;> simp

theorem length_gp {x1 x2 : ℝ} (h : x1 ≤ x2) : (Line.mk (gp x1) (gp x2)).length = x2 - x1 := by
  simp only [Line.length, gp, sub_self]
  rw [show (0:ℝ) ^ 2 + (x2 - x1) ^ 2 = (x2 - x1) ^ 2 by ring, Real.sqrt_sq (by linarith)]

/-- No light, on average, arrives at a single point. -/
theorem lightShare_point {n X P m : Pt} (hn : n.x ^ 2 + n.y ^ 2 = 1) {S T : Pt → Prop}
    (hT : ∀ Y, T Y → Y = P) : lightShare n (Arrives S T m X) = 0 := by
  by_cases hex : ∃ a, -(π / 2) < a ∧ a < π / 2 ∧ Arrives S T m X (turn n a)
  · obtain ⟨a, l1, l2, _, l, l0, hY, _⟩ := hex
    have hP := hT _ hY
    rw [lightShare_eq (s1 := sin a) (s2 := sin a) (neg_one_le_sin a) le_rfl (sin_le_one a)]
    · ring
    · intro b _ _ h1 h2; linarith
    · rintro b _ _ ⟨_, k, k0, hY', _⟩
      have hP' := hT _ hY'
      have e := hP.trans hP'.symm
      simp only [along, turn, Pt.mk.injEq] at e
      obtain ⟨e1, e2⟩ := e
      have es : l * sin a = k * sin b := by
        linear_combination (n.y) * e1 - n.x * e2 - (l * sin a - k * sin b) * hn
      have ec : l * cos a = k * cos b := by
        linear_combination (n.x) * e1 + n.y * e2 - (l * cos a - k * cos b) * hn
      have : l ^ 2 = k ^ 2 := by
        have s1 := sin_sq_add_cos_sq a
        have s2 := sin_sq_add_cos_sq b
        linear_combination (l * sin a + k * sin b) * es + (l * cos a + k * cos b) * ec
          - l ^ 2 * s1 + k ^ 2 * s2
      have hlk : l = k := by
        nlinarith
      rw [hlk] at es
      have := mul_left_cancel₀ k0.ne' es
      rw [this]; exact ⟨le_rfl, le_rfl⟩
  · apply lightShare_zero
    intro a l1 l2 hA
    exact hex ⟨a, l1, l2, hA⟩

theorem outward_unit (rot : ℝ) (a : SurfRef) : (outward rot a).x ^ 2 + (outward rot a).y ^ 2 = 1 := by
  have := cosd_sq_add_sind_sq rot
  match a with
  | .gnd _ _ _ => simp [outward]
  | .pv _ .front _ _ => simp only [outward]; linarith
  | .pv _ .back _ _ => simp only [outward]; linarith

theorem rayView_point {p : ArrayParams} {g : StepGeom} {a b : SurfRef}
    (hb : (g.coords b).length = 0) : rayView p g a b = 0 := by
  unfold rayView
  refine mean_zero fun s _ _ => lightShare_point (P := (g.coords b).b1) (outward_unit _ _) ?_
  rintro Y ⟨t, _, _, rfl⟩
  have h0 := (Real.sqrt_eq_zero (by positivity)).1 hb
  have h1 : (g.coords b).b2.y - (g.coords b).b1.y = 0 := by nlinarith [sq_nonneg ((g.coords b).b2.x - (g.coords b).b1.x)]
  have h2 : (g.coords b).b2.x - (g.coords b).b1.x = 0 := by nlinarith [sq_nonneg ((g.coords b).b2.y - (g.coords b).b1.y)]
  ext <;> simp [lerp, h1, h2]

end PVF

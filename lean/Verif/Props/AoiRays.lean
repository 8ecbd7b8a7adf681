import Verif.Lemmas.AoiSky
import Verif.Props.AOI
import Verif.Props.RayView

/-!
# C55: the AOI view factors by rays

Entries of the AOI matrix for PV surfaces, against the share of the light reaching the middle of the
surface that comes from the other surface, or from the sky, and is not reflected
(`Spec/Absorbed.lean`).
-/

namespace PVF
open Real

variable {ι : Type*} [Fintype ι]

theorem centroid_lerp (L : Line) : L.centroid = lerp L.b1 L.b2 (1 / 2) := lerp_half L.b1 L.b2

theorem half_iv {A B w : ℝ} (ha : 0 ≤ A) (hab : A ≤ B) (hb : B ≤ w) : 0 ≤ (A + B) / 2 ∧ (A + B) / 2 ≤ w := by
  constructor <;> linarith

theorem gnd_entry_seen {p : ArrayParams} {rot : Rot} {sun : Pt} (h : Physical p rot.deg)
    (hf : FlatOk rot) (hfa : FlatApart p rot.deg) (ho : (fitGeom p rot sun).ground.Ordered)
    {emp : SurfRef → Prop} (m : AOIMethods) {r k e z : ℕ} {s : RowSide} {sh sh' : Bool}
    (ha : SurfRef.pv r s k sh ∈ allRefs p) (hb : SurfRef.gnd sh' e z ∈ allRefs p)
    (na : ¬ emp (.pv r s k sh)) (nb' : ¬ emp (.gnd sh' e z))
    (hla : TOL < ((fitGeom p rot sun).coords (.pv r s k sh)).length)
    (hlb : TOL < ((fitGeom p rot sun).coords (.gnd sh' e z)).length) :
    let g := fitGeom p rot sun
    Seen (m.faoi (decide (s = .back))) m.nSections (outward rot.deg (.pv r s k sh))
      (Arrives (g.Solid p) (fun Y => OnSeg Y (g.coords (.gnd sh' e z)))
        (outward rot.deg (.gnd sh' e z)) (g.coords (.pv r s k sh)).centroid)
      (aoiPvGndEntry m p g emp r s (.pv r s k sh) (.gnd sh' e z) z) := by
  intro g
  have hT := TOL_pos
  obtain ⟨hr, hk⟩ := mem_allRefs_pv.1 ha
  obtain ⟨ba, bab, bb⟩ := pv_iv_bounds (rot := rot) (sun := sun) hk sh h.width.le
  obtain ⟨x1, x2, hc, hle, hz1, hz2⟩ := gnd_interval (rot := rot) (sun := sun) h.distance.le ho hb
  change g.coords _ = _ at hc
  have hlt : x1 < x2 := by
    have : TOL < (g.coords (.gnd sh' e z)).length := hlb
    rw [hc, length_gp hle] at this; linarith
  obtain ⟨ht0, ht1⟩ := half_iv ba bab bb
  have hX := middle_pv (sun := sun) h (faceL rot.deg s) hk sh
  change mirB _ (g.coords _).centroid = _ at hX
  set t := ((pvIv p rot sun r s k sh).1 + (pvIv p rot sun r s k sh).2) / 2
  obtain ⟨g0, g1, g2⟩ := gnd_ends (sun := sun) h hf hr hlt hz1 hz2 (faceL rot.deg s)
  have hQ : ∀ d, Arrives (g.Solid p) (fun Y => OnSeg Y (g.coords (.gnd sh' e z)))
        (outward rot.deg (.gnd sh' e z)) (g.coords (.pv r s k sh)).centroid d ↔
      Arrives (mSolid p (faceL rot.deg s) rot.deg)
        (gndSeg (if faceL rot.deg s then x1 else -x2) (if faceL rot.deg s then x2 else -x1)) ⟨0, 1⟩
        (vp p (faceL rot.deg s) rot.deg r t) (mirB (faceL rot.deg s) d) := by
    intro d
    have := arrives_mir (left := faceL rot.deg s) (m := outward rot.deg (.gnd sh' e z))
      (solid_mir p (faceL rot.deg s) rot sun h.width.le)
      (T := fun Y => OnSeg Y (g.coords (.gnd sh' e z)))
      (fun Y => by rw [hc]; exact onSeg_gp (faceL rot.deg s) hle) (g.coords (.pv r s k sh)).centroid d
    rw [outward_gnd, hX] at this
    exact this
  have hval : aoiPvGndEntry m p g emp r s (.pv r s k sh) (.gnd sh' e z) z
      = if decide (z ≤ r) = faceL rot.deg s then
        (open Classical in
        vfAoiAngles (m.faoi (decide (s = .back))) m.nSections
          (if (decide (z ≤ r) = true ∧ r = 0) ∨ (¬ decide (z ≤ r) = true ∧ r = p.nRows - 1) then
            aoiAngle (uVector (sideNormal (fullRowCoords (rowCenter p r) p.width rot.deg) s))
              (g.coords (.pv r s k sh)).centroid (gp x1)
            else aoiAngleObstr (uVector (sideNormal (fullRowCoords (rowCenter p r) p.width rot.deg) s))
              (g.coords (.pv r s k sh)).centroid (gp x1)
              (fullRowCoords (rowCenter p (if decide (z ≤ r) = true then r - 1 else r + 1)) p.width
                rot.deg).lowest (decide (z ≤ r)))
          (if (decide (z ≤ r) = true ∧ r = 0) ∨ (¬ decide (z ≤ r) = true ∧ r = p.nRows - 1) then
            aoiAngle (uVector (sideNormal (fullRowCoords (rowCenter p r) p.width rot.deg) s))
              (g.coords (.pv r s k sh)).centroid (gp x2)
            else aoiAngleObstr (uVector (sideNormal (fullRowCoords (rowCenter p r) p.width rot.deg) s))
              (g.coords (.pv r s k sh)).centroid (gp x2)
              (fullRowCoords (rowCenter p (if decide (z ≤ r) = true then r - 1 else r + 1)) p.width
                rot.deg).lowest (decide (z ≤ r)))) else 0 := by
    unfold aoiPvGndEntry vfAoiPvGnd
    rw [if_neg (by simp [na, nb'])]
    refine (facing_select rot.deg s (decide (z ≤ r)) _).trans ?_
    congr 1
    rw [if_neg (by
      rintro (hl | hl)
      · have : TOL < (g.coords (.pv r s k sh)).length := hla
        linarith
      · have : TOL < (g.coords (.gnd sh' e z)).length := hlb
        linarith), hc]
    rfl
  rw [hval]
  by_cases hl : decide (z ≤ r) = faceL rot.deg s
  · rw [if_pos hl, hl]
    obtain ⟨p1, p2⟩ := g1 hl
    have hbt := pv_gnd_between h hfa hr ht0 ht1 g0.le p1 p2
    have hends : 0 ≤ gH p (faceL rot.deg s) rot.deg r (sx (faceL rot.deg s) x1) ∧
        0 ≤ gH p (faceL rot.deg s) rot.deg r (sx (faceL rot.deg s) x2) := by
      cases hL : faceL rot.deg s <;> rw [hL] at p1 p2 <;>
        simp only [sx, Bool.false_eq_true, if_false, if_true] at p1 p2 ⊢
      · exact ⟨p2, p1.le⟩
      · exact ⟨p1.le, p2⟩
    have a1 := gnd_angle h hfa hr ht0 ht1 hX hends.1 p1
    have a2 := gnd_angle h hfa hr ht0 ht1 hX hends.2 p1
    rw [a1, a2]
    rw [← outward_pv rot.deg r s k sh] at hbt
    have e1 : ∀ v, (if faceL rot.deg s then sg p (faceL rot.deg s) rot.deg r t v
        else -sg p (faceL rot.deg s) rot.deg r t v)
      = if faceL rot.deg s = true then sg p (faceL rot.deg s) rot.deg r t v
        else -sg p (faceL rot.deg s) rot.deg r t v := fun v => rfl
    have hs := hbt.seen_mir (f := m.faoi (decide (s = .back))) (N := m.nSections) hQ rfl rfl
    cases hL : faceL rot.deg s
    · rw [hL] at hs
      simp only [sx, Bool.false_eq_true, if_false] at hs ⊢
      exact hs.1
    · rw [hL] at hs
      simp only [sx, if_true] at hs ⊢
      exact hs.2
  · rw [if_neg hl]
    have hno := pv_gnd_noWay (t := t) (y2 := if faceL rot.deg s then x2 else -x1) h (g2 hl)
    rw [← outward_pv rot.deg r s k sh] at hno
    exact (hno.mir hQ).seen _ _

theorem pv_entry_seen {p : ArrayParams} {rot : Rot} {sun : Pt} (h : Physical p rot.deg)
    (hfa : FlatApart p rot.deg)
    {emp : SurfRef → Prop} (m : AOIMethods) {r k r' k' : ℕ} {s s' : RowSide} {sh sh' : Bool}
    (ha : SurfRef.pv r s k sh ∈ allRefs p) (hb : SurfRef.pv r' s' k' sh' ∈ allRefs p)
    (na : ¬ emp (.pv r s k sh)) (nb' : ¬ emp (.pv r' s' k' sh'))
    (hla : TOL < ((fitGeom p rot sun).coords (.pv r s k sh)).length)
    (hlb : TOL < ((fitGeom p rot sun).coords (.pv r' s' k' sh')).length) :
    let g := fitGeom p rot sun
    Seen (m.faoi (decide (s = .back))) m.nSections (outward rot.deg (.pv r s k sh))
      (Arrives (g.Solid p) (fun Y => OnSeg Y (g.coords (.pv r' s' k' sh')))
        (outward rot.deg (.pv r' s' k' sh')) (g.coords (.pv r s k sh)).centroid)
      (aoiEntry m p g emp (.pv r s k sh) (.pv r' s' k' sh')) := by
  classical
  intro g
  have hT := TOL_pos
  obtain ⟨hr, hk⟩ := mem_allRefs_pv.1 ha
  obtain ⟨hr', hk'⟩ := mem_allRefs_pv.1 hb
  obtain ⟨ba, bab, bb⟩ := pv_iv_bounds (rot := rot) (sun := sun) hk sh h.width.le
  obtain ⟨ba', bab', bb'⟩ := pv_iv_bounds (rot := rot) (sun := sun) hk' sh' h.width.le
  obtain ⟨ht0, ht1⟩ := half_iv ba bab bb
  have hX := middle_pv (sun := sun) h (faceL rot.deg s) hk sh
  change mirB _ (g.coords _).centroid = _ at hX
  set t := ((pvIv p rot sun r s k sh).1 + (pvIv p rot sun r s k sh).2) / 2
  have hQ : ∀ d, Arrives (g.Solid p) (fun Y => OnSeg Y (g.coords (.pv r' s' k' sh')))
        (outward rot.deg (.pv r' s' k' sh')) (g.coords (.pv r s k sh)).centroid d ↔
      Arrives (mSolid p (faceL rot.deg s) rot.deg)
        (rowSeg p (faceL rot.deg s) rot.deg r' (pvIv p rot sun r' s' k' sh').1
          (pvIv p rot sun r' s' k' sh').2) (mirB (faceL rot.deg s) (outward rot.deg (.pv r' s' k' sh')))
        (vp p (faceL rot.deg s) rot.deg r t) (mirB (faceL rot.deg s) d) := by
    intro d
    have := arrives_mir (left := faceL rot.deg s) (m := outward rot.deg (.pv r' s' k' sh'))
      (solid_mir p (faceL rot.deg s) rot sun h.width.le)
      (T := fun Y => OnSeg Y (g.coords (.pv r' s' k' sh')))
      (fun Y => onSeg_pv h (faceL rot.deg s) hk' Y) (g.coords (.pv r s k sh)).centroid d
    rw [hX] at this
    exact this
  have hrotg : g.rot.deg = rot.deg := rfl
  have hcond : (s ≠ s' ∧ ((r' = r + 1 ∧ ¬ (g.rot.deg > 0 ↔ s = .front)) ∨
      (r = r' + 1 ∧ (g.rot.deg > 0 ↔ s = .front)))) ↔
      (HasNb (faceL rot.deg s) p.nRows r ∧ r' = nb (faceL rot.deg s) r ∧ s' ≠ s) := by
    have hfl : faceL rot.deg s = true ↔ (rot.deg > 0 ↔ s = .front) := by
      unfold faceL; simp only [decide_eq_true_eq]; exact ⟨fun h => h.symm, fun h => h.symm⟩
    rw [hrotg]
    by_cases hc : (rot.deg > 0 ↔ s = .front)
    · rw [hfl.2 hc]
      unfold HasNb nb
      simp only [hc, not_true, and_false, false_or, and_true, if_true]
      constructor
      · rintro ⟨q1, q2⟩; exact ⟨by omega, by omega, q1.symm⟩
      · rintro ⟨q1, q2, q3⟩; exact ⟨q3.symm, by omega⟩
    · have : faceL rot.deg s = false := by
        cases hL : faceL rot.deg s
        · rfl
        · exact absurd (hfl.1 hL) hc
      rw [this]
      unfold HasNb nb
      simp only [hc, not_false_iff, and_true, and_false, or_false, Bool.false_eq_true, if_false]
      constructor
      · rintro ⟨q1, q2⟩; exact ⟨by omega, by omega, q1.symm⟩
      · rintro ⟨q1, q2, q3⟩; exact ⟨q3.symm, by omega⟩
  simp only [aoiEntry]
  by_cases hnb : HasNb (faceL rot.deg s) p.nRows r ∧ r' = nb (faceL rot.deg s) r ∧ s' ≠ s
  · rw [if_pos (hcond.2 hnb)]
    obtain ⟨hn, hrr, hs⟩ := hnb
    unfold aoiPvPvEntry vfAoiSurfSurf
    rw [if_neg (by simp [na, nb']), if_neg (by
      rintro (hl | hl)
      · have : TOL < (g.coords (.pv r s k sh)).length := hla
        linarith
      · have : TOL < (g.coords (.pv r' s' k' sh')).length := hlb
        linarith)]
    have hang : ∀ t', aoiAngle (g.uVec r s) (g.coords (.pv r s k sh)).centroid
        (tPt (rowCenter p r') p.width rot.deg t')
        = seenAt (if faceL rot.deg s = true then sr p (faceL rot.deg s) rot.deg t t'
          else -sr p (faceL rot.deg s) rot.deg t t') := by
      intro t'
      have := aoiAngle_frame (p := p) (rot := rot.deg) h.width (r := r) (k := k) (s := s) (sh := sh)
        (X := (g.coords (.pv r s k sh)).centroid) (P := tPt (rowCenter p r') p.width rot.deg t')
      have e : mirB (faceL rot.deg s) (tPt (rowCenter p r') p.width rot.deg t')
        = vp p (faceL rot.deg s) rot.deg r' t' := rfl
      rw [hX, e, (along_row_frame _ _ _ _ _ _ _).1, (along_row_frame _ _ _ _ _ _ _).2, hrr,
        rowsTo_nb hn] at this
      unfold sr
      simp only [Int.cast_one, one_mul] at this
      rw [hrr]
      exact this
    have h0 : rot.deg ≠ 0 ∨ rot.deg = 0 := ne_or_eq _ _
    have hco : g.coords (.pv r' s' k' sh') = _ := coords_pv_t (sun := sun) hk' sh' h.width.le h.lo h.hi
    rcases h0 with h0 | h0
    · rw [if_neg h0] at hco
      have hbt := pv_pv_between h h0 hn ht0 ba' bab'
      rw [← outward_pv rot.deg r s k sh, ← outward_pv_other rot.deg r' hs k' sh', ← hrr] at hbt
      have hse := hbt.seen_mir (f := m.faoi (decide (s = .back))) (N := m.nSections) hQ rfl rfl
      rw [hco, hang, hang, ← hco]
      exact hse.1
    · -- flat rows: the next row is seen edge-on
      rw [if_pos h0] at hco
      have hno := pv_pv_noWay h hr hr' (left := faceL rot.deg s) (Or.inr h0) ht0 ht1 ba' bb'
        (m := mirB (faceL rot.deg s) (outward rot.deg (.pv r' s' k' sh')))
      rw [← outward_pv rot.deg r s k sh] at hno
      rw [hco, hang, hang]
      have hsame : ∀ t', 0 ≤ t' → t' ≤ p.width → sr p (faceL rot.deg s) rot.deg t t'
          = -(upX (faceL rot.deg s) rot.deg) := by
        intro t' q0 q1
        have hw := hfa h0
        unfold sr sn
        rw [h0, upY_zero, mul_zero]
        have hu : upX (faceL 0 s) 0 = 1 ∨ upX (faceL 0 s) 0 = -1 := by
          rw [upX_zero]; cases faceL 0 s <;> simp
        rw [show ∀ E : ℝ, E ^ 2 + (0:ℝ) ^ 2 = E ^ 2 from fun E => by ring, Real.sqrt_sq_eq_abs]
        rcases hu with hu | hu <;> rw [hu]
        · have : t' - p.distance * 1 - t < 0 := by linarith
          rw [abs_of_neg this, div_neg, div_self this.ne]
        · have : 0 < t' - p.distance * -1 - t := by linarith
          rw [abs_of_pos this, div_self this.ne', neg_neg]
      rw [hsame _ (ba'.trans bab') bb', hsame _ ba' (bab'.trans bb')]
      have hz : ∀ f n x, vfAoiAngles f n x x = 0 := fun f n x => by
        rw [(angles_ordered le_rfl).1, wedge_same]
      rw [hz, ← hco]
      exact (hno.mir hQ).seen _ _
  · rw [if_neg (fun hc => hnb (hcond.1 hc))]
    by_cases hs : s' = s
    · subst hs
      rw [outward_pv] at hQ
      have hno := pv_pv_noWay_same (rot := rot.deg) (left := faceL rot.deg s')
        (solid := mSolid p (faceL rot.deg s') rot.deg) (T := rowSeg p (faceL rot.deg s') rot.deg r'
          (pvIv p rot sun r' s' k' sh').1 (pvIv p rot sun r' s' k' sh').2)
        (X := vp p (faceL rot.deg s') rot.deg r t)
      rw [← outward_pv rot.deg r s' k sh] at hno
      rw [← outward_pv rot.deg r s' k sh] at hQ
      exact (hno.mir hQ).seen _ _
    · have hno : NoWay (nu (faceL rot.deg s) rot.deg) (Arrives (mSolid p (faceL rot.deg s) rot.deg)
        (rowSeg p (faceL rot.deg s) rot.deg r' (pvIv p rot sun r' s' k' sh').1
          (pvIv p rot sun r' s' k' sh').2) (mirB (faceL rot.deg s) (outward rot.deg (.pv r' s' k' sh')))
        (vp p (faceL rot.deg s) rot.deg r t)) := by
        apply pv_pv_noWay h hr hr' _ ht0 ht1 ba' bb'
        left
        intro h1
        apply hnb
        refine ⟨hasNb_of_rowsTo hr hr' (by omega), ?_, hs⟩
        unfold rowsTo at h1
        unfold nb
        cases hL : faceL rot.deg s <;> rw [hL] at h1 <;> simp at h1 ⊢ <;> omega
      rw [← outward_pv rot.deg r s k sh] at hno
      exact (hno.mir hQ).seen _ _

theorem full_highest {p : ArrayParams} {rot : ℝ} (h : Physical p rot) (h0 : rot ≠ 0) (r : ℕ) :
    (fullRowCoords (rowCenter p r) p.width rot).highest = tPt (rowCenter p r) p.width rot p.width := by
  rw [fullRowCoords_eq]
  unfold tPt Line.highest rowPt
  have hw := h.width
  split_ifs with h1 h2 h2
  · have := sind_pos h2 h.hi
    simp only at h1
    nlinarith
  · congr 1 <;> ring
  · congr 1 <;> ring
  · have h3 : 0 < -rot := by
      have := lt_of_le_of_ne (not_lt.1 h2) h0
      linarith
    have := sind_pos h3 (by linarith [h.lo])
    rw [sind_neg] at this
    simp only [ge_iff_le, not_le] at h1
    nlinarith

theorem outward_faceL {rot : ℝ} (hlo : -180 < rot) (hhi : rot < 180) (h0 : rot ≠ 0) (r : ℕ) (s : RowSide)
    (k : ℕ) (sh : Bool) :
    (faceL rot s = true → (outward rot (.pv r s k sh)).x < 0) ∧
    (faceL rot s = false → 0 < (outward rot (.pv r s k sh)).x) := by
  have hv := upY_pos hlo hhi h0
  have e := congrArg Pt.x (outward_pv rot r s k sh)
  constructor <;> intro hL <;> rw [hL] at e <;>
    simp only [mirB, Pt.mir, nu, if_true, Bool.false_eq_true, if_false] at e <;> linarith

theorem sky_entry_seen {p : ArrayParams} {rot : Rot} {sun : Pt} (h : Physical p rot.deg)
    (h0 : rot.deg ≠ 0) (hD : TOL ≤ p.distance) (hH : TOL ≤ p.height)
    {emp : SurfRef → Prop} {skyEmp : ℕ → Prop} (m : AOIMethods) {r k : ℕ} {s : RowSide} {sh : Bool}
    (ha : SurfRef.pv r s k sh ∈ allRefs p)
    (na : ¬ emp (.pv r s k sh))
    (hsky : ∀ k, skyEmp k → (dummySky p (fitGeom p rot sun) k).length < TOL)
    (hla : TOL < ((fitGeom p rot sun).coords (.pv r s k sh)).length)
    (hgr : GroundReaches p (fitGeom p rot sun) r (.pv r s k sh)) :
    let g := fitGeom p rot sun
    Seen (m.faoi (decide (s = .back))) m.nSections (outward rot.deg (.pv r s k sh))
      (Escapes (g.Solid p) (g.coords (.pv r s k sh)).centroid)
      (aoiSkyEntry m p g emp skyEmp r s (.pv r s k sh)) := by
  classical
  intro g
  have hT := TOL_pos
  obtain ⟨hr, hk⟩ := mem_allRefs_pv.1 ha
  obtain ⟨ba, bab, bb⟩ := pv_iv_bounds (rot := rot) (sun := sun) hk sh h.width.le
  obtain ⟨ht0, ht1⟩ := half_iv ba bab bb
  have hlen := length_pv (sun := sun) hk sh h.width.le h.lo h.hi
  have hX := middle_pv (sun := sun) h (faceL rot.deg s) hk sh
  change mirB _ (g.coords _).centroid = _ at hX
  have htw : ((pvIv p rot sun r s k sh).1 + (pvIv p rot sun r s k sh).2) / 2 < p.width := by
    have : TOL < (pvIv p rot sun r s k sh).2 - (pvIv p rot sun r s k sh).1 := by rw [← hlen]; exact hla
    linarith
  set t := ((pvIv p rot sun r s k sh).1 + (pvIv p rot sun r s k sh).2) / 2
  obtain ⟨o1, o2⟩ := outward_faceL h.lo h.hi h0 r s k sh
  have hon := outward_pv rot.deg r s k sh
  have hcen : lerp (g.coords (.pv r s k sh)).b1 (g.coords (.pv r s k sh)).b2 (1 / 2)
      = (g.coords (.pv r s k sh)).centroid := (centroid_lerp _).symm
  obtain ⟨gc, gl, gr⟩ := hgr
  have hrot : g.rot.deg = rot.deg := rfl
  change ∀ d : Pt, 0 < d.x * (outward rot.deg (.pv r s k sh)).x + d.y * (outward rot.deg (.pv r s k sh)).y →
    ∀ l > 0, ∀ x, along (lerp (g.coords (.pv r s k sh)).b1 (g.coords (.pv r s k sh)).b2 (1 / 2)) d l = ⟨x, 0⟩ →
    (∀ k', 0 < k' → k' < l → ¬ g.Solid p (along (lerp (g.coords (.pv r s k sh)).b1
      (g.coords (.pv r s k sh)).b2 (1 / 2)) d k')) → _ at gc
  change (outward rot.deg (.pv r s k sh)).x < 0 → r = 0 →
    0 ≤ (MIN_X - (lerp (g.coords (.pv r s k sh)).b1 (g.coords (.pv r s k sh)).b2 (1 / 2)).x)
      * (outward rot.deg (.pv r s k sh)).x + (0 - (lerp (g.coords (.pv r s k sh)).b1
        (g.coords (.pv r s k sh)).b2 (1 / 2)).y) * (outward rot.deg (.pv r s k sh)).y at gl
  change 0 < (outward rot.deg (.pv r s k sh)).x → r + 1 = p.nRows →
    0 ≤ (MAX_X - (lerp (g.coords (.pv r s k sh)).b1 (g.coords (.pv r s k sh)).b2 (1 / 2)).x)
      * (outward rot.deg (.pv r s k sh)).x + (0 - (lerp (g.coords (.pv r s k sh)).b1
        (g.coords (.pv r s k sh)).b2 (1 / 2)).y) * (outward rot.deg (.pv r s k sh)).y at gr
  rw [hcen] at gc gl gr
  set X := (g.coords (.pv r s k sh)).centroid with hXd
  set n := outward rot.deg (.pv r s k sh) with hn
  have hmm : ∀ P : Pt, mirB (faceL rot.deg s) (mirB (faceL rot.deg s) P) = P := by
    intro P; cases faceL rot.deg s <;> simp [mirB, Pt.mir]
  have hQ : ∀ d, Escapes (g.Solid p) X d ↔ Escapes (mSolid p (faceL rot.deg s) rot.deg)
      (vp p (faceL rot.deg s) rot.deg r t) (mirB (faceL rot.deg s) d) := by
    intro d
    unfold Escapes
    simp only [← hX, ← mirB_along]
    exact forall_congr' fun l => imp_congr_right fun _ =>
      not_congr (solid_mir p (faceL rot.deg s) rot sun h.width.le _)
  -- hypotheses in the frame
  have hre : ReachesM p (faceL rot.deg s) rot.deg r t := by
    intro a l x a1 a2 l0 e hsol
    set d := mirB (faceL rot.deg s) (turn (nu (faceL rot.deg s) rot.deg) a) with hd
    have hdm : mirB (faceL rot.deg s) d = turn (nu (faceL rot.deg s) rot.deg) a := by rw [hd, hmm]
    have hdn : 0 < d.x * n.x + d.y * n.y := by
      have e1 : n = mirB (faceL rot.deg s) (nu (faceL rot.deg s) rot.deg) := by rw [← hon, hmm]
      have e2 : d.x * n.x + d.y * n.y = cos a := by
        have sq1 := up_sq (faceL rot.deg s) rot.deg
        rw [e1, hd, turn_nu]
        revert sq1
        cases faceL rot.deg s <;> intro sq1 <;>
          simp only [mirB, Pt.mir, nu, if_true, Bool.false_eq_true, if_false] <;>
          linear_combination (cos a) * sq1
      rw [e2]; exact cos_pos' a1 a2
    have hal : ∀ l, along X d l = mirB (faceL rot.deg s)
        (along (vp p (faceL rot.deg s) rot.deg r t) (turn (nu (faceL rot.deg s) rot.deg) a) l) := by
      intro l
      rw [← hX, ← hdm, ← mirB_along, hmm]
    have := gc d hdn l l0 (mirB (faceL rot.deg s) (gp x)).x (by
      rw [hal, e]
      cases faceL rot.deg s <;> simp [mirB, Pt.mir, gp]) (fun k' k0 k1 => by
        rw [hal, solid_mir p (faceL rot.deg s) rot sun h.width.le, hmm]
        exact hsol k' k0 k1)
    unfold HasNb
    have hMM : MAX_X = -MIN_X := by unfold MAX_X MIN_X; norm_num
    cases hL : faceL rot.deg s <;> rw [hL] at this <;>
      simp only [mirB, Pt.mir, gp, if_true, Bool.false_eq_true, if_false] at this ⊢
    · have ho := o2 hL
      rcases this with ⟨q1, q2⟩ | ⟨q1, _⟩ | ⟨q1, q2, q3⟩
      · left; constructor <;> linarith
      · exact absurd q1 (not_lt.2 ho.le)
      · right; exact ⟨by omega, by linarith⟩
    · have ho := o1 hL
      rcases this with q | ⟨q1, q2, q3⟩ | ⟨q1, _⟩
      · exact Or.inl q
      · right; exact ⟨by omega, q3⟩
      · exact absurd q1 (not_lt.2 ho.le)
  have hend : ¬ HasNb (faceL rot.deg s) p.nRows r → 0 ≤ gH p (faceL rot.deg s) rot.deg r MIN_X := by
    intro hnn
    rw [← (along_gnd_frame p (faceL rot.deg s) rot.deg r t MIN_X).2]
    have hMM : MAX_X = -MIN_X := by unfold MAX_X MIN_X; norm_num
    rw [← hX, ← hon]
    unfold alongNormal
    unfold HasNb at hnn
    cases hL : faceL rot.deg s <;> rw [hL] at hnn <;>
      simp only [mirB, Pt.mir, gp, if_true, Bool.false_eq_true, if_false, not_not] at hnn ⊢
    · have := gr (o2 hL) (by omega)
      rw [hMM] at this
      linarith
    · exact gl (o1 hL) hnn
  -- the angles
  have hang : ∀ P, aoiAngle (g.uVec r s) X P = _ := fun P =>
    aoiAngle_frame (p := p) (rot := rot.deg) h.width (r := r) (k := k) (s := s) (sh := sh) (X := X) (P := P)
  have hrow : ∀ j, aoiAngle (g.uVec r s) X (tPt (rowCenter p j) p.width rot.deg p.width)
      = seenAt (if faceL rot.deg s = true then
          sn (p.width - rowsTo (faceL rot.deg s) r j * p.distance * upX (faceL rot.deg s) rot.deg - t)
            (rowsTo (faceL rot.deg s) r j * p.distance * upY rot.deg)
        else -sn (p.width - rowsTo (faceL rot.deg s) r j * p.distance * upX (faceL rot.deg s) rot.deg - t)
            (rowsTo (faceL rot.deg s) r j * p.distance * upY rot.deg)) := by
    intro j
    have e : mirB (faceL rot.deg s) (tPt (rowCenter p j) p.width rot.deg p.width)
        = vp p (faceL rot.deg s) rot.deg j p.width := rfl
    rw [hang, hX, e, (along_row_frame _ _ _ _ _ _ _).1, (along_row_frame _ _ _ _ _ _ _).2]
  have hown : aoiAngle (g.uVec r s) X (tPt (rowCenter p r) p.width rot.deg p.width)
      = seenAt (if faceL rot.deg s = true then 1 else -1) := by
    have hself : rowsTo (faceL rot.deg s) r r = 0 := by
      unfold rowsTo; cases faceL rot.deg s <;> simp
    rw [hrow, hself]
    have : sn (p.width - ((0:ℤ):ℝ) * p.distance * upX (faceL rot.deg s) rot.deg - t)
        (((0:ℤ):ℝ) * p.distance * upY rot.deg) = 1 := by
      unfold sn
      simp only [Int.cast_zero, zero_mul, sub_zero]
      have hp : 0 < p.width - t := by linarith
      rw [show (p.width - t) ^ 2 + (0:ℝ) ^ 2 = (p.width - t) ^ 2 by ring, sqrt_sq hp.le, div_self hp.ne']
    rw [this]
  have hhi : ∀ j, (g.row j).full.highest = tPt (rowCenter p j) p.width rot.deg p.width := fun j =>
    full_highest h h0 j
  have htop : ∀ j, p.height ≤ (tPt (rowCenter p j) p.width rot.deg p.width).y := by
    intro j
    rw [tPt_y]
    have := h.upY_nonneg
    have hw := h.width
    have e : lowY p rot.deg = p.height - p.width / 2 * upY rot.deg := by
      unfold lowY; ring
    rw [e]; nlinarith
  have hkk : (if (g.rot.deg > 0 ↔ s = .front) then r else r + 1)
      = if faceL rot.deg s then r else r + 1 := by
    have hfl : faceL rot.deg s = true ↔ (rot.deg > 0 ↔ s = .front) := by
      unfold faceL; simp only [decide_eq_true_eq]; exact ⟨fun h => h.symm, fun h => h.symm⟩
    rw [hrot]
    by_cases hc : (rot.deg > 0 ↔ s = .front)
    · rw [if_pos hc, hfl.2 hc]; rfl
    · have : faceL rot.deg s = false := by
        cases hL : faceL rot.deg s
        · rfl
        · exact absurd (hfl.1 hL) hc
      rw [if_neg hc, this]; rfl
  unfold aoiSkyEntry
  simp only [hkk]
  have hdl : TOL ≤ (dummySky p g (if faceL rot.deg s then r else r + 1)).length := by
    have hv : ∀ A B : Pt, ∀ c, 0 ≤ c → c ≤ |B.y - A.y| → c ≤ (Line.mk A B).length := by
      intro A B c c0 hc
      unfold Line.length
      refine hc.trans ?_
      apply Real.abs_le_sqrt
      nlinarith [sq_nonneg (B.x - A.x)]
    have hv2 : ∀ A B : Pt, ∀ c, c ≤ |B.x - A.x| → c ≤ (Line.mk A B).length := by
      intro A B c hc
      unfold Line.length
      refine hc.trans ?_
      apply Real.abs_le_sqrt
      nlinarith [sq_nonneg (B.y - A.y)]
    have hab : ∀ j, TOL ≤ |(tPt (rowCenter p j) p.width rot.deg p.width).y - Y_GROUND| := by
      intro j
      unfold Y_GROUND
      have := htop j
      rw [sub_zero]; exact (hH.trans this).trans (le_abs_self _)
    generalize (if faceL rot.deg s = true then r else r + 1) = K
    unfold dummySky
    split_ifs with c1 c2
    · apply hv _ _ _ hT.le
      rw [hhi]; exact hab 0
    · apply hv _ _ _ hT.le
      rw [hhi, abs_sub_comm]; exact hab _
    · apply hv2
      rw [hhi, hhi]
      obtain ⟨j, hj⟩ := Nat.exists_eq_succ_of_ne_zero c1
      rw [hj]
      have : (tPt (rowCenter p (Nat.succ j)) p.width rot.deg p.width).x
          - (tPt (rowCenter p (Nat.succ j - 1)) p.width rot.deg p.width).x = p.distance := by
        have e1 := vp_eq p true rot.deg (Nat.succ j) p.width
        have e2 := vp_eq p true rot.deg (Nat.succ j - 1) p.width
        simp only [vp, mirB, if_true] at e1 e2
        rw [e1, e2]
        unfold lowX sx
        simp
        ring
      rw [this, abs_of_pos h.distance]; exact hD
  unfold vfAoiSurfSurf
  rw [if_neg (by
      rintro (hl | hl)
      · exact na hl
      · exact absurd (hsky _ hl) (not_lt.2 hdl)), if_neg (by
      rintro (hl | hl)
      · have : TOL < (g.coords (.pv r s k sh)).length := hla
        linarith
      · exact absurd hl (not_lt.2 hdl))]
  by_cases hnb : HasNb (faceL rot.deg s) p.nRows r
  · have hbt := sky_between_nb h h0 hr hnb ht0 ht1 hre
    rw [← hon] at hbt
    have hnbA : aoiAngle (g.uVec r s) X (tPt (rowCenter p (nb (faceL rot.deg s) r)) p.width rot.deg p.width)
        = seenAt (if faceL rot.deg s = true then sr p (faceL rot.deg s) rot.deg t p.width
          else -sr p (faceL rot.deg s) rot.deg t p.width) := by
      rw [hrow, rowsTo_nb hnb]
      unfold sr
      simp only [Int.cast_one, one_mul]
    have hse := hbt.seen_mir (f := m.faoi (decide (s = .back))) (N := m.nSections) hQ hnbA hown
    unfold HasNb at hnb
    cases hL : faceL rot.deg s <;> rw [hL] at hnb hse <;>
      simp only [Bool.false_eq_true, if_false, if_true] at hnb ⊢
    · unfold dummySky
      rw [if_neg (by omega), if_neg (by omega), hhi, hhi]
      simp only [Nat.add_sub_cancel]
      exact hse.2
    · unfold dummySky
      rw [if_neg hnb, if_neg (by omega), hhi, hhi]
      exact hse.1
  · have hbt := sky_between_end h h0 hr hnb ht0 (hend hnb) hre
    rw [← hon] at hbt
    have hMM : MAX_X = -MIN_X := by unfold MAX_X MIN_X; norm_num
    have hE : ∀ P, mirB (faceL rot.deg s) P = gp MIN_X → aoiAngle (g.uVec r s) X P
        = seenAt (if faceL rot.deg s = true then
          sn (gE p (faceL rot.deg s) rot.deg r MIN_X - t) (gH p (faceL rot.deg s) rot.deg r MIN_X)
          else -sn (gE p (faceL rot.deg s) rot.deg r MIN_X - t) (gH p (faceL rot.deg s) rot.deg r MIN_X)) := by
      intro P hP
      rw [hang, hX, hP, (along_gnd_frame _ _ _ _ _ _).1, (along_gnd_frame _ _ _ _ _ _).2]
    unfold HasNb at hnb
    cases hL : faceL rot.deg s
    · have hse := hbt.seen_mir (f := m.faoi (decide (s = .back))) (N := m.nSections) hQ
        (hE ⟨MAX_X, Y_GROUND⟩ (by rw [hL]; simp [mirB, Pt.mir, gp, hMM, Y_GROUND])) hown
      rw [hL] at hnb
      simp only [Bool.false_eq_true, if_false, not_not] at hnb ⊢
      unfold dummySky
      rw [if_neg (by omega), if_pos (by omega), hhi, ← hnb]
      exact hse.2
    · have hse := hbt.seen_mir (f := m.faoi (decide (s = .back))) (N := m.nSections) hQ
        (hE ⟨MIN_X, Y_GROUND⟩ (by rw [hL]; simp [mirB, gp, Y_GROUND])) hown
      rw [hL] at hnb
      simp only [if_true, not_not] at hnb ⊢
      unfold dummySky
      rw [if_pos hnb, hhi]
      rw [show rowCenter p r = rowCenter p 0 by rw [hnb]] at hse
      exact hse.1

theorem onSeg_point {L : Line} (hb : L.length = 0) {Y : Pt} (hY : OnSeg Y L) : Y = L.b1 := by
  obtain ⟨t, _, _, rfl⟩ := hY
  have h0 := (Real.sqrt_eq_zero (by positivity)).1 hb
  have h1 : L.b2.y - L.b1.y = 0 := by nlinarith [sq_nonneg (L.b2.x - L.b1.x)]
  have h2 : L.b2.x - L.b1.x = 0 := by nlinarith [sq_nonneg (L.b2.y - L.b1.y)]
  ext <;> simp [lerp, h1, h2]

/-- The fAOI function given for a side. -/
def AOIMethods.ofSide (m : AOIMethods) : RowSide → ℝ → ℝ
  | .front => m.faoiFront
  | .back => m.faoiBack

theorem faoi_ofSide (m : AOIMethods) (s : RowSide) : m.faoi (decide (s = .back)) = m.ofSide s := by
  cases s <;> rfl

/-- Entries of the AOI matrix of a run. -/
theorem aoi_entry_seen {m : AOIMethods} {p : ArrayParams} {u : ι → StepIn} {s : ι → IrrStep}
    {o : ι → FullOut} (h : runFullMode p u s (fun t => some (asgAoiTs m p u t)) = some o) (t : ι)
    (hp : PhysicalArray p) (hu : PhysicalStep p (u t)) (hflat : (u t).surfaceTilt = 0 → p.gcr < 1)
    {r k : ℕ} {side : RowSide} {sh : Bool} {b : SurfRef} (ha : .pv r side k sh ∈ surfaces p)
    (hb : b ∈ surfaces p) (hla : TOL < lengthAt p (u t) (.pv r side k sh))
    (hlb : lengthAt p (u t) b = 0 ∨ TOL < lengthAt p (u t) b) :
    let g := fitStep p (u t)
    Seen (m.ofSide side) m.nSections (outward g.rot.deg (.pv r side k sh))
      (Arrives (g.Solid p) (fun Y => OnSeg Y (g.coords b)) (outward g.rot.deg b)
        (lerp (g.coords (.pv r side k sh)).b1 (g.coords (.pv r side k sh)).b2 (1 / 2)))
      (vfBetween p (o t).vfAoi (.pv r side k sh) b) := by
  intro g
  have ha' := mem_surfaces.1 ha
  have hb' := mem_surfaces.1 hb
  have hv : (o t).vfAoi = applyAsg (tsVfMatrix p u t) (asgAoiTs m p u t) := by
    rw [(runFullMode_some h t).2]; rfl
  have he : vfBetween p (o t).vfAoi (.pv r side k sh) b
      = aoiEntry m p g (isEmptyTs fun t => fitStep p (u t)) (.pv r side k sh) b := by
    rw [hv, vfBetween]
    exact asgAoi_entry ha' hb'
  have hemp : ∀ x, isEmptyTs (fun t => fitStep p (u t)) x → (g.coords x).length < TOL :=
    fun x hx => length_lt_of_empty hx t
  have hphys := physical_of hp hu
  rw [he, ← centroid_lerp, ← faoi_ofSide]
  rcases hlb with hb0 | hlb
  · have hz : aoiEntry m p g (isEmptyTs fun t => fitStep p (u t)) (.pv r side k sh) b = 0 := by
      have hb0' : (g.coords b).length < TOL := by
        have : (g.coords b).length = 0 := hb0
        rw [this]; exact TOL_pos
      match b with
      | .gnd sh' e z =>
        simp only [aoiEntry, aoiPvGndEntry, vfAoiPvGnd, if_pos (Or.inr hb0'), ite_self]
      | .pv r' s' k' sh' =>
        simp only [aoiEntry, aoiPvPvEntry, vfAoiSurfSurf, if_pos (Or.inr hb0'), ite_self]
    rw [hz]
    exact point_seen (P := (g.coords b).b1) (outward_unit _ _) (fun Y hY => onSeg_point hb0 hY) _ _
  · have na : ¬ isEmptyTs (fun t => fitStep p (u t)) (.pv r side k sh) := fun he =>
      absurd (hemp _ he) (not_lt.2 hla.le)
    have nb' : ¬ isEmptyTs (fun t => fitStep p (u t)) b := fun he =>
      absurd (hemp _ he) (not_lt.2 hlb.le)
    match b, hb', hlb, nb' with
    | .gnd sh' e z, hb', hlb, nb' =>
      exact gnd_entry_seen (sun := solar2dVector (u t).solarZenith (u t).solarAzimuth p.axisAzimuth)
        hphys (rotation_flatOk (u t) p) (flatApart_of hp hflat) (ordered_of hp hu) m ha' hb' na nb' hla hlb
    | .pv r' s' k' sh', hb', hlb, nb' =>
      exact pv_entry_seen (sun := solar2dVector (u t).solarZenith (u t).solarAzimuth p.axisAzimuth)
        hphys (flatApart_of hp hflat) m ha' hb' na nb' hla hlb

/-- C55: with AOI methods, the entry of the AOI matrix from a PV surface to another surface is the
share of the light reaching the middle of the PV surface that comes straight from the outer side of
the other one and is not reflected.  The error is at most `w + d * π / n + d * TOL` for `n` sections,
if the fAOI function is continuous, at most `d`, and changes by at most `w` over half a section. -/
theorem C55_aoi_by_rays (m : AOIMethods) (p : ArrayParams) (u : ι → StepIn) (s : ι → IrrStep)
    (o : ι → FullOut) (h : runFullMode p u s (fun t => some (asgAoiTs m p u t)) = some o) (t : ι)
    (hp : PhysicalArray p) (hu : PhysicalStep p (u t)) (hflat : (u t).surfaceTilt = 0 → p.gcr < 1)
    (hn : 0 < m.nSections) {r k : ℕ} {side : RowSide} {sh : Bool} {b : SurfRef}
    (ha : .pv r side k sh ∈ surfaces p) (hb : b ∈ surfaces p)
    (hla : TOL < lengthAt p (u t) (.pv r side k sh))
    (hlb : lengthAt p (u t) b = 0 ∨ TOL < lengthAt p (u t) b) {d w : ℝ}
    (hf : ContinuousOn (m.ofSide side) (Set.Icc 0 180))
    (hd : ∀ x, 0 ≤ x → x ≤ 180 → |m.ofSide side x| ≤ d)
    (hw : ∀ x y : ℝ, 0 ≤ x → x ≤ 180 → 0 ≤ y → y ≤ 180 → |x - y| ≤ 90 / m.nSections →
      |m.ofSide side x - m.ofSide side y| ≤ w) :
    |vfBetween p (o t).vfAoi (.pv r side k sh) b
        - rayKept (m.ofSide side) p (fitStep p (u t)) (.pv r side k sh) b|
      ≤ w + d * (π / m.nSections) + d * TOL := by
  obtain ⟨s1, s2, hbt, hv⟩ := aoi_entry_seen h t hp hu hflat ha hb hla hlb
  rw [hv]
  exact hbt.wedge hn hf hd hw

/-- C55: for an fAOI function between `c` and `d`, continuous or not, the entry is between `c` and
`d` times the share of light that comes from there, up to the width of the sections. -/
theorem C55_bounds (m : AOIMethods) (p : ArrayParams) (u : ι → StepIn) (s : ι → IrrStep)
    (o : ι → FullOut) (h : runFullMode p u s (fun t => some (asgAoiTs m p u t)) = some o) (t : ι)
    (hp : PhysicalArray p) (hu : PhysicalStep p (u t)) (hflat : (u t).surfaceTilt = 0 → p.gcr < 1)
    (hn : 0 < m.nSections) {r k : ℕ} {side : RowSide} {sh : Bool} {b : SurfRef}
    (ha : .pv r side k sh ∈ surfaces p) (hb : b ∈ surfaces p)
    (hla : TOL < lengthAt p (u t) (.pv r side k sh))
    (hlb : lengthAt p (u t) b = 0 ∨ TOL < lengthAt p (u t) b) {c d : ℝ} (hc : 0 ≤ c)
    (hf : ∀ x, 0 ≤ x → x ≤ 180 → c ≤ m.ofSide side x ∧ m.ofSide side x ≤ d) :
    let g := fitStep p (u t)
    let a := SurfRef.pv r side k sh
    let share := lightShare (outward g.rot.deg a) (Arrives (g.Solid p) (fun Y => OnSeg Y (g.coords b))
      (outward g.rot.deg b) (lerp (g.coords a).b1 (g.coords a).b2 (1 / 2)))
    c * (share - TOL) ≤ vfBetween p (o t).vfAoi a b ∧
      vfBetween p (o t).vfAoi a b ≤ d * (share + π / m.nSections) := by
  intro g a share
  obtain ⟨s1, s2, hbt, hv⟩ := aoi_entry_seen h t hp hu hflat ha hb hla hlb
  rw [hv]
  exact hbt.wedge_bounds hn hc hf

theorem aoi_sky_seen {m : AOIMethods} {p : ArrayParams} {u : ι → StepIn} {s : ι → IrrStep}
    {o : ι → FullOut} (h : runFullMode p u s (fun t => some (asgAoiTs m p u t)) = some o) (t : ι)
    (hp : PhysicalArray p) (hu : PhysicalStep p (u t)) (htilt : (u t).surfaceTilt ≠ 0)
    (hD : TOL ≤ p.distance) (hH : TOL ≤ p.height)
    {r k : ℕ} {side : RowSide} {sh : Bool} (ha : .pv r side k sh ∈ surfaces p)
    (hla : TOL < lengthAt p (u t) (.pv r side k sh))
    (hgr : GroundReaches p (fitStep p (u t)) r (.pv r side k sh)) :
    let g := fitStep p (u t)
    Seen (m.ofSide side) m.nSections (outward g.rot.deg (.pv r side k sh))
      (Escapes (g.Solid p)
        (lerp (g.coords (.pv r side k sh)).b1 (g.coords (.pv r side k sh)).b2 (1 / 2)))
      (vfToSky p (o t).vfAoi (.pv r side k sh)) := by
  intro g
  have ha' := mem_surfaces.1 ha
  have hv : (o t).vfAoi = applyAsg (tsVfMatrix p u t) (asgAoiTs m p u t) := by
    rw [(runFullMode_some h t).2]; rfl
  have he : vfToSky p (o t).vfAoi (.pv r side k sh)
      = aoiSkyEntry m p g (isEmptyTs fun t => fitStep p (u t))
        (fun k => ∑ t, (dummySky p (fitStep p (u t)) k).length < TOL) r side (.pv r side k sh) := by
    rw [hv, vfToSky]
    exact asgAoi_sky ha'
  rw [he, ← centroid_lerp, ← faoi_ofSide]
  have h0 : (rotationFromTiltAzimuth (u t).surfaceAzimuth p.axisAzimuth (u t).surfaceTilt).deg ≠ 0 := by
    intro h0
    apply htilt
    unfold rotationFromTiltAzimuth at h0
    simp only at h0
    split_ifs at h0 with h2 h3 <;> first | exact h2 | exact h3 | exact h0 | exact neg_eq_zero.1 h0
  refine sky_entry_seen (sun := solar2dVector (u t).solarZenith (u t).solarAzimuth p.axisAzimuth)
    (physical_of hp hu) h0 hD hH m ha'
    (fun he => absurd (length_lt_of_empty he t) (not_lt.2 hla.le)) (fun k hk => ?_) hla hgr
  refine lt_of_le_of_lt ?_ hk
  exact Finset.single_le_sum (f := fun t => (dummySky p (fitStep p (u t)) k).length)
    (fun _ _ => Real.sqrt_nonneg _) (Finset.mem_univ t)

/-- C55: the same for the sky, for rows that are not flat. -/
theorem C55_sky_by_rays (m : AOIMethods) (p : ArrayParams) (u : ι → StepIn) (s : ι → IrrStep)
    (o : ι → FullOut) (h : runFullMode p u s (fun t => some (asgAoiTs m p u t)) = some o) (t : ι)
    (hp : PhysicalArray p) (hu : PhysicalStep p (u t)) (htilt : (u t).surfaceTilt ≠ 0)
    (hD : TOL ≤ p.distance) (hH : TOL ≤ p.height) (hn : 0 < m.nSections)
    {r k : ℕ} {side : RowSide} {sh : Bool} (ha : .pv r side k sh ∈ surfaces p)
    (hla : TOL < lengthAt p (u t) (.pv r side k sh))
    (hgr : GroundReaches p (fitStep p (u t)) r (.pv r side k sh)) {d w : ℝ}
    (hf : ContinuousOn (m.ofSide side) (Set.Icc 0 180))
    (hd : ∀ x, 0 ≤ x → x ≤ 180 → |m.ofSide side x| ≤ d)
    (hw : ∀ x y : ℝ, 0 ≤ x → x ≤ 180 → 0 ≤ y → y ≤ 180 → |x - y| ≤ 90 / m.nSections →
      |m.ofSide side x - m.ofSide side y| ≤ w) :
    |vfToSky p (o t).vfAoi (.pv r side k sh)
        - rayKeptSky (m.ofSide side) p (fitStep p (u t)) (.pv r side k sh)|
      ≤ w + d * (π / m.nSections) + d * TOL := by
  obtain ⟨s1, s2, hbt, hv⟩ := aoi_sky_seen h t hp hu htilt hD hH ha hla hgr
  rw [hv]
  exact hbt.wedge hn hf hd hw

theorem C55_sky_bounds (m : AOIMethods) (p : ArrayParams) (u : ι → StepIn) (s : ι → IrrStep)
    (o : ι → FullOut) (h : runFullMode p u s (fun t => some (asgAoiTs m p u t)) = some o) (t : ι)
    (hp : PhysicalArray p) (hu : PhysicalStep p (u t)) (htilt : (u t).surfaceTilt ≠ 0)
    (hD : TOL ≤ p.distance) (hH : TOL ≤ p.height) (hn : 0 < m.nSections)
    {r k : ℕ} {side : RowSide} {sh : Bool} (ha : .pv r side k sh ∈ surfaces p)
    (hla : TOL < lengthAt p (u t) (.pv r side k sh))
    (hgr : GroundReaches p (fitStep p (u t)) r (.pv r side k sh)) {c d : ℝ} (hc : 0 ≤ c)
    (hf : ∀ x, 0 ≤ x → x ≤ 180 → c ≤ m.ofSide side x ∧ m.ofSide side x ≤ d) :
    let g := fitStep p (u t)
    let a := SurfRef.pv r side k sh
    let share := lightShare (outward g.rot.deg a) (Escapes (g.Solid p)
      (lerp (g.coords a).b1 (g.coords a).b2 (1 / 2)))
    c * (share - TOL) ≤ vfToSky p (o t).vfAoi a ∧
      vfToSky p (o t).vfAoi a ≤ d * (share + π / m.nSections) := by
  intro g a share
  obtain ⟨s1, s2, hbt, hv⟩ := aoi_sky_seen h t hp hu htilt hD hH ha hla hgr
  rw [hv]
  exact hbt.wedge_bounds hn hc hf

/-- C55: as the number of sections grows, the AOI view factors of continuous fAOI functions become
those of the rays, up to the tolerance of the package. -/
theorem C55_more_sections (ff fb : ℝ → ℝ) (p : ArrayParams) (u : ι → StepIn) (s : ι → IrrStep) (t : ι)
    (hp : PhysicalArray p) (hu : PhysicalStep p (u t)) (hflat : (u t).surfaceTilt = 0 → p.gcr < 1)
    {r k : ℕ} {side : RowSide} {sh : Bool} (ha : .pv r side k sh ∈ surfaces p)
    (hla : TOL < lengthAt p (u t) (.pv r side k sh)) {f : ℝ → ℝ} (hside : f = match side with | .front => ff | .back => fb)
    (hf : ContinuousOn f (Set.Icc 0 180)) (hd : ∀ x, 0 ≤ x → x ≤ 180 → |f x| ≤ 1) {ε : ℝ} (hε : 0 < ε) :
    ∃ N, ∀ n ≥ N, ∀ o, runFullMode p u s (fun t => some (asgAoiTs ⟨ff, fb, n⟩ p u t)) = some o →
      ∀ b ∈ surfaces p, lengthAt p (u t) b = 0 ∨ TOL < lengthAt p (u t) b →
      |vfBetween p (o t).vfAoi (.pv r side k sh) b
        - rayKept f p (fitStep p (u t)) (.pv r side k sh) b| ≤ ε + TOL := by
  have huc := isCompact_Icc.uniformContinuousOn_of_continuous hf
  rw [Metric.uniformContinuousOn_iff] at huc
  obtain ⟨δ, δ0, hδ⟩ := huc (ε / 2) (by linarith)
  obtain ⟨N1, hN1⟩ := exists_nat_gt (90 / δ)
  obtain ⟨N2, hN2⟩ := exists_nat_gt (2 * π / ε)
  have hpi := Real.pi_pos
  refine ⟨max N1 N2, fun n hn o ho b hb hlb => ?_⟩
  have h1 : 90 / δ < n := hN1.trans_le (by exact_mod_cast (le_max_left _ _).trans hn)
  have h2 : 2 * π / ε < n := hN2.trans_le (by exact_mod_cast (le_max_right _ _).trans hn)
  have hnpos : (0:ℝ) < n := (by positivity : (0:ℝ) < 90 / δ).trans h1
  have hfs : AOIMethods.ofSide ⟨ff, fb, n⟩ side = f := by rw [hside]; cases side <;> rfl
  have key := C55_aoi_by_rays ⟨ff, fb, n⟩ p u s o ho t hp hu hflat (by exact_mod_cast hnpos) ha hb hla hlb
    (d := 1) (w := ε / 2) (by rw [hfs]; exact hf) (by rw [hfs]; exact hd) (by
      rw [hfs]
      intro x y x0 x1 y0 y1 hxy
      have : |x - y| < δ := by
        refine lt_of_le_of_lt hxy ?_
        change 90 / (n:ℝ) < δ
        rw [div_lt_iff₀ hnpos]
        rw [div_lt_iff₀ δ0] at h1
        linarith
      exact (hδ x ⟨x0, x1⟩ y ⟨y0, y1⟩ this).le)
  rw [hfs] at key
  refine key.trans ?_
  have : π / (n:ℝ) ≤ ε / 2 := by
    rw [div_le_iff₀ hnpos]
    rw [div_lt_iff₀ hε] at h2
    nlinarith
  change ε / 2 + 1 * (π / (n:ℝ)) + 1 * TOL ≤ _
  linarith

/-- C55: the absorbed irradiance of a PV surface is the light arriving at its middle from all other
surfaces and from the sky, without what is reflected, plus its absorbed components; `e` bounds the
error of each view factor. -/
theorem C55_absorbed (m : AOIMethods) (p : ArrayParams) (u : ι → StepIn) (s : ι → IrrStep)
    (o : ι → FullOut) (h : runFullMode p u s (fun t => some (asgAoiTs m p u t)) = some o)
    (hs : ∀ t, InverseOk p (s t)) (t : ι)
    (hp : PhysicalArray p) (hu : PhysicalStep p (u t)) (htilt : (u t).surfaceTilt ≠ 0)
    (hD : TOL ≤ p.distance) (hH : TOL ≤ p.height) (hn : 0 < m.nSections)
    (hlen : ∀ b ∈ surfaces p, lengthAt p (u t) b = 0 ∨ TOL < lengthAt p (u t) b)
    {r k : ℕ} {side : RowSide} {sh : Bool} (ha : .pv r side k sh ∈ surfaces p)
    (hla : TOL < lengthAt p (u t) (.pv r side k sh))
    (hgr : GroundReaches p (fitStep p (u t)) r (.pv r side k sh)) {d w : ℝ}
    (hf : ContinuousOn (m.ofSide side) (Set.Icc 0 180))
    (hd : ∀ x, 0 ≤ x → x ≤ 180 → |m.ofSide side x| ≤ d)
    (hw : ∀ x y : ℝ, 0 ≤ x → x ≤ 180 → 0 ≤ y → y ≤ 180 → |x - y| ≤ 90 / m.nSections →
      |m.ofSide side x - m.ofSide side y| ≤ w) :
    let g := fitStep p (u t)
    let a := SurfRef.pv r side k sh
    |(o t).qabs a - (∑ b ∈ surfaces p, rayKept (m.ofSide side) p g a b * (o t).q0 b
        + rayKeptSky (m.ofSide side) p g a * (s t).sky + ((s t).compAbs a).sum)|
      ≤ (w + d * (π / m.nSections) + d * TOL) * (∑ b ∈ surfaces p, |(o t).q0 b| + |(s t).sky|) := by
  intro g a
  have hq := fullStep_qabs_some (p := p) (s := s t) (F := tsVfMatrix p u t)
    (asg := asgAoiTs m p u t) ha
  have h2 := (runFullMode_some h t).2
  have hv : (o t).vfAoi = applyAsg (tsVfMatrix p u t) (asgAoiTs m p u t) := by rw [h2]; rfl
  rw [← h2, ← hv, (C06_radiosity p u s _ o h hs t).2] at hq
  have k1 : ∀ b ∈ surfaces p, |(vfBetween p (o t).vfAoi a b - rayKept (m.ofSide side) p g a b) * (o t).q0 b|
      ≤ (w + d * (π / m.nSections) + d * TOL) * |(o t).q0 b| := by
    intro b hb
    rw [abs_mul]
    exact mul_le_mul_of_nonneg_right (C55_aoi_by_rays m p u s o h t hp hu (fun h0 => absurd h0 htilt) hn
      ha hb hla (hlen b hb) hf hd hw) (abs_nonneg _)
  have k2 : |(vfToSky p (o t).vfAoi a - rayKeptSky (m.ofSide side) p g a) * (s t).sky|
      ≤ (w + d * (π / m.nSections) + d * TOL) * |(s t).sky| := by
    rw [abs_mul]
    exact mul_le_mul_of_nonneg_right (C55_sky_by_rays m p u s o h t hp hu htilt hD hH hn
      ha hla hgr hf hd hw) (abs_nonneg _)
  have e : (o t).qabs a - (∑ b ∈ surfaces p, rayKept (m.ofSide side) p g a b * (o t).q0 b
        + rayKeptSky (m.ofSide side) p g a * (s t).sky + ((s t).compAbs a).sum)
      = ∑ b ∈ surfaces p, (vfBetween p (o t).vfAoi a b - rayKept (m.ofSide side) p g a b) * (o t).q0 b
        + (vfToSky p (o t).vfAoi a - rayKeptSky (m.ofSide side) p g a) * (s t).sky := by
    rw [hq]
    simp only [sub_mul, Finset.sum_sub_distrib]
    ring
  rw [e]
  refine (abs_add_le _ _).trans ?_
  rw [mul_add, Finset.mul_sum]
  exact add_le_add ((Finset.abs_sum_le_sum_abs _ _).trans (Finset.sum_le_sum k1)) k2

/-! ## A concrete case -/

/-- fAOI functions falling linearly to a half at grazing incidence, 300 sections. -/
noncomputable def demoAoi : AOIMethods where
  faoiFront := fun x => 1 - |x - 90| / 180
  faoiBack := fun x => 1 - |x - 90| / 180
  nSections := 300

theorem demoAoi_ok : ContinuousOn (demoAoi.ofSide .back) (Set.Icc 0 180) ∧
    (∀ x, 0 ≤ x → x ≤ 180 → |demoAoi.ofSide .back x| ≤ 1) ∧
    (∀ x y : ℝ, 0 ≤ x → x ≤ 180 → 0 ≤ y → y ≤ 180 → |x - y| ≤ 90 / demoAoi.nSections →
      |demoAoi.ofSide .back x - demoAoi.ofSide .back y| ≤ 1 / 600) := by
  refine ⟨?_, ?_, ?_⟩
  · change ContinuousOn (fun x : ℝ => 1 - |x - 90| / 180) _
    exact Continuous.continuousOn (by continuity)
  · intro x h0 h1
    change |1 - |x - 90| / 180| ≤ 1
    have := abs_le.2 (⟨by linarith, by linarith⟩ : -90 ≤ x - 90 ∧ x - 90 ≤ 90)
    have := abs_nonneg (x - 90)
    rw [abs_le]
    constructor <;> linarith
  · intro x y _ _ _ _ h
    have h' : |x - y| ≤ 90 / 300 := by simpa [demoAoi] using h
    change |1 - |x - 90| / 180 - (1 - |y - 90| / 180)| ≤ _
    have k := abs_abs_sub_abs_le_abs_sub (y - 90) (x - 90)
    have e : 1 - |x - 90| / 180 - (1 - |y - 90| / 180) = (|y - 90| - |x - 90|) / 180 := by ring
    rw [e, abs_div, abs_of_pos (by norm_num : (0:ℝ) < 180), div_le_iff₀ (by norm_num)]
    rw [show y - 90 - (x - 90) = y - x by ring, abs_sub_comm y x] at k
    linarith

theorem vert_outward (r k : ℕ) (sh : Bool) :
    outward (fitStep vertArray vertStep).rot.deg (.pv r .back k sh) = ⟨1, 0⟩ := by
  rw [vert_deg]
  simp [outward, sind_90, cosd_90]

/-- From the back of the first row, the second row hides the end of the ground. -/
theorem vert_groundReaches :
    GroundReaches vertArray (fitStep vertArray vertStep) 0 (.pv 0 .back 1 false) := by
  have hph := physical_of vert_physicalArray vert_physicalStep
  rw [vert_rot] at hph
  have hk : 1 < vertArray.nSeg 0 .back := by simp [vertArray, ArrayParams.nSeg, ArrayParams.nBack]
  have hm := middle_pv (rot := ⟨90, false⟩) (sun := ⟨-(√2 / 2), √2 / 2⟩) hph true hk false
  obtain ⟨ba, bab, bb⟩ := pv_iv_bounds (rot := ⟨90, false⟩) (sun := ⟨-(√2 / 2), √2 / 2⟩) hk false
    hph.width.le
  have hl := vert_len 1 (by norm_num)
  unfold lengthAt at hl
  rw [vert_fit, length_pv hk false (by norm_num [vertArray]) (by norm_num) (by norm_num)] at hl
  rw [← vert_fit] at hm
  generalize pvIv vertArray ⟨90, false⟩ ⟨-(√2 / 2), √2 / 2⟩ 0 .back 1 false = iv at *
  have hw2 : vertArray.width = 2 := rfl
  rw [hw2] at bb
  have hX : lerp ((fitStep vertArray vertStep).coords (.pv 0 .back 1 false)).b1
      ((fitStep vertArray vertStep).coords (.pv 0 .back 1 false)).b2 (1 / 2)
      = ⟨0, 1 / 2 + (iv.1 + iv.2) / 2⟩ := by
    rw [← centroid_lerp]
    have e : ((fitStep vertArray vertStep).coords (.pv 0 .back 1 false)).centroid
      = mirB true ((fitStep vertArray vertStep).coords (.pv 0 .back 1 false)).centroid := rfl
    rw [e, hm, vp_eq]
    simp only [lowX, lowY, upX, upY, sx, sind_90, cosd_90, if_true]
    norm_num [vertArray]
  refine ⟨?_, ?_, ?_⟩
  · rw [vert_outward, hX]
    intro d hd l l0 x e hsol
    simp only [mul_one, mul_zero, add_zero] at hd
    simp only [along, Pt.mk.injEq, zero_add] at e
    obtain ⟨e1, e2⟩ := e
    have hx0 : 0 < x := by rw [← e1]; exact mul_pos l0 hd
    left
    refine ⟨by unfold MIN_X; linarith, ?_⟩
    by_contra hx
    have hx : 100 < x := by unfold MAX_X at hx; linarith
    have hkl : 5 / d.x < l := by
      rw [div_lt_iff₀ hd, e1]; linarith
    apply hsol (5 / d.x) (by positivity) hkl
    left
    refine ⟨1, by norm_num [vertArray], ?_⟩
    have hrow : ((fitStep vertArray vertStep).row 1).full = ⟨⟨5, 1 / 2⟩, ⟨5, 5 / 2⟩⟩ := by
      have h2 : ((fitStep vertArray vertStep).row 1).full
        = fullRowCoords (rowCenter vertArray 1) vertArray.width 90 := by rw [vert_fit]; rfl
      rw [h2, fullRowCoords_eq]
      simp only [rowPt, cosd_90, sind_90, rowCenter]
      norm_num [vertArray, ArrayParams.distance, X_ORIGIN, Y_GROUND]
    rw [hrow]
    set y := 1 / 2 + (iv.1 + iv.2) / 2 with hy
    have hdy : d.y = -(y * d.x / x) := by
      rw [← e1]; field_simp; linarith
    refine ⟨(y + 5 / d.x * d.y - 1 / 2) / 2, ?_, ?_, ?_⟩
    · rw [hdy]
      have : 5 / d.x * (y * d.x / x) = 5 * y / x := by field_simp
      have h3 : 5 * y / x ≤ y / 20 := by
        rw [div_le_div_iff₀ hx0 (by norm_num)]; nlinarith
      have : y + 5 / d.x * -(y * d.x / x) = y - 5 * y / x := by rw [← this]; ring
      rw [this]
      linarith
    · rw [hdy]
      have : 5 / d.x * (y * d.x / x) = 5 * y / x := by field_simp
      have h3 : 0 ≤ 5 * y / x := div_nonneg (by linarith) hx0.le
      have : y + 5 / d.x * -(y * d.x / x) = y - 5 * y / x := by rw [← this]; ring
      rw [this]
      linarith
    · simp only [along, lerp, Pt.mk.injEq]
      constructor
      · field_simp; ring
      · ring
  · rw [vert_outward]; intro hc; norm_num at hc
  · intro _ hc; norm_num [vertArray] at hc

/-- The hypotheses of C55 can be met: the absorbed irradiance on the upper half of the back of the
first of two vertical rows. -/
theorem C55_demo (t : Fin 3) :
    let g := fitStep vertArray vertStep
    let a := SurfRef.pv 0 .back 1 false
    let f : ℝ → ℝ := fun x => 1 - |x - 90| / 180
    let s := isotropicStep demoIrrParams demoIrrIn
    ∃ o, runFullMode vertArray (fun _ => vertStep) (fun _ => s)
        (fun t => some (asgAoiTs demoAoi vertArray (fun _ : Fin 3 => vertStep) t)) = some o ∧
      |(o t).qabs a - (∑ b ∈ surfaces vertArray, rayKept f vertArray g a b * (o t).q0 b
        + rayKeptSky f vertArray g a * s.sky + (s.compAbs a).sum)|
      ≤ (1 / 600 + 1 * (π / (300 : ℕ)) + 1 * TOL)
        * (∑ b ∈ surfaces vertArray, |(o t).q0 b| + |s.sky|) := by
  intro g a f s
  obtain ⟨o, ho⟩ := C07_isotropic vertArray (fun _ : Fin 3 => vertStep) demoIrrParams
    (fun _ => demoIrrIn) (fun t => some (asgAoiTs demoAoi vertArray (fun _ : Fin 3 => vertStep) t))
    (fun _ => demo_losses) vert_physicalArray (fun _ => vert_physicalStep)
  obtain ⟨d1, d2, d3⟩ := demoAoi_ok
  refine ⟨o, ho, ?_⟩
  exact C55_absorbed demoAoi vertArray (fun _ => vertStep) _ o ho
    (fun _ => demo_losses.inverse_isotropic vertArray) t vert_physicalArray vert_physicalStep
    (by norm_num [vertStep]) (by norm_num [TOL, vertArray, ArrayParams.distance])
    (by norm_num [TOL, vertArray]) (by norm_num [demoAoi]) vert_lengths
    (vert_mem 1 (by norm_num) false) (by rw [vert_len 1 (by norm_num)]; norm_num [TOL])
    vert_groundReaches d1 d2 d3

end PVF
